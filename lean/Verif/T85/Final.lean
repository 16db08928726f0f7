import Verif.T85.Enc
import Verif.T85.Spec

/-!
# From the source of the T.85 encoder to the rows which its decoder delivers
-/

namespace T85

open Qm (u32 sub32 Cx St)
open Spec

attribute [local irreducible] Qm.u32 Qm.sub32 Qm.flush Qm.encodeAll Qm.encode encPixels stats

/-! ## Rows -/

/-- What is coded for a row. -/
def paint (xd : Nat) (row : List Nat) : List Nat := if row = [] then white xd else mask xd row

theorem white_ok (xd : Nat) : RowOk xd (white xd) := by
  refine ⟨by unfold white; rw [List.length_replicate], ?_, ?_⟩
  · intro b hb
    rw [List.eq_of_mem_replicate hb]
    omega
  · intro _
    rw [white_getD, Nat.zero_mod]

theorem mask_length (xd : Nat) (row : List Nat) : (mask xd row).length = row.length := by
  unfold mask
  split
  · rw [List.length_set]
  · rfl

theorem mask_getD {xd : Nat} {row : List Nat} (hl : row.length = bpr xd) (hb : 0 < bpr xd) (k : Nat) :
    (mask xd row).getD k 0 = if xd % 8 ≠ 0 ∧ k = bpr xd - 1 then row.getD k 0 / 2 ^ (8 - xd % 8) * 2 ^ (8 - xd % 8) else row.getD k 0 := by
  unfold mask
  by_cases h : xd % 8 ≠ 0
  · rw [if_pos h, getD_set _ _ _ _ (by omega)]
    by_cases hk : k = bpr xd - 1
    · rw [if_pos (by omega), if_pos ⟨h, hk⟩, hk]
    · rw [if_neg (by omega), if_neg (fun c => hk c.2)]
  · rw [if_neg h, if_neg (fun c => h c.1)]

theorem getD_lt {row : List Nat} (h : ∀ b ∈ row, b < 256) (k : Nat) : row.getD k 0 < 256 := by
  rw [List.getD_eq_getElem?_getD]
  by_cases hk : k < row.length
  · rw [List.getElem?_eq_getElem hk]
    exact h _ (List.getElem_mem hk)
  · rw [List.getElem?_eq_none (by omega)]
    exact (by omega : 0 < 256)

theorem bytes_of_getD {row : List Nat} (h : ∀ k, row.getD k 0 < 256) : ∀ b ∈ row, b < 256 := by
  intro b hb
  obtain ⟨k, hk, rfl⟩ := List.mem_iff_getElem.1 hb
  have := h k
  rw [List.getD_eq_getElem?_getD, List.getElem?_eq_getElem hk] at this
  exact this

theorem mask_ok {xd : Nat} {row : List Nat} (hx : 0 < xd) (hw : xd + 7 < 2 ^ 32) (hl : row.length = bpr xd) (hb : ∀ b ∈ row, b < 256) : RowOk xd (mask xd row) := by
  have hbp : 0 < bpr xd := by rw [bpr_eq hw]; omega
  refine ⟨by rw [mask_length, hl], ?_, ?_⟩
  · apply bytes_of_getD
    intro k
    rw [mask_getD hl hbp]
    have := getD_lt hb k
    split
    · exact Nat.lt_of_le_of_lt (Nat.div_mul_le_self _ _) this
    · exact this
  · intro h
    rw [mask_getD hl hbp, if_pos ⟨h, rfl⟩, Nat.mul_mod_left]

theorem shows_white {xd : Nat} (hw : xd + 7 < 2 ^ 32) : Shows xd [] (white xd) := by
  refine ⟨by rw [(white_ok xd).len, bpr_eq hw], (white_ok xd).bytes, ?_⟩
  intro k
  unfold dot
  rw [white_getD, List.getD_nil, Nat.zero_testBit, Bool.and_false]

theorem shows_mask {xd : Nat} {row : List Nat} (hx : 0 < xd) (hw : xd + 7 < 2 ^ 32) (hl : row.length = bpr xd) (hb : ∀ b ∈ row, b < 256) : Shows xd row (mask xd row) := by
  have hok := mask_ok hx hw hl hb
  refine ⟨by rw [hok.len, bpr_eq hw], hok.bytes, ?_⟩
  have hbe := bpr_eq hw
  intro k
  unfold dot
  rw [mask_getD hl (by omega)]
  by_cases hc : xd % 8 ≠ 0 ∧ k / 8 = bpr xd - 1
  · rw [if_pos hc, Nat.testBit_mul_two_pow, Nat.testBit_div_two_pow]
    by_cases hk : k < xd
    · rw [decide_eq_true (show 7 - k % 8 ≥ 8 - xd % 8 by omega), decide_eq_true hk, Bool.true_and, Bool.true_and]
      congr 1
      omega
    · rw [decide_eq_false (show ¬7 - k % 8 ≥ 8 - xd % 8 by omega), decide_eq_false hk, Bool.false_and, Bool.false_and]
  · rw [if_neg hc]
    by_cases hk : k < xd
    · rw [decide_eq_true hk, Bool.true_and]
    · rw [decide_eq_false hk, Bool.false_and]
      have : row.getD (k / 8) 0 = 0 := by
        rw [List.getD_eq_getElem?_getD, List.getElem?_eq_none (by omega)]
        rfl
      rw [this, Nat.zero_testBit]

/-! ## Reading in pieces -/

theorem put_keeps (s : Enc) (b : List Nat) : (s.put b).y = s.y ∧ (s.put b).yd = s.yd := ⟨rfl, rfl⟩

theorem putNewlen_keeps (s : Enc) : s.putNewlen.y = s.y ∧ s.putNewlen.yd = s.yd := by
  unfold Enc.putNewlen
  split
  · dsimp only
    split <;> exact ⟨rfl, rfl⟩
  · exact ⟨rfl, rfl⟩

theorem beginRow_keeps (s : Enc) : s.beginRow.y = s.y ∧ s.beginRow.yd = s.yd := by
  have h1 : (if s.y = 0 then s.put s.bih else s).y = s.y ∧ (if s.y = 0 then s.put s.bih else s).yd = s.yd := by split <;> exact ⟨rfl, rfl⟩
  unfold Enc.beginRow
  dsimp only
  generalize (if s.y = 0 then s.put s.bih else s) = s1 at h1
  rw [putAtmove_eq]
  have h2 := putNewlen_keeps s1
  generalize s1.putNewlen = s2 at h2
  split
  · dsimp only
    split
    · exact ⟨h2.1.trans h1.1, h2.2.trans h1.2⟩
    · exact ⟨h2.1.trans h1.1, h2.2.trans h1.2⟩
  · exact h1

theorem endRow_keeps (s : Enc) : s.endRow.y = s.y + 1 ∧ s.endRow.yd = s.yd := by
  unfold Enc.endRow
  dsimp only
  rw [look_eq]
  dsimp only
  split
  · have := putNewlen_keeps (Enc.endStripe { s with i := s.i + 1, y := s.y + 1 })
    rw [this.1, this.2, endStripe_eq]
    exact ⟨rfl, rfl⟩
  · exact ⟨rfl, rfl⟩

theorem doRow_keeps (s : Enc) (row : List Nat) : (s.doRow row).y = s.y + 1 ∧ (s.doRow row).yd = s.yd := by
  unfold Enc.doRow
  have h1 := beginRow_keeps { s with row0 := mask s.xd row }
  generalize Enc.beginRow { s with row0 := mask s.xd row } = s1 at h1
  have h2 := endRow_keeps s1.codeRow
  rw [codeRow_eq] at h2
  rw [codeRow_eq]
  exact ⟨h2.1.trans (congrArg (· + 1) h1.1), h2.2.trans h1.2⟩

theorem setLength_less {s s' : Enc} {n : Nat} (hy : s.y < s.yd) (h : s.setLength n = some s') : s'.yd - s'.y < s.yd - s.y := by
  unfold Enc.setLength at h
  split at h
  · cases h
  · rename_i hc
    have hn : n < s.yd := by
      rcases Nat.lt_or_ge n s.yd with g | g
      · exact g
      · exact absurd (.inr (.inr (.inl g))) hc
    generalize hm : (if s.y > 0 ∧ n < s.y then s.y else n) = m at h
    have hm' : m < s.yd := by
      rw [← hm]
      split
      · exact hy
      · exact hn
    dsimp only at h
    generalize hs1 : (if s.y > 0 ∧ s.yd ≠ m then ({ s with newlen := NewLen.pending } : Enc) else s) = s1 at h
    have k1 : s1.y = s.y := by rw [← hs1]; split <;> rfl
    split at h
    · rename_i he
      have : s'.y = s.y ∧ s'.yd = m := by
        rw [← Option.some.inj h]
        generalize hs2 : (if s1.i > 0 then Enc.endStripe { s1 with yd := m } else { s1 with yd := m }) = s2
        have := putNewlen_keeps s2
        rw [this.1, this.2, ← hs2]
        split
        · rw [endStripe_eq]
          exact ⟨k1, rfl⟩
        · exact ⟨k1, rfl⟩
      omega
    · have : s'.y = s.y ∧ s'.yd = m := by
        rw [← Option.some.inj h]
        exact ⟨k1, rfl⟩
      omega

theorem nextRow_less {s s' : Enc} (h : s.nextRow = some s') : s.y < s.yd ∧ s'.yd - s'.y < s.yd - s.y := by
  have hy : s.y < s.yd := by
    rcases Nat.lt_or_ge s.y s.yd with g | g
    · exact g
    · unfold Enc.nextRow at h
      rw [if_pos g] at h
      cases h
  refine ⟨hy, ?_⟩
  unfold Enc.nextRow at h
  rw [if_neg (by omega)] at h
  dsimp only at h
  split at h
  · rw [← Option.some.inj h]
    have := doRow_keeps { s with out := [], row0 := s.row2, row1 := s.row0, row2 := s.row1 } (white s.xd)
    rw [this.1, this.2]
    show s.yd - (s.y + 1) < s.yd - s.y
    omega
  · split at h
    · rename_i row t _
      rw [← Option.some.inj h]
      have := doRow_keeps { s with out := [], row0 := s.row2, row1 := s.row0, row2 := s.row1, src := t } row
      rw [this.1, this.2]
      show s.yd - (s.y + 1) < s.yd - s.y
      omega
    · split at h
      · rename_i s'' hl
        cases h
        exact setLength_less (s := { s with out := [], row0 := s.row2, row1 := s.row0, row2 := s.row1 }) hy hl
      · rw [← Option.some.inj h]
        have := doRow_keeps { s with out := [], row0 := s.row2, row1 := s.row0, row2 := s.row1, fill := true } (white s.xd)
        rw [this.1, this.2]
        show s.yd - (s.y + 1) < s.yd - s.y
        omega

/-- All the bytes, without a number of steps. -/
theorem all_stable (n m : Nat) (e : Enc) (h1 : e.yd - e.y < n) (h2 : e.yd - e.y < m) : e.all n = e.all m := by
  induction n generalizing m e with
  | zero => omega
  | succ n ih =>
    match m, h2 with
    | m + 1, h2 =>
      rw [Enc.all, Enc.all]
      match hn : e.nextRow with
      | none => rfl
      | some e' =>
        have := (nextRow_less hn).2
        dsimp only
        rw [ih m e' (by omega) (by omega)]

/-- What is still to be read. -/
def Enc.left (e : Enc) : List Nat := e.out ++ e.all (e.yd - e.y + 1)

theorem left_next {e e' : Enc} (ho : e.out = []) (h : e.nextRow = some e') : e.left = e'.left := by
  have := nextRow_less h
  unfold Enc.left
  rw [ho, List.nil_append, Enc.all, h]
  dsimp only
  rw [all_stable _ _ e' this.2 (Nat.lt_succ_self _)]

theorem left_none {e : Enc} (ho : e.out = []) (h : e.nextRow = none) : e.left = [] := by
  unfold Enc.left
  rw [ho, List.nil_append, Enc.all, h]

theorem all_drop (e : Enc) (o : List Nat) (n : Nat) : Enc.all n { e with out := o } = e.all n := by
  cases n with
  | zero => rfl
  | succ n =>
    rw [Enc.all, Enc.all]
    rfl

theorem left_drop (e : Enc) (o : List Nat) : Enc.left { e with out := o } = o ++ e.all (e.yd - e.y + 1) := by
  unfold Enc.left
  dsimp only
  rw [all_drop]

theorem take_drop_append {α : Type} (a b : List α) (n : Nat) : (a ++ b).take n = a.take n ++ b.take (n - a.length) ∧ (a ++ b).drop n = a.drop n ++ b.drop (n - a.length) :=
  ⟨List.take_append, List.drop_append⟩

theorem getLoop_spec (k : Nat) (e : Enc) (n : Nat) (hk : (if e.out = [] then 0 else 1) + (e.yd - e.y) + 1 ≤ k) :
    (e.getLoop k n).2 = e.left.take n ∧ (e.getLoop k n).1.left = e.left.drop n := by
  induction k generalizing e n with
  | zero => omega
  | succ k ih =>
    rw [Enc.getLoop]
    by_cases hn : n = 0
    · subst hn
      rw [if_pos rfl]
      exact ⟨rfl, rfl⟩
    · rw [if_neg hn]
      -- a step from a state whose bytes are ready
      have step : ∀ e' : Enc, (e'.yd - e'.y) + 1 ≤ k ∨ (n < e'.out.length) → e'.left = e.left →
          (e'.out.take n ++ (Enc.getLoop k { e' with out := e'.out.drop n } (n - e'.out.length)).2 = e.left.take n ∧
            (Enc.getLoop k { e' with out := e'.out.drop n } (n - e'.out.length)).1.left = e.left.drop n) := by
        intro e' hk' hl
        rw [← hl]
        unfold Enc.left at hl ⊢
        rw [(take_drop_append e'.out _ n).1, (take_drop_append e'.out _ n).2]
        by_cases hlen : n < e'.out.length
        · have hz : n - e'.out.length = 0 := by omega
          rw [hz]
          have h0 : ∀ x : Enc, Enc.getLoop k x 0 = (x, []) := by
            intro x
            cases k with
            | zero => rfl
            | succ k => rw [Enc.getLoop, if_pos rfl]
          rw [h0, List.drop_zero, List.take_zero]
          exact ⟨rfl, left_drop _ _⟩
        · have hd : e'.out.drop n = [] := List.drop_eq_nil_iff.2 (by omega)
          have := ih { e' with out := e'.out.drop n } (n - e'.out.length) (by
            rw [if_pos hd]
            rcases hk' with g | g
            · show 0 + (e'.yd - e'.y) + 1 ≤ k
              omega
            · omega)
          rw [left_drop, hd, List.nil_append] at this
          rw [hd, List.nil_append]
          rw [this.1]
          exact ⟨rfl, this.2⟩
      by_cases ho : e.out = []
      · rw [if_pos ho] at hk ⊢
        match hnr : e.nextRow with
        | none =>
          refine ⟨?_, ?_⟩
          · rw [left_none ho hnr, List.take_nil]
          · rw [left_none ho hnr, List.drop_nil]
        | some e' =>
          have := nextRow_less hnr
          exact step e' (.inl (by omega)) (left_next ho hnr).symm
      · rw [if_neg ho] at hk ⊢
        exact step e (.inl (by omega)) rfl

/-- Reads, one after the other. -/
def Enc.reads (s : Enc) : List Nat → Enc × List Nat
  | [] => (s, [])
  | n :: t => (((s.get n).1.reads t).1, (s.get n).2 ++ ((s.get n).1.reads t).2)

theorem reads_spec (sizes : List Nat) (e : Enc) : (e.reads sizes).2 = e.left.take sizes.sum := by
  induction sizes generalizing e with
  | nil => rw [Enc.reads, List.sum_nil, List.take_zero]
  | cons n t ih =>
    have := getLoop_spec (e.yd - e.y + 2) e n (by split <;> omega)
    rw [Enc.reads, List.sum_cons]
    dsimp only
    rw [ih]
    unfold Enc.get
    rw [this.1, this.2, ← List.take_add]

/-! ## The first row -/

theorem first_rel {ca : Nat} {cc : List Nat} {xd yd l0 mx yf : Nat} {tpb vlen two : Bool} {src : List (List Nat)} {F : List (List Nat)} (hx : 0 < xd) (hw : xd + 7 < 2 ^ 32) (hl : 0 < l0)
    (ok : ∀ r ∈ F, RowOk xd r) :
    Rel mx yf F F ⟨xd, yd, l0, mx, tpb, vlen, two, 0, 0, .none, 0, none, ca, cc, false, white xd, white xd, white xd, false,
      Qm.encodeRestart (fun _ => 0) false, [], src⟩ (Pic.first xd yf l0 tpb two) := by
  refine ⟨rfl, rfl, rfl, rfl, rfl, rfl, rfl, ⟨rfl, hx, rfl, ?_⟩, rfl, rfl, fun _ => rfl, fun h => absurd h (Nat.lt_irrefl 0), rfl, rfl, ⟨Nat.zero_le _, .inl rfl⟩,
    (fun t h => nomatch h), rfl, hl, Nat.le_refl _, hw, ok⟩
  refine ⟨rfl, ?_, ?_, .inl ⟨rfl, rfl, rfl, rfl⟩, fun _ => .inl ⟨rfl, rfl⟩⟩
  · intro q hq
    have : (Pic.first xd yf l0 tpb two).row q = white xd := by
      match q, hq with
      | 0, _ => rfl
      | 1, _ => rfl
      | 2, _ => rfl
    rw [this]
    exact (white_ok xd).len
  · show 0 < (if two then 2 else 3)
    split <;> omega

/-- The encoder before the first row. -/
def fresh (ca : Nat) (cc : List Nat) (xd yd l0 mx : Nat) (tpb vlen two : Bool) (src : List (List Nat)) : Enc :=
  ⟨xd, yd, l0, mx, tpb, vlen, two, 0, 0, .none, 0, none, ca, cc, false, white xd, white xd, white xd, false,
    Qm.encodeRestart (fun _ => 0) false, [], src⟩

/-- What is read from it is what is asked of a stream. -/
theorem fresh_sent {ca : Nat} {cc : List Nat} {xd yd l0 mx yf : Nat} {tpb vlen two nl : Bool} {src F : List (List Nat)} (hx : 0 < xd) (hw : xd + 7 < 2 ^ 32) (hl : 0 < l0) (hl' : l0 < 2 ^ 32)
    (hmx : mx ≤ 127) (hy : 0 < yf) (hyd : yf ≤ yd) (hyd' : yd < 2 ^ 32) (ok : ∀ r ∈ F, RowOk xd r) (hF : F.length = yf)
    (hf : Feeds (fresh ca cc xd yd l0 mx tpb vlen two src) F nl) (maxXd maxYd : Nat) (h1 : maxXd = 0 ∨ xd ≤ maxXd) (h2 : maxYd = 0 ∨ yd ≤ maxYd ∨ nl = true ∧ yf ≤ maxYd) :
    ∃ a : Sent, a.Ok ∧ a.maxXd = maxXd ∧ a.maxYd = maxYd ∧ a.R = F ∧ a.bytes = (fresh ca cc xd yd l0 mx tpb vlen two src).left ∧ a.xd = xd ∧ a.yd ≤ yd := by
  obtain ⟨S, W, hS, hW, hp⟩ := (both F).1 (F.length + 2 + yd) (fresh ca cc xd yd l0 mx tpb vlen two src) (Pic.first xd yf l0 tpb two) (first_rel hx hw hl ok) hf
    (Nat.lt_of_lt_of_le hy hyd) rfl (by omega) (by show 0 + F.length = yf; omega)
  have hne : S ≠ [] := by
    intro h
    rw [h] at hp
    have : yf ≤ 0 := hp.1
    omega
  refine ⟨⟨xd, yd, l0, mx, tpb, vlen, two, maxXd, maxYd, yf, nl, F, S, W⟩,
    ⟨hx, by show xd < 2 ^ 32; omega, h1, hy, hyd, hyd', h2, hl, hl', hmx, fun h => (hf.short h).1, fun h => ?_, hne, hp⟩, rfl, rfl, rfl, ?_, rfl, Nat.le_refl _⟩
  · have : 0 + F.length = yd := hf.all h
    show yd = yf
    omega
  · unfold Enc.left
    rw [all_stable _ (F.length + 2 + yd) _ (Nat.lt_succ_self _) (by show yd - 0 < _; omega), hW]
    rfl

theorem page_length {yd : Nat} (hy : 0 < yd) (vlen : Bool) (src : List (List Nat)) : 0 < (page yd vlen src).length ∧ (page yd vlen src).length ≤ yd := by
  unfold page
  split
  · rw [List.length_take]; omega
  · split
    · rw [List.length_append, List.length_replicate]; omega
    · split
      · exact ⟨Nat.lt_succ_self 0, hy⟩
      · rename_i h
        have := List.length_pos_iff.2 h
        omega

theorem paint_src {xd : Nat} {src : List (List Nat)} (hne : ∀ r ∈ src, r ≠ []) : src.map (paint xd) = src.map (mask xd) := by
  apply List.map_congr_left
  intro r hr
  unfold paint
  rw [if_neg (hne r hr)]

theorem paint_blank (xd n : Nat) : ∀ r ∈ (List.replicate n ([] : List Nat)).map (paint xd), r = white xd := by
  intro r hr
  rw [List.map_replicate] at hr
  exact List.eq_of_mem_replicate hr

/-- No row with a length which may vary. -/
theorem fresh_none {ca : Nat} {cc : List Nat} {xd yd l0 mx : Nat} {tpb two : Bool} (h : 1 < yd) :
    (fresh ca cc xd yd l0 mx tpb true two []).left = (fresh ca cc xd 1 l0 mx tpb true two []).left := by
  have : (fresh ca cc xd yd l0 mx tpb true two []).nextRow = some (fresh ca cc xd 1 l0 mx tpb true two []) := by
    rw [next_empty (by show ¬0 ≥ yd; omega) rfl rfl]
    have : Enc.setLength (fresh ca cc xd yd l0 mx tpb true two []) 1 = some (fresh ca cc xd 1 l0 mx tpb true two []) := by
      unfold Enc.setLength
      rw [if_neg (by
        rintro (h | h | h | h)
        · cases h
        · cases h
        · have : 1 ≥ yd := h
          omega
        · omega)]
      rfl
    have hsame : ({ fresh ca cc xd yd l0 mx tpb true two [] with
        out := [], row0 := (fresh ca cc xd yd l0 mx tpb true two []).row2, row1 := (fresh ca cc xd yd l0 mx tpb true two []).row0, row2 := (fresh ca cc xd yd l0 mx tpb true two []).row1 } : Enc) =
      fresh ca cc xd yd l0 mx tpb true two [] := rfl
    rw [hsame, this]
  exact left_next rfl this

theorem fresh_page {ca : Nat} {cc : List Nat} {xd yd l0 mx : Nat} {tpb vlen two : Bool} {src : List (List Nat)} (hx : 0 < xd) (hw : xd + 7 < 2 ^ 32) (hl : 0 < l0) (hl' : l0 < 2 ^ 32)
    (hmx : mx ≤ 127) (hy : 0 < yd) (hyd' : yd < 2 ^ 32) (hsrc : ∀ r ∈ src, r.length = bpr xd ∧ ∀ b ∈ r, b < 256) (maxXd maxYd : Nat) (h1 : maxXd = 0 ∨ xd ≤ maxXd)
    (h2 : maxYd = 0 ∨ yd ≤ maxYd ∨ vlen = true ∧ (page yd vlen src).length ≤ maxYd) :
    ∃ a : Sent, a.Ok ∧ a.maxXd = maxXd ∧ a.maxYd = maxYd ∧ a.R = (page yd vlen src).map (paint xd) ∧ a.bytes = (fresh ca cc xd yd l0 mx tpb vlen two src).left ∧
      a.xd = xd ∧ a.yd ≤ yd := by
  have hbp : 0 < bpr xd := by rw [bpr_eq hw]; omega
  have hne : ∀ r ∈ src, r ≠ [] := by
    intro r hr h
    have := (hsrc r hr).1
    rw [h] at this
    rw [List.length_nil] at this
    omega
  have hok : ∀ r ∈ src, RowOk xd (mask xd r) := fun r hr => mask_ok hx hw (hsrc r hr).1 (hsrc r hr).2
  obtain ⟨p1, p2⟩ := page_length hy vlen src
  by_cases c1 : yd ≤ src.length
  · have hp : page yd vlen src = src.take yd := by unfold page; rw [if_pos c1]
    have hm : (page yd vlen src).map (paint xd) = (src.take yd).map (mask xd) := by
      rw [hp]
      exact paint_src (fun r hr => hne r (List.mem_of_mem_take hr))
    have hlen : ((src.take yd).map (mask xd)).length = yd := by rw [List.length_map, List.length_take]; omega
    rw [hm]
    refine fresh_sent (yf := yd) (nl := false) hx hw hl hl' hmx hy (Nat.le_refl _) hyd' ?_ hlen ?_ maxXd maxYd h1 ?_
    · intro r hr
      obtain ⟨r', hr', rfl⟩ := List.mem_map.1 hr
      exact hok r' (List.mem_of_mem_take hr')
    · refine ⟨by rw [hlen]; exact Nat.le_of_eq (Nat.zero_add _), fun _ => by rw [hlen]; exact Nat.zero_add _, (fun h => nomatch h), fun _ => .inr ⟨rfl, src.take yd, [], ?_, ?_, ?_, fun h => absurd rfl h⟩⟩
      · rw [List.append_nil]; rfl
      · intro r hr; cases hr
      · exact List.take_prefix yd src
    · rcases h2 with h | h | ⟨_, h⟩
      · exact .inl h
      · exact .inr (.inl h)
      · refine .inr (.inl ?_)
        rw [hp, List.length_take] at h
        omega
  · cases vlen with
    | false =>
      have hp : page yd false src = src ++ List.replicate (yd - src.length) [] := by unfold page; rw [if_neg c1, if_pos rfl]
      rw [hp, List.map_append, paint_src hne]
      have hlen : (src.map (mask xd) ++ (List.replicate (yd - src.length) ([] : List Nat)).map (paint xd)).length = yd := by
        rw [List.length_append, List.length_map, List.length_map, List.length_replicate]; omega
      refine fresh_sent (yf := yd) (nl := false) hx hw hl hl' hmx hy (Nat.le_refl _) hyd' ?_ hlen ?_ maxXd maxYd h1 ?_
      · intro r hr
        rcases List.mem_append.1 hr with hr | hr
        · obtain ⟨r', hr', rfl⟩ := List.mem_map.1 hr
          exact hok r' hr'
        · rw [paint_blank xd _ r hr]
          exact white_ok xd
      · refine ⟨by rw [hlen]; exact Nat.le_of_eq (Nat.zero_add _), fun _ => by rw [hlen]; exact Nat.zero_add _, (fun h => nomatch h), fun _ => .inr ⟨rfl, src, _, rfl, ?_, ?_, fun _ => ⟨rfl, .inl rfl⟩⟩⟩
        · exact paint_blank xd _
        · exact List.prefix_rfl
      · rcases h2 with h | h | ⟨h, _⟩
        · exact .inl h
        · exact .inr (.inl h)
        · cases h
    | true =>
      by_cases c2 : src = []
      · subst c2
        have hp : page yd true [] = [[]] := by
          unfold page
          rw [if_neg c1, if_neg (by decide), if_pos rfl]
        have hbytes : (fresh ca cc xd yd l0 mx tpb true two []).left = (fresh ca cc xd 1 l0 mx tpb true two []).left := by
          by_cases h : 1 < yd
          · exact fresh_none h
          · have : yd = 1 := by omega
            rw [this]
        rw [hp, hbytes]
        have k1 : ∀ r ∈ List.map (paint xd) [[]], RowOk xd r := by
          intro r hr
          rw [paint_blank xd 1 r hr]
          exact white_ok xd
        have k2 : Feeds (fresh ca cc xd 1 l0 mx tpb true two []) (List.map (paint xd) [[]]) false := by
          refine ⟨Nat.le_refl _, fun _ => rfl, (fun h => nomatch h), fun _ => .inr ⟨rfl, [], _, rfl, ?_, List.prefix_rfl, fun _ => ⟨rfl, .inr rfl⟩⟩⟩
          exact paint_blank xd 1
        have k3 : maxYd = 0 ∨ 1 ≤ maxYd ∨ false = true ∧ 1 ≤ maxYd := by
          rw [hp] at h2
          rcases h2 with h | h | ⟨_, h⟩
          · exact .inl h
          · exact .inr (.inl (by omega))
          · exact .inr (.inl h)
        obtain ⟨a, g1, g2, g3, g4, g5, g6, g7⟩ := fresh_sent (yd := 1) (yf := 1) hx hw hl hl' hmx (by omega) (Nat.le_refl _) (by omega) k1 rfl k2 maxXd maxYd h1 k3
        exact ⟨a, g1, g2, g3, g4, g5, g6, by omega⟩
      · have hp : page yd true src = src := by
          unfold page
          rw [if_neg c1, if_neg (by decide), if_neg c2]
        have hpos := List.length_pos_iff.2 c2
        rw [hp, paint_src hne]
        have hlen : (src.map (mask xd)).length = src.length := List.length_map _
        refine fresh_sent (yf := src.length) (nl := true) hx hw hl hl' hmx hpos (by omega) hyd' ?_ hlen ?_ maxXd maxYd h1 ?_
        · intro r hr
          obtain ⟨r', hr', rfl⟩ := List.mem_map.1 hr
          exact hok r' hr'
        · refine ⟨?_, (fun h => nomatch h), fun _ => ⟨rfl, ?_, ?_, rfl, rfl⟩, (fun h => nomatch h)⟩
          · rw [hlen]; show 0 + _ ≤ yd; omega
          · rw [hlen]; show 0 < 0 + _; omega
          · rw [hlen]; show 0 + _ < yd; omega
        · rw [hp] at h2
          rcases h2 with h | h | ⟨_, h⟩
          · exact .inl h
          · exact .inr (.inl h)
          · exact .inr (.inr ⟨rfl, h⟩)

theorem shows_paint {xd : Nat} {src : List (List Nat)} (hx : 0 < xd) (hw : xd + 7 < 2 ^ 32) (hsrc : ∀ r ∈ src, r = [] ∨ r.length = bpr xd ∧ ∀ b ∈ r, b < 256) :
    ShowsAll xd src (src.map (paint xd)) := by
  refine ⟨List.length_map _, ?_⟩
  intro n hn
  rw [List.getD_eq_getElem?_getD, List.getD_eq_getElem?_getD, List.getElem?_map, List.getElem?_eq_getElem hn]
  show Shows xd src[n] (paint xd src[n])
  have hr := hsrc _ (List.getElem_mem hn)
  generalize src[n] = r at hr
  unfold paint
  split
  · rename_i h
    rw [h]
    exact shows_white hw
  · rename_i h
    rcases hr with hr | hr
    · exact absurd hr h
    · exact shows_mask hx hw hr.1 hr.2

theorem page_rows {yd : Nat} {vlen : Bool} {src : List (List Nat)} : ∀ r ∈ page yd vlen src, r = [] ∨ r ∈ src := by
  intro r hr
  unfold page at hr
  split at hr
  · exact .inr (List.mem_of_mem_take hr)
  · split at hr
    · rcases List.mem_append.1 hr with hr | hr
      · exact .inr hr
      · exact .inl (List.eq_of_mem_replicate hr)
    · split at hr
      · exact .inl (List.mem_singleton.1 hr)
      · exact .inr hr

/-- The options make an encoder of the kind above. -/
theorem options_fresh (xd yd l0 mx op : Nat) (src : List (List Nat)) (hy : yd < 2 ^ 32) : ∃ l0' mx', 0 < l0' ∧ l0' < 2 ^ 32 ∧ mx' ≤ 127 ∧
    (Enc.init xd yd src).setOptions l0 mx op = fresh 0 (List.replicate 128 0) xd yd l0' mx' (op.testBit 3) (op.testBit 5) (op.testBit 6) src := by
  refine ⟨if l0 ≥ 1 ∧ l0 ≤ yd then l0 else 128, if mx ≤ 127 then mx else 127, ?_, ?_, ?_, ?_⟩
  · split <;> omega
  · split <;> omega
  · split <;> omega
  · unfold Enc.setOptions
    rw [if_neg (by show ¬(0 > 0); omega)]
    rfl

end T85
