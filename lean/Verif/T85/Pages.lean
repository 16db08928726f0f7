import Verif.T85.Header

/-!
# Pages one after the other, and any data
-/

namespace T85

open Qm (u32)
open Spec

/-! ## What a page does not change -/

/-- The settings are the same, and the page is not longer. -/
structure Same (s s' : Enc) : Prop where
  xd : s'.xd = s.xd
  l0 : s'.l0 = s.l0
  mx : s'.mx = s.mx
  tpb : s'.tpb = s.tpb
  vlen : s'.vlen = s.vlen
  two : s'.two = s.two
  yd : s'.yd ≤ s.yd

theorem Same.refl (s : Enc) : Same s s := ⟨rfl, rfl, rfl, rfl, rfl, rfl, Nat.le_refl _⟩

theorem Same.trans {s s' s'' : Enc} (h : Same s s') (h' : Same s' s'') : Same s s'' :=
  ⟨h'.xd.trans h.xd, h'.l0.trans h.l0, h'.mx.trans h.mx, h'.tpb.trans h.tpb, h'.vlen.trans h.vlen, h'.two.trans h.two, Nat.le_trans h'.yd h.yd⟩

theorem putNewlen_same (s : Enc) : Same s s.putNewlen := by
  unfold Enc.putNewlen
  split
  · dsimp only
    split <;> exact ⟨rfl, rfl, rfl, rfl, rfl, rfl, Nat.le_refl _⟩
  · exact Same.refl s

theorem beginRow_same (s : Enc) : Same s s.beginRow := by
  have h1 : Same s (if s.y = 0 then s.put s.bih else s) := by split <;> exact ⟨rfl, rfl, rfl, rfl, rfl, rfl, Nat.le_refl _⟩
  unfold Enc.beginRow
  dsimp only
  generalize (if s.y = 0 then s.put s.bih else s) = s1 at h1
  rw [putAtmove_eq]
  have h2 := h1.trans (putNewlen_same s1)
  generalize s1.putNewlen = s2 at h2
  split
  · dsimp only
    split
    · exact ⟨h2.xd, h2.l0, h2.mx, h2.tpb, h2.vlen, h2.two, h2.yd⟩
    · exact ⟨h2.xd, h2.l0, h2.mx, h2.tpb, h2.vlen, h2.two, h2.yd⟩
  · exact h1

theorem endStripe_same (s : Enc) : Same s s.endStripe := by
  rw [endStripe_eq]
  exact ⟨rfl, rfl, rfl, rfl, rfl, rfl, Nat.le_refl _⟩

theorem endRow_same (s : Enc) : Same s s.endRow := by
  unfold Enc.endRow
  dsimp only
  rw [look_eq]
  split
  · have h := (endStripe_same { s with i := s.i + 1, y := s.y + 1 }).trans (putNewlen_same _)
    exact ⟨h.xd, h.l0, h.mx, h.tpb, h.vlen, h.two, h.yd⟩
  · exact ⟨rfl, rfl, rfl, rfl, rfl, rfl, Nat.le_refl _⟩

theorem doRow_same (s : Enc) (row : List Nat) : Same s (s.doRow row) := by
  unfold Enc.doRow
  have h1 := beginRow_same { s with row0 := mask s.xd row }
  generalize Enc.beginRow { s with row0 := mask s.xd row } = s1 at h1
  have h2 := endRow_same s1.codeRow
  generalize hs : s1.codeRow = s2 at h2
  rw [codeRow_eq] at hs
  have h3 : Same s1 s2 := by
    rw [← hs]
    exact ⟨rfl, rfl, rfl, rfl, rfl, rfl, Nat.le_refl _⟩
  have h := h1.trans (h3.trans h2)
  exact ⟨h.xd, h.l0, h.mx, h.tpb, h.vlen, h.two, h.yd⟩

theorem setLength_same {s s' : Enc} {n : Nat} (hy : s.y < s.yd) (h : s.setLength n = some s') : Same s s' := by
  unfold Enc.setLength at h
  split at h
  · cases h
  · rename_i hc
    have hn : n < s.yd := by
      rcases Nat.lt_or_ge n s.yd with g | g
      · exact g
      · exact absurd (.inr (.inr (.inl g))) hc
    generalize hm : (if s.y > 0 ∧ n < s.y then s.y else n) = m at h
    have hm' : m ≤ s.yd := by
      rw [← hm]
      split <;> omega
    dsimp only at h
    generalize hs1 : (if s.y > 0 ∧ s.yd ≠ m then ({ s with newlen := NewLen.pending } : Enc) else s) = s1 at h
    have k1 : Same s { s1 with yd := m } := by
      rw [← hs1]
      split <;> exact ⟨rfl, rfl, rfl, rfl, rfl, rfl, hm'⟩
    split at h
    · rw [← Option.some.inj h]
      generalize hs2 : (if s1.i > 0 then Enc.endStripe { s1 with yd := m } else { s1 with yd := m }) = s2
      have : Same { s1 with yd := m } s2 := by
        rw [← hs2]
        split
        · exact endStripe_same _
        · exact Same.refl _
      exact k1.trans (this.trans (putNewlen_same _))
    · rw [← Option.some.inj h]
      exact k1

theorem nextRow_same {s s' : Enc} (h : s.nextRow = some s') : Same s s' := by
  have hy := (nextRow_less h).1
  have h0 : ∀ (a b c : List Nat) (o : List Nat) (f : Bool) (t : List (List Nat)) (row : List Nat),
      Same s (Enc.doRow { s with row0 := a, row1 := b, row2 := c, out := o, fill := f, src := t } row) := by
    intro a b c o f t row
    have := doRow_same { s with row0 := a, row1 := b, row2 := c, out := o, fill := f, src := t } row
    exact ⟨this.xd, this.l0, this.mx, this.tpb, this.vlen, this.two, this.yd⟩
  unfold Enc.nextRow at h
  rw [if_neg (by omega)] at h
  dsimp only at h
  split at h
  · rw [← Option.some.inj h]
    exact h0 _ _ _ _ _ _ _
  · split at h
    · rw [← Option.some.inj h]
      exact h0 _ _ _ _ _ _ _
    · split at h
      · rename_i s'' hl
        cases h
        have k : Same s { s with out := [], row0 := s.row2, row1 := s.row0, row2 := s.row1 } := ⟨rfl, rfl, rfl, rfl, rfl, rfl, Nat.le_refl _⟩
        exact k.trans (setLength_same (s := { s with out := [], row0 := s.row2, row1 := s.row0, row2 := s.row1 }) hy hl)
      · rw [← Option.some.inj h]
        exact h0 _ _ _ _ _ _ _

theorem getLoop_same (k : Nat) (e : Enc) (n : Nat) : Same e (e.getLoop k n).1 := by
  induction k generalizing e n with
  | zero => exact Same.refl e
  | succ k ih =>
    rw [Enc.getLoop]
    split
    · exact Same.refl e
    · match hn : (if e.out = [] then e.nextRow else some e) with
      | none => exact Same.refl e
      | some e' =>
        have h1 : Same e e' := by
          split at hn
          · exact nextRow_same hn
          · rw [← Option.some.inj hn]
            exact Same.refl e
        have h2 := ih { e' with out := e'.out.drop n } (n - e'.out.length)
        exact h1.trans ⟨h2.xd, h2.l0, h2.mx, h2.tpb, h2.vlen, h2.two, h2.yd⟩

/-! ## An encoder which has been used -/

/-- Whatever an application has done with an encoder. -/
inductive Used : Enc → Prop
  | init (xd yd : Nat) (src : List (List Nat)) : yd < 2 ^ 32 → Used (Enc.init xd yd src)
  | options {s : Enc} (l0 mx options : Nat) : Used s → Used (s.setOptions l0 mx options)
  | get {s : Enc} (n : Nat) : Used s → Used (s.get n).1
  | restart {s : Enc} (xd yd : Nat) (src : List (List Nat)) : yd < 2 ^ 32 → Used s → Used (s.restart xd yd src)

/-- The settings have values which are allowed. -/
structure Set (s : Enc) : Prop where
  l0 : 0 < s.l0 ∧ s.l0 < 2 ^ 32
  mx : s.mx ≤ 127
  yd : s.yd < 2 ^ 32

theorem set_options {s : Enc} (h : Set s) (l0 mx op : Nat) : Set (s.setOptions l0 mx op) := by
  unfold Enc.setOptions
  split
  · exact h
  · have := h.l0
    have := h.mx
    have := h.yd
    refine ⟨?_, ?_, h.yd⟩
    · dsimp only
      split <;> omega
    · dsimp only
      split <;> omega

theorem restart_set {s : Enc} (h : Set s) (xd : Nat) {yd : Nat} (hy : yd < 2 ^ 32) (src : List (List Nat)) : Set (s.restart xd yd src) := by
  by_cases hx : s.xd = xd ∨ s.y = 0
  · rw [restart_fresh hx]
    exact ⟨h.l0, h.mx, hy⟩
  · rw [restart_stays (fun g => hx (.inl g)) (Nat.pos_of_ne_zero fun g => hx (.inr g))]
    exact ⟨h.l0, h.mx, hy⟩

theorem used_set {s : Enc} (h : Used s) : Set s := by
  induction h with
  | init xd yd src hy => exact ⟨⟨by show 0 < 128; omega, by show 128 < 2 ^ 32; omega⟩, by show 127 ≤ 127; omega, hy⟩
  | options l0 mx op _ ih => exact set_options ih _ _ _
  | get n _ ih =>
    exact ⟨by unfold Enc.get; rw [(getLoop_same _ _ n).l0]; exact ih.l0, by unfold Enc.get; rw [(getLoop_same _ _ n).mx]; exact ih.mx,
      Nat.lt_of_le_of_lt (getLoop_same _ _ n).yd ih.yd⟩
  | restart xd yd src hy _ ih => exact restart_set ih _ hy _

/-- The next page of an encoder is as the first one of a new one. -/
theorem next_fresh {s e : Enc} (h : Used s) {xd yd : Nat} (hy : yd < 2 ^ 32) (src : List (List Nat)) (hx : s.xd = xd ∨ s.y = 0)
    (he : e = s.restart xd yd src ∨ ∃ l0 mx op, e = (s.restart xd yd src).setOptions l0 mx op) :
    ∃ ca cc l0 mx tpb two, 0 < l0 ∧ l0 < 2 ^ 32 ∧ mx ≤ 127 ∧ e = fresh ca cc xd yd l0 mx tpb e.vlen two src := by
  have hs := restart_set (used_set h) xd hy src
  rcases he with rfl | ⟨l0, mx, op, rfl⟩
  · rw [restart_fresh hx] at hs ⊢
    exact ⟨_, _, _, _, _, _, hs.l0.1, hs.l0.2, hs.mx, rfl⟩
  · have hs' := set_options hs l0 mx op
    rw [restart_fresh hx] at hs' ⊢
    exact ⟨s.cAll, s.c, _, _, op.testBit 3, op.testBit 6, hs'.l0.1, hs'.l0.2, hs'.mx, rfl⟩

/-! ## A decoder which has been used -/

/-- `t85_decode_restart`, src/t85_decode.c:904-937. `rows` are the rows of the page to come. `x`, `y`, `i`, the options and the rows in memory are left as they
are. -/
def Dec.restart (s : Dec) : Dec :=
  { s with
    mx := 0, bih := [], mark := [], needed := 0, eod := 0, commentLen := 0, commentProgress := 0
    pic := { s.pic with xd := 0, yd := 0, l0 := 0, tx := 0, at' := none, r := ⟨0, 0, 0⟩, pseudo := false, lntp := false, rows := [] }
    qm := Qm.decodeRestart s.qm.st false s.qm.nopadding [] }

/-! ## The header of any stream -/

theorem begin_bih {s s' : Dec} (h : s.begin = some s') : s'.bih = s.bih := (begin_safe h).2.2.1

theorem put_bih (s : Dec) (data : List Nat) (h : s.bih.length ≤ 20) : (s.put data).1.bih = s.bih ++ data.take (20 - s.bih.length) := by
  have hz : data = [] → s.bih = s.bih ++ data.take (20 - s.bih.length) := by
    intro h
    rw [h, List.take_nil, List.append_nil]
  by_cases c1 : data = [] ∧ s.pic.y ≥ s.pic.yd
  · unfold Dec.put
    rw [if_pos c1]
    exact hz c1.1
  by_cases c2 : data = [] ∧ s.eod > 0
  · unfold Dec.put
    rw [if_neg c1, if_pos c2]
    exact hz c2.1
  unfold Dec.put
  rw [if_neg c1, if_neg c2]
  dsimp only
  have h1 : (if data = [] then { s with eod := 1 } else s).bih = s.bih := by split <;> rfl
  generalize (if data = [] then { s with eod := 1 } else s) = s1 at h1
  rw [h1]
  split
  · split
    · rfl
    · match hb : Dec.begin { s1 with bih := s.bih ++ data.take (20 - s.bih.length) } with
      | none => rfl
      | some s2 =>
        dsimp only
        rw [(keeps_dloop _ s2 _).bih, begin_bih hb]
  · rename_i hl
    rw [(keeps_dloop _ s1 _).bih, h1]
    have : 20 - s.bih.length = 0 := by omega
    rw [this, List.take_zero, List.append_nil]

theorem puts_bih (cs : List (List Nat)) (s : Dec) (h : s.bih.length ≤ 20) : (s.puts cs).1.bih = (s.bih ++ cs.flatten).take 20 := by
  induction cs generalizing s with
  | nil =>
    rw [Dec.puts, List.flatten_nil, List.append_nil, List.take_of_length_le h]
  | cons c t ih =>
    rw [Dec.puts]
    dsimp only
    have hb := put_bih s c h
    rw [ih _ (by rw [hb, List.length_append, List.length_take]; omega), hb, List.flatten_cons]
    have e1 : s.bih ++ c.take (20 - s.bih.length) = (s.bih ++ c).take 20 := by
      rw [List.take_append, List.take_of_length_le h]
    rw [e1, ← List.append_assoc s.bih]
    generalize s.bih ++ c = l
    rw [List.take_append, List.take_append, List.take_take, Nat.min_self]
    by_cases hl : l.length ≤ 20
    · rw [List.take_of_length_le hl]
    · rw [List.length_take]
      have : 20 - min 20 l.length = 0 := by omega
      rw [this]
      have : 20 - l.length = 0 := by omega
      rw [this]

theorem puts_held {maxXd maxYd : Nat} (cs : List (List Nat)) {s : Dec} (h : Held maxXd maxYd s) (hc : ∀ r ∈ (s.puts cs).2.dropLast, r = .moreData) :
    Held maxXd maxYd (s.puts cs).1 ∨ (s.puts cs).1.pic.rows = [] := by
  induction cs generalizing s with
  | nil => exact .inl h
  | cons c t ih =>
    rw [Dec.puts] at hc ⊢
    dsimp only at hc ⊢
    have hp := held_put h c
    match t with
    | [] => exact hp.2
    | c' :: t' =>
      have hne : ((s.put c).1.puts (c' :: t')).2 ≠ [] := by
        rw [Dec.puts]
        exact List.cons_ne_nil _ _
      rw [List.dropLast_cons_of_ne_nil hne] at hc
      exact ih (hp.1 (hc _ List.mem_cons_self)) (fun r hr => hc r (List.mem_cons_of_mem _ hr))

end T85
