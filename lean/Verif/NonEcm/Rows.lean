import Verif.NonEcm.Ring

/-!
# The lengths of the rows
-/

namespace NonEcm

/-- The bits since the last EOL. -/
def rn (z n : Nat) : List Bool → Nat
  | [] => n
  | false :: t => rn (z + 1) (n + 1) t
  | true :: t => if z ≥ 11 then rn 0 0 t else rn 0 (n + 1) t

theorem rowLens_append (z n : Nat) (a b : List Bool) : rowLens z n (a ++ b) = rowLens z n a ++ rowLens (zc z a) (rn z n a) b := by
  induction a generalizing z n with
  | nil => rfl
  | cons x a ih =>
    cases x
    · exact ih _ _
    · simp only [List.cons_append, rowLens, zc, rn]
      by_cases h : z ≥ 11
      · simp only [if_pos h, List.cons_append, ih]
      · simp only [if_neg h, ih]

theorem rn_append (z n : Nat) (a b : List Bool) : rn z n (a ++ b) = rn (zc z a) (rn z n a) b := by
  induction a generalizing z n with
  | nil => rfl
  | cons x a ih =>
    cases x
    · exact ih _ _
    · simp only [List.cons_append, zc, rn]
      by_cases h : z ≥ 11
      · simp only [if_pos h, ih]
      · simp only [if_neg h, ih]

theorem rowLens_zeros (z n j : Nat) : rowLens z n (List.replicate j false) = [] := by
  induction j generalizing z n with
  | zero => rfl
  | succ j ih => exact ih _ _

theorem rn_zeros (z n j : Nat) : rn z n (List.replicate j false) = n + j := by
  induction j generalizing z n with
  | zero => rfl
  | succ j ih =>
    simp only [List.replicate_succ, rn, ih]
    omega

theorem rows_short (z n : Nat) (t : List Bool) (h : z + t.length ≤ 11) : rowLens z n t = [] ∧ rn z n t = n + t.length := by
  induction t generalizing z n with
  | nil => exact ⟨rfl, rfl⟩
  | cons x t ih =>
    simp only [List.length_cons] at h ⊢
    cases x
    · obtain ⟨h1, h2⟩ := ih (z + 1) (n + 1) (by omega)
      exact ⟨h1, by rw [rn, h2]; omega⟩
    · obtain ⟨h1, h2⟩ := ih 0 (n + 1) (by omega)
      simp only [rowLens, rn]
      rw [if_neg (by omega), if_neg (by omega)]
      exact ⟨h1, by rw [h2]; omega⟩

/-- An octet with an EOL in it. -/
theorem rows_eol {z : Nat} {b : Octet} (h : Eol z (bitsOf b)) (n : Nat) :
    rowLens z n (bitsOf b) = [n + (8 - lower b).toNat] ∧ rn z n (bitsOf b) = (lower b).toNat ∧ 0 ≤ lower b ∧ lower b ≤ 7 ∧
      z + (7 - lower b).toNat ≥ 11 ∧ ∃ t, bitsOf b = List.replicate (7 - lower b).toNat false ++ true :: t ∧ t.length = (lower b).toNat := by
  have hb : b ≠ 0 := by
    rintro rfl
    obtain ⟨l, t, ht, _⟩ := h
    have := congrArg (fun x => true ∈ x) ht
    rw [bitsOf_zero] at this
    simp at this
  obtain ⟨h1, h2, h3⟩ := bitsOf_lead b hb
  have hlen := bitsOf_length b
  generalize ht : (bitsOf b).drop ((7 - lower b).toNat + 1) = t at h1
  have htl : t.length = (lower b).toNat := by
    rw [← ht, List.length_drop, hlen]
    omega
  have hz : z + (7 - lower b).toNat ≥ 11 := by
    obtain ⟨l, u, hu, hl⟩ := h
    rw [h1] at hu
    have : l = (7 - lower b).toNat := by
      clear hl ht
      generalize (7 - lower b).toNat = m at hu
      clear h1
      induction m generalizing l with
      | zero =>
        cases l with
        | zero => rfl
        | succ l => cases hu
      | succ m ih =>
        cases l with
        | zero => cases hu
        | succ l =>
          rw [List.replicate_succ, List.replicate_succ] at hu
          exact congrArg (· + 1) (ih l (List.cons.inj hu).2)
    omega
  obtain ⟨s1, s2⟩ := rows_short 0 0 t (by omega)
  refine ⟨?_, ?_, h2, h3, hz, t, h1, htl⟩
  · rw [h1, rowLens_append, rowLens_zeros, zc_zeros, rn_zeros]
    simp only [List.nil_append, rowLens]
    rw [if_pos hz, s1]
    congr 1
    omega
  · rw [h1, rn_append, zc_zeros, rn_zeros]
    simp only [rn]
    rw [if_pos hz, s2]
    omega

/-- An octet without an EOL. -/
theorem rows_plain {z : Nat} {b : Octet} (h : ¬ Eol z (bitsOf b)) (n : Nat) : rowLens z n (bitsOf b) = [] ∧ rn z n (bitsOf b) = n + 8 := by
  by_cases hb : b = 0
  · subst hb
    rw [bitsOf_zero, rowLens_zeros, rn_zeros]
    exact ⟨rfl, rfl⟩
  · obtain ⟨h1, h2, h3⟩ := bitsOf_lead b hb
    have hlen := bitsOf_length b
    rw [h1] at h hlen ⊢
    generalize (7 - lower b).toNat = l at h hlen ⊢
    generalize (bitsOf b).drop (l + 1) = t at h hlen ⊢
    have hz : ¬ (z + l ≥ 11) := fun hge => h ⟨l, t, rfl, hge⟩
    simp only [List.length_append, List.length_replicate, List.length_cons] at hlen
    obtain ⟨s1, s2⟩ := rows_short 0 (n + l + 1) t (by omega)
    rw [rowLens_append, rn_append, rowLens_zeros, zc_zeros, rn_zeros]
    simp only [List.nil_append, rowLens, rn]
    rw [if_neg hz, if_neg hz, s1, s2]
    exact ⟨rfl, by omega⟩

/-! ## What may become of a row -/

/-- The length the buffer goes by: that of the first row is taken to be eight less than it is. -/
def counted (k : Nat) (a : Nat) : Int := if k = 0 then (a : Int) - 8 else a

/-- An EOL right behind another, as in an RTC, with or without the tag bit. -/
def Close (k a : Nat) : Prop := counted k a = 12 ∨ counted k a = 13

/-- A row of `a` bits may become one of `b` bits. -/
def RowOk (min : Int) (k a b : Nat) : Prop := (Close k a → b = a) ∧ (¬ Close k a → a ≤ b ∧ min ≤ b)

def RowsOk (min : Int) (ins outs : List Nat) : Prop :=
  ins.length = outs.length ∧ ∀ k a b, ins[k]? = some a → outs[k]? = some b → RowOk min k a b

theorem RowsOk.snoc {min : Int} {ins outs : List Nat} (h : RowsOk min ins outs) {a b : Nat} (hab : RowOk min ins.length a b) :
    RowsOk min (ins ++ [a]) (outs ++ [b]) := by
  refine ⟨by simp [h.1], fun k x y hx hy => ?_⟩
  by_cases hk : k < ins.length
  · rw [List.getElem?_append_left hk] at hx
    rw [List.getElem?_append_left (by rw [← h.1]; exact hk)] at hy
    exact h.2 k x y hx hy
  · rw [List.getElem?_append_right (by omega)] at hx
    rw [List.getElem?_append_right (by rw [← h.1]; omega)] at hy
    have hk0 : k - ins.length = 0 := by
      rcases Nat.eq_zero_or_pos (k - ins.length) with h0 | h0
      · exact h0
      · rw [List.getElem?_eq_none (by simp only [List.length_cons, List.length_nil]; omega)] at hx
        cases hx
    rw [hk0] at hx
    rw [← h.1, hk0] at hy
    cases hx
    cases hy
    rw [show k = ins.length by omega]
    exact hab

/-- What is known of the rows while the image flows: `inp` has arrived, `sent` has been sent or may be, `held` is held back. -/
def Track (min rowBits : Int) (inp sent held : List Bool) : Prop :=
  ∃ rs ri, afterEol 0 (sent ++ held) = some rs ∧ afterEol 0 inp = some ri ∧ rn 0 0 rs = rn 0 0 ri ∧
    rowBits = (rn 0 0 ri : Int) - (if rowLens 0 0 ri = [] then 8 else 0) ∧ RowsOk min (rowLens 0 0 ri) (rowLens 0 0 rs) ∧
    ∀ ra, afterEol 0 sent = some ra → ∀ a, (rowLens 0 0 ri)[(rowLens 0 0 ra).length]? = some a → ¬ Close (rowLens 0 0 ra).length a

theorem Track.fill {min rowBits : Int} {inp sent held : List Bool} (h : Track min rowBits inp sent held) (he : Eol (zc 0 sent) held) (j : Nat) :
    Track min rowBits inp (sent ++ List.replicate j false) held := by
  obtain ⟨rs, ri, h1, h2, h3, h4, h5, h6⟩ := h
  cases hs : afterEol 0 sent with
  | none =>
    rw [afterEol_append_none _ _ _ hs] at h1
    obtain ⟨t, e1, e2⟩ := he.afterEol (Nat.le_add_right _ j)
    rw [e1] at h1
    cases h1
    refine ⟨_, ri, ?_, h2, h3, h4, h5, fun ra hra => ?_⟩
    · rw [List.append_assoc, afterEol_append_none _ _ _ hs, afterEol_zeros, e2]
    · have hz := afterEol_zeros (zc 0 sent) j []
      rw [List.append_nil] at hz
      rw [afterEol_append_none _ _ _ hs, hz] at hra
      cases hra
  | some ra =>
    rw [afterEol_append_some _ _ _ hs] at h1
    cases h1
    have hzc := zc_afterEol _ _ hs
    obtain ⟨l, t, rfl, hl⟩ := he
    rw [hzc] at hl
    have hfree := h6 ra hs
    have rows1 : rowLens 0 0 (ra ++ (List.replicate l false ++ true :: t)) = rowLens 0 0 ra ++ (rn 0 0 ra + l + 1) :: rowLens 0 0 t := by
      rw [rowLens_append, rowLens_append, rowLens_zeros, zc_zeros, rn_zeros]
      simp only [List.nil_append, rowLens]
      rw [if_pos hl]
    have rows2 : rowLens 0 0 (ra ++ List.replicate j false ++ (List.replicate l false ++ true :: t)) =
        rowLens 0 0 ra ++ (rn 0 0 ra + j + l + 1) :: rowLens 0 0 t := by
      rw [List.append_assoc, rowLens_append, rowLens_append, rowLens_zeros, zc_zeros, rn_zeros, rowLens_append, rowLens_zeros, zc_zeros, rn_zeros]
      simp only [List.nil_append, rowLens]
      rw [if_pos (by omega)]
    rw [rows1] at h5
    refine ⟨ra ++ List.replicate j false ++ (List.replicate l false ++ true :: t), ri, ?_, h2, ?_, h4, ?_, fun ra' hra' => ?_⟩
    · exact afterEol_append_some _ _ _ (afterEol_append_some _ _ _ hs)
    · rw [← h3, rn_append, rn_append, rn_append, rn_append, rn_append]
      simp only [zc_append, zc_zeros, rn_zeros, rn]
      rw [if_pos (by omega), if_pos (by omega)]
    · rw [rows2]
      refine ⟨by rw [h5.1]; simp, fun k a b ha hb => ?_⟩
      by_cases hk : k = (rowLens 0 0 ra).length
      · subst hk
        have hnc := hfree a ha
        rw [List.getElem?_append_right (Nat.le_refl _), Nat.sub_self] at hb
        cases hb
        have := (h5.2 _ a (rn 0 0 ra + l + 1) ha (by rw [List.getElem?_append_right (Nat.le_refl _), Nat.sub_self]; rfl)).2 hnc
        exact ⟨fun hc => absurd hc hnc, fun _ => ⟨by omega, by omega⟩⟩
      · refine h5.2 k a b ha ?_
        rw [← hb]
        by_cases hlt : k < (rowLens 0 0 ra).length
        · rw [List.getElem?_append_left hlt, List.getElem?_append_left hlt]
        · rw [List.getElem?_append_right (by omega), List.getElem?_append_right (by omega)]
          obtain ⟨m, hm⟩ : ∃ m, k - (rowLens 0 0 ra).length = m + 1 := ⟨k - (rowLens 0 0 ra).length - 1, by omega⟩
          rw [hm]
          rfl
    · rw [afterEol_append_some _ _ _ hs] at hra'
      cases hra'
      rw [rowLens_append, rowLens_zeros, List.append_nil]
      exact hfree

theorem Track.plain {min rowBits : Int} {inp sent held : List Bool} (h : Track min rowBits inp sent held) (hz : zc 0 (sent ++ held) = zc 0 inp) {b : Octet}
    (hb : ¬ Eol (zc 0 inp) (bitsOf b)) : Track min (rowBits + 8) (inp ++ bitsOf b) sent (held ++ bitsOf b) := by
  obtain ⟨rs, ri, h1, h2, h3, h4, h5, h6⟩ := h
  have z1 := zc_afterEol _ _ h1
  have z2 := zc_afterEol _ _ h2
  obtain ⟨p1, p2⟩ := rows_plain hb (rn 0 0 ri)
  have q1 : rowLens 0 0 (rs ++ bitsOf b) = rowLens 0 0 rs := by rw [rowLens_append, ← z1, hz, h3, p1, List.append_nil]
  have q2 : rowLens 0 0 (ri ++ bitsOf b) = rowLens 0 0 ri := by rw [rowLens_append, ← z2, p1, List.append_nil]
  have r1 : rn 0 0 (rs ++ bitsOf b) = rn 0 0 ri + 8 := by rw [rn_append, ← z1, hz, h3, p2]
  have r2 : rn 0 0 (ri ++ bitsOf b) = rn 0 0 ri + 8 := by rw [rn_append, ← z2, p2]
  refine ⟨rs ++ bitsOf b, ri ++ bitsOf b, by rw [← List.append_assoc]; exact afterEol_append_some _ _ _ h1, afterEol_append_some _ _ _ h2, by rw [r1, r2], ?_,
    by rw [q1, q2]; exact h5, by rw [q2]; exact h6⟩
  rw [r2, q2, h4]
  omega

theorem getElem?_snoc_some {l : List Nat} {x a : Nat} {k : Nat} (hk : k < l.length) (h : (l ++ [x])[k]? = some a) : l[k]? = some a := by
  rwa [List.getElem?_append_left hk] at h

theorem Track.close {min rowBits : Int} {inp sent held : List Bool} (h : Track min rowBits inp sent held) (hz : zc 0 (sent ++ held) = zc 0 inp)
    (hs : Eol (zc 0 sent) held) {b : Octet} (hb : Eol (zc 0 inp) (bitsOf b)) (hc : rowBits + (8 - lower b) = 12 ∨ rowBits + (8 - lower b) = 13) :
    Track min (lower b) (inp ++ bitsOf b) sent (held ++ bitsOf b) := by
  obtain ⟨rs, ri, h1, h2, h3, h4, h5, h6⟩ := h
  have z1 := zc_afterEol _ _ h1
  have z2 := zc_afterEol _ _ h2
  obtain ⟨p1, p2, p3, p4, p5, _⟩ := rows_eol hb (rn 0 0 ri)
  have q1 : rowLens 0 0 (rs ++ bitsOf b) = rowLens 0 0 rs ++ [rn 0 0 ri + (8 - lower b).toNat] := by rw [rowLens_append, ← z1, hz, h3, p1]
  have q2 : rowLens 0 0 (ri ++ bitsOf b) = rowLens 0 0 ri ++ [rn 0 0 ri + (8 - lower b).toNat] := by rw [rowLens_append, ← z2, p1]
  have r1 : rn 0 0 (rs ++ bitsOf b) = (lower b).toNat := by rw [rn_append, ← z1, hz, h3, p2]
  have r2 : rn 0 0 (ri ++ bitsOf b) = (lower b).toNat := by rw [rn_append, ← z2, p2]
  refine ⟨rs ++ bitsOf b, ri ++ bitsOf b, by rw [← List.append_assoc]; exact afterEol_append_some _ _ _ h1, afterEol_append_some _ _ _ h2, by rw [r1, r2], ?_, ?_, ?_⟩
  · rw [r2, q2, if_neg (by simp)]
    omega
  · rw [q1, q2]
    refine h5.snoc ⟨fun _ => rfl, fun hn => absurd ?_ hn⟩
    unfold Close counted
    by_cases h0 : rowLens 0 0 ri = []
    · rw [h0] at h4 ⊢
      simp only [if_true, List.length_nil] at h4 ⊢
      omega
    · have hlen : (rowLens 0 0 ri).length ≠ 0 := fun hh => h0 (List.eq_nil_of_length_eq_zero hh)
      rw [if_neg h0] at h4
      rw [if_neg hlen]
      omega
  · intro ra hra a ha
    rw [q2] at ha
    refine h6 ra hra a (getElem?_snoc_some ?_ ha)
    obtain ⟨l, t, rfl, hl⟩ := hs
    rw [afterEol_append_some _ _ _ hra] at h1
    cases h1
    rw [h5.1, rowLens_append, rowLens_append, rowLens_zeros, zc_zeros, rn_zeros, ← zc_afterEol _ _ hra]
    simp only [List.nil_append, rowLens]
    rw [if_pos hl]
    simp

theorem Track.next {min rowBits : Int} {inp sent held : List Bool} (h : Track min rowBits inp sent held) (hz : zc 0 (sent ++ held) = zc 0 inp)
    {b : Octet} (hb : Eol (zc 0 inp) (bitsOf b)) (hc : ¬ (rowBits + (8 - lower b) = 12 ∨ rowBits + (8 - lower b) = 13)) (m : Nat)
    (hm : min ≤ rowBits + (8 - lower b) + 8 * m) :
    Track min (lower b) (inp ++ bitsOf b) (sent ++ held ++ List.replicate (8 * m) false) (bitsOf b) := by
  obtain ⟨rs, ri, h1, h2, h3, h4, h5, h6⟩ := h
  have z1 := zc_afterEol _ _ h1
  have z2 := zc_afterEol _ _ h2
  obtain ⟨p1, p2, p3, p4, p5, _⟩ := rows_eol hb (rn 0 0 ri)
  obtain ⟨u1, u2, _⟩ := rows_eol (hb.more (Nat.le_add_right _ (8 * m))) (rn 0 0 ri + 8 * m)
  have q1 : rowLens 0 0 (rs ++ List.replicate (8 * m) false ++ bitsOf b) = rowLens 0 0 rs ++ [rn 0 0 ri + 8 * m + (8 - lower b).toNat] := by
    rw [List.append_assoc, rowLens_append, rowLens_append, rowLens_zeros, zc_zeros, rn_zeros, ← z1, hz, h3, u1]
    rfl
  have q2 : rowLens 0 0 (ri ++ bitsOf b) = rowLens 0 0 ri ++ [rn 0 0 ri + (8 - lower b).toNat] := by rw [rowLens_append, ← z2, p1]
  have r1 : rn 0 0 (rs ++ List.replicate (8 * m) false ++ bitsOf b) = (lower b).toNat := by
    rw [List.append_assoc, rn_append, rn_append, zc_zeros, rn_zeros, ← z1, hz, h3, u2]
  have r2 : rn 0 0 (ri ++ bitsOf b) = (lower b).toNat := by rw [rn_append, ← z2, p2]
  have hnc : ¬ Close (rowLens 0 0 ri).length (rn 0 0 ri + (8 - lower b).toNat) := by
    unfold Close counted
    by_cases h0 : rowLens 0 0 ri = []
    · rw [h0] at h4 ⊢
      simp only [if_true, List.length_nil] at h4 ⊢
      omega
    · have hlen : (rowLens 0 0 ri).length ≠ 0 := fun hh => h0 (List.eq_nil_of_length_eq_zero hh)
      rw [if_neg h0] at h4
      rw [if_neg hlen]
      omega
  refine ⟨rs ++ List.replicate (8 * m) false ++ bitsOf b, ri ++ bitsOf b, ?_, afterEol_append_some _ _ _ h2, by rw [r1, r2], ?_, ?_, ?_⟩
  · exact afterEol_append_some _ _ _ (afterEol_append_some _ _ _ h1)
  · rw [r2, q2, if_neg (by simp)]
    omega
  · rw [q1, q2]
    refine h5.snoc ⟨fun hh => absurd hh hnc, fun _ => ⟨by omega, ?_⟩⟩
    have : rowBits ≤ (rn 0 0 ri : Int) := by
      rw [h4]
      split <;> omega
    omega
  · intro ra hra a ha
    rw [afterEol_append_some _ _ _ h1] at hra
    cases hra
    have hlen : (rowLens 0 0 (rs ++ List.replicate (8 * m) false)).length = (rowLens 0 0 ri).length := by
      rw [rowLens_append, rowLens_zeros, List.append_nil, ← h5.1]
    rw [hlen] at ha ⊢
    rw [q2, List.getElem?_append_right (Nat.le_refl _), Nat.sub_self] at ha
    cases ha
    exact hnc

theorem Track.first {min : Int} {inp sent held : List Bool} {b : Octet} (hi : afterEol 0 inp = none) (hb : Eol (zc 0 inp) (bitsOf b))
    (hs : afterEol 0 sent = none) (hh : held = List.replicate 16 false ++ bitsOf b) : Track min (lower b - 8) (inp ++ bitsOf b) sent held := by
  obtain ⟨_, _, p3, p4, p5, t, ht, htl⟩ := rows_eol hb 0
  have e1 : afterEol 0 (inp ++ bitsOf b) = some t := by
    rw [afterEol_append_none _ _ _ hi, ht, afterEol_zeros]
    exact if_pos p5
  have e2 : afterEol 0 (sent ++ held) = some t := by
    rw [afterEol_append_none _ _ _ hs, hh, ht, afterEol_zeros, afterEol_zeros]
    exact if_pos (by omega)
  obtain ⟨s1, s2⟩ := rows_short 0 0 t (by omega)
  refine ⟨t, t, e2, e1, rfl, ?_, ⟨rfl, fun k a b ha _ => by rw [s1] at ha; cases ha⟩, fun ra hra => by rw [hs] at hra; cases hra⟩
  rw [s1, s2, if_pos rfl]
  omega

end NonEcm
