import Verif.NonEcm.Spec

/-!
# Streams which hold the same image
-/

namespace NonEcm

/-- The zeros at the end. -/
def zc (k : Nat) : List Bool → Nat
  | [] => k
  | false :: t => zc (k + 1) t
  | true :: t => zc 0 t

theorem zc_append (k : Nat) (a b : List Bool) : zc k (a ++ b) = zc (zc k a) b := by
  induction a generalizing k with
  | nil => rfl
  | cons x a ih => cases x <;> exact ih _

theorem zc_zeros (k j : Nat) : zc k (List.replicate j false) = k + j := by
  induction j generalizing k with
  | zero => rfl
  | succ j ih =>
    simp only [List.replicate_succ, zc, ih]
    omega

theorem squeeze_sat (t : List Bool) (k m : Nat) (h : min k 11 = min m 11) : squeeze k t = squeeze m t := by
  induction t generalizing k m with
  | nil => simp only [squeeze, h]
  | cons x t ih =>
    cases x
    · exact ih _ _ (by omega)
    · simp only [squeeze, h]

theorem squeeze_zeros (k j : Nat) (t : List Bool) : squeeze k (List.replicate j false ++ t) = squeeze (k + j) t := by
  induction j generalizing k with
  | zero => rfl
  | succ j ih =>
    simp only [List.replicate_succ, List.cons_append, squeeze, ih]
    congr 1
    omega

theorem afterEol_zeros (k j : Nat) (t : List Bool) : afterEol k (List.replicate j false ++ t) = afterEol (k + j) t := by
  induction j generalizing k with
  | zero => rfl
  | succ j ih =>
    simp only [List.replicate_succ, List.cons_append, afterEol, ih]
    congr 1
    omega

theorem afterEol_append_some (k : Nat) (a b : List Bool) {r : List Bool} (h : afterEol k a = some r) : afterEol k (a ++ b) = some (r ++ b) := by
  induction a generalizing k with
  | nil => cases h
  | cons x a ih =>
    cases x
    · exact ih _ h
    · simp only [afterEol, List.cons_append] at h ⊢
      by_cases hk : k ≥ 11
      · rw [if_pos hk] at h ⊢
        cases h
        rfl
      · rw [if_neg hk] at h ⊢
        exact ih _ h

theorem afterEol_append_none (k : Nat) (a b : List Bool) (h : afterEol k a = none) : afterEol k (a ++ b) = afterEol (zc k a) b := by
  induction a generalizing k with
  | nil => rfl
  | cons x a ih =>
    cases x
    · exact ih _ h
    · simp only [afterEol, List.cons_append, zc] at h ⊢
      by_cases hk : k ≥ 11
      · rw [if_pos hk] at h
        cases h
      · rw [if_neg hk] at h ⊢
        exact ih _ h

theorem zc_afterEol (k : Nat) (a : List Bool) {r : List Bool} (h : afterEol k a = some r) : zc k a = zc 0 r := by
  induction a generalizing k with
  | nil => cases h
  | cons x a ih =>
    cases x
    · exact ih _ h
    · simp only [afterEol, zc] at h ⊢
      by_cases hk : k ≥ 11
      · rw [if_pos hk] at h
        cases h
        rfl
      · rw [if_neg hk] at h
        exact ih _ h

theorem afterEol_short (k : Nat) (t : List Bool) (h : k + t.length ≤ 11) : afterEol k t = none := by
  induction t generalizing k with
  | nil => rfl
  | cons x t ih =>
    simp only [List.length_cons] at h
    cases x
    · exact ih _ (by omega)
    · simp only [afterEol]
      rw [if_neg (by omega)]
      exact ih _ (by omega)

/-- The rows without the zeros at the end. -/
def core (k : Nat) : List Bool → List Bool
  | [] => []
  | false :: t => core (k + 1) t
  | true :: t => List.replicate (min k 11) false ++ true :: core 0 t

theorem squeeze_append (k : Nat) (a b : List Bool) : squeeze k (a ++ b) = core k a ++ squeeze (zc k a) b := by
  induction a generalizing k with
  | nil => rfl
  | cons x a ih =>
    cases x
    · exact ih _
    · simp only [List.cons_append, squeeze, core, zc, ih, List.append_assoc]

theorem squeeze_core (k : Nat) (a : List Bool) : squeeze k a = core k a ++ List.replicate (min (zc k a) 11) false := by
  have := squeeze_append k a []
  rw [List.append_nil] at this
  exact this

/-- With `k` zeros in front of it a stream starts with an EOL. -/
def Eol (k : Nat) (b : List Bool) : Prop := ∃ l t, b = List.replicate l false ++ true :: t ∧ k + l ≥ 11

theorem Eol.append {k : Nat} {b : List Bool} (h : Eol k b) (x : List Bool) : Eol k (b ++ x) := by
  obtain ⟨l, t, rfl, hl⟩ := h
  exact ⟨l, t ++ x, by simp, hl⟩

theorem Eol.more {k m : Nat} {b : List Bool} (h : Eol k b) (hm : k ≤ m) : Eol m b := by
  obtain ⟨l, t, rfl, hl⟩ := h
  exact ⟨l, t, rfl, by omega⟩

theorem Eol.squeeze {k m : Nat} {b : List Bool} (h : Eol k b) (hm : k ≤ m) : squeeze k b = squeeze m b := by
  obtain ⟨l, t, rfl, hl⟩ := h
  rw [squeeze_zeros, squeeze_zeros]
  exact squeeze_sat _ _ _ (by omega)

theorem Eol.afterEol {k m : Nat} {b : List Bool} (h : Eol k b) (hm : k ≤ m) : ∃ t, afterEol k b = some t ∧ afterEol m b = some t := by
  obtain ⟨l, t, rfl, hl⟩ := h
  refine ⟨t, ?_, ?_⟩
  · rw [afterEol_zeros]; exact if_pos hl
  · rw [afterEol_zeros]; exact if_pos (by omega)

theorem Eol.zc {k m : Nat} {b : List Bool} (h : Eol k b) : zc k b = zc m b := by
  obtain ⟨l, t, rfl, hl⟩ := h
  simp only [zc_append, NonEcm.zc]

/-- Two streams hold the same image so far, and go on alike. -/
def Same (a b : List Bool) : Prop :=
  ∃ r q, afterEol 0 a = some r ∧ afterEol 0 b = some q ∧ squeeze 0 r = squeeze 0 q ∧ zc 0 r = zc 0 q

theorem Same.image {a b : List Bool} (h : Same a b) : image a = image b := by
  obtain ⟨r, q, h1, h2, h3, _⟩ := h
  simp only [NonEcm.image, h1, h2, Option.map_some, h3]

theorem Same.zc {a b : List Bool} (h : Same a b) : zc 0 a = zc 0 b := by
  obtain ⟨r, q, h1, h2, _, h4⟩ := h
  rw [zc_afterEol _ _ h1, zc_afterEol _ _ h2, h4]

theorem Same.append {a b : List Bool} (h : Same a b) (x : List Bool) : Same (a ++ x) (b ++ x) := by
  obtain ⟨r, q, h1, h2, h3, h4⟩ := h
  refine ⟨r ++ x, q ++ x, afterEol_append_some _ _ _ h1, afterEol_append_some _ _ _ h2, ?_, by rw [zc_append, zc_append, h4]⟩
  rw [squeeze_core, squeeze_core 0 q, h4] at h3
  rw [squeeze_append, squeeze_append, List.append_cancel_right h3, h4]

/-- Zeros may be put in where an EOL is. -/
theorem Same.insert {a b c : List Bool} (h : Same (a ++ b) c) (he : Eol (NonEcm.zc 0 a) b) (j : Nat) : Same (a ++ (List.replicate j false ++ b)) c := by
  obtain ⟨r, q, h1, h2, h3, h4⟩ := h
  cases ha : afterEol 0 a with
  | some r0 =>
    have hz := zc_afterEol _ _ ha
    rw [afterEol_append_some _ _ _ ha] at h1
    cases h1
    refine ⟨_, q, afterEol_append_some _ _ _ ha, h2, ?_, ?_⟩
    · rw [← h3, squeeze_append 0 r0 (_ ++ b), squeeze_zeros, squeeze_append 0 r0 b, ← hz, ← he.squeeze (Nat.le_add_right _ j)]
    · rw [← h4, zc_append, zc_append, zc_append, zc_zeros, ← hz, ← he.zc]
  | none =>
    rw [afterEol_append_none _ _ _ ha] at h1
    obtain ⟨t, e1, e2⟩ := he.afterEol (Nat.le_add_right _ j)
    rw [e1] at h1
    cases h1
    refine ⟨_, q, ?_, h2, h3, h4⟩
    rw [afterEol_append_none _ _ _ ha, afterEol_zeros, e2]

end NonEcm
