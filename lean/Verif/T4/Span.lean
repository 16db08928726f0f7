import Verif.T4.Codes

/-! # The codes for a run -/

namespace T4

/-- The bits of an entry of the run tables. -/
def rcode (k : Bool) (i : Nat) : List Bool := cb ((codesOf k).getD i (0, 0, 0))

/-- The run of an entry. -/
def rrun (i : Nat) : Nat := if i < 64 then i else 64 * (i - 63)

/-- The bits of a two dimensional mode. -/
def mcode (i : Nat) : List Bool := cb (codes2d.getD i (0, 0, 0))

theorem putEntry_eq (tab : List (Nat × Nat × Nat)) (w : W) (i : Nat) (hi : i < tab.length) :
    putEntry w tab i = some (putBits w (tab.getD i (0, 0, 0)).2.1 (tab.getD i (0, 0, 0)).1, (tab.getD i (0, 0, 0)).2.2) := by
  unfold putEntry
  have : tab[i]? = some (tab.getD i (0, 0, 0)) := by simp [List.getD, List.getElem?_eq_getElem hi]
  rw [this]

theorem emits_entry (k : Bool) (i : Nat) (hi : i < 104) :
    ∀ w, WOk w → ∃ w', putEntry w (codesOf k) i = some (w', rrun i) ∧ WOk w' ∧ w'.bits = w.bits ++ rcode k i ∧ w'.rowBits = w.rowBits + (rcode k i).length := by
  intro w ok
  obtain ⟨_, h2, h3, h4⟩ := codes_ok k i hi
  rw [putEntry_eq _ _ _ (by rw [codes_length]; exact hi), h4]
  have : lookOf k ≤ 13 := by cases k <;> decide
  obtain ⟨w', e, r⟩ := emits_put _ _ h2 (Or.inl (by omega)) w ok
  refine ⟨w', ?_, r⟩
  rw [Option.some.inj e]; rfl

/-- The codes for a run: make-up codes, and a terminating code. -/
structure SpanOf (span : Nat) (mk : List Nat) (t : Nat) : Prop where
  up : ∀ i ∈ mk, 64 ≤ i ∧ i < 104
  term : t < 64
  sum : (mk.map rrun).sum + t = span

def spanBits (k : Bool) (mk : List Nat) (t : Nat) : List Bool := mk.flatMap (rcode k) ++ rcode k t

theorem putLong_spec (k : Bool) : ∀ n span, span < n → ∃ (mk : List Nat) (s : Nat), (∀ i ∈ mk, 64 ≤ i ∧ i < 104) ∧ (mk.map rrun).sum + s = span ∧ s < 2624 ∧
    ∀ w, WOk w → ∃ w', putLong (codesOf k) n w span = some (w', s) ∧ WOk w' ∧ w'.bits = w.bits ++ mk.flatMap (rcode k) ∧
      w'.rowBits = w.rowBits + (mk.flatMap (rcode k)).length := by
  intro n
  induction n with
  | zero => intro span h; omega
  | succ n ih =>
    intro span hs
    by_cases h : span ≥ 2560 + 64
    · obtain ⟨mk, s, h1, h2, h3, h4⟩ := ih (span - 2560) (by omega)
      refine ⟨103 :: mk, s, ?_, ?_, h3, ?_⟩
      · intro i hi
        rcases List.mem_cons.mp hi with rfl | hi
        · omega
        · exact h1 i hi
      · simp only [List.map_cons, List.sum_cons, show rrun 103 = 2560 from rfl]; omega
      · intro w ok
        obtain ⟨w1, e1, ok1, b1, r1⟩ := emits_entry k 103 (by omega) w ok
        obtain ⟨w2, e2, ok2, b2, r2⟩ := h4 w1 ok1
        refine ⟨w2, ?_, ok2, ?_, ?_⟩
        · unfold putLong
          rw [if_pos h, show 63 + 2560 / 64 = 103 from rfl, e1]
          simp only [show rrun 103 = 2560 from rfl]
          rw [if_pos (by omega)]; exact e2
        · rw [b2, b1, List.flatMap_cons, List.append_assoc]
        · rw [r2, r1, List.flatMap_cons, List.length_append]; omega
    · refine ⟨[], span, by simp, by simp, by omega, fun w ok => ⟨w, ?_, ok, by simp, by simp⟩⟩
      unfold putLong
      rw [if_neg h]

theorem put1d_spec (k : Bool) (span : Nat) : ∃ mk t, SpanOf span mk t ∧ Emits (fun w => put1d (codesOf k) w span) (spanBits k mk t) := by
  obtain ⟨mk, s, h1, h2, h3, h4⟩ := putLong_spec k (span + 1) span (by omega)
  by_cases h : s ≥ 64
  · have hr : rrun (63 + s / 64) = 64 * (s / 64) := by unfold rrun; rw [if_neg (by omega)]; omega
    refine ⟨mk ++ [63 + s / 64], s % 64, ⟨?_, by omega, ?_⟩, ?_⟩
    · intro i hi
      rcases List.mem_append.mp hi with hi | hi
      · exact h1 i hi
      · have := List.mem_singleton.mp hi; omega
    · simp only [List.map_append, List.sum_append, List.map_cons, List.map_nil, List.sum_cons, List.sum_nil, hr]; omega
    · intro w ok
      obtain ⟨w1, e1, ok1, b1, r1⟩ := h4 w ok
      obtain ⟨w2, e2, ok2, b2, r2⟩ := emits_entry k (63 + s / 64) (by omega) w1 ok1
      obtain ⟨w3, e3, ok3, b3, r3⟩ := emits_entry k (s % 64) (by omega) w2 ok2
      refine ⟨w3, ?_, ok3, ?_, ?_⟩
      · show put1d _ w span = _
        unfold put1d
        rw [e1]
        simp only
        rw [if_pos h, e2]
        simp only [hr]
        rw [if_pos (by omega), show s - 64 * (s / 64) = s % 64 by omega, e3]; rfl
      · rw [b3, b2, b1]; simp [spanBits]
      · rw [r3, r2, r1]; simp only [spanBits, List.flatMap_append, List.flatMap_cons, List.flatMap_nil, List.length_append, List.length_nil]; omega
  · refine ⟨mk, s, ⟨h1, by omega, h2⟩, ?_⟩
    intro w ok
    obtain ⟨w1, e1, ok1, b1, r1⟩ := h4 w ok
    obtain ⟨w3, e3, ok3, b3, r3⟩ := emits_entry k s (by omega) w1 ok1
    refine ⟨w3, ?_, ok3, ?_, ?_⟩
    · show put1d _ w span = _
      unfold put1d
      rw [e1]
      simp only
      rw [if_neg h, e3]; rfl
    · rw [b3, b1]; simp [spanBits]
    · rw [r3, r1]; simp only [spanBits, List.length_append]; omega

theorem rcode_ok (k : Bool) (i : Nat) (hi : i < 104) : codeOk (rcode k i) = true := (codes_ok k i hi).1

theorem spanBits_lead (k : Bool) {span : Nat} {mk : List Nat} {t : Nat} (h : SpanOf span mk t) : lead (spanBits k mk t) ≤ 7 ∧ lead (spanBits k mk t) < (spanBits k mk t).length := by
  unfold spanBits
  cases mk with
  | nil => simpa using codeOk_lead (rcode_ok k t (by have := h.term; omega))
  | cons i m =>
    have := codeOk_lead (rcode_ok k i (h.up i (by simp)).2)
    rw [List.flatMap_cons, List.append_assoc, lead_append, if_neg (by omega), List.length_append]
    omega

theorem rcode_len : ∀ k : Bool, ∀ i : Fin 104, (rcode k i).length ≤ if i.val = 0 then 10 else if i.val < 64 then 6 * i.val else 13 := by decide +kernel

/-- A run takes no more than six bits for a pixel, or ten when there is none. -/
theorem spanBits_len (k : Bool) {span : Nat} {mk : List Nat} {t : Nat} (h : SpanOf span mk t) : (spanBits k mk t).length ≤ if span = 0 then 10 else 6 * span := by
  have hm : ∀ m : List Nat, (∀ i ∈ m, 64 ≤ i ∧ i < 104) → (m.flatMap (rcode k)).length ≤ 13 * m.length ∧ 64 * m.length ≤ (m.map rrun).sum ∧ (m.map rrun).sum ≤ 2560 * m.length := by
    intro m
    induction m with
    | nil => intro _; simp
    | cons i m ih =>
      intro hu
      obtain ⟨h1, h2⟩ := hu i (by simp)
      obtain ⟨i1, i2, i3⟩ := ih fun j hj => hu j (by simp [hj])
      have := rcode_len k ⟨i, h2⟩
      simp only at this
      rw [if_neg (by omega), if_neg (by omega)] at this
      have hr : 64 ≤ rrun i ∧ rrun i ≤ 2560 := by unfold rrun; rw [if_neg (by omega)]; omega
      simp only [List.flatMap_cons, List.length_append, List.length_cons, List.map_cons, List.sum_cons]
      omega
  obtain ⟨h1, h2, h6⟩ := hm mk h.up
  have h3 := rcode_len k ⟨t, by have := h.term; omega⟩
  have h4 := h.sum
  have h5 := h.term
  simp only at h3
  rw [if_pos h5] at h3
  unfold spanBits
  rw [List.length_append]
  split at h3 <;> split <;> omega

theorem mcode_len : ∀ i : Fin 9, (mcode i).length ≤ 7 := by decide +kernel

end T4
