import Verif.Schedule.Spec

namespace Schedule
open Spec

theorem addTime_eq {t : Nat} {us : Int} (h : 0 ≤ (t : Int) + us) (h' : (t : Int) + us < 2 ^ 64) : addTime t us = later t us := by
  unfold addTime later; rw [Int.emod_eq_of_lt h h']

theorem findFree_spec (s : Sched) (hl : s.maxToDate ≤ s.sched.length) : ∀ n i, i ≤ s.maxToDate → n = s.maxToDate - i →
    ∃ k, findFree s n i = some k ∧ i ≤ k ∧ k ≤ s.maxToDate ∧ (k < s.maxToDate → ∃ w, s.sched[k]? = some { when := w, callback := none }) := by
  intro n
  induction n with
  | zero => intro i hi hn; exact ⟨i, rfl, Nat.le_refl _, hi, fun h => by omega⟩
  | succ n ih =>
    intro i hi hn
    unfold findFree
    rw [if_pos (by omega)]
    have hlt : i < s.sched.length := by omega
    rw [List.getElem?_eq_getElem hlt]
    simp only [Option.bind_eq_bind, Option.bind_some]
    by_cases hc : s.sched[i].callback = none
    · rw [if_pos hc]
      refine ⟨i, rfl, Nat.le_refl _, hi, fun _ => ⟨s.sched[i].when, ?_⟩⟩
      rw [List.getElem?_eq_getElem hlt]
      congr 1
      cases hs : s.sched[i] with
      | mk w c => rw [hs] at hc; simp only at hc; rw [hc]
    · rw [if_neg hc]
      obtain ⟨k, e, h1, h2, h3⟩ := ih (i + 1) (by omega) (by omega)
      exact ⟨k, e, by omega, h2, h3⟩

/-- The slots hold exactly the pending events. -/
def Holds (s : Sched) (pending : List Pending) : Prop :=
  ∀ q : Pending, q ∈ pending ↔ q.id < s.maxToDate ∧ s.sched[q.id]? = some { when := q.due, callback := some q.n }

theorem holds_id {s : Sched} {pend : List Pending} (h : Holds s pend) {p q : Pending} (hp : p ∈ pend) (hq : q ∈ pend)
    (e : p.id = q.id) : p = q := by
  have h1 := ((h p).1 hp).2
  have h2 := ((h q).1 hq).2
  rw [e, h2] at h1
  simp only [Option.some.injEq, Slot.mk.injEq] at h1
  cases p; cases q; simp_all

theorem schedule_spec (junk : Fin 5 → Slot) (s : Sched) (us : Int) (ev : Nat) (pend : List Pending)
    (hl : s.sched.length = s.allocated) (hm : s.maxToDate ≤ s.allocated) (hh : Holds s pend) :
    ∃ s' i, scheduleEvent junk s us ev = some (s', i) ∧ s'.sched.length = s'.allocated ∧ s'.maxToDate ≤ s'.allocated ∧
      s'.ticker = s.ticker ∧ (∀ p ∈ pend, p.id ≠ i) ∧ Holds s' (pend ++ [{ n := ev, id := i, due := addTime s.ticker us }]) := by
  obtain ⟨i, e, _, hi, hfree⟩ := findFree_spec s (by omega) s.maxToDate 0 (by omega) (by omega)
  have hne : ∀ p ∈ pend, p.id ≠ i := by
    rintro p hp rfl
    obtain ⟨h1, h2⟩ := (hh p).1 hp
    obtain ⟨w, hw⟩ := hfree h1
    rw [hw] at h2; simp at h2
  unfold scheduleEvent
  rw [e]
  simp only [Option.bind_eq_bind, Option.bind_some]
  -- the array after growing
  generalize hs1 : (if i ≥ s.allocated then { s with allocated := s.allocated + 5, sched := s.sched ++ List.ofFn junk } else s) = s1
  have f1 : s1.sched.length = s1.allocated ∧ i < s1.allocated ∧ s1.ticker = s.ticker ∧ s1.maxToDate = s.maxToDate ∧
      s.allocated ≤ s1.allocated ∧ ∀ k, k < s.maxToDate → s1.sched[k]? = s.sched[k]? := by
    by_cases h : i ≥ s.allocated
    · rw [if_pos h] at hs1; subst hs1
      refine ⟨by simp [hl], by simp; omega, rfl, rfl, by simp, ?_⟩
      intro k hk
      exact List.getElem?_append_left (by omega)
    · rw [if_neg h] at hs1; subst hs1
      exact ⟨hl, by omega, rfl, rfl, Nat.le_refl _, fun _ _ => rfl⟩
  generalize hs2 : (if i ≥ s1.maxToDate then { s1 with maxToDate := i + 1 } else s1) = s2
  have f2 : s2.sched = s1.sched ∧ s2.allocated = s1.allocated ∧ s2.ticker = s1.ticker ∧
      s2.maxToDate = if i ≥ s.maxToDate then i + 1 else s.maxToDate := by
    rw [← f1.2.2.2.1]
    by_cases h : i ≥ s1.maxToDate
    · rw [if_pos h] at hs2 ⊢; subst hs2; exact ⟨rfl, rfl, rfl, rfl⟩
    · rw [if_neg h] at hs2 ⊢; subst hs2; exact ⟨rfl, rfl, rfl, rfl⟩
  obtain ⟨g1, g2, g3, g4⟩ := f2
  obtain ⟨k1, k2, k3, k4, k6, k5⟩ := f1
  have hlt : i < s2.sched.length := by rw [g1, k1]; exact k2
  rw [if_pos hlt]
  refine ⟨_, i, rfl, ?_, ?_, ?_, hne, ?_⟩
  · simp only [List.length_set]; rw [g1, g2, k1]
  · simp only; rw [g4, g2]; split <;> omega
  · simp only; rw [g3, k3]
  · intro q
    simp only [List.mem_append, List.mem_singleton]
    rw [g3, k3, g1]
    by_cases hq : q.id = i
    · rw [hq, List.getElem?_set_self (by rw [k1]; exact k2)]
      constructor
      · rintro (h | h)
        · exact absurd hq (hne q h)
        · subst h
          refine ⟨?_, rfl⟩
          show i < s2.maxToDate
          rw [g4]; split <;> omega
      · rintro ⟨_, h⟩
        right
        simp only [Option.some.injEq, Slot.mk.injEq] at h
        cases q; simp_all
    · rw [List.getElem?_set_ne (by omega)]
      constructor
      · rintro (h | h)
        · obtain ⟨h1, h2⟩ := (hh q).1 h
          refine ⟨?_, ?_⟩
          · show q.id < s2.maxToDate
            rw [g4]; split <;> omega
          · rw [k5 _ h1]; exact h2
        · subst h; exact absurd rfl hq
      · rintro ⟨h1, h2⟩
        left
        have h1' : q.id < s2.maxToDate := h1
        rw [g4] at h1'
        have : q.id < s.maxToDate := by split at h1' <;> omega
        exact (hh q).2 ⟨this, by rw [← k5 _ this]; exact h2⟩

theorem nextLoop_spec (s : Sched) (hl : s.maxToDate ≤ s.sched.length) : ∀ n i r, n = s.maxToDate - i → i ≤ s.maxToDate →
    ∃ v, nextLoop s n i r = some v ∧ v ≤ r ∧
      (∀ k w ev, i ≤ k → k < s.maxToDate → s.sched[k]? = some { when := w, callback := some ev } → v ≤ w) ∧
      (v = r ∨ ∃ k w ev, i ≤ k ∧ k < s.maxToDate ∧ s.sched[k]? = some { when := w, callback := some ev } ∧ v = w) := by
  intro n
  induction n with
  | zero => intro i r hn hi; exact ⟨r, rfl, Nat.le_refl _, fun k w ev h1 h2 => by omega, Or.inl rfl⟩
  | succ n ih =>
    intro i r hn hi
    have hlt : i < s.sched.length := by omega
    unfold nextLoop
    rw [List.getElem?_eq_getElem hlt]
    simp only [Option.bind_eq_bind, Option.bind_some]
    obtain ⟨v, e, h1, h2, h3⟩ := ih (i + 1) (if s.sched[i].callback ≠ none ∧ r > s.sched[i].when then s.sched[i].when else r) (by omega) (by omega)
    have hi' : s.sched[i]? = some s.sched[i] := List.getElem?_eq_getElem hlt
    refine ⟨v, e, ?_, ?_, ?_⟩
    · split at h1 <;> omega
    · intro k w ev hk hk' hs
      by_cases hki : k = i
      · subst hki
        rw [hs] at hi'
        have : s.sched[k] = { when := w, callback := some ev } := by simpa using hi'.symm
        rw [this] at h1
        simp only [ne_eq, reduceCtorEq, not_false_eq_true, true_and] at h1
        split at h1 <;> omega
      · exact h2 k w ev (by omega) hk' hs
    · rcases h3 with h3 | ⟨k, w, ev, a, b, c, d⟩
      · by_cases hc : s.sched[i].callback ≠ none ∧ r > s.sched[i].when
        · rw [if_pos hc] at h3
          right
          obtain ⟨ev, hev⟩ := Option.ne_none_iff_exists'.1 hc.1
          refine ⟨i, s.sched[i].when, ev, Nat.le_refl _, by omega, ?_, h3⟩
          rw [hi', ← hev]
        · rw [if_neg hc] at h3; exact Or.inl h3
      · exact Or.inr ⟨k, w, ev, by omega, b, c, d⟩

/-- Emptying a slot. -/
theorem holds_clear {s : Sched} {pend : List Pending} (hh : Holds s pend) {i : Nat} {e : Slot} (hi : s.sched[i]? = some e) :
    Holds { s with sched := s.sched.set i { e with callback := none } } (pend.filter fun p => decide (p.id ≠ i)) := by
  intro q
  simp only [List.mem_filter, decide_eq_true_eq]
  have hlt : i < s.sched.length := by
    by_cases h : i < s.sched.length
    · exact h
    · rw [List.getElem?_eq_none (by omega)] at hi; simp at hi
  by_cases hq : q.id = i
  · rw [hq, List.getElem?_set_self hlt]; simp
  · rw [List.getElem?_set_ne (by omega)]
    constructor
    · rintro ⟨h, _⟩; exact (hh q).1 h
    · rintro h; exact ⟨(hh q).2 h, hq⟩

end Schedule
