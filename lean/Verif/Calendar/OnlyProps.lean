import Verif.Calendar.TextProps

/-!
# Nothing but the text of a zone is read as one

The converse of `parse_zone`, `parse_bare` and `parse_fixed`.
-/

namespace Calendar

open Spec

namespace Spec

/-- What a name may be, of any length. -/
def NameText (l : List Nat) : Prop := 3 ≤ l.length ∧ ∀ c ∈ l, ¬ (48 ≤ c ∧ c ≤ 57) ∧ c ≠ 44 ∧ c ≠ 45 ∧ c ≠ 43

end Spec

theorem numLoop_only (max : Nat) : ∀ (l : List Nat) (acc n : Nat) (r : List Nat), numLoop max acc l = some (n, r) →
    ∃ ds, l = ds ++ r ∧ (∀ c ∈ ds, 48 ≤ c ∧ c ≤ 57) ∧ ds.foldl (fun a c => a*10 + (c - 48)) acc = n ∧
      (∀ c t, l = c :: t → digit c = true → ds ≠ []) := by
  intro l
  induction l with
  | nil =>
    intro acc n r e
    simp [numLoop] at e
    obtain ⟨rfl, rfl⟩ := e
    exact ⟨[], rfl, by simp, rfl, by intro c t e; cases e⟩
  | cons c l ih =>
    intro acc n r e
    simp only [numLoop] at e
    split at e
    · rename_i hc
      split at e
      · cases e
      · obtain ⟨ds, h1, h2, h3, _⟩ := ih _ _ _ e
        refine ⟨c :: ds, by rw [h1]; rfl, ?_, h3, by intros; simp⟩
        intro d hd
        cases List.mem_cons.1 hd with
        | inl e => rw [e]; exact (digit_iff c).1 hc
        | inr e => exact h2 d e
    · rename_i hc
      simp at e
      obtain ⟨rfl, rfl⟩ := e
      refine ⟨[], rfl, by simp, rfl, ?_⟩
      intro d t e hd
      cases e
      exact absurd hd hc

theorem getNum_only {min max : Nat} {l : List Nat} {n : Nat} {r : List Nat} (h : getNum min max l = some (n, r)) :
    ∃ ds, l = ds ++ r ∧ Num n ds ∧ min ≤ n ∧ n ≤ max := by
  unfold getNum at h
  split at h
  · cases h
  · rename_i c t
    split at h
    · cases h
    · rename_i hc
      obtain ⟨⟨k, q⟩, e, h⟩ := Option.bind_eq_some_iff.1 h
      split at h
      · cases h
      · simp at h
        obtain ⟨rfl, rfl⟩ := h
        obtain ⟨ds, h1, h2, h3, h4⟩ := numLoop_only max _ _ _ _ e
        have hl : k ≤ max := by
          clear hc h1 h2 h3 h4
          have : ∀ (l : List Nat) (acc : Nat) (n : Nat) (r : List Nat), acc ≤ max → numLoop max acc l = some (n, r) → n ≤ max := by
            intro l
            induction l with
            | nil => intro acc n r h e; simp [numLoop] at e; omega
            | cons c l ih =>
              intro acc n r h e
              simp only [numLoop] at e
              split at e
              · split at e
                · cases e
                · exact ih _ _ _ (by omega) e
              · simp at e; omega
          exact this _ 0 _ _ (by omega) e
        refine ⟨ds, h1, ⟨h4 c t rfl (by simpa using hc), h2, h3⟩, ?_, hl⟩
        simp at *
        omega

theorem getSecs_only {l : List Nat} {n : Int} {r : List Nat} (h : getSecs l = some (n, r)) : ∃ a, l = a ++ r ∧ Secs n a := by
  unfold getSecs at h
  obtain ⟨⟨a, l1⟩, e1, h⟩ := Option.bind_eq_some_iff.1 h
  obtain ⟨A, q1, n1, _, m1⟩ := getNum_only e1
  simp only at h
  split at h
  · obtain ⟨⟨b, l2⟩, e2, h⟩ := Option.bind_eq_some_iff.1 h
    obtain ⟨B, q2, n2, _, m2⟩ := getNum_only e2
    simp only at h
    split at h
    · obtain ⟨⟨c, l3⟩, e3, h⟩ := Option.bind_eq_some_iff.1 h
      obtain ⟨C, q3, n3, _, m3⟩ := getNum_only e3
      simp at h
      obtain ⟨rfl, rfl⟩ := h
      exact ⟨A ++ 58 :: (B ++ 58 :: C), by rw [q1, q2, q3]; simp, .hms n1 m1 n2 m2 n3 m3⟩
    · simp at h
      obtain ⟨rfl, rfl⟩ := h
      exact ⟨A ++ 58 :: B, by rw [q1, q2]; simp, .hm n1 m1 n2 m2⟩
  · simp at h
    obtain ⟨rfl, rfl⟩ := h
    exact ⟨A, q1, .h n1 m1⟩

theorem getOffset_only {l : List Nat} {n : Int} {r : List Nat} (h : getOffset l = some (n, r)) : ∃ a, l = a ++ r ∧ Offset n a := by
  unfold getOffset at h
  split at h
  · obtain ⟨⟨a, l1⟩, e1, h⟩ := Option.map_eq_some_iff.1 h
    obtain ⟨A, q, s⟩ := getSecs_only e1
    simp at h
    obtain ⟨rfl, rfl⟩ := h
    exact ⟨45 :: A, by rw [q]; rfl, .minus s⟩
  · obtain ⟨A, q, s⟩ := getSecs_only h
    exact ⟨43 :: A, by rw [q]; rfl, .plus s⟩
  · obtain ⟨A, q, s⟩ := getSecs_only h
    exact ⟨A, q, .plain s⟩

theorem getDay_only {l : List Nat} {d : Rule} {r : List Nat} (h : getDay l = some (d, r)) : ∃ a, l = a ++ r ∧ DayText d a := by
  unfold getDay at h
  split at h
  · cases h
  · split at h
    · rename_i hc
      obtain ⟨⟨a, l1⟩, e1, h⟩ := Option.map_eq_some_iff.1 h
      obtain ⟨A, q, n, m, k⟩ := getNum_only e1
      simp at h
      obtain ⟨rfl, rfl⟩ := h
      exact ⟨74 :: A, by rw [hc, q]; rfl, .julian n m k⟩
    · split at h
      · rename_i hc
        obtain ⟨⟨a, l1⟩, e1, h⟩ := Option.bind_eq_some_iff.1 h
        obtain ⟨A, q1, n1, m1, k1⟩ := getNum_only e1
        simp only at h
        split at h
        · obtain ⟨⟨b, l2⟩, e2, h⟩ := Option.bind_eq_some_iff.1 h
          obtain ⟨B, q2, n2, m2, k2⟩ := getNum_only e2
          simp only at h
          split at h
          · obtain ⟨⟨c, l3⟩, e3, h⟩ := Option.map_eq_some_iff.1 h
            obtain ⟨C, q3, n3, m3, k3⟩ := getNum_only e3
            simp at h
            obtain ⟨rfl, rfl⟩ := h
            exact ⟨77 :: (A ++ 46 :: (B ++ 46 :: C)), by rw [hc, q1, q2, q3]; simp, .month n1 m1 k1 n2 m2 k2 n3 k3⟩
          · cases h
        · cases h
      · split at h
        · obtain ⟨⟨a, l1⟩, e1, h⟩ := Option.map_eq_some_iff.1 h
          obtain ⟨A, q, n, m, k⟩ := getNum_only e1
          simp at h
          obtain ⟨rfl, rfl⟩ := h
          exact ⟨A, q, .day n k⟩
        · cases h

theorem getRule_only {l : List Nat} {d : Rule} {t : Int} {r : List Nat} (h : getRule l = some (d, t, r)) :
    ∃ a, l = a ++ r ∧ RuleText d t a := by
  unfold getRule at h
  obtain ⟨⟨a, l1⟩, e1, h⟩ := Option.bind_eq_some_iff.1 h
  obtain ⟨A, q1, n1⟩ := getDay_only e1
  simp only at h
  split at h
  · obtain ⟨⟨b, l2⟩, e2, h⟩ := Option.map_eq_some_iff.1 h
    obtain ⟨B, q2, n2⟩ := getSecs_only e2
    simp at h
    obtain ⟨rfl, rfl, rfl⟩ := h
    exact ⟨A ++ 47 :: B, by rw [q1, q2]; simp, .long n1 n2⟩
  · simp at h
    obtain ⟨rfl, rfl, rfl⟩ := h
    exact ⟨A, q1, .short n1⟩

theorem getName_only : ∀ l : List Nat, l = (getName l).1 ++ (getName l).2 ∧
    ∀ c ∈ (getName l).1, ¬ (48 ≤ c ∧ c ≤ 57) ∧ c ≠ 44 ∧ c ≠ 45 ∧ c ≠ 43 := by
  intro l
  induction l with
  | nil => exact ⟨rfl, by simp [getName]⟩
  | cons c l ih =>
    unfold getName
    split
    · rename_i h
      refine ⟨by rw [List.cons_append, ← ih.1], ?_⟩
      intro d hd
      cases List.mem_cons.1 hd with
      | inl e =>
        rw [e]
        refine ⟨fun q => ?_, h.2⟩
        have := h.1
        rw [(digit_iff c).2 q] at this
        cases this
      | inr e => exact ih.2 d e
    · exact ⟨rfl, by simp⟩

theorem getRules_only {s d : Int} {l : List Nat} {z : Zone} (h : getRules s d l = some z) : z.std = s ∧ z.dst = d ∧
    (l = [] ∧ z = ⟨s, d, .month 4 1 0, 7200, .month 10 5 0, 7200⟩ ∨
      ∃ c x y, (c = 44 ∨ c = 59) ∧ l = c :: (x ++ 44 :: y) ∧ RuleText z.start z.startTime x ∧ RuleText z.stop z.stopTime y) := by
  by_cases hl : l = []
  · subst hl
    rw [getRules_nil] at h
    simp at h
    subst h
    exact ⟨rfl, rfl, Or.inl ⟨rfl, rfl⟩⟩
  · unfold getRules at h
    rw [if_neg hl] at h
    split at h
    · split at h
      · rename_i hc
        obtain ⟨⟨a, ta, l1⟩, e1, h⟩ := Option.bind_eq_some_iff.1 h
        obtain ⟨A, q1, n1⟩ := getRule_only e1
        simp only at h
        split at h
        · obtain ⟨⟨b, tb, l2⟩, e2, h⟩ := Option.bind_eq_some_iff.1 h
          obtain ⟨B, q2, n2⟩ := getRule_only e2
          simp only at h
          split at h
          · rename_i h0
            simp at h
            subst h
            subst h0
            exact ⟨rfl, rfl, Or.inr ⟨_, A, B, hc, by rw [q1, q2]; simp, n1, n2⟩⟩
          · cases h
        · cases h
      · cases h
    · cases h

/-- What is read as an offset alone is a name and that offset. -/
theorem only_fixed {l : List Nat} {s : Int} (h : parse l = some (.fixed s)) : ∃ n o, l = n ++ o ∧ NameText n ∧ Offset s o := by
  obtain ⟨g1, g2⟩ := getName_only l
  unfold parse at h
  simp only at h
  split at h
  · cases h
  · split at h
    · cases h
    · obtain ⟨⟨s', l1⟩, e1, h⟩ := Option.bind_eq_some_iff.1 h
      obtain ⟨A, q1, n1⟩ := getOffset_only e1
      simp only at h
      split at h
      · rename_i h0
        split at h
        · cases h
        · simp at h
          subst h
          rw [h0, List.append_nil] at q1
          exact ⟨_, A, by rw [← q1]; exact g1, ⟨by omega, g2⟩, n1⟩
      · split at h
        · cases h
        · obtain ⟨⟨d, l2⟩, e2, h⟩ := Option.bind_eq_some_iff.1 h
          obtain ⟨z, e3, h⟩ := Option.bind_eq_some_iff.1 h
          split at h
          · cases h
          · simp at h

/-- What is read as a zone with summer time is two names with their offsets, of which the second may be left out, and two rules,
which may be left out as well. -/
theorem only_zone {l : List Nat} {z : Zone} (h : parse l = some (.zone z)) : ∃ n o m p q, l = n ++ (o ++ (m ++ (p ++ q))) ∧
    NameText n ∧ Offset z.std o ∧ NameText m ∧ (p = [] ∧ z.dst = z.std - 3600 ∨ Offset z.dst p) ∧
    (q = [] ∧ z = ⟨z.std, z.dst, .month 4 1 0, 7200, .month 10 5 0, 7200⟩ ∨
      ∃ c x y, (c = 44 ∨ c = 59) ∧ q = c :: (x ++ 44 :: y) ∧ RuleText z.start z.startTime x ∧ RuleText z.stop z.stopTime y) := by
  obtain ⟨g1, g2⟩ := getName_only l
  unfold parse at h
  simp only at h
  split at h
  · cases h
  · split at h
    · cases h
    · obtain ⟨⟨s, l1⟩, e1, h⟩ := Option.bind_eq_some_iff.1 h
      obtain ⟨A, q1, n1⟩ := getOffset_only e1
      simp only at h
      split at h
      · split at h
        · cases h
        · simp at h
      · obtain ⟨g3, g4⟩ := getName_only l1
        split at h
        · cases h
        · obtain ⟨⟨d, l2⟩, e2, h⟩ := Option.bind_eq_some_iff.1 h
          have hp : ∃ p, (getName l1).2 = p ++ l2 ∧ (p = [] ∧ d = s - 3600 ∨ Offset d p) := by
            split at e2
            · simp at e2
              obtain ⟨rfl, rfl⟩ := e2
              exact ⟨[], rfl, Or.inl ⟨rfl, rfl⟩⟩
            · split at e2
              · obtain ⟨B, q2, n2⟩ := getOffset_only e2
                exact ⟨B, q2, Or.inr n2⟩
              · simp at e2
                obtain ⟨rfl, rfl⟩ := e2
                exact ⟨[], rfl, Or.inl ⟨rfl, rfl⟩⟩
          obtain ⟨p, hp, hq⟩ := hp
          obtain ⟨z', e3, h⟩ := Option.bind_eq_some_iff.1 h
          split at h
          · cases h
          · simp at h
            subst h
            obtain ⟨a, b, c⟩ := getRules_only e3
            refine ⟨_, A, _, p, l2, ?_, ⟨by omega, g2⟩, by rw [a]; exact n1, ⟨by omega, g4⟩, by rw [a, b]; exact hq, by rw [a, b]; exact c⟩
            rw [← hp, ← g3, ← q1]
            exact g1

/-- "IST-5:30" and "EST5EDT4;M3.2.0,M11.1.0/1" are read; neither is with a character more. -/
example : parse [73,83,84,45,53,58,51,48] = some (.fixed (-19800)) ∧ parse [73,83,84,45,53,58,51,48,32] = none ∧
    parse [69,83,84,53,69,68,84,52,59,77,51,46,50,46,48,44,77,49,49,46,49,46,48,47,49] =
      some (.zone ⟨18000, 14400, .month 3 2 0, 7200, .month 11 1 0, 3600⟩) ∧
    parse [69,83,84,53,69,68,84,52,59,77,51,46,50,46,48,44,77,49,49,46,49,46,48,47,49,44] = none := by decide +kernel

end Calendar
