import Verif.Calendar.Text
import Verif.Calendar.ZoneProps

/-!
# Whatever the text of a zone, its local time is a date

A text may be anything at all: it is refused, or it gives a zone whose rules and offsets are in their ranges, and then every
time has a local date.
-/

namespace Calendar
namespace Spec

/-- A rule which names a day of a year. -/
def RuleIn : Rule → Prop
  | .julian n => 1 ≤ n ∧ n ≤ 365
  | .day n => 0 ≤ n ∧ n ≤ 365
  | .month m w d => (1 ≤ m ∧ m ≤ 12) ∧ (1 ≤ w ∧ w ≤ 5) ∧ 0 ≤ d ∧ d ≤ 6

/-- A zone whose rules name days and whose offsets and times are of about a week. -/
def ZoneIn (z : Zone) : Prop :=
  RuleIn z.start ∧ RuleIn z.stop ∧ (-604800 ≤ z.std ∧ z.std ≤ 604800) ∧ (-608400 ≤ z.dst ∧ z.dst ≤ 604800) ∧
    (0 ≤ z.startTime ∧ z.startTime ≤ 604800) ∧ 0 ≤ z.stopTime ∧ z.stopTime ≤ 604800

end Spec

open Spec

theorem numLoop_le (max : Nat) : ∀ (l : List Nat) (acc : Nat) (n : Nat) (r : List Nat), acc ≤ max →
    numLoop max acc l = some (n, r) → n ≤ max := by
  intro l
  induction l with
  | nil => intro acc n r h e; simp [numLoop] at e; omega
  | cons c l ih =>
    intro acc n r h e
    simp only [numLoop] at e
    split at e
    · split at e
      · cases e
      · exact ih _ _ _ (by omega) e
    · simp at e; omega

theorem getNum_in {min max : Nat} {l : List Nat} {n : Nat} {r : List Nat} (h : getNum min max l = some (n, r)) : min ≤ n ∧ n ≤ max := by
  unfold getNum at h
  split at h
  · cases h
  · split at h
    · cases h
    · obtain ⟨⟨k, q⟩, e, h⟩ := Option.bind_eq_some_iff.1 h
      split at h
      · cases h
      · simp at h
        obtain ⟨rfl, rfl⟩ := h
        have := numLoop_le max _ 0 _ _ (by omega) e
        simp at *
        omega

theorem getSecs_in {l : List Nat} {n : Int} {r : List Nat} (h : getSecs l = some (n, r)) : 0 ≤ n ∧ n ≤ 604800 := by
  unfold getSecs at h
  obtain ⟨⟨a, l1⟩, e1, h⟩ := Option.bind_eq_some_iff.1 h
  have h1 := getNum_in e1
  simp only at h
  split at h
  · obtain ⟨⟨b, l2⟩, e2, h⟩ := Option.bind_eq_some_iff.1 h
    have h2 := getNum_in e2
    simp only at h
    split at h
    · obtain ⟨⟨c, l3⟩, e3, h⟩ := Option.bind_eq_some_iff.1 h
      have h3 := getNum_in e3
      simp at h
      omega
    · simp at h; omega
  · simp at h; omega

theorem getOffset_in {l : List Nat} {n : Int} {r : List Nat} (h : getOffset l = some (n, r)) : -604800 ≤ n ∧ n ≤ 604800 := by
  unfold getOffset at h
  split at h
  · obtain ⟨⟨a, l1⟩, e1, h⟩ := Option.map_eq_some_iff.1 h
    have := getSecs_in e1
    simp at h
    omega
  · have := getSecs_in h; omega
  · have := getSecs_in h; omega

theorem getDay_in {l : List Nat} {d : Rule} {r : List Nat} (h : getDay l = some (d, r)) : RuleIn d := by
  unfold getDay at h
  split at h
  · cases h
  · split at h
    · obtain ⟨⟨a, l1⟩, e1, h⟩ := Option.map_eq_some_iff.1 h
      have := getNum_in e1
      simp at h
      rw [← h.1]
      simp only [RuleIn]; omega
    · split at h
      · obtain ⟨⟨a, l1⟩, e1, h⟩ := Option.bind_eq_some_iff.1 h
        have h1 := getNum_in e1
        simp only at h
        split at h
        · obtain ⟨⟨b, l2⟩, e2, h⟩ := Option.bind_eq_some_iff.1 h
          have h2 := getNum_in e2
          simp only at h
          split at h
          · obtain ⟨⟨c, l3⟩, e3, h⟩ := Option.map_eq_some_iff.1 h
            have h3 := getNum_in e3
            simp at h
            rw [← h.1]
            simp only [RuleIn]; omega
          · cases h
        · cases h
      · split at h
        · obtain ⟨⟨a, l1⟩, e1, h⟩ := Option.map_eq_some_iff.1 h
          have := getNum_in e1
          simp at h
          rw [← h.1]
          simp only [RuleIn]; omega
        · cases h

theorem getRule_in {l : List Nat} {d : Rule} {t : Int} {r : List Nat} (h : getRule l = some (d, t, r)) :
    RuleIn d ∧ 0 ≤ t ∧ t ≤ 604800 := by
  unfold getRule at h
  obtain ⟨⟨a, l1⟩, e1, h⟩ := Option.bind_eq_some_iff.1 h
  have h1 := getDay_in e1
  simp only at h
  split at h
  · obtain ⟨⟨b, l2⟩, e2, h⟩ := Option.map_eq_some_iff.1 h
    have h2 := getSecs_in e2
    simp at h
    obtain ⟨rfl, rfl, _⟩ := h
    exact ⟨h1, h2⟩
  · simp at h
    obtain ⟨rfl, rfl, _⟩ := h
    exact ⟨h1, by omega, by omega⟩

theorem getRules_in {s d : Int} {l : List Nat} {z : Zone} (h : getRules s d l = some z) : z.std = s ∧ z.dst = d ∧ RuleIn z.start ∧
    RuleIn z.stop ∧ (0 ≤ z.startTime ∧ z.startTime ≤ 604800) ∧ 0 ≤ z.stopTime ∧ z.stopTime ≤ 604800 := by
  unfold getRules at h
  split at h
  · split at h
    · obtain ⟨⟨a, ta, l1⟩, e1, h⟩ := Option.bind_eq_some_iff.1 h
      have h1 := getRule_in e1
      simp only at h
      split at h
      · obtain ⟨⟨b, tb, l2⟩, e2, h⟩ := Option.bind_eq_some_iff.1 h
        have h2 := getRule_in e2
        simp only at h
        split at h
        · simp at h
          subst h
          exact ⟨rfl, rfl, h1.1, h2.1, h1.2, h2.2⟩
        · cases h
      · cases h
    · cases h
  · cases h

/-- What is read of any text is in its ranges. -/
theorem parse_in {l : List Nat} {p : Parsed} (h : parse l = some p) :
    match p with
    | .fixed s => -604800 ≤ s ∧ s ≤ 604800
    | .zone z => ZoneIn z := by
  unfold parse at h
  simp only at h
  split at h
  · cases h
  · split at h
    · cases h
    · obtain ⟨⟨s, l1⟩, e1, h⟩ := Option.bind_eq_some_iff.1 h
      have h1 := getOffset_in e1
      simp only at h
      split at h
      · split at h
        · cases h
        · simp at h; subst h; exact h1
      · split at h
        · cases h
        · obtain ⟨⟨d, l2⟩, e2, h⟩ := Option.bind_eq_some_iff.1 h
          have h2 : -608400 ≤ d ∧ d ≤ 604800 := by
            split at e2
            · simp at e2; omega
            · split at e2
              · have := getOffset_in e2; omega
              · simp at e2; omega
          obtain ⟨z, e3, h⟩ := Option.bind_eq_some_iff.1 h
          split at h
          · cases h
          · simp at h
            subst h
            obtain ⟨a, b, c, e, f, g⟩ := getRules_in e3
            exact ⟨c, e, by rw [a]; exact h1, by rw [b]; exact h2, f, g⟩

theorem trans_some {r : Rule} (h : RuleIn r) (y J time offset : Int) (hy : 1970 ≤ y) (hJ : After J ⟨y, 0, 1⟩) :
    ∃ t, transTime (J*86400) y r time offset = some t := by
  cases r with
  | julian n => exact ⟨_, rfl⟩
  | day n => exact ⟨_, rfl⟩
  | month m w d =>
    obtain ⟨n, a, e, _⟩ := nth_day y J m w d time offset hJ (by omega) h.1 h.2.1 h.2.2
    exact ⟨_, e⟩

theorem zone_times {z : Zone} (h : ZoneIn z) : z.Times (fun y => (transTime (dn y*86400) y z.start z.startTime z.std).getD 0)
    (fun y => (transTime (dn y*86400) y z.stop z.stopTime z.dst).getD 0) := by
  intro y J h1 _ hJ
  rw [jan_number hJ]
  obtain ⟨a, ea⟩ := trans_some h.1 y (dn y) z.startTime z.std h1 (after_jan y)
  obtain ⟨b, eb⟩ := trans_some h.2.1 y (dn y) z.stopTime z.dst h1 (after_jan y)
  simp only [ea, eb]
  exact ⟨rfl, rfl⟩

/-- Whatever the text, a zone with summer time which is read of it gives every time a date of the calendar, at one of its two
offsets, and says which. -/
theorem answers {l : List Nat} {z : Zone} (h : parse l = some (.zone z)) (t : Int) (h1 : -2^55 ≤ t) (h2 : t ≤ 2^55) :
    ∃ d b, localTime z t = some (d, b) ∧
      After ((t - if b then z.dst else z.std)/86400) ⟨d.year, d.mon, d.mday⟩ ∧
      d.hour*3600 + d.min*60 + d.sec = (t - if b then z.dst else z.std) % 86400 := by
  have hz : ZoneIn z := parse_in h
  have ht := zone_times hz
  obtain ⟨_, _, hs, hd, _⟩ := hz
  generalize hb : summer t (pairs _ _ 68 1970) = b at *
  have e := local_eq ht hb
  cases b with
  | false =>
    obtain ⟨d, a1, a2, _, a4, _⟩ := date t (-z.std) h1 h2 (by omega) (by omega)
    simp only [Bool.false_eq_true, if_false] at e ⊢
    rw [a1] at e
    exact ⟨d, false, e, a2, a4⟩
  | true =>
    obtain ⟨d, a1, a2, _, a4, _⟩ := date t (-z.dst) h1 h2 (by omega) (by omega)
    simp only [if_true] at e
    rw [a1] at e
    exact ⟨d, true, e, a2, a4⟩

/-- And so does one without summer time. -/
theorem answers_fixed {l : List Nat} {s : Int} (h : parse l = some (.fixed s)) (t : Int) (h1 : -2^55 ≤ t) (h2 : t ≤ 2^55) :
    ∃ d, timeSub t (-s) = some d ∧ After ((t - s)/86400) ⟨d.year, d.mon, d.mday⟩ ∧
      d.hour*3600 + d.min*60 + d.sec = (t - s) % 86400 := by
  have hs : -604800 ≤ s ∧ s ≤ 604800 := parse_in h
  obtain ⟨d, a1, a2, _, a4, _⟩ := date t (-s) h1 h2 (by omega) (by omega)
  exact ⟨d, a1, a2, a4⟩

/-- "EST5EDT,M3.2.0,M11.1.0" and "IST-5:30" are read. -/
example : parse [69,83,84,53,69,68,84,44,77,51,46,50,46,48,44,77,49,49,46,49,46,48] = some (.zone newYork) ∧
    parse [73,83,84,45,53,58,51,48] = some (.fixed (-19800)) := by decide +kernel

end Calendar
