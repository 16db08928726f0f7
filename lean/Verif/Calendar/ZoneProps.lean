import Verif.Calendar.Zone
import Verif.Calendar.RulesProps

/-!
# Summer time holds between the changes of the clocks

`S y` and `E y` are the times at which the rules of a zone say that summer time starts and ends in the year `y`; `julian`,
`day_of_year` and `nth_day` say which times these are.  The theorems are partial in that they are about the years from 1970 to 2037,
as no changes of other years are listed: `july_2038` shows what this does.
-/

namespace Calendar
open Spec

/-- The rules of a zone give these times, in the years of which changes are listed. -/
def Zone.Times (z : Zone) (S E : Int → Int) : Prop := ∀ y J, 1970 ≤ y → y ≤ 2037 → After J ⟨y, 0, 1⟩ →
  transTime (J*86400) y z.start z.startTime z.std = some (S y) ∧ transTime (J*86400) y z.stop z.stopTime z.dst = some (E y)

/-- Summer time starts and ends in the same year, and ends before it starts in the next one. -/
def North (S E : Int → Int) : Prop := ∀ y, 1970 ≤ y → y ≤ 2037 → S y ≤ E y ∧ E y ≤ S (y + 1)

/-- Summer time goes over the end of the year. -/
def South (S E : Int → Int) : Prop := ∀ y, 1970 ≤ y → y ≤ 2037 → E y < S y ∧ S y ≤ E (y + 1)

/-- The changes of some years. -/
def pairs (S E : Int → Int) : Nat → Int → List (Int × Bool)
  | 0, _ => []
  | n + 1, y => (if S y > E y then [(E y, false), (S y, true)] else [(S y, true), (E y, false)]) ++ pairs S E n (y + 1)

theorem changes_eq {z : Zone} {S E : Int → Int} (h : z.Times S E) : ∀ (n : Nat) (y : Int), 1970 ≤ y → y + n ≤ 2038 →
    changes z n y (dn y*86400) = some (pairs S E n y) := by
  intro n
  induction n with
  | zero => intro y _ _; rfl
  | succ n ih =>
    intro y h1 h2
    obtain ⟨a, b⟩ := h y (dn y) h1 (by omega) (after_jan y)
    have hi := ih (y + 1) (by omega) (by omega)
    rw [dn_succ, Int.add_mul] at hi
    unfold changes
    rw [a, Option.bind_some, b, Option.bind_some, hi]
    rfl

theorem zone_eq {z : Zone} {S E : Int → Int} (h : z.Times S E) : zoneChanges z = some (pairs S E 68 1970) := by
  have := changes_eq h 68 1970 (by omega) (by omega)
  rw [dn_1970] at this
  exact this

theorem pairs_append (S E : Int → Int) : ∀ (a b : Nat) (y : Int), pairs S E (a + b) y = pairs S E a y ++ pairs S E b (y + a) := by
  intro a
  induction a with
  | zero => intro b y; simp [pairs]
  | succ a ih =>
    intro b y
    rw [show a + 1 + b = (a + b) + 1 by omega]
    have u : ∀ n, pairs S E (n + 1) y =
        (if S y > E y then [(E y, false), (S y, true)] else [(S y, true), (E y, false)]) ++ pairs S E n (y + 1) := fun _ => rfl
    rw [u, u, ih, List.append_assoc, show y + 1 + (a : Int) = y + ((a + 1 : Nat) : Int) by omega]

theorem scan_spec (t : Int) : ∀ (pre : List (Int × Bool)) (cur : Bool) (a : Int) (b : Bool) (post : List (Int × Bool)),
    (∀ p ∈ pre, p.1 ≤ t) → a ≤ t → (∀ p, post.head? = some p → t < p.1) → scan t cur (pre ++ (a, b) :: post) = b := by
  intro pre
  induction pre with
  | nil =>
    intro cur a b post _ ha hp
    simp only [List.nil_append, scan]
    rw [if_neg (by omega)]
    cases post with
    | nil => rfl
    | cons p r => obtain ⟨x, y⟩ := p; simp only [scan]; rw [if_pos (hp (x, y) rfl)]
  | cons p pre ih =>
    intro cur a b post h ha hp
    obtain ⟨x, y⟩ := p
    have := h (x, y) (by simp)
    simp only at this
    simp only [List.cons_append, scan]
    rw [if_neg (by omega)]
    exact ih y a b post (fun q hq => h q (by simp [hq])) ha hp

theorem summer_spec (t : Int) (pre : List (Int × Bool)) (a : Int) (b : Bool) (post : List (Int × Bool))
    (h : ∀ p ∈ pre, p.1 ≤ t) (ha : a ≤ t) (hp : ∀ p, post.head? = some p → t < p.1) :
    summer t (pre ++ (a, b) :: post) = b := by
  have := scan_spec t pre false a b post h ha hp
  cases pre with
  | nil => simp only [List.nil_append, scan] at this ⊢; unfold summer; exact this
  | cons p pre =>
    obtain ⟨x, y⟩ := p
    simp only [List.cons_append, scan] at this ⊢
    unfold summer
    exact this

/-- The changes of the years before one, those of that year, and those after it. -/
theorem pairs_at (S E : Int → Int) (y : Int) (h1 : 1970 ≤ y) (h2 : y ≤ 2037) : ∃ a b : Nat, (a : Int) = y - 1970 ∧ (b : Int) = 2037 - y ∧
    pairs S E 68 1970 = pairs S E a 1970 ++
      ((if S y > E y then [(E y, false), (S y, true)] else [(S y, true), (E y, false)]) ++ pairs S E b (y + 1)) := by
  refine ⟨(y - 1970).toNat, (2037 - y).toNat, by omega, by omega, ?_⟩
  have e : 68 = (y - 1970).toNat + ((2037 - y).toNat + 1) := by omega
  rw [e, pairs_append, show (1970 : Int) + ((y - 1970).toNat : Int) = y by omega]
  rfl

theorem north_before {S E : Int → Int} (h : North S E) : ∀ (a : Nat) (y : Int), 1970 ≤ y → y + a ≤ 2038 →
    (∀ p ∈ pairs S E a y, p.1 ≤ S (y + a)) ∧ S y ≤ S (y + a) := by
  intro a
  induction a with
  | zero => intro y _ _; simp [pairs]
  | succ a ih =>
    intro y h1 h2
    obtain ⟨o1, o2⟩ := h y h1 (by omega)
    obtain ⟨i1, i2⟩ := ih (y + 1) (by omega) (by omega)
    rw [show y + ((a + 1 : Nat) : Int) = y + 1 + a by omega]
    refine ⟨?_, by omega⟩
    intro p hp
    unfold pairs at hp
    rw [if_neg (by omega)] at hp
    simp only [List.cons_append, List.nil_append, List.mem_cons] at hp
    rcases hp with hp | hp | hp
    · subst hp; simp only; omega
    · subst hp; simp only; omega
    · exact i1 p hp

theorem south_before {S E : Int → Int} (h : South S E) : ∀ (a : Nat) (y : Int), 1970 ≤ y → y + a ≤ 2038 →
    (∀ p ∈ pairs S E a y, p.1 ≤ E (y + a)) ∧ E y ≤ E (y + a) := by
  intro a
  induction a with
  | zero => intro y _ _; simp [pairs]
  | succ a ih =>
    intro y h1 h2
    obtain ⟨o1, o2⟩ := h y h1 (by omega)
    obtain ⟨i1, i2⟩ := ih (y + 1) (by omega) (by omega)
    rw [show y + ((a + 1 : Nat) : Int) = y + 1 + a by omega]
    refine ⟨?_, by omega⟩
    intro p hp
    unfold pairs at hp
    rw [if_pos (by omega)] at hp
    simp only [List.cons_append, List.nil_append, List.mem_cons] at hp
    rcases hp with hp | hp | hp
    · subst hp; simp only; omega
    · subst hp; simp only; omega
    · exact i1 p hp

theorem head_pairs {S E : Int → Int} {b : Nat} {y : Int} {p : Int × Bool} (h : (pairs S E b y).head? = some p) :
    b ≠ 0 ∧ p.1 = if S y > E y then E y else S y := by
  cases b with
  | zero => simp [pairs] at h
  | succ b =>
    refine ⟨by omega, ?_⟩
    unfold pairs at h
    split at h
    · simp at h; rw [if_pos (by assumption), ← h]
    · simp at h; rw [if_neg (by assumption), ← h]

theorem local_eq {z : Zone} {S E : Int → Int} (h : z.Times S E) {t : Int} {b : Bool} (hb : summer t (pairs S E 68 1970) = b) :
    localTime z t = (timeSub t (if b then -z.dst else -z.std)).map fun d => (d, b) := by
  unfold localTime
  rw [zone_eq h, Option.bind_some, hb]

/-- In the north: summer time from its start to its end. -/
theorem summer_north_partial {z : Zone} {S E : Int → Int} (h : z.Times S E) (ho : North S E) (y t : Int) (h1 : 1970 ≤ y) (h2 : y ≤ 2037)
    (ha : S y ≤ t) (hb : t < E y) : localTime z t = (timeSub t (-z.dst)).map fun d => (d, true) := by
  obtain ⟨a, b, ea, eb, e⟩ := pairs_at S E y h1 h2
  have hp := north_before ho a 1970 (by omega) (by omega)
  rw [show (1970 : Int) + a = y by omega] at hp
  refine local_eq h ?_
  rw [e, if_neg (by omega)]
  refine summer_spec t _ (S y) true ((E y, false) :: pairs S E b (y + 1)) (fun p q => Int.le_trans (hp.1 p q) ha) ha ?_
  intro p q
  simp at q
  subst q
  exact hb

/-- In the north: standard time from the end of summer time to its start in the next year. -/
theorem winter_north_partial {z : Zone} {S E : Int → Int} (h : z.Times S E) (ho : North S E) (y t : Int) (h1 : 1970 ≤ y) (h2 : y ≤ 2036)
    (ha : E y ≤ t) (hb : t < S (y + 1)) : localTime z t = (timeSub t (-z.std)).map fun d => (d, false) := by
  obtain ⟨a, b, ea, eb, e⟩ := pairs_at S E y h1 (by omega)
  have hp := north_before ho a 1970 (by omega) (by omega)
  rw [show (1970 : Int) + a = y by omega] at hp
  obtain ⟨o1, o2⟩ := ho y h1 (by omega)
  obtain ⟨o3, o4⟩ := ho (y + 1) (by omega) (by omega)
  refine local_eq h ?_
  rw [e, if_neg (by omega), List.cons_append, List.append_cons, List.cons_append, List.nil_append]
  refine summer_spec t _ (E y) false (pairs S E b (y + 1)) ?_ ha ?_
  · intro p q
    rw [List.mem_append, List.mem_singleton] at q
    rcases q with q | q
    · have := hp.1 p q; omega
    · subst q; simp only; omega
  · intro p q
    have := (head_pairs q).2
    rw [if_neg (by omega)] at this
    omega

/-- In the south: standard time from the end of summer time to its start in the same year. -/
theorem winter_south_partial {z : Zone} {S E : Int → Int} (h : z.Times S E) (ho : South S E) (y t : Int) (h1 : 1970 ≤ y) (h2 : y ≤ 2037)
    (ha : E y ≤ t) (hb : t < S y) : localTime z t = (timeSub t (-z.std)).map fun d => (d, false) := by
  obtain ⟨a, b, ea, eb, e⟩ := pairs_at S E y h1 h2
  have hp := south_before ho a 1970 (by omega) (by omega)
  rw [show (1970 : Int) + a = y by omega] at hp
  obtain ⟨o1, o2⟩ := ho y h1 (by omega)
  refine local_eq h ?_
  rw [e, if_pos (by omega)]
  refine summer_spec t _ (E y) false ((S y, true) :: pairs S E b (y + 1)) (fun p q => Int.le_trans (hp.1 p q) ha) ha ?_
  intro p q
  simp at q
  subst q
  exact hb

/-- In the south: summer time from its start to its end in the next year. -/
theorem summer_south_partial {z : Zone} {S E : Int → Int} (h : z.Times S E) (ho : South S E) (y t : Int) (h1 : 1970 ≤ y) (h2 : y ≤ 2036)
    (ha : S y ≤ t) (hb : t < E (y + 1)) : localTime z t = (timeSub t (-z.dst)).map fun d => (d, true) := by
  obtain ⟨a, b, ea, eb, e⟩ := pairs_at S E y h1 (by omega)
  have hp := south_before ho a 1970 (by omega) (by omega)
  rw [show (1970 : Int) + a = y by omega] at hp
  obtain ⟨o1, o2⟩ := ho y h1 (by omega)
  obtain ⟨o3, o4⟩ := ho (y + 1) (by omega) (by omega)
  refine local_eq h ?_
  rw [e, if_pos (by omega), List.cons_append, List.append_cons, List.cons_append, List.nil_append]
  refine summer_spec t _ (S y) true (pairs S E b (y + 1)) ?_ ha ?_
  · intro p q
    rw [List.mem_append, List.mem_singleton] at q
    rcases q with q | q
    · have := hp.1 p q; omega
    · subst q; simp only; omega
  · intro p q
    have := (head_pairs q).2
    rw [if_pos (by omega)] at this
    omega

/-- After the last year of which changes are listed there is no summer time in the north, whatever the rules say. -/
theorem no_summer_after_2037 {z : Zone} {S E : Int → Int} (h : z.Times S E) (ho : North S E) (t : Int) (ha : E 2037 ≤ t) :
    localTime z t = (timeSub t (-z.std)).map fun d => (d, false) := by
  obtain ⟨a, b, ea, eb, e⟩ := pairs_at S E 2037 (by omega) (by omega)
  have hp := north_before ho a 1970 (by omega) (by omega)
  rw [show (1970 : Int) + a = 2037 by omega] at hp
  obtain ⟨o1, o2⟩ := ho 2037 (by omega) (by omega)
  refine local_eq h ?_
  rw [e, if_neg (by omega), List.cons_append, List.append_cons, List.cons_append, List.nil_append]
  refine summer_spec t _ (E 2037) false (pairs S E b (2037 + 1)) ?_ ha ?_
  · intro p q
    rw [List.mem_append, List.mem_singleton] at q
    rcases q with q | q
    · have := hp.1 p q; omega
    · subst q; simp only; omega
  · intro p q
    have := (head_pairs q).1
    omega

/-- Before the first change it is not summer time. -/
theorem standard_before {z : Zone} {S E : Int → Int} (h : z.Times S E) (t : Int) (hs : t < S 1970) (he : t < E 1970) :
    localTime z t = (timeSub t (-z.std)).map fun d => (d, false) := by
  refine local_eq h ?_
  obtain ⟨a, b, ea, eb, e⟩ := pairs_at S E 1970 (by omega) (by omega)
  have e0 : a = 0 := by omega
  subst e0
  rw [e]
  simp only [pairs, List.nil_append]
  split
  · simp only [List.cons_append, summer]; rw [if_pos he]
  · simp only [List.cons_append, summer]; rw [if_pos hs]

/-- New York: five hours, summer time from the second Sunday of March to the first of November. -/
def newYork : Zone := ⟨18000, 14400, .month 3 2 0, 7200, .month 11 1 0, 7200⟩

/-- The times of its changes. -/
def newYorkS (y : Int) : Int := (transTime (dn y*86400) y newYork.start 7200 18000).getD 0
def newYorkE (y : Int) : Int := (transTime (dn y*86400) y newYork.stop 7200 14400).getD 0

theorem newYork_times : newYork.Times newYorkS newYorkE := by
  intro y J h1 h2 hJ
  rw [jan_number hJ]
  obtain ⟨n, a, e, _⟩ := nth_day y (dn y) 3 2 0 7200 18000 (after_jan y) (by omega) (by omega) (by omega) (by omega)
  obtain ⟨n', a', e', _⟩ := nth_day y (dn y) 11 1 0 7200 14400 (after_jan y) (by omega) (by omega) (by omega) (by omega)
  constructor
  · have : newYorkS y = n*86400 + 7200 + 18000 := by unfold newYorkS; rw [show newYork.start = .month 3 2 0 from rfl, e]; rfl
    rw [this]; exact e
  · have : newYorkE y = n'*86400 + 7200 + 14400 := by unfold newYorkE; rw [show newYork.stop = .month 11 1 0 from rfl, e']; rfl
    rw [this]; exact e'

theorem newYork_north : North newYorkS newYorkE := by
  have h : ∀ k < 68, newYorkS (1970 + (k : Nat)) ≤ newYorkE (1970 + (k : Nat)) ∧
      newYorkE (1970 + (k : Nat)) ≤ newYorkS (1970 + (k : Nat) + 1) := by decide +kernel
  intro y h1 h2
  have := h (y - 1970).toNat (by omega)
  rw [show (1970 : Int) + ((y - 1970).toNat : Int) = y by omega] at this
  exact this

/-- Noon of the first of July 2026 is in summer, and that of 2038 should be. -/
example : newYorkS 2026 ≤ 1782921600 ∧ 1782921600 < newYorkE 2026 := by decide +kernel

example : localTime newYork 1782921600 = some (⟨2026, 6, 1, 12, 0, 0, 3, 181⟩, true) := by decide +kernel

/-- In July 2038, between the start and the end of summer time by the rules of New York, it is not summer time. -/
theorem july_2038 : newYorkS 2038 ≤ 2161612800 ∧ 2161612800 < newYorkE 2038 ∧
    localTime newYork 2161612800 = some (⟨2038, 6, 1, 11, 0, 0, 4, 181⟩, false) := by decide +kernel

/-- Sydney: summer time from the first Sunday of October to that of April. -/
def sydney : Zone := ⟨-36000, -39600, .month 10 1 0, 7200, .month 4 1 0, 10800⟩

def sydneyS (y : Int) : Int := (transTime (dn y*86400) y sydney.start 7200 (-36000)).getD 0
def sydneyE (y : Int) : Int := (transTime (dn y*86400) y sydney.stop 10800 (-39600)).getD 0

example : sydney.Times sydneyS sydneyE := by
  intro y J h1 h2 hJ
  rw [jan_number hJ]
  obtain ⟨n, a, e, _⟩ := nth_day y (dn y) 10 1 0 7200 (-36000) (after_jan y) (by omega) (by omega) (by omega) (by omega)
  obtain ⟨n', a', e', _⟩ := nth_day y (dn y) 4 1 0 10800 (-39600) (after_jan y) (by omega) (by omega) (by omega) (by omega)
  constructor
  · have : sydneyS y = n*86400 + 7200 + -36000 := by unfold sydneyS; rw [show sydney.start = .month 10 1 0 from rfl, e]; rfl
    rw [this]; exact e
  · have : sydneyE y = n'*86400 + 10800 + -39600 := by unfold sydneyE; rw [show sydney.stop = .month 4 1 0 from rfl, e']; rfl
    rw [this]; exact e'

example : South sydneyS sydneyE := by
  have h : ∀ k < 68, sydneyE (1970 + (k : Nat)) < sydneyS (1970 + (k : Nat)) ∧
      sydneyS (1970 + (k : Nat)) ≤ sydneyE (1970 + (k : Nat) + 1) := by decide +kernel
  intro y h1 h2
  have := h (y - 1970).toNat (by omega)
  rw [show (1970 : Int) + ((y - 1970).toNat : Int) = y by omega] at this
  exact this

/-- New Year of 2027 is in summer. -/
example : localTime sydney 1798722000 = some (⟨2027, 0, 1, 0, 0, 0, 5, 0⟩, true) := by decide +kernel

end Calendar
