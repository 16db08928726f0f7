import Verif.Calendar.Spec

/-! # Lemmas about dates -/

namespace Calendar
open Spec

/-- The days from the first of January 1970 to that of a year. -/
def dn (y : Int) : Int := 365*(y - 1970) + ((y - 1)/4 - (y - 1)/100 + (y - 1)/400) - 477

theorem leaps_eq (y : Int) : leaps y = y/4 - y/100 + y/400 := by
  unfold leaps; split <;> omega

theorem isLeap_iff (y : Int) : isLeap y = true ↔ Leap y := by
  simp [isLeap, Leap]; omega

theorem yearLength_eq (y : Int) : yearLength y = if Leap y then 366 else 365 := by
  unfold yearLength
  by_cases h : Leap y
  · rw [if_pos h, if_pos ((isLeap_iff y).2 h)]
  · rw [if_neg h, if_neg (fun q => h ((isLeap_iff y).1 q))]

theorem dn_succ (y : Int) : dn (y + 1) = dn y + yearLength y := by
  rw [yearLength_eq]
  unfold dn
  split <;> rename_i h <;> unfold Leap at h <;> omega

theorem yl_bounds (y : Int) : 365 ≤ yearLength y ∧ yearLength y ≤ 366 := by
  unfold yearLength; split <;> omega

theorem dn_add (y : Int) (k : Nat) : 365*(k : Int) ≤ dn (y + k) - dn y ∧ dn (y + k) - dn y ≤ 366*(k : Int) := by
  induction k with
  | zero => simp
  | succ k ih =>
    have h := dn_succ (y + k)
    have hb := yl_bounds (y + k)
    have e : y + ((k + 1 : Nat) : Int) = y + k + 1 := by omega
    rw [e]
    omega

theorem dn_diff (y z : Int) (h : y ≤ z) : 365*(z - y) ≤ dn z - dn y ∧ dn z - dn y ≤ 366*(z - y) := by
  have := dn_add y (z - y).toNat
  have e : ((z - y).toNat : Int) = z - y := by omega
  rw [e] at this
  have e2 : y + (z - y) = z := by omega
  rw [e2] at this
  exact this

theorem step_eq (y y' days : Int) : days - (y' - y)*365 - (leaps (y' - 1) - leaps (y - 1)) = days + dn y - dn y' := by
  rw [leaps_eq, leaps_eq]; unfold dn; omega

theorem addYears_ok {y d : Int} (h : -2147483648 ≤ y + d ∧ y + d ≤ 2147483647) : addYears y d = some (y + d) := by
  unfold addYears; rw [if_pos]; simpa [int] using h

theorem dn_1970 : dn 1970 = 0 := by decide

/-- The loop finds the year. -/
theorem years_spec : ∀ (n : Nat) (y days : Int), -1200000000 ≤ y → y ≤ 1200000000 →
    dn y + days ≤ 420000000000 → -420000000000 ≤ dn y + days → -420000001000 ≤ days → days ≤ 420000001000 →
    (0 ≤ days → days < n) → (days < 0 → -days + 1 < n) →
    ∃ y' d', years n y days = some (y', d') ∧ dn y' + d' = dn y + days ∧ 0 ≤ d' ∧ d' < yearLength y' ∧
      -1200000000 ≤ y' ∧ y' ≤ 1200000000 := by
  intro n
  induction n with
  | zero => intro y days _ _ _ _ _ _ h1 h2; omega
  | succ n ih =>
    intro y days hy1 hy2 hu hl hd1 hd2 h1 h2
    have hb := yl_bounds y
    have h0 := dn_1970
    unfold years
    by_cases hc : days < 0 ∨ days ≥ yearLength y
    · rw [if_pos hc]
      have hA := dn_diff y 1970
      have hB := dn_diff 1970 y
      have hint : int (cdiv days 366) = true := by
        unfold int cdiv
        apply decide_eq_true
        split <;> omega
      simp only [hint, Bool.not_true, Bool.false_eq_true, if_false]
      generalize hd : (if cdiv days 366 = 0 then (if days < 0 then (-1 : Int) else 1) else cdiv days 366) = delta
      have hdel : (0 ≤ days → 1 ≤ delta ∧ (366 ≤ days → delta*366 ≤ days) ∧ (days < 366 → delta = 1)) ∧
          (days < 0 → delta ≤ -1 ∧ (delta*366 ≥ days ∨ delta = -1)) := by
        rw [← hd]; unfold cdiv
        constructor <;> intro h <;> (repeat' split) <;> omega
      clear hd
      obtain ⟨hp, hn⟩ := hdel
      by_cases hs : days < 0
      · obtain ⟨hn1, hn2⟩ := hn hs
        have hC := dn_diff (y + delta) y (by omega)
        have hD := dn_diff (y + delta) 1970
        have hE := dn_diff 1970 (y + delta)
        have hyl := yl_bounds (y + delta)
        have hone : delta = -1 → dn y = dn (y + delta) + yearLength (y + delta) := by
          intro h; rw [← dn_succ]; congr 1; omega
        have hr : -1200000000 ≤ y + delta ∧ y + delta ≤ 1200000000 := by omega
        rw [addYears_ok (by omega)]
        simp only [Option.bind_some]
        rw [step_eq]
        have hnew : days + dn y - dn (y + delta) < 0 ∨
            (0 ≤ days + dn y - dn (y + delta) ∧ days + dn y - dn (y + delta) < yearLength (y + delta)) := by
          omega
        rcases hnew with hnew | hnew
        · obtain ⟨y', d', e1, e2, e3, e4⟩ := ih (y + delta) (days + dn y - dn (y + delta)) hr.1 hr.2 (by omega) (by omega)
            (by omega) (by omega)
            (by omega) (by omega)
          exact ⟨y', d', e1, by omega, e3, e4⟩
        · cases n with
          | zero => omega
          | succ n =>
            unfold years
            rw [if_neg (by omega)]
            exact ⟨_, _, rfl, by omega, hnew.1, hnew.2, hr⟩
      · obtain ⟨hp1, hp2, hp3⟩ := hp (by omega)
        have hC := dn_diff y (y + delta) (by omega)
        have hD := dn_diff (y + delta) 1970
        have hE := dn_diff 1970 (y + delta)
        have hone : delta = 1 → dn (y + delta) = dn y + yearLength y := by
          intro h; rw [← dn_succ, h]
        have hnew : 0 ≤ days + dn y - dn (y + delta) := by
          by_cases h : days < 366
          · have := hone (hp3 h); omega
          · omega
        have hr : -1200000000 ≤ y + delta ∧ y + delta ≤ 1200000000 := by omega
        rw [addYears_ok (by omega)]
        simp only [Option.bind_some]
        rw [step_eq]
        obtain ⟨y', d', e1, e2, e3, e4⟩ := ih (y + delta) (days + dn y - dn (y + delta)) hr.1 hr.2 (by omega) (by omega)
            (by omega) (by omega)
          (by omega) (by omega)
        exact ⟨y', d', e1, by omega, e3, e4⟩
    · rw [if_neg hc]
      exact ⟨y, days, rfl, rfl, by omega, by omega, hy1, hy2⟩

theorem down_spec (rem days : Int) : (down rem days).2*86400 + (down rem days).1 = days*86400 + rem ∧ 0 ≤ (down rem days).1 ∧
    (0 ≤ rem → down rem days = (rem, days)) := by
  fun_induction down rem days with
  | case1 rem days h ih => obtain ⟨a, b, _⟩ := ih; exact ⟨by omega, b, by omega⟩
  | case2 rem days h => exact ⟨rfl, by simp; omega, fun _ => rfl⟩

theorem up_spec (rem days : Int) (h0 : 0 ≤ rem) : (up rem days).2*86400 + (up rem days).1 = days*86400 + rem ∧
    0 ≤ (up rem days).1 ∧ (up rem days).1 < 86400 := by
  fun_induction up rem days with
  | case1 rem days h ih => obtain ⟨a, b, c⟩ := ih (by omega); exact ⟨by omega, b, c⟩
  | case2 rem days h => exact ⟨rfl, h0, by simp; omega⟩

theorem back_spec : ∀ (n : Nat) (y days : Int), -2147000000 + n ≤ y → y ≤ 2147000000 → (0 ≤ days → 0 < n) →
    (days < 0 → -days + 1 ≤ n) →
    ∃ y' d', back n y days = some (y', d') ∧ dn y' + d' = dn y + days ∧ 0 ≤ d' ∧ y' ≤ y ∧ y - n ≤ y' ∧
      (d' = days ∨ d' < yearLength y') := by
  intro n
  induction n with
  | zero => intro y days _ _ _ _; omega
  | succ n ih =>
    intro y days h1 h2 h3 h4
    unfold back
    by_cases hc : days < 0
    · rw [if_pos hc, addYears_ok (by omega)]
      simp only [Option.bind_some]
      have hs := dn_succ (y + -1)
      rw [show y + -1 + 1 = y by omega] at hs
      have hb := yl_bounds (y + -1)
      obtain ⟨y', d', e1, e2, e3, e4, e5, e6⟩ := ih (y + -1) (days + yearLength (y + -1)) (by omega) (by omega) (by omega)
        (by omega)
      refine ⟨y', d', e1, by omega, e3, by omega, by omega, Or.inr ?_⟩
      rcases e6 with e6 | e6
      · have hmono : y' = y + -1 := by
          by_cases h : y' < y + -1
          · have := dn_diff y' (y + -1) (by omega); omega
          · omega
        subst hmono; omega
      · exact e6
    · rw [if_neg hc]
      exact ⟨y, days, rfl, rfl, by omega, by omega, by omega, Or.inl rfl⟩

theorem forth_spec : ∀ (n : Nat) (y days : Int), -2147000000 ≤ y → y + n ≤ 2147000000 → 0 ≤ days → days < n →
    ∃ y' d', forth n y days = some (y', d') ∧ dn y' + d' = dn y + days ∧ 0 ≤ d' ∧ d' < yearLength y' ∧ y ≤ y' ∧
      y' ≤ y + n := by
  intro n
  induction n with
  | zero => intro y days _ _ _ _; omega
  | succ n ih =>
    intro y days h1 h2 h3 h4
    unfold forth
    have hb := yl_bounds y
    by_cases hc : days ≥ yearLength y
    · rw [if_pos hc, addYears_ok (by omega)]
      simp only [Option.bind_some]
      have hs := dn_succ y
      obtain ⟨y', d', e1, e2, e3, e4, e5, e6⟩ := ih (y + 1) (days - yearLength y) (by omega) (by omega) (by omega)
        (by omega)
      exact ⟨y', d', e1, by omega, e3, e4, by omega, by omega⟩
    · rw [if_neg hc]
      exact ⟨y, days, rfl, rfl, h3, by omega, by omega, by omega⟩

/-- The days of a year before a month. -/
def before (y m : Int) : Int :=
  (if m ≤ 0 then 0 else 31) + (if m ≤ 1 then 0 else daysOf y 1) + (if m ≤ 2 then 0 else 31) + (if m ≤ 3 then 0 else 30) +
  (if m ≤ 4 then 0 else 31) + (if m ≤ 5 then 0 else 30) + (if m ≤ 6 then 0 else 31) + (if m ≤ 7 then 0 else 31) +
  (if m ≤ 8 then 0 else 30) + (if m ≤ 9 then 0 else 31) + (if m ≤ 10 then 0 else 30) + (if m ≤ 11 then 0 else 31)

theorem feb (y : Int) : daysOf y 1 = if Leap y then 29 else 28 := by unfold daysOf; simp

theorem month_list : ∀ (ls : List Int) (m days : Int), 0 ≤ days → days < ls.sum →
    ∃ (k : Nat) (d : Int), k < ls.length ∧ month m days ls = some (m + k, d) ∧ 0 ≤ d ∧ d < ls.getD k 0 ∧
      (ls.take k).sum + d = days := by
  intro ls
  induction ls with
  | nil => intro m days h0 h; simp at h; omega
  | cons l ls ih =>
    intro m days h0 h
    rw [List.sum_cons] at h
    unfold month
    by_cases hc : days ≥ l
    · rw [if_pos hc]
      obtain ⟨k, d, e1, e2, e3, e4, e5⟩ := ih (m + 1) (days - l) (by omega) (by omega)
      refine ⟨k + 1, d, by simpa using e1, ?_, e3, by simpa using e4, ?_⟩
      · rw [e2]; congr 2; omega
      · rw [List.take_succ_cons, List.sum_cons]; omega
    · rw [if_neg hc]
      exact ⟨0, days, by simp, by simp, h0, by simp; omega, by simp⟩

theorem lengths_eq (y : Int) : monLengths (isLeap y) = [31, daysOf y 1, 31, 30, 31, 30, 31, 31, 30, 31, 30, 31] := by
  rw [feb]
  by_cases h : Leap y
  · rw [if_pos h, (isLeap_iff y).2 h]; rfl
  · rw [if_neg h, Bool.eq_false_iff.2 fun q => h ((isLeap_iff y).1 q)]; rfl

theorem month_spec (y days : Int) (h0 : 0 ≤ days) (h : days < yearLength y) :
    ∃ m d, month 0 days (monLengths (isLeap y)) = some (m, d) ∧ 0 ≤ m ∧ m ≤ 11 ∧ 0 ≤ d ∧ d < daysOf y m ∧ before y m + d = days := by
  rw [lengths_eq]
  have hs : yearLength y = [31, daysOf y 1, 31, 30, 31, 30, 31, 31, 30, 31, 30, 31].sum := by
    rw [feb, yearLength_eq]; split <;> simp
  obtain ⟨k, d, e1, e2, e3, e4, e5⟩ := month_list _ 0 days h0 (hs ▸ h)
  refine ⟨0 + k, d, e2, by omega, by simp at e1; omega, e3, ?_⟩
  have hk : k = 0 ∨ k = 1 ∨ k = 2 ∨ k = 3 ∨ k = 4 ∨ k = 5 ∨ k = 6 ∨ k = 7 ∨ k = 8 ∨ k = 9 ∨ k = 10 ∨ k = 11 := by
    simp at e1; omega
  clear e1 e2
  rcases hk with h | h | h | h | h | h | h | h | h | h | h | h <;> subst h <;>
    simp only [List.getD_cons_zero, List.getD_cons_succ, List.take_succ_cons, List.take_zero, List.sum_cons, List.sum_nil]
      at e4 e5 <;>
    refine ⟨by first | exact e4 | (simp [daysOf]; exact e4), ?_⟩ <;> simp [before] <;> omega

theorem after_iff {n : Int} {d : Day} (h : d.Valid) : After n d ↔ After (n + 1) d.next := ⟨fun q => q.next h, fun q => q.prev h⟩

theorem daysOf_pos (y m : Int) : 28 ≤ daysOf y m := by unfold daysOf; (repeat' split) <;> omega

theorem after_day (y m n : Int) (hm : 0 ≤ m ∧ m ≤ 11) (k : Nat) (hk : (k : Int) < daysOf y m) :
    After n ⟨y, m, 1⟩ ↔ After (n + k) ⟨y, m, k + 1⟩ := by
  induction k with
  | zero => simp
  | succ k ih =>
    rw [ih (by omega), after_iff (d := ⟨y, m, k + 1⟩) ⟨hm.1, hm.2, by simp; omega, by simp; omega⟩]
    have e : (⟨y, m, (k : Int) + 1⟩ : Day).next = ⟨y, m, ((k + 1 : Nat) : Int) + 1⟩ := by
      unfold Day.next; rw [if_pos (by simp; omega)]; simp
    rw [e, show n + k + 1 = n + ((k + 1 : Nat) : Int) by omega]

theorem after_last (y m n : Int) (hm : 0 ≤ m ∧ m ≤ 11) :
    After n ⟨y, m, 1⟩ ↔ After (n + daysOf y m) (if m < 11 then ⟨y, m + 1, 1⟩ else ⟨y + 1, 0, 1⟩) := by
  have hp := daysOf_pos y m
  rw [after_day y m n hm (daysOf y m - 1).toNat (by omega)]
  have e : ((daysOf y m - 1).toNat : Int) = daysOf y m - 1 := by omega
  rw [e, after_iff ⟨hm.1, hm.2, by simp; omega, by simp⟩]
  have e' : (⟨y, m, daysOf y m - 1 + 1⟩ : Day).next = (if m < 11 then ⟨y, m + 1, 1⟩ else ⟨y + 1, 0, 1⟩) := by
    unfold Day.next; rw [if_neg (by simp)]
  rw [e', show n + (daysOf y m - 1) + 1 = n + daysOf y m by omega]

theorem before_succ (y : Int) (k : Nat) (h : k < 11) : before y (k + 1) = before y k + daysOf y k := by
  have hk : k = 0 ∨ k = 1 ∨ k = 2 ∨ k = 3 ∨ k = 4 ∨ k = 5 ∨ k = 6 ∨ k = 7 ∨ k = 8 ∨ k = 9 ∨ k = 10 := by omega
  rcases hk with h | h | h | h | h | h | h | h | h | h | h <;> subst h <;> simp [before, daysOf]

theorem after_month (y n : Int) (k : Nat) (hk : k ≤ 11) : After n ⟨y, 0, 1⟩ ↔ After (n + before y k) ⟨y, k, 1⟩ := by
  induction k with
  | zero => simp [before]
  | succ k ih =>
    rw [ih (by omega), after_last y k _ (by omega), if_pos (by omega)]
    have := before_succ y k (by omega)
    rw [show n + before y k + daysOf y k = n + before y (k + 1) by omega]
    rfl

theorem after_year (y n : Int) : After n ⟨y, 0, 1⟩ ↔ After (n + yearLength y) ⟨y + 1, 0, 1⟩ := by
  rw [after_month y n 11 (by omega), after_last y (11 : Nat) _ (by omega), if_neg (by omega)]
  have e : n + before y (11 : Nat) + daysOf y (11 : Nat) = n + yearLength y := by
    have : before y (11 : Nat) + daysOf y (11 : Nat) = yearLength y := by
      rw [yearLength_eq]
      simp [before, feb]; simp [daysOf]; split <;> omega
    omega
  rw [e]

theorem after_jan (y : Int) : After (dn y) ⟨y, 0, 1⟩ := by
  have up : ∀ k : Nat, After (dn (1970 + k)) ⟨1970 + k, 0, 1⟩ := by
    intro k
    induction k with
    | zero => exact After.epoch
    | succ k ih =>
      have := (after_year _ _).1 ih
      rw [← dn_succ] at this
      rw [show (1970 : Int) + ((k + 1 : Nat) : Int) = 1970 + k + 1 by omega]
      exact this
  have down : ∀ k : Nat, After (dn (1970 - k)) ⟨1970 - k, 0, 1⟩ := by
    intro k
    induction k with
    | zero => exact After.epoch
    | succ k ih =>
      rw [after_year, ← dn_succ]
      rw [show (1970 : Int) - ((k + 1 : Nat) : Int) + 1 = 1970 - k by omega]
      exact ih
  by_cases h : 1970 ≤ y
  · have := up (y - 1970).toNat
    rw [show (1970 : Int) + ((y - 1970).toNat : Int) = y by omega] at this
    exact this
  · have := down (1970 - y).toNat
    rw [show (1970 : Int) - ((1970 - y).toNat : Int) = y by omega] at this
    exact this

theorem after_date (y m d : Int) (hm : 0 ≤ m ∧ m ≤ 11) (h0 : 0 ≤ d) (hd : d < daysOf y m) :
    After (dn y + before y m + d) ⟨y, m, d + 1⟩ := by
  have h := after_jan y
  rw [after_month y _ m.toNat (by omega), show ((m.toNat : Nat) : Int) = m by omega] at h
  rw [after_day y m _ hm d.toNat (by omega), show ((d.toNat : Nat) : Int) = d by omega] at h
  exact h

end Calendar
