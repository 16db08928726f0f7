import Verif.Calendar.Rules
import Verif.Calendar.Props

/-!
# Clocks are changed on the day which the rule names

`J` is the number of days from the first of January 1970 to that of the year.  The time is that of the day named, and of the time
of day and the offset given.
-/

namespace Calendar
open Spec

theorem before_leap (y m : Int) (hm : 0 ≤ m ∧ m ≤ 11) :
    before y m = before 1970 m + if Leap y ∧ 2 ≤ m then 1 else 0 := by
  have h : daysOf 1970 1 = 28 := by decide
  unfold before
  rw [h, feb]
  by_cases hl : Leap y
  · by_cases h2 : 2 ≤ m
    · have h3 : ¬ m ≤ 1 := by omega
      simp only [hl, h2, h3, if_true, if_false, and_self]; omega
    · have h3 : m ≤ 1 := by omega
      simp only [h2, h3, if_true, if_false, and_false]; omega
  · simp only [hl, if_false, false_and]; omega

theorem jan_number {y J : Int} (h : After J ⟨y, 0, 1⟩) : J = dn y := by
  have := (number h).2
  simp [before] at this
  omega

/-- The rule `Jn` names the same day of the same month in every year, as in 1970. -/
theorem julian (year J day time offset m a : Int) (hJ : After J ⟨year, 0, 1⟩) (h : After (day - 1) ⟨1970, m, a⟩) :
    ∃ n, transTime (J*86400) year (.julian day) time offset = some (n*86400 + time + offset) ∧ After n ⟨year, m, a⟩ := by
  have eJ := jan_number hJ
  obtain ⟨⟨v1, v2, v3, v4⟩, q⟩ := number h
  simp only at v1 v2 v3 v4 q
  have hz := dn_1970
  have hb := before_leap year m ⟨v1, v2⟩
  have hd : daysOf 1970 m ≤ daysOf year m := by
    have h0 : ¬ Leap 1970 := by decide
    unfold daysOf; rw [if_neg h0]; (repeat' split) <;> omega
  have hA := after_date year m (a - 1) ⟨v1, v2⟩ (by omega) (by omega)
  rw [show a - 1 + 1 = a by omega] at hA
  refine ⟨dn year + before year m + (a - 1), ?_, hA⟩
  have h60 : 60 ≤ day ↔ 2 ≤ m := by
    have h28 : daysOf 1970 1 = 28 := by decide
    have h31 : daysOf 1970 0 = 31 := by decide
    constructor
    · intro hd60
      refine Decidable.byContradiction fun hc => ?_
      have : m = 0 ∨ m = 1 := by omega
      rcases this with e | e <;> subst e <;> simp [before] at q <;> omega
    · intro h2
      have hmono := before_mono 1970 2 (m - 2).toNat (by omega)
      rw [show ((2 + (m - 2).toNat : Nat) : Int) = m by omega] at hmono
      have : before 1970 ((2 : Nat) : Int) = 59 := by decide
      omega
  unfold transTime
  simp only
  congr 1
  by_cases hl : isLeap year = true ∧ day ≥ 60
  · rw [if_pos hl]
    rw [if_pos ⟨(isLeap_iff year).1 hl.1, h60.1 hl.2⟩] at hb
    omega
  · rw [if_neg hl]
    rw [if_neg (fun w => hl ⟨(isLeap_iff year).2 w.1, h60.2 w.2⟩)] at hb
    omega

example : After 59 ⟨1970, 2, 1⟩ := by
  have := after_date 1970 2 0 (by omega) (by omega) (by decide)
  have e : dn 1970 + before 1970 2 + 0 = 59 := by decide
  rw [e] at this
  exact this

/-- The rule `n` names the day of the year, from 0, which is a day of that year if the year is so long. -/
theorem day_of_year (year J day time offset : Int) (hJ : After J ⟨year, 0, 1⟩) (h0 : 0 ≤ day)
    (h : day < if Leap year then 366 else 365) :
    ∃ m a, transTime (J*86400) year (.day day) time offset = some ((J + day)*86400 + time + offset) ∧
      After (J + day) ⟨year, m, a⟩ := by
  have eJ := jan_number hJ
  rw [← yearLength_eq] at h
  obtain ⟨m, d, _, h2, h3, h4, h5, h6⟩ := month_spec year day h0 h
  have hA := after_date year m d ⟨h2, h3⟩ h4 h5
  rw [show dn year + before year m + d = J + day by omega] at hA
  refine ⟨m, d + 1, ?_, hA⟩
  unfold transTime
  simp only
  congr 1
  omega

/-- The day of the week as computed, with a number for the month and a year from March. -/
def zel (k yy0 : Int) : Int :=
  if cmod (k + 1 + cmod yy0 100 + cdiv (cmod yy0 100) 4 + cdiv (cdiv yy0 100) 4 - 2*cdiv yy0 100) 7 < 0
  then cmod (k + 1 + cmod yy0 100 + cdiv (cmod yy0 100) 4 + cdiv (cdiv yy0 100) 4 - 2*cdiv yy0 100) 7 + 7
  else cmod (k + 1 + cmod yy0 100 + cdiv (cmod yy0 100) 4 + cdiv (cdiv yy0 100) 4 - 2*cdiv yy0 100) 7

theorem zel_eq (k y : Int) (h0 : 0 ≤ y) : zel k y = (k + 1 + 365*y + (y/4 - y/100 + y/400)) % 7 := by
  have e : cdiv y 100 = y/100 := by unfold cdiv; rw [if_pos h0]
  have e' : cmod y 100 = y - 100*(y/100) := by unfold cmod; rw [e]
  unfold zel
  rw [e', e]
  have e1 : cdiv (y - 100*(y/100)) 4 = (y - 100*(y/100))/4 := by unfold cdiv; rw [if_pos (by omega)]
  have e2 : cdiv (y/100) 4 = y/100/4 := by unfold cdiv; rw [if_pos (by omega)]
  rw [e1, e2]
  have hq : y/400 = y/100/4 := by omega
  have hb : y/4 = 25*(y/100) + (y - 100*(y/100))/4 := by omega
  rw [hq, hb]
  generalize ha : y/100 = a at *
  generalize hbb : y - 100*a = b at *
  have hy : y = 100*a + b := by omega
  rw [hy]
  clear ha hbb hq hb e e' e1 e2 hy h0
  generalize b/4 = p
  generalize a/4 = q
  have hx : (k + 1 + 365*(100*a + b) + (25*a + p - a + q)) % 7 = (k + 1 + b + p + q - 2*a) % 7 := by omega
  rw [hx]
  generalize k + 1 + b + p + q - 2*a = x
  unfold cmod cdiv
  (repeat' split) <;> omega

/-- The day of the week of the first of a month. -/
theorem zeller_eq (year mon : Int) (hy : 1 ≤ year) (hm : 1 ≤ mon ∧ mon ≤ 12) :
    zeller year mon = (4 + dn year + before year (mon - 1)) % 7 := by
  have hs := dn_succ year
  rw [yearLength_eq] at hs
  have hf := feb year
  have key : dn year + daysOf year 1 = 365*(year - 1970) + (year/4 - year/100 + year/400) - 477 + 28 := by
    rw [hf]
    unfold dn at hs ⊢
    rw [show year + 1 - 1 = year by omega] at hs
    generalize (year - 1)/4 - (year - 1)/100 + (year - 1)/400 = l at hs ⊢
    generalize year/4 - year/100 + year/400 = l' at hs ⊢
    clear hm
    by_cases hl : Leap year
    · rw [if_pos hl] at hs ⊢; omega
    · rw [if_neg hl] at hs ⊢; omega
  clear hs hf
  have hk : mon = 1 ∨ mon = 2 ∨ mon = 3 ∨ mon = 4 ∨ mon = 5 ∨ mon = 6 ∨ mon = 7 ∨ mon = 8 ∨ mon = 9 ∨ mon = 10 ∨ mon = 11 ∨
      mon = 12 := by omega
  have late : ∀ (k b : Int), zeller year mon = zel k year → before year (mon - 1) = daysOf year 1 + b →
      (k + 1 - (4 + b + 28 - 477 - 365*1970)) % 7 = 0 → zeller year mon = (4 + dn year + before year (mon - 1)) % 7 := by
    intro k b h1 h2 h3
    rw [h1, zel_eq k year (by omega), h2, show 4 + dn year + (daysOf year 1 + b) = 4 + (dn year + daysOf year 1) + b by omega, key]
    generalize year/4 - year/100 + year/400 = l
    omega
  have early : ∀ (k b : Int), zeller year mon = zel k (year - 1) → before year (mon - 1) = b →
      (k + 1 - (4 + b - 477 - 365*1969)) % 7 = 0 → zeller year mon = (4 + dn year + before year (mon - 1)) % 7 := by
    intro k b h1 h2 h3
    rw [h1, zel_eq k (year - 1) (by omega), h2]
    unfold dn
    generalize (year - 1)/4 - (year - 1)/100 + (year - 1)/400 = l
    omega
  rcases hk with h | h | h | h | h | h | h | h | h | h | h | h <;> subst h
  · exact early 28 0 rfl (by simp [before]) (by decide)
  · exact early 31 31 rfl (by simp [before]) (by decide)
  · exact late 2 31 rfl (by simp [before]; omega) (by decide)
  · exact late 5 62 rfl (by simp [before]; omega) (by decide)
  · exact late 7 92 rfl (by simp [before]; omega) (by decide)
  · exact late 10 123 rfl (by simp [before]; omega) (by decide)
  · exact late 12 153 rfl (by simp [before]; omega) (by decide)
  · exact late 15 184 rfl (by simp [before]; omega) (by decide)
  · exact late 18 215 rfl (by simp [before]; omega) (by decide)
  · exact late 20 245 rfl (by simp [before]; omega) (by decide)
  · exact late 23 276 rfl (by simp [before]; omega) (by decide)
  · exact late 25 306 rfl (by simp [before]; omega) (by decide)

theorem months_eq (y : Int) (k : Nat) (hk : k ≤ 11) : monthsBefore (isLeap y) k = some (before y k) ∧
    (monLengths (isLeap y))[k]? = some (daysOf y k) := by
  unfold monthsBefore
  rw [if_pos (by omega), lengths_eq]
  have h : k = 0 ∨ k = 1 ∨ k = 2 ∨ k = 3 ∨ k = 4 ∨ k = 5 ∨ k = 6 ∨ k = 7 ∨ k = 8 ∨ k = 9 ∨ k = 10 ∨ k = 11 := by omega
  rcases h with h | h | h | h | h | h | h | h | h | h | h | h <;> subst h <;>
    refine ⟨?_, by simp [daysOf]⟩ <;> simp [before] <;> omega

theorem weeks_spec (len : Int) (hl : 28 ≤ len ∧ len ≤ 31) (d : Int) (hd : 0 ≤ d ∧ d ≤ 6) (n : Nat) (hn : n ≤ 4) :
    ∃ k : Int, weeks len n d = d + 7*k ∧ weeks len n d < len ∧ (n ≤ 3 → k = n) ∧ (n = 4 → len ≤ d + 7*k + 7) ∧ 0 ≤ k := by
  have h : n = 0 ∨ n = 1 ∨ n = 2 ∨ n = 3 ∨ n = 4 := by omega
  rcases h with h | h | h | h | h <;> subst h <;> simp only [weeks] <;> (repeat' split) <;> first
    | omega
    | exact ⟨0, by omega, by omega, by omega, by omega, by omega⟩
    | exact ⟨1, by omega, by omega, by omega, by omega, by omega⟩
    | exact ⟨2, by omega, by omega, by omega, by omega, by omega⟩
    | exact ⟨3, by omega, by omega, by omega, by omega, by omega⟩
    | exact ⟨4, by omega, by omega, by omega, by omega, by omega⟩

/-- The rule `Mm.w.d` names the day `d` of the week, from Sunday, in week `w` of the month `m`, which is the last such day of the
month if `w` is 5. -/
theorem nth_day (year J mon week wday time offset : Int) (hJ : After J ⟨year, 0, 1⟩) (hy : 1 ≤ year) (hm : 1 ≤ mon ∧ mon ≤ 12)
    (hw : 1 ≤ week ∧ week ≤ 5) (hd : 0 ≤ wday ∧ wday ≤ 6) :
    ∃ n a, transTime (J*86400) year (.month mon week wday) time offset = some (n*86400 + time + offset) ∧
      After n ⟨year, mon - 1, a⟩ ∧ (4 + n) % 7 = wday ∧ 1 ≤ a ∧ a ≤ daysOf year (mon - 1) ∧
      (week ≤ 4 → 7*(week - 1) < a ∧ a ≤ 7*week) ∧ (week = 5 → daysOf year (mon - 1) < a + 7) := by
  have eJ := jan_number hJ
  obtain ⟨e1, e2⟩ := months_eq year (mon - 1).toNat (by omega)
  have em : (((mon - 1).toNat : Nat) : Int) = mon - 1 := by omega
  rw [em] at e1 e2
  have hz := zeller_eq year mon hy hm
  have hlen : 28 ≤ daysOf year (mon - 1) ∧ daysOf year (mon - 1) ≤ 31 := by
    unfold daysOf; (repeat' split) <;> omega
  unfold transTime
  simp only [e1, e2, Option.bind_some]
  generalize hdd : (if wday - zeller year mon < 0 then wday - zeller year mon + 7 else wday - zeller year mon) = d
  have hd6 : 0 ≤ d ∧ d ≤ 6 ∧ (d + zeller year mon) % 7 = wday := by
    rw [← hdd]; split <;> omega
  obtain ⟨k, k1, k2, k3, k4, k5⟩ := weeks_spec _ hlen d ⟨hd6.1, hd6.2.1⟩ (week - 1).toNat (by omega)
  rw [k1] at k2 ⊢
  have hA := after_date year (mon - 1) (d + 7*k) (by omega) (by omega) k2
  refine ⟨dn year + before year (mon - 1) + (d + 7*k), d + 7*k + 1, ?_, hA, by omega, by omega, by omega, ?_, ?_⟩
  · congr 1; rw [eJ]; omega
  · intro h; have := k3 (by omega); omega
  · intro h; have := k4 (by omega); omega

/-- The last Sunday of March 2024, at one o'clock. -/
example : transTime 1704067200 2024 (.month 3 5 0) 3600 0 = some 1711846800 := by decide +kernel

end Calendar
