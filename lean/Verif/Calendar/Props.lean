import Verif.Calendar.Lemmas

/-!
# Dates are those of the calendar

`n` days after the first of January 1970 is `Spec.After`, which says only which day comes after which.
-/

namespace Calendar
open Spec

theorem timeSub_eq {t offset td y days r1 g1 r g y2 g2 y3 g3 m d : Int} (h0 : cdiv t 86400 = td)
    (h1 : years (td.natAbs + 3) 1970 td = some (y, days)) (h2 : down (t - td*86400 + offset) days = (r1, g1))
    (h3 : up r1 g1 = (r, g)) (h4 : back (g.natAbs + 2) y g = some (y2, g2))
    (h5 : forth (g2.natAbs + 2) y2 g2 = some (y3, g3)) (h6 : addYears y3 (-1900) = some (y3 + -1900))
    (h7 : month 0 g3 (monLengths (isLeap y3)) = some (m, d)) :
    timeSub t offset = some ⟨y3, m, d + 1, cdiv r 3600, cdiv (cmod r 3600) 60, cmod (cmod r 3600) 60,
      if cmod (4 + cmod (y3 - 1970) 7*1 + leaps (y3 - 1) - leaps 1969 + g3) 7 < 0
        then cmod (4 + cmod (y3 - 1970) 7*1 + leaps (y3 - 1) - leaps 1969 + g3) 7 + 7
        else cmod (4 + cmod (y3 - 1970) 7*1 + leaps (y3 - 1) - leaps 1969 + g3) 7, g3⟩ := by
  unfold timeSub
  simp only [h0]
  rw [h1]
  simp only [Option.bind_eq_bind, Option.bind_some]
  rw [h2]
  simp only
  rw [h3]
  simp only
  rw [h4]
  simp only [Option.bind_some]
  rw [h5]
  simp only [Option.bind_some]
  rw [h6]
  simp only [Option.bind_some]
  rw [h7]
  rfl

/-- Every time within a thousand million years, seen from any place, has a date: the day is the one which is as many days after
the first of January 1970 as there are whole days in the local time, the time of the day is the rest, the day of the week goes
round with the days, from a Thursday, and the day of the year is counted from the first of January of that year. -/
theorem date (t offset : Int) (h1 : -2^55 ≤ t) (h2 : t ≤ 2^55) (h3 : -691200 ≤ offset) (h4 : offset ≤ 691200) :
    ∃ d, timeSub t offset = some d ∧
      After ((t + offset)/86400) ⟨d.year, d.mon, d.mday⟩ ∧ Day.Valid ⟨d.year, d.mon, d.mday⟩ ∧
      d.hour*3600 + d.min*60 + d.sec = (t + offset) % 86400 ∧
      0 ≤ d.hour ∧ d.hour < 24 ∧ 0 ≤ d.min ∧ d.min < 60 ∧ 0 ≤ d.sec ∧ d.sec < 60 ∧
      d.wday = (4 + (t + offset)/86400) % 7 ∧
      0 ≤ d.yday ∧ After ((t + offset)/86400 - d.yday) ⟨d.year, 0, 1⟩ := by
  have ht : t = cdiv t 86400*86400 + (t - cdiv t 86400*86400) ∧ -86400 < t - cdiv t 86400*86400 ∧
      t - cdiv t 86400*86400 < 86400 := by
    unfold cdiv; split <;> omega
  have hb : -420000000000 ≤ cdiv t 86400 ∧ cdiv t 86400 ≤ 420000000000 := by
    unfold cdiv; split <;> omega
  generalize h0 : cdiv t 86400 = td at *
  generalize hrem : t - td*86400 = rem at *
  obtain ⟨y, days, e1, e2, e3, e4, e5, e6⟩ := years_spec (td.natAbs + 3) 1970 td (by omega) (by omega)
    (by rw [dn_1970]; omega) (by rw [dn_1970]; omega) (by omega) (by omega) (by omega) (by omega)
  rw [dn_1970] at e2
  have hyl := yl_bounds y
  obtain ⟨d1, d2, _⟩ := down_spec (rem + offset) days
  generalize hdn : down (rem + offset) days = p at *
  obtain ⟨r1, g1⟩ := p
  simp only at d1 d2
  obtain ⟨u1, u2, u3⟩ := up_spec r1 g1 d2
  generalize hup : up r1 g1 = p at *
  obtain ⟨r, g⟩ := p
  simp only at u1 u2 u3
  have hg : -10 ≤ g ∧ g ≤ 380 := by omega
  obtain ⟨y2, g2, b1, b2, b3, b4, b5, b6⟩ := back_spec (g.natAbs + 2) y g (by omega) (by omega) (by omega) (by omega)
  have hy2 := yl_bounds y2
  have hg2 : g2 ≤ 380 := by omega
  obtain ⟨y3, g3, c1, c2, c3, c4, c5, c6⟩ := forth_spec (g2.natAbs + 2) y2 g2 (by omega) (by omega) (by omega) (by omega)
  obtain ⟨m, d, m1, m2, m3, m4, m5, m6⟩ := month_spec y3 g3 c3 c4
  have key := timeSub_eq (t := t) (offset := offset) h0 e1 (hrem.symm ▸ hdn) hup b1 c1
    (addYears_ok (show -2147483648 ≤ y3 + -1900 ∧ y3 + -1900 ≤ 2147483647 by omega)) m1
  have hn : (t + offset)/86400 = dn y3 + g3 := by omega
  have hr : (t + offset) % 86400 = r := by omega
  refine ⟨_, key, ?_, ⟨m2, m3, by simp; omega, by simp; omega⟩, ?_, ?_, ?_, ?_, ?_, ?_, ?_, ?_, c3, ?_⟩
  · have := after_date y3 m d ⟨m2, m3⟩ m4 m5
    rw [hn, show dn y3 + g3 = dn y3 + before y3 m + d by omega]
    exact this
  · rw [hr]; simp only [cmod, cdiv]; (repeat' split) <;> omega
  · simp only [cdiv]; split <;> omega
  · simp only [cdiv]; split <;> omega
  · simp only [cmod, cdiv]; (repeat' split) <;> omega
  · simp only [cmod, cdiv]; (repeat' split) <;> omega
  · simp only [cmod, cdiv]; (repeat' split) <;> omega
  · simp only [cmod, cdiv]; (repeat' split) <;> omega
  · rw [hn]
    simp only [leaps_eq, cmod, cdiv]
    unfold dn
    clear key hn hr e2 b2 c2 hdn hup
    generalize (y3 - 1)/4 - (y3 - 1)/100 + (y3 - 1)/400 = l
    (repeat' split) <;> omega
  · rw [hn]
    have := after_jan y3
    rw [show dn y3 + g3 - g3 = dn y3 by omega]
    exact this

/-- An hour east of Greenwich, on the day after a leap day. -/
example : timeSub 951865200 3600 = some ⟨2000, 2, 1, 0, 0, 0, 3, 60⟩ := by decide +kernel

/-- Before 1970. -/
example : timeSub (-1) 0 = some ⟨1969, 11, 31, 23, 59, 59, 3, 364⟩ := by decide +kernel

/-- Number of a day. -/
theorem number {n : Int} {d : Day} (h : After n d) : d.Valid ∧ n = dn d.year + before d.year d.mon + d.mday - 1 := by
  have hnext : ∀ d : Day, d.Valid → d.next.Valid ∧
      dn d.next.year + before d.next.year d.next.mon + d.next.mday = dn d.year + before d.year d.mon + d.mday + 1 := by
    intro ⟨y, m, a⟩ ⟨v1, v2, v3, v4⟩
    simp only at v1 v2 v3 v4
    unfold Day.next
    simp only
    by_cases h1 : a < daysOf y m
    · rw [if_pos h1]; exact ⟨⟨v1, v2, by simp only; omega, by simp only; omega⟩, by simp only; omega⟩
    · rw [if_neg h1]
      by_cases h2 : m < 11
      · rw [if_pos h2]
        have := before_succ y m.toNat (by omega)
        rw [show ((m.toNat : Nat) : Int) = m by omega] at this
        have hp := daysOf_pos y (m + 1)
        exact ⟨⟨by simp only; omega, by simp only; omega, by simp only; omega, by simp only; omega⟩, by simp only; omega⟩
      · rw [if_neg h2]
        have e : m = 11 := by omega
        subst e
        have hp := daysOf_pos (y + 1) 0
        have hy : before y 11 + daysOf y 11 = yearLength y := by
          rw [yearLength_eq]; simp [before, feb]; simp [daysOf]; split <;> omega
        have hs := dn_succ y
        have hz : before (y + 1) 0 = 0 := by simp [before]
        exact ⟨⟨by simp only; omega, by simp only; omega, by simp only; omega, by simp only; omega⟩, by simp only; omega⟩
  induction h with
  | epoch => exact ⟨⟨by decide, by decide, by decide, by decide⟩, by decide⟩
  | next _ hv ih => have := hnext _ hv; exact ⟨this.1, by omega⟩
  | prev hv _ ih => have := hnext _ hv; exact ⟨hv, by omega⟩

theorem before_mono (y : Int) (a b : Nat) (hb : a + b ≤ 11) : before y a ≤ before y (a + b : Nat) := by
  induction b with
  | zero => simp
  | succ b ih =>
    have := ih (by omega)
    have h := before_succ y (a + b) (by omega)
    have hp := daysOf_pos y (a + b : Nat)
    rw [show ((a + (b + 1) : Nat) : Int) = ((a + b : Nat) : Int) + 1 by omega]
    omega

theorem in_year {d : Day} (h : d.Valid) : 0 ≤ before d.year d.mon + d.mday - 1 ∧
    before d.year d.mon + d.mday - 1 < yearLength d.year := by
  obtain ⟨y, m, a⟩ := d
  obtain ⟨v1, v2, v3, v4⟩ := h
  simp only at *
  have l := before_mono y 0 m.toNat (by omega)
  have u := before_mono y m.toNat (11 - m.toNat) (by omega)
  have e : ((m.toNat + (11 - m.toNat) : Nat) : Int) = 11 := by omega
  rw [e, show ((m.toNat : Nat) : Int) = m by omega] at u
  rw [show ((0 + m.toNat : Nat) : Int) = m by omega] at l
  have hz : before y ((0 : Nat) : Int) = 0 := by simp [before]
  have hy : before y 11 + 31 = yearLength y := by
    rw [yearLength_eq]; simp [before, feb]; split <;> omega
  by_cases hm : m < 11
  · have hs := before_succ y m.toNat (by omega)
    have u' := before_mono y (m.toNat + 1) (10 - m.toNat) (by omega)
    rw [show ((m.toNat + 1 + (10 - m.toNat) : Nat) : Int) = 11 by omega,
      show ((m.toNat + 1 : Nat) : Int) = m + 1 by omega] at u'
    rw [show ((m.toNat : Nat) : Int) = m by omega] at hs
    omega
  · have e11 : m = 11 := by omega
    subst e11
    have : daysOf y 11 = 31 := by simp [daysOf]
    omega

/-- The calendar has one day for each number of days. -/
theorem one_day {n : Int} {d e : Day} (h : After n d) (h' : After n e) : d = e := by
  obtain ⟨v, q⟩ := number h
  obtain ⟨w, r⟩ := number h'
  have i := in_year v
  have j := in_year w
  have hy : d.year = e.year := by
    by_cases c : d.year < e.year
    · have := dn_diff (d.year + 1) e.year (by omega); have := dn_succ d.year; omega
    · by_cases c' : e.year < d.year
      · have := dn_diff (e.year + 1) d.year (by omega); have := dn_succ e.year; omega
      · omega
  obtain ⟨y, m, a⟩ := d
  obtain ⟨y', m', a'⟩ := e
  simp only at *
  subst hy
  obtain ⟨v1, v2, v3, v4⟩ := v
  obtain ⟨w1, w2, w3, w4⟩ := w
  simp only at *
  have lt : ∀ k l : Int, 0 ≤ k → k < l → l ≤ 11 → before y k + daysOf y k ≤ before y l := by
    intro k l h0 hl h11
    have hs := before_succ y k.toNat (by omega)
    have u := before_mono y (k.toNat + 1) (l.toNat - k.toNat - 1) (by omega)
    rw [show ((k.toNat + 1 + (l.toNat - k.toNat - 1) : Nat) : Int) = l by omega,
      show ((k.toNat + 1 : Nat) : Int) = k + 1 by omega] at u
    rw [show ((k.toNat : Nat) : Int) = k by omega] at hs
    omega
  have hm : m = m' := by
    by_cases c : m < m'
    · have := lt m m' v1 c w2; omega
    · by_cases c' : m' < m
      · have := lt m' m w1 c' v2; omega
      · omega
  subst hm
  have : a = a' := by omega
  rw [this]

/-- A day later it is the same time of the next day. -/
theorem tomorrow (t offset : Int) (h1 : -2^55 ≤ t) (h2 : t + 86400 ≤ 2^55) (h3 : -691200 ≤ offset) (h4 : offset ≤ 691200) :
    ∃ d e, timeSub t offset = some d ∧ timeSub (t + 86400) offset = some e ∧
      (⟨e.year, e.mon, e.mday⟩ : Day) = Day.next ⟨d.year, d.mon, d.mday⟩ ∧
      e.hour = d.hour ∧ e.min = d.min ∧ e.sec = d.sec ∧ e.wday = (d.wday + 1) % 7 := by
  obtain ⟨d, a1, a2, a3, a4, a5, a6, a7, a8, a9, a10, a11, _⟩ := date t offset h1 (by omega) h3 h4
  obtain ⟨e, b1, b2, b3, b4, b5, b6, b7, b8, b9, b10, b11, _⟩ := date (t + 86400) offset (by omega) h2 h3 h4
  have hn : (t + 86400 + offset)/86400 = (t + offset)/86400 + 1 := by omega
  rw [hn] at b2
  exact ⟨d, e, a1, b1, one_day b2 (After.next a2 a3), by omega, by omega, by omega, by omega⟩

/-- From the last day of February of a year which is not a leap year. -/
example : (timeSub 4107542399 0, timeSub (4107542399 + 86400) 0) =
    (some ⟨2100, 1, 28, 23, 59, 59, 0, 58⟩, some ⟨2100, 2, 1, 23, 59, 59, 1, 59⟩) := by decide +kernel

end Calendar
