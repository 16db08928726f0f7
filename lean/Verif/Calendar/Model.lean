/-!
# Dates

A model of `time_sub` of `timezone.c`, which makes a date and a time of day of a number of seconds, without leap seconds, of
which there are none in a zone (/repo/src/timezone.c:604, 807).  `none` is NULL, or a read beyond an array.
-/

namespace Calendar

/-- `/` of C. -/
def cdiv (a b : Int) : Int := if 0 ≤ a then a/b else -((-a)/b)

/-- `%` of C. -/
def cmod (a b : Int) : Int := a - b*cdiv a b

/-- `isleap`: /repo/src/timezone.c:75.  Whether a remainder is zero does not depend on how it is rounded. -/
def isLeap (y : Int) : Bool := y % 4 = 0 ∧ (y % 100 ≠ 0 ∨ y % 400 = 0)

/-- `year_lengths`: /repo/src/timezone.c:107-111. -/
def yearLength (y : Int) : Int := if isLeap y then 366 else 365

/-- `mon_lengths`: /repo/src/timezone.c:101-105. -/
def monLengths (leap : Bool) : List Int :=
  if leap then [31, 29, 31, 30, 31, 30, 31, 31, 30, 31, 30, 31] else [31, 28, 31, 30, 31, 30, 31, 31, 30, 31, 30, 31]

/-- /repo/src/timezone.c:151-154 (`leaps_thru_end_of`), with its call of itself for a number which is not negative written
out. -/
def leaps (y : Int) : Int := if 0 ≤ y then y/4 - y/100 + y/400 else -(((-(y + 1))/4 - (-(y + 1))/100 + (-(y + 1))/400) + 1)

/-- A number is that of an `int`. -/
def int (x : Int) : Bool := -2147483648 ≤ x ∧ x ≤ 2147483647

/-- /repo/src/timezone.c:113-122 (`add_with_overflow_detection`). -/
def addYears (y d : Int) : Option Int := if int (y + d) then some (y + d) else none

/-- The loop of /repo/src/timezone.c:209-228: the year and the day in it.  The first argument bounds its turns. -/
def years : Nat → Int → Int → Option (Int × Int)
  | 0, _, _ => none
  | n + 1, y, days =>
    if days < 0 ∨ days ≥ yearLength y then
      let delta := cdiv days 366
      if !int delta then none else
      let delta := if delta = 0 then (if days < 0 then -1 else 1) else delta
      (addYears y delta).bind fun y' => years n y' (days - (y' - y)*365 - (leaps (y' - 1) - leaps (y - 1)))
    else some (y, days)

/-- The loops of /repo/src/timezone.c:235-240: seconds and days. -/
def down (rem days : Int) : Int × Int := if rem < 0 then down (rem + 86400) (days - 1) else (rem, days)
termination_by (-rem).toNat

/-- The loop of /repo/src/timezone.c:241-246. -/
def up (rem days : Int) : Int × Int := if rem ≥ 86400 then up (rem - 86400) (days + 1) else (rem, days)
termination_by rem.toNat

/-- The loop of /repo/src/timezone.c:247-254. -/
def back (n : Nat) (y days : Int) : Option (Int × Int) :=
  match n with
  | 0 => none
  | n + 1 => if days < 0 then (addYears y (-1)).bind fun y => back n y (days + yearLength y) else some (y, days)

/-- The loop of /repo/src/timezone.c:255-262. -/
def forth (n : Nat) (y days : Int) : Option (Int × Int) :=
  match n with
  | 0 => none
  | n + 1 => if days ≥ yearLength y then (addYears y 1).bind fun y' => forth n y' (days - yearLength y) else some (y, days)

/-- The loop of /repo/src/timezone.c:285-287: the month and the day in it, both from 0. -/
def month (m : Int) (days : Int) : List Int → Option (Int × Int)
  | [] => none
  | l :: ls => if days ≥ l then month (m + 1) (days - l) ls else some (m, days)

/-- `struct tm`, with the year as such, not less 1900. -/
structure Date where
  year : Int
  mon : Int
  mday : Int
  hour : Int
  min : Int
  sec : Int
  wday : Int
  yday : Int
  deriving DecidableEq, Repr

/-- /repo/src/timezone.c:157-291 (`time_sub`), without lines 174-205, which are about leap seconds, and lines 229-231, which change
nothing as the days are those of a year.  The seconds are not held to 32 bits, which is enough for them, as a zone is less than
two weeks away: /repo/src/timezone.c:343-351. -/
def timeSub (t offset : Int) : Option Date := do
  let tdays := cdiv t 86400
  let rem := t - tdays*86400
  let (y, tdays) ← years (tdays.natAbs + 3) 1970 tdays
  let (rem, days) := down (rem + offset) tdays
  let (rem, days) := up rem days
  let (y, days) ← back (days.natAbs + 2) y days
  let (y, days) ← forth (days.natAbs + 2) y days
  let _ ← addYears y (-1900)
  let w := cmod (4 + cmod (y - 1970) 7*1 + leaps (y - 1) - leaps 1969 + days) 7
  let (m, d) ← month 0 days (monLengths (isLeap y))
  let r := cmod rem 3600
  return ⟨y, m, d + 1, cdiv rem 3600, cdiv r 60, cmod r 60, if w < 0 then w + 7 else w, days⟩

end Calendar
