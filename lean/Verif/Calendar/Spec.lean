import Verif.Calendar.Model

/-!
# What a date is

The calendar, told as a child would be told it: how long the months are, which years are leap years, and which day comes after
which.  None of this uses the model.
-/

namespace Calendar
namespace Spec

/-- A leap year: one in four, but not the hundreds, but the four hundreds. -/
def Leap (y : Int) : Prop := 4 ∣ y ∧ (¬ 100 ∣ y ∨ 400 ∣ y)

instance (y : Int) : Decidable (Leap y) := inferInstanceAs (Decidable (_ ∧ _))

/-- The days of a month, from 0. -/
def daysOf (y m : Int) : Int :=
  if m = 1 then (if Leap y then 29 else 28) else if m = 3 ∨ m = 5 ∨ m = 8 ∨ m = 10 then 30 else 31

/-- A day: a year, a month from 0, and a day of the month from 1. -/
structure Day where
  year : Int
  mon : Int
  mday : Int
  deriving DecidableEq, Repr

def Day.Valid (d : Day) : Prop := 0 ≤ d.mon ∧ d.mon ≤ 11 ∧ 1 ≤ d.mday ∧ d.mday ≤ daysOf d.year d.mon

/-- The day after. -/
def Day.next (d : Day) : Day :=
  if d.mday < daysOf d.year d.mon then ⟨d.year, d.mon, d.mday + 1⟩
  else if d.mon < 11 then ⟨d.year, d.mon + 1, 1⟩ else ⟨d.year + 1, 0, 1⟩

/-- `d` is `n` days after the first of January 1970, or, if `n` is negative, so many before. -/
inductive After : Int → Day → Prop
  | epoch : After 0 ⟨1970, 0, 1⟩
  | next {n d} : After n d → d.Valid → After (n + 1) d.next
  | prev {n d} : d.Valid → After (n + 1) d.next → After n d

end Spec
end Calendar
