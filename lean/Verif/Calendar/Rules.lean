import Verif.Calendar.Model

/-!
# When clocks are changed

A model of `trans_time` of `timezone.c`, which finds the time at which the clocks of a zone are changed in a year.
-/

namespace Calendar

/-- `struct tz_rule_s` but for its time of day, which is a number of its own: the rules `Jn`, `n` and `Mm.w.d`:
/repo/src/timezone.c:412-461 (`get_rule`) makes them. -/
inductive Rule
  | julian (day : Int)
  | day (day : Int)
  | month (mon week wday : Int)
  deriving DecidableEq, Repr

/-- Days of the months before the month `n` from 0: the loop of /repo/src/timezone.c:503-504.  `none` is a read beyond the
array. -/
def monthsBefore (leap : Bool) (n : Nat) : Option Int :=
  if n ≤ 12 then some ((monLengths leap).take n).sum else none

/-- /repo/src/timezone.c:508-515: the day of the week of the first of a month. -/
def zeller (year mon : Int) : Int :=
  let m1 := cmod (mon + 9) 12 + 1
  let yy0 := if mon ≤ 2 then year - 1 else year
  let yy1 := cdiv yy0 100
  let yy2 := cmod yy0 100
  let dow := cmod (cdiv (26*m1 - 2) 10 + 1 + yy2 + cdiv yy2 4 + cdiv yy1 4 - 2*yy1) 7
  if dow < 0 then dow + 7 else dow

/-- The loop of /repo/src/timezone.c:524-531, for so many weeks. -/
def weeks (len : Int) : Nat → Int → Int
  | 0, d => d
  | n + 1, d => if d + 7 ≥ len then d else weeks len n (d + 7)

/-- /repo/src/timezone.c:467-546 (`trans_time`). -/
def transTime (janfirst year : Int) (rule : Rule) (time offset : Int) : Option Int :=
  match rule with
  | .julian day =>
    let value := janfirst + (day - 1)*86400
    some ((if isLeap year ∧ day ≥ 60 then value + 86400 else value) + time + offset)
  | .day day => some (janfirst + day*86400 + time + offset)
  | .month mon week wday =>
    (monthsBefore (isLeap year) (mon - 1).toNat).bind fun b =>
      let d := wday - zeller year mon
      let d := if d < 0 then d + 7 else d
      (monLengths (isLeap year))[(mon - 1).toNat]?.bind fun len =>
        some (janfirst + b*86400 + weeks len (week - 1).toNat d*86400 + time + offset)

end Calendar
