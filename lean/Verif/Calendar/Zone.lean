import Verif.Calendar.Rules

/-!
# Zones

A model of how `timezone.c` lists the changes of the clocks of a zone, and of how it finds the one which holds at a time.  Zones
are given as what is read from their text.
-/

namespace Calendar

/-- What `tzparse` reads of a zone with summer time: /repo/src/timezone.c:588-643.  Offsets are as in the text, positive to the
west. -/
structure Zone where
  std : Int
  dst : Int
  start : Rule
  startTime : Int
  stop : Rule
  stopTime : Int
  deriving DecidableEq, Repr

/-- The loop of /repo/src/timezone.c:656-677: changes, with `true` for one to summer time, for so many years. -/
def changes (z : Zone) : Nat → Int → Int → Option (List (Int × Bool))
  | 0, _, _ => some []
  | n + 1, year, jan =>
    (transTime jan year z.start z.startTime z.std).bind fun s =>
      (transTime jan year z.stop z.stopTime z.dst).bind fun e =>
        (changes z n (year + 1) (jan + yearLength year*86400)).map fun l =>
          (if s > e then [(e, false), (s, true)] else [(s, true), (e, false)]) ++ l

/-- /repo/src/timezone.c:640-677: the changes of a zone, from 1970 to 2037. -/
def zoneChanges (z : Zone) : Option (List (Int × Bool)) := changes z (2037 - 1970 + 1) 1970 0

/-- The loop of /repo/src/timezone.c:848-855. -/
def scan (t : Int) (cur : Bool) : List (Int × Bool) → Bool
  | [] => cur
  | (a, b) :: r => if t < a then cur else scan t b r

/-- /repo/src/timezone.c:833-857: whether it is summer time.  Before the first change it is not, as the search of lines 836-844
passes over the kind of time which is summer time. -/
def summer (t : Int) : List (Int × Bool) → Bool
  | [] => false
  | (a, b) :: r => if t < a then false else scan t b r

/-- /repo/src/timezone.c:824-864 (`tz_localtime`) for a zone with summer time: the date, and whether it is one of summer time. -/
def localTime (z : Zone) (t : Int) : Option (Date × Bool) :=
  (zoneChanges z).bind fun l =>
    (timeSub t (if summer t l then -z.dst else -z.std)).map fun d => (d, summer t l)

end Calendar
