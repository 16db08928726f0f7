import Verif.Calendar.Zone

/-!
# The text of a zone

A model of how `timezone.c` reads the text of a zone, which is a list of characters without the zero at its end.  `none` is NULL or
-1.
-/

namespace Calendar

/-- `is_digit`: /repo/src/timezone.c:80. -/
def digit (c : Nat) : Bool := 48 ≤ c ∧ c ≤ 57

/-- /repo/src/timezone.c:297-305 (`get_tzname`): the name and what is after it. -/
def getName : List Nat → List Nat × List Nat
  | [] => ([], [])
  | c :: r =>
    if !digit c ∧ c ≠ 44 ∧ c ≠ 45 ∧ c ≠ 43 then ((c :: (getName r).1), (getName r).2) else ([], c :: r)

/-- The loop of /repo/src/timezone.c:321-329. -/
def numLoop (max : Nat) : Nat → List Nat → Option (Nat × List Nat)
  | acc, [] => some (acc, [])
  | acc, c :: r =>
    if digit c then if acc*10 + (c - 48) > max then none else numLoop max (acc*10 + (c - 48)) r else some (acc, c :: r)

/-- /repo/src/timezone.c:312-335 (`get_num`). -/
def getNum (min max : Nat) (l : List Nat) : Option (Nat × List Nat) :=
  match l with
  | [] => none
  | c :: _ => if !digit c then none else (numLoop max 0 l).bind fun p => if p.1 < min then none else some p

/-- /repo/src/timezone.c:343-376 (`get_secs`). -/
def getSecs (l : List Nat) : Option (Int × List Nat) :=
  (getNum 0 167 l).bind fun (h, l) =>
    match l with
    | 58 :: r => (getNum 0 59 r).bind fun (m, l) =>
      match l with
      | 58 :: r => (getNum 0 60 r).bind fun (s, l) => some ((h*3600 + m*60 + s : Int), l)
      | l => some ((h*3600 + m*60 : Int), l)
    | l => some ((h*3600 : Int), l)

/-- /repo/src/timezone.c:383-405 (`get_offset`). -/
def getOffset (l : List Nat) : Option (Int × List Nat) :=
  match l with
  | 45 :: r => (getSecs r).map fun (n, l) => (-n, l)
  | 43 :: r => getSecs r
  | l => getSecs l

/-- The day of a rule: /repo/src/timezone.c:414-443. -/
def getDay (l : List Nat) : Option (Rule × List Nat) :=
  match l with
  | [] => none
  | c :: r =>
    if c = 74 then (getNum 1 365 r).map fun (n, l) => (.julian n, l)
    else if c = 77 then
      (getNum 1 12 r).bind fun (m, l) =>
        match l with
        | 46 :: r => (getNum 1 5 r).bind fun (w, l) =>
          match l with
          | 46 :: r => (getNum 0 6 r).map fun (d, l) => (.month m w d, l)
          | _ => none
        | _ => none
    else if digit c then (getNum 0 365 (c :: r)).map fun (n, l) => (.day n, l)
    else none

/-- /repo/src/timezone.c:412-461 (`get_rule`). -/
def getRule (l : List Nat) : Option (Rule × Int × List Nat) :=
  (getDay l).bind fun (d, l) =>
    match l with
    | 47 :: r => (getSecs r).map fun (t, l) => (d, t, l)
    | l => some (d, 7200, l)

/-- `TZ_DEF_RULE_STRING`: /repo/src/timezone.c:82. -/
def defaultRules : List Nat := [44, 77, 52, 46, 49, 46, 48, 44, 77, 49, 48, 46, 53, 46, 48]

/-- The rules of a zone: /repo/src/timezone.c:625-641. -/
def getRules (std dst : Int) (l : List Nat) : Option Zone :=
  match (if l = [] then defaultRules else l) with
  | c :: r =>
    if c = 44 ∨ c = 59 then
      (getRule r).bind fun (a, ta, l) =>
        match l with
        | 44 :: r => (getRule r).bind fun (b, tb, l) => if l = [] then some ⟨std, dst, a, ta, b, tb⟩ else none
        | _ => none
    else none
  | [] => none

/-- What is read: a zone with one offset, or one with summer time. -/
inductive Parsed
  | fixed (std : Int)
  | zone (z : Zone)
  deriving DecidableEq, Repr

/-- /repo/src/timezone.c:551-783 (`tzparse`) when it is not the last resort.  The text is without its closing zero, and the names are only measured. -/
def parse (l : List Nat) : Option Parsed :=
  let (stdName, l) := getName l
  if stdName.length < 3 then none
  else if l = [] then none
  else (getOffset l).bind fun (std, l) =>
    if l = [] then (if stdName.length + 1 > 512 then none else some (.fixed std))
    else
      let (dstName, l) := getName l
      if dstName.length < 3 then none
      else
        (match l with
          | [] => some (std - 3600, l)
          | c :: _ => if c ≠ 44 ∧ c ≠ 59 then getOffset l else some (std - 3600, l)).bind fun (dst, l) =>
        (getRules std dst l).bind fun z =>
          if stdName.length + 1 + (dstName.length + 1) > 512 then none else some (.zone z)

end Calendar
