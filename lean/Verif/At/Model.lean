/-!
# Command lines of a modem

A model of `at_interpreter.c`: how lines are put together from what the computer sends, how the commands in them are run, and
how numbers in them are read.  The commands themselves, and the tree in which they are looked up, are arbitrary.  `none` is a
write beyond an array, an overflow, or a loop which does not end.
-/

namespace At

/-- What a command returns: NULL, -1, or where the next command is. -/
inductive Res where
  | null
  | quiet
  | next (t : List Nat)
  deriving DecidableEq, Repr

/-- The commands (`command_search`, `at_commands`), with what they may change as `R`, and the parts of it which the interpreter
looks at: /repo/src/at_interpreter.c:5720-5757 and 5800-5868. -/
structure Cmds (R : Type) where
  search : List Nat → Nat
  count : Nat
  run : Nat → R → List Nat → R × Res
  s3 : R → Nat
  s5 : R → Nat

/-- AT_RESPONSE_CODE_OK and AT_RESPONSE_CODE_ERROR: /repo/src/spandsp/at_interpreter.h:100-104. -/
inductive Resp where
  | ok
  | error
  deriving DecidableEq, Repr

/-- The loop over the commands of a line and its response: /repo/src/at_interpreter.c:5860-5889.  The first argument bounds
its turns. -/
def exec {R : Type} (m : Cmds R) : Nat → R → List Nat → Option (R × Option Resp)
  | 0, _, _ => none
  | n + 1, r, t =>
    if t = [] then some (r, some .ok)
    else if m.search t = 0 ∨ m.search t > m.count then some (r, some .ok)
    else match m.run (m.search t) r t with
      | (r, .null) => some (r, some .error)
      | (r, .quiet) => some (r, none)
      | (r, .next t) => exec m n r t

/-- `tolower`. -/
def lower (c : Nat) : Nat := if 65 ≤ c ∧ c ≤ 90 then c + 32 else c

/-- `toupper`. -/
def upper (c : Nat) : Nat := if 97 ≤ c ∧ c ≤ 122 then c - 32 else c

/-- `line`, as much of it as `line_ptr` tells, what the commands change, the lines which were run and the responses:
/repo/src/spandsp/private/at_interpreter.h:115-116. -/
structure State (R : Type) where
  line : List Nat
  r : R
  ran : List (List Nat)
  resp : List Resp

/-- A write to `line`, which has 256 characters: /repo/src/spandsp/private/at_interpreter.h:115. -/
def State.write {R : Type} (s : State R) (c : Nat) : Option (State R) :=
  if s.line.length < 256 then some { s with line := s.line ++ [c] } else none

/-- The end of a line: /repo/src/at_interpreter.c:5852-5896.  The number of turns is enough if each command takes at least a
character. -/
def State.finish {R : Type} (m : Cmds R) (s : State R) : Option (State R) :=
  if s.line.length < 256 then
    if s.line.length > 2 then
      (exec m (s.line.length - 1) s.r (s.line.drop 2)).map fun (r, o) =>
        { s with line := [], r := r, ran := s.ran ++ [s.line.drop 2], resp := s.resp ++ o.toList }
    else if s.line.length = 2 then some { s with line := [], resp := s.resp ++ [.ok] }
    else some { s with line := [] }
  else none

/-- One character: /repo/src/at_interpreter.c:5805-5914. -/
def State.char {R : Type} (m : Cmds R) (s : State R) (x : Nat) : Option (State R) :=
  let c := x % 128
  if s.line.length < 2 then
    if lower c = 97 then ({ s with line := [] } : State R).write (upper c)
    else if s.line.length = 1 then
      if lower c = 116 then s.write (upper c)
      else if c = 47 then s.write c
      else some { s with line := [] }
    else some s
  else if 0x20 ≤ c ∧ c ≤ 0x7E then
    if s.line.length < 255 then s.write (upper c) else some s
  else if c = m.s3 s.r then s.finish m
  else if c = m.s5 s.r then some { s with line := s.line.dropLast }
  else some { s with line := [] }

/-- /repo/src/at_interpreter.c:5793-5916 (`at_interpreter`), without the echo. -/
def State.chars {R : Type} (m : Cmds R) (s : State R) : List Nat → Option (State R)
  | [] => some s
  | c :: l => (s.char m c).bind fun s => s.chars m l

/-! ## Numbers -/

def isDigit (c : Nat) : Bool := 48 ≤ c ∧ c ≤ 57

/-- The loop of /repo/src/at_interpreter.c:472-476. -/
def digits (i : Nat) : List Nat → Option (Nat × List Nat)
  | [] => some (i, [])
  | c :: l => if isDigit c then (if i*10 + (c - 48) < 2147483648 then digits (i*10 + (c - 48)) l else none) else some (i, c :: l)

/-- /repo/src/at_interpreter.c:466-482 (`parse_num`): the number and what is left. -/
def parseNum (t : List Nat) (max : Nat) : Option (Int × List Nat) :=
  (digits 0 t).map fun (i, l) => (if i > max then -1 else (i : Int), l)

/-- One digit of /repo/src/at_interpreter.c:491-508. -/
def hexDigit (c : Nat) : Option Nat := if isDigit c then some (c - 48) else if 65 ≤ c ∧ c ≤ 70 then some (c - 65) else none

/-- /repo/src/at_interpreter.c:485-512 (`parse_hex_num`). -/
def parseHex (t : List Nat) (max : Nat) : Int :=
  match t with
  | a :: b :: _ =>
    match hexDigit a, hexDigit b with
    | some x, some y => if x*16 ||| y > max then -1 else ((x*16 ||| y : Nat) : Int)
    | _, _ => -1
  | _ => -1

end At
