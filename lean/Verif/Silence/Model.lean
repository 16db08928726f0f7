/-!
# Model of src/silence_gen.c, the silence generator

The counts are `int32_t` and `int`: a sum which does not fit is undefined in C, and `none` here. What the status handler is told is
part of the output.
-/

namespace Silence

/-- `INT_MAX`. -/
def intMax : Int := 2147483647

/-- The result of an addition or subtraction of type `int`. -/
def int (x : Int) : Option Int := if -2147483648 ≤ x ∧ x ≤ 2147483647 then some x else none

/-- `silence_gen_state_s`, src/spandsp/private/silence_gen.h:29-40. Whether there is a status handler is a truth value. -/
structure State where
  handler : Bool
  remaining : Int
  total : Int
deriving DecidableEq

/-- What a call of `silence_gen` gives: the samples written, the value returned, and how often the status handler was told
`SIG_STATUS_SHUTDOWN_COMPLETE`. -/
structure Block where
  samples : List Int
  length : Int
  completed : Nat
deriving DecidableEq

/-- The count of the samples, src/silence_gen.c:75-77. -/
def count (total n : Int) : Option Int :=
  (int (intMax - total)).bind fun room => if room ≥ n then int (total + n) else some total

/-- The writing of the samples, src/silence_gen.c:78. A negative length is a huge `size_t`, and undefined. -/
def zeros (n : Int) : Option (List Int) := if 0 ≤ n then some (List.replicate n.toNat 0) else none

/-- `silence_gen`, src/silence_gen.c:60-80. -/
def gen (s : State) (maxLen : Int) : Option (State × Block) :=
  if s.remaining ≠ intMax then
    let last := decide (maxLen ≥ s.remaining)
    let n := if last then s.remaining else maxLen
    let told := if last ∧ n ≠ 0 ∧ s.handler then 1 else 0
    (int (s.remaining - n)).bind fun r => (count s.total n).bind fun t => (zeros n).map fun z => ({ s with remaining := r, total := t }, ⟨z, n, told⟩)
  else
    (count s.total maxLen).bind fun t => (zeros maxLen).map fun z => ({ s with total := t }, ⟨z, maxLen, 0⟩)

/-- `silence_gen_always`, src/silence_gen.c:83-86. -/
def always (s : State) : State := { s with remaining := intMax }

/-- `silence_gen_set`, src/silence_gen.c:89-93. -/
def set (s : State) (n : Int) : State := { s with remaining := n, total := 0 }

/-- A negative alteration is limited, src/silence_gen.c:99-105. -/
def limited (s : State) (n : Int) : Option Int :=
  if n < 0 then (int (-n)).bind fun m => if m > s.remaining then int (-s.remaining) else some n else some n

/-- `silence_gen_alter`, src/silence_gen.c:96-108. -/
def alter (s : State) (n : Int) : Option State :=
  (limited s n).bind fun n => (int (s.remaining + n)).bind fun r => (int (s.total + n)).map fun t => { s with remaining := r, total := t }

/-- `silence_gen_remainder`, src/silence_gen.c:111-114. -/
def remainder (s : State) : Int := s.remaining

/-- `silence_gen_generated`, src/silence_gen.c:117-120. -/
def generated (s : State) : Int := s.total

/-- `silence_gen_status_handler`, src/silence_gen.c:123-127. -/
def statusHandler (s : State) (h : Bool) : State := { s with handler := h }

/-- `silence_gen_init`, src/silence_gen.c:130-142. -/
def init (n : Int) : State := { handler := false, remaining := n, total := 0 }

/-- A call of the interface while the generator runs. -/
inductive Op where
  | gen (maxLen : Int)
  | alter (n : Int)
deriving DecidableEq

/-- Calls are made in turn; `none` is undefined behaviour. -/
def run (s : State) : List Op → Option (State × List Block)
  | [] => some (s, [])
  | .gen m :: ops => (gen s m).bind fun (s, b) => (run s ops).map fun (s, bs) => (s, b :: bs)
  | .alter n :: ops => (alter s n).bind fun s => run s ops

end Silence
