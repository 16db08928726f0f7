/-!
# Supervisory tones

A model of `super_tone_tx.c`.  A sample is the tone which it belongs to, or `none` for silence: the value of a sample is
not modelled.  It depends on nothing but the tones of the samples before it, since the phases go on from one to the next.
The lengths and cycles are not negative.
-/

namespace SuperTone

/-- `super_tone_tx_step_t`: /repo/src/spandsp/private/super_tone_tx.h:29-37.  The chain by `next` is a list.  A step has a
tone if its first frequency is above zero: /repo/src/super_tone_tx.c:72-115 (`super_tone_tx_make_step`). -/
inductive Step (T : Type) where
  | mk (tone : Option T) (length cycles : Nat) (nest : List (Step T))

variable {T : Type}

def Step.tone : Step T → Option T
  | .mk t _ _ _ => t

def Step.length : Step T → Nat
  | .mk _ l _ _ => l

def Step.cycles : Step T → Nat
  | .mk _ _ c _ => c

def Step.nest : Step T → List (Step T)
  | .mk _ _ _ n => n

/-- One of `levels` with its count in `cycles`: /repo/src/spandsp/private/super_tone_tx.h:45-46. -/
structure Frame (T : Type) where
  cur : Step T
  next : List (Step T)
  left : Nat

/-- `super_tone_tx_state_t`: /repo/src/spandsp/private/super_tone_tx.h:39-47.  The levels in use, the current one first.
There is none after the end, where the code has a null pointer in `levels[0]`. -/
structure State (T : Type) where
  stack : List (Frame T)
  pos : Nat

/-- Going to the first of some steps on a new level. -/
def start (l : List (Step T)) (below : List (Frame T)) : List (Frame T) :=
  match l with
  | [] => below
  | s :: r => ⟨s, r, s.cycles⟩ :: below

/-- /repo/src/super_tone_tx.c:139-160 (`super_tone_tx_init`). -/
def init (l : List (Step T)) : State T := ⟨start l [], 0⟩

/-- Repeating and moving forward a step: the loop of /repo/src/super_tone_tx.c:291-312. -/
def finish : List (Frame T) → List (Frame T)
  | [] => []
  | f :: below =>
    if f.cur.cycles = 0 then f :: below
    else if f.left - 1 > 0 then { f with left := f.left - 1 } :: below
    else
      match f.next with
      | s :: r => ⟨s, r, s.cycles⟩ :: below
      | [] => finish below

/-- What comes after the samples of a step: /repo/src/super_tone_tx.c:273-314. -/
def move : List (Frame T) → List (Frame T)
  | [] => []
  | f :: below =>
    if f.cur.nest ≠ [] then
      if below.length < 3 then start f.cur.nest (f :: below) else f :: below
    else finish (f :: below)

/-- /repo/src/super_tone_tx.c:174-320 (`super_tone_tx`), with a bound on the number of turns of its loop, which is `none`
if there are more. -/
def tx : Nat → State T → Nat → Option (State T × List (Option T))
  | 0, _, _ => none
  | fuel + 1, s, n =>
    match s.stack with
    | [] => some (s, [])
    | f :: below =>
      if n = 0 then some (s, [])
      else if f.cur.tone.isSome ∧ f.cur.length = 0 then some ({ s with pos := 1 }, List.replicate n f.cur.tone)
      else if f.cur.length - s.pos > n then some ({ s with pos := s.pos + n }, List.replicate n f.cur.tone)
      else (tx fuel ⟨move (f :: below), 0⟩ (n - (f.cur.length - s.pos))).map fun r =>
        (r.1, List.replicate (f.cur.length - s.pos) f.cur.tone ++ r.2)

/-- Some calls, one after the other. -/
def calls (fuel : Nat) (s : State T) : List Nat → Option (State T × List (List (Option T)))
  | [] => some (s, [])
  | n :: l => (tx fuel s n).bind fun r => (calls fuel r.1 l).map fun x => (x.1, r.2 :: x.2)

end SuperTone
