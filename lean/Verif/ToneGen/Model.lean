/-!
# Tone generation

A model of the cadence in `tone_generate.c`.  A sample is `some ()` in a section with the tone and `none` in silence: the
value of a sample is not modelled.  It depends on nothing but the number of samples of tone before it.  Durations are not
negative.
-/

namespace ToneGen

/-- `tone_gen_state_t`: /repo/src/spandsp/private/tone_generate.h:49-63.  `section` is `none` for -1. -/
structure State where
  d : Nat → Nat
  again : Bool
  sec : Option Nat
  pos : Nat

/-- /repo/src/tone_generate.c:60-119 (`tone_gen_descriptor_init`) and 232-263 (`tone_gen_init`): times in ms. -/
def init (d1 d2 d3 d4 : Nat) (again : Bool) : State :=
  ⟨fun i => [d1*8000/1000, d2*8000/1000, d3*8000/1000, d4*8000/1000].getD i 0, again, some 0, 0⟩

/-- The next section: /repo/src/tone_generate.c:209-225. -/
def next (s : State) (i : Nat) : State :=
  if i + 1 > 3 ∨ s.d (i + 1) = 0 then
    if s.again then { s with pos := 0, sec := some 0 } else { s with pos := 0, sec := none }
  else { s with pos := 0, sec := some (i + 1) }

/-- /repo/src/tone_generate.c:128-229 (`tone_gen`), with a bound on the number of turns of its loop, which is `none` if there
are more. -/
def gen : Nat → State → Nat → Option (State × List (Option Unit))
  | 0, _, _ => none
  | fuel + 1, s, n =>
    match s.sec with
    | none => some (s, [])
    | some i =>
      if n = 0 then some (s, [])
      else
        let v := if i % 2 = 1 then none else some ()
        if s.d i - s.pos > n then some ({ s with pos := s.pos + n }, List.replicate n v)
        else (gen fuel (next s i) (n - (s.d i - s.pos))).map fun r => (r.1, List.replicate (s.d i - s.pos) v ++ r.2)

/-- Some calls, one after the other. -/
def calls (fuel : Nat) (s : State) : List Nat → Option (State × List (List (Option Unit)))
  | [] => some (s, [])
  | n :: l => (gen fuel s n).bind fun r => (calls fuel r.1 l).map fun x => (x.1, r.2 :: x.2)

end ToneGen
