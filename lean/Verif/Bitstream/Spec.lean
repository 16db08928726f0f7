import Verif.Bitstream.Model

/-!
# What a bit stream is

A sequence of fields is the concatenation of their bits, each field least or most significant
bit first; a sequence of octets is the concatenation of theirs, in the same order.
-/

namespace Bitstream.Spec

/-- The low `w` bits of `v`, in the order of the stream. -/
def fieldBits {n : Nat} (lsbFirst : Bool) (v : BitVec n) (w : Nat) : List Bool :=
  if lsbFirst then (List.range w).map v.getLsbD else ((List.range w).map v.getLsbD).reverse

/-- The bits of a sequence of (value, width) fields. -/
def fieldsBits (lsbFirst : Bool) (fs : List (BitVec 32 × Nat)) : List Bool :=
  fs.flatMap fun f => fieldBits lsbFirst f.1 f.2

/-- The bits of a sequence of octets. -/
def octetsBits (lsbFirst : Bool) (o : List (BitVec 8)) : List Bool :=
  o.flatMap fun b => fieldBits lsbFirst b 8

/-- Write all the fields with `bitstream_put`. -/
def putAll (s : State) : List (BitVec 32 × Nat) → Option (State × List (BitVec 8))
  | [] => some (s, [])
  | f :: fs => do
    let (s, o) ← put s f.1 f.2
    let (s, o') ← putAll s fs
    return (s, o ++ o')

/-- Start a stream, write all the fields and flush. -/
def write (lsbFirst : Bool) (fs : List (BitVec 32 × Nat)) : Option (List (BitVec 8)) := do
  let (s, o) ← putAll (init lsbFirst) fs
  let (_, o') ← flush s
  return o ++ o'

/-- Read fields of the given widths with `bitstream_get`: the values and the octets left. -/
def getAll (s : State) (c : List (BitVec 8)) : List Nat → Option (List (BitVec 32) × List (BitVec 8))
  | [] => some ([], c)
  | w :: ws => do
    let (v, s, c) ← get s c w
    let (vs, c) ← getAll s c ws
    return (v :: vs, c)

def read (lsbFirst : Bool) (c : List (BitVec 8)) (ws : List Nat) :
    Option (List (BitVec 32) × List (BitVec 8)) := getAll (init lsbFirst) c ws

end Bitstream.Spec
