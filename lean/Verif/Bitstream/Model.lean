/-!
# Model of src/bitstream.c

The register is a `BitVec 32`. The stream pointer is modelled by the octets written so far (for
writing) or still to be read (for reading): room for the output is the caller's business.
`none` is undefined behaviour: a shift of `1` into or past the sign bit of an `int`
(`bits > 30`), a shift by 32 or more, or a read past the end of the input.
-/

namespace Bitstream

/-- `struct bitstream_state_s`, src/spandsp/private/bitstream.h:30-38. -/
structure State where
  bitstream : BitVec 32
  residue : Nat
  lsbFirst : Bool
deriving DecidableEq

/-- `bitstream_init`, src/bitstream.c:148-161. -/
def init (lsbFirst : Bool) : State := ⟨0, 0, lsbFirst⟩

/-- `(1 << bits) - 1` as the code uses it: an `int`, converted to `uint32_t`. -/
def mask (bits : Nat) : BitVec 32 := (1#32 <<< bits) - 1#32

/-- The LSB first `while` of `bitstream_put`, src/bitstream.c:59-64: the new register and
residue, and the octets written. The first argument bounds the number of rounds, and is given
as the residue, which is more than enough (`drainLsb_spec`). -/
def drainLsb : Nat → BitVec 32 → Nat → BitVec 32 × Nat × List (BitVec 8)
  | 0, bitstream, residue => (bitstream, residue, [])
  | n + 1, bitstream, residue =>
    if residue ≥ 8 then
      let (b, r, o) := drainLsb n (bitstream >>> 8) (residue - 8)
      (b, r, (bitstream &&& 0xFF#32).setWidth 8 :: o)
    else (bitstream, residue, [])

/-- The MSB first `while` of `bitstream_put`, src/bitstream.c:75-79. The first argument is as
for `drainLsb`. -/
def drainMsb : Nat → BitVec 32 → Nat → Nat × List (BitVec 8)
  | 0, _, residue => (residue, [])
  | n + 1, bitstream, residue =>
    if residue ≥ 8 then
      let (r, o) := drainMsb n bitstream (residue - 8)
      (r, ((bitstream >>> (residue - 8)) &&& 0xFF#32).setWidth 8 :: o)
    else (residue, [])

/-- `bitstream_put`, src/bitstream.c:48-83: the new state and the octets written. -/
def put (s : State) (value : BitVec 32) (bits : Nat) : Option (State × List (BitVec 8)) :=
  if bits > 30 ∨ s.residue > 31 then none else
  let value := value &&& mask bits
  if s.lsbFirst then
    let (b, r) := if s.residue + bits ≤ 32 then (s.bitstream ||| (value <<< s.residue), s.residue + bits)
      else (s.bitstream, s.residue)
    let (b, r, o) := drainLsb r b r
    some ({ s with bitstream := b, residue := r }, o)
  else
    let (b, r) := if s.residue + bits ≤ 32 then ((s.bitstream <<< bits) ||| value, s.residue + bits)
      else (s.bitstream, s.residue)
    let (r, o) := drainMsb r b r
    some ({ s with bitstream := b, residue := r }, o)

/-- `bitstream_emit`, src/bitstream.c:86-100: the octet stored at the pointer, if any.
The residue is below 8 between calls. -/
def emit (s : State) : Option (List (BitVec 8)) :=
  if s.residue > 0 then
    if s.residue > 8 then none else
    let b := s.bitstream &&& mask s.residue
    if s.lsbFirst then some [b.setWidth 8]
    else some [(b <<< (8 - s.residue)).setWidth 8]
  else some []

/-- `bitstream_flush`, src/bitstream.c:103-113. -/
def flush (s : State) : Option (State × List (BitVec 8)) := do
  if s.residue > 0 then
    let o ← emit s
    return ({ s with bitstream := 0, residue := 0 }, o)
  else return ({ s with bitstream := 0 }, [])

/-- The LSB first `while` of `bitstream_get`, src/bitstream.c:122-126. -/
def fillLsb (bits : Nat) (bitstream : BitVec 32) (residue : Nat) :
    List (BitVec 8) → Option (BitVec 32 × Nat × List (BitVec 8))
  | [] => if residue < bits then none else some (bitstream, residue, [])
  | b :: c =>
    if residue < bits then
      if residue > 31 then none
      else fillLsb bits (bitstream ||| (b.setWidth 32 <<< residue)) (residue + 8) c
    else some (bitstream, residue, b :: c)

/-- The MSB first `while` of `bitstream_get`, src/bitstream.c:134-138. -/
def fillMsb (bits : Nat) (bitstream : BitVec 32) (residue : Nat) :
    List (BitVec 8) → Option (BitVec 32 × Nat × List (BitVec 8))
  | [] => if residue < bits then none else some (bitstream, residue, [])
  | b :: c =>
    if residue < bits then fillMsb bits ((bitstream <<< 8) ||| b.setWidth 32) (residue + 8) c
    else some (bitstream, residue, b :: c)

/-- `bitstream_get`, src/bitstream.c:116-145: the value, the new state and the octets left. -/
def get (s : State) (c : List (BitVec 8)) (bits : Nat) : Option (BitVec 32 × State × List (BitVec 8)) :=
  if bits > 30 then none else
  if s.lsbFirst then do
    let (b, r, c) ← fillLsb bits s.bitstream s.residue c
    return (b &&& mask bits, { s with bitstream := b >>> bits, residue := r - bits }, c)
  else do
    let (b, r, c) ← fillMsb bits s.bitstream s.residue c
    if r - bits > 31 then none else
    return ((b >>> (r - bits)) &&& mask bits, { s with bitstream := b, residue := r - bits }, c)

end Bitstream
