/-!
# What a CRC is

The bit-serial definition used by the ITU recommendations: a shift register, fed one message
bit at a time, least significant bit of each octet first.
-/

namespace Crc.Spec

/-- One message bit into the register with feedback polynomial `poly` (bit-reversed notation). -/
def bit {w : Nat} (poly c : BitVec w) (b : Bool) : BitVec w :=
  if (b ^^ c.getLsbD 0) = true then (c >>> 1) ^^^ poly else c >>> 1

/-- A sequence of message bits into the register. -/
def serial {w : Nat} (poly c : BitVec w) (bs : List Bool) : BitVec w := bs.foldl (bit poly) c

/-- The bits of an octet, in transmission order. -/
def octetBits (b : BitVec 8) : List Bool := (List.range 8).map b.getLsbD

/-- The bits of a message, in transmission order. -/
def bits (m : List (BitVec 8)) : List Bool := m.flatMap octetBits

/-- The two polynomials of the ITU recommendations: x^16+x^12+x^5+1 and the 32 bit one. -/
def poly16 : BitVec 16 := 0x8408
def poly32 : BitVec 32 := 0xEDB88320

/-- `m'` is `m` after an error burst of at most `n` bits: they have the same length, they differ,
and all the places where they differ lie within some `n` consecutive bit positions. -/
def Burst (n : Nat) (m m' : List (BitVec 8)) : Prop :=
  m.length = m'.length ∧ m ≠ m' ∧
  ∃ p, ∀ i, (bits m)[i]? ≠ (bits m')[i]? → p ≤ i ∧ i < p + n

end Crc.Spec
