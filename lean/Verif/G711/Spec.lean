import Verif.G711.Model

/-!
# What companding should do

A code stands for a cell of the number line. `step` is how wide it is, from the segment number in
bits 4 to 6 of the code: ITU-T G.711 tables 1a and 2a, scaled to 16 bits.
-/

namespace G711.Spec

/-- The segment of a u-law code. All its bits are sent inverted. -/
def ulawSegment (c : Byte) : Nat := 7 - c.toNat / 16 % 8

/-- The segment of an A-law code. Its even bits are sent inverted. -/
def alawSegment (c : Byte) : Nat := (c ^^^ 0x55#8).toNat / 16 % 8

/-- The cell width of a u-law code. -/
def ulawStep (c : Byte) : Int := 8 * 2 ^ ulawSegment c

/-- The cell width of an A-law code. The first two segments have the same. -/
def alawStep (c : Byte) : Int := 16 * 2 ^ (alawSegment c - 1)

end G711.Spec
