import Verif.Gsm.Model

/-!
# The formats of GSM 06.10 frames

A frame is 260 bits (GSM 06.10, table 1.1). RTP and most other uses send them with the most significant bit of each field first, after the four bits
1101 (RFC 3551, 4.5.8). The format of wave files sends two frames, with the least significant bit of each field first.
-/

namespace Gsm

/-- The width of each field, in bits. -/
def width : Place → Nat
  | .larc j => [6, 6, 5, 5, 4, 4, 3, 3].getD j 0
  | .nc _ => 7
  | .bc _ => 2
  | .mc _ => 2
  | .xmaxc _ => 6
  | .xmc _ _ => 3

/-- The order of the fields of a sub-frame. -/
def subOrder (i : Fin 4) : List Place :=
  [.nc i, .bc i, .mc i, .xmaxc i, .xmc i 0, .xmc i 1, .xmc i 2, .xmc i 3, .xmc i 4, .xmc i 5, .xmc i 6, .xmc i 7, .xmc i 8, .xmc i 9, .xmc i 10,
    .xmc i 11, .xmc i 12]

/-- The order of the fields. -/
def order : List Place :=
  [.larc 0, .larc 1, .larc 2, .larc 3, .larc 4, .larc 5, .larc 6, .larc 7] ++ subOrder 0 ++ subOrder 1 ++ subOrder 2 ++ subOrder 3

/-- All fields fit. -/
def Fits (f : Place → Nat) : Prop := ∀ p, f p < 2 ^ width p

/-- The low `n` bits of a number, the lowest first. -/
def lsb (n v : Nat) : List Bool := (List.range n).map fun i => v.testBit i

/-- The low `n` bits of a number, the highest first. -/
def msb (n v : Nat) : List Bool := (lsb n v).reverse

/-- Packed bytes. -/
def Bytes (n : Nat) (c : List Nat) : Prop := c.length = n ∧ ∀ b ∈ c, b < 256

end Gsm
