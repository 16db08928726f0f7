/-!
# A little C

Shared vocabulary for the models: bounded memory blocks, `memcpy`, and the C idea of
undefined behaviour, which is `none` here.
-/

namespace C

/-- A block of bytes of a fixed size (an array object in C). -/
abbrev Mem := List UInt8

/-- The source side of `memcpy(_, &m[off], n)`: the `n` bytes at `off`. `none` is
undefined behaviour: a negative count (a huge `size_t`) or bytes outside the object. -/
def slice (m : Mem) (off n : Int) : Option (List UInt8) :=
  if 0 ≤ off ∧ 0 ≤ n ∧ off + n ≤ m.length then
    some ((m.drop off.toNat).take n.toNat)
  else none

/-- The destination side of `memcpy(&m[off], src, src.length)`. -/
def store (m : Mem) (off : Int) (src : List UInt8) : Option Mem :=
  if 0 ≤ off ∧ off + src.length ≤ m.length then
    some (m.take off.toNat ++ src ++ m.drop (off.toNat + src.length))
  else none

/-- `m[i] = b`. -/
def store1 (m : Mem) (i : Int) (b : UInt8) : Option Mem := store m i [b]

/-- `m[i]`. -/
def load1 (m : Mem) (i : Int) : Option UInt8 :=
  if 0 ≤ i then m[i.toNat]? else none

end C
