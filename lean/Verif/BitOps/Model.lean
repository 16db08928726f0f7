import Verif.C

/-!
# Model of `src/spandsp/bit_operations.h` and `src/bit_operations.c`

`uintN_t` is `BitVec N`. Where the source has several implementations selected by the
preprocessor, each C one is modelled (the inline assembler ones are not).
-/

namespace BitOps

/-- One `if (bits & m) { bits &= m; res += d; }` of `top_bit` and `bottom_bit`, e.g.
src/spandsp/bit_operations.h:118-122, on the pair of variables `(bits, res)`. -/
def narrow (m : BitVec 32) (d : Int) (p : BitVec 32 × Int) : BitVec 32 × Int :=
  if p.1 &&& m ≠ 0 then (p.1 &&& m, p.2 + d) else p

/-- `top_bit`, C version, src/spandsp/bit_operations.h:113-143 (the same as :81-111). -/
def topBit (bits : BitVec 32) : Int :=
  if bits = 0 then -1 else
    (narrow 0xAAAAAAAA#32 1 (narrow 0xCCCCCCCC#32 2 (narrow 0xF0F0F0F0#32 4 (narrow 0xFF00FF00#32 8
      (narrow 0xFFFF0000#32 16 (bits, 0)))))).2

/-- `bottom_bit`, C version, src/spandsp/bit_operations.h:163-191. -/
def bottomBit (bits : BitVec 32) : Int :=
  if bits = 0 then -1 else
    (narrow 0x55555555#32 (-1) (narrow 0x33333333#32 (-2) (narrow 0x0F0F0F0F#32 (-4) (narrow 0x00FF00FF#32 (-8)
      (narrow 0x0000FFFF#32 (-16) (bits, 31)))))).2

/-- `bit_reverse8`, the multiplying version, src/spandsp/bit_operations.h:203. The `uint8_t`
argument is promoted to 32 bit unsigned arithmetic, and the result is truncated. -/
def bitReverse8Mul (x : BitVec 8) : BitVec 8 :=
  let x : BitVec 32 := x.setWidth 32
  ((((x * 0x0802#32 &&& 0x22110#32) ||| (x * 0x8020#32 &&& 0x88440#32)) * 0x10101#32) >>> 16).setWidth 8

/-- `bit_reverse8`, the shifting version, src/spandsp/bit_operations.h:206-208. Each
assignment to the `uint8_t` truncates the promoted value. -/
def bitReverse8Shift (x : BitVec 8) : BitVec 8 :=
  let w (x : BitVec 8) : BitVec 32 := x.setWidth 32
  let x : BitVec 8 := ((w x >>> 4) ||| (w x <<< 4)).setWidth 8
  let x : BitVec 8 := (((w x &&& 0xCC) >>> 2) ||| ((w x &&& 0x33) <<< 2)).setWidth 8
  (((w x &&& 0xAA) >>> 1) ||| ((w x &&& 0x55) <<< 1)).setWidth 8

/-- `bit_reverse16`, src/bit_operations.c:42-48. -/
def bitReverse16 (x : BitVec 16) : BitVec 16 :=
  let w (x : BitVec 16) : BitVec 32 := x.setWidth 32
  let x : BitVec 16 := ((w x >>> 8) ||| (w x <<< 8)).setWidth 16
  let x : BitVec 16 := (((w x &&& 0xF0F0) >>> 4) ||| ((w x &&& 0x0F0F) <<< 4)).setWidth 16
  let x : BitVec 16 := (((w x &&& 0xCCCC) >>> 2) ||| ((w x &&& 0x3333) <<< 2)).setWidth 16
  (((w x &&& 0xAAAA) >>> 1) ||| ((w x &&& 0x5555) <<< 1)).setWidth 16

/-- `bit_reverse32`, src/bit_operations.c:51-58. -/
def bitReverse32 (x : BitVec 32) : BitVec 32 :=
  let x := (x >>> 16) ||| (x <<< 16)
  let x := ((x &&& 0xFF00FF00) >>> 8) ||| ((x &&& 0x00FF00FF) <<< 8)
  let x := ((x &&& 0xF0F0F0F0) >>> 4) ||| ((x &&& 0x0F0F0F0F) <<< 4)
  let x := ((x &&& 0xCCCCCCCC) >>> 2) ||| ((x &&& 0x33333333) <<< 2)
  ((x &&& 0xAAAAAAAA) >>> 1) ||| ((x &&& 0x55555555) <<< 1)

/-- `bit_reverse_4bytes`, src/bit_operations.c:61-66. -/
def bitReverse4Bytes (x : BitVec 32) : BitVec 32 :=
  let x := ((x &&& 0xF0F0F0F0) >>> 4) ||| ((x &&& 0x0F0F0F0F) <<< 4)
  let x := ((x &&& 0xCCCCCCCC) >>> 2) ||| ((x &&& 0x33333333) <<< 2)
  ((x &&& 0xAAAAAAAA) >>> 1) ||| ((x &&& 0x55555555) <<< 1)

/-- `bit_reverse_8bytes`, src/bit_operations.c:70-75. -/
def bitReverse8Bytes (x : BitVec 64) : BitVec 64 :=
  let x := ((x &&& 0xF0F0F0F0F0F0F0F0) >>> 4) ||| ((x &&& 0x0F0F0F0F0F0F0F0F) <<< 4)
  let x := ((x &&& 0xCCCCCCCCCCCCCCCC) >>> 2) ||| ((x &&& 0x3333333333333333) <<< 2)
  ((x &&& 0xAAAAAAAAAAAAAAAA) >>> 1) ||| ((x &&& 0x5555555555555555) <<< 1)

/-- A little-endian load of 8 bytes, as on the x86_64 hosts which use it. -/
def load64 (b0 b1 b2 b3 b4 b5 b6 b7 : BitVec 8) : BitVec 64 :=
  b7 ++ b6 ++ b5 ++ b4 ++ b3 ++ b2 ++ b1 ++ b0

/-- A little-endian store of 8 bytes. -/
def store64 (x : BitVec 64) : List (BitVec 8) :=
  [x.extractLsb' 0 8, x.extractLsb' 8 8, x.extractLsb' 16 8, x.extractLsb' 24 8,
   x.extractLsb' 32 8, x.extractLsb' 40 8, x.extractLsb' 48 8, x.extractLsb' 56 8]

def load32 (b0 b1 b2 b3 : BitVec 8) : BitVec 32 := b3 ++ b2 ++ b1 ++ b0

def store32 (x : BitVec 32) : List (BitVec 8) :=
  [x.extractLsb' 0 8, x.extractLsb' 8 8, x.extractLsb' 16 8, x.extractLsb' 24 8]

/-- `bit_reverse`, byte at a time version, src/bit_operations.c:100-102; and the tail loop,
:136-138, of the other version. -/
def bitReverseBytewise (buf : List (BitVec 8)) : List (BitVec 8) := buf.map bitReverse8Shift

/-- The 32 bit loop of `bit_reverse`, src/bit_operations.c:125-138. `buf` is what is left
of the input, `len` bytes. -/
def bitReverseWords : List (BitVec 8) → List (BitVec 8)
  | b0 :: b1 :: b2 :: b3 :: rest =>
    store32 (bitReverse4Bytes (load32 b0 b1 b2 b3)) ++ bitReverseWords rest
  | rest => rest.map bitReverse8Mul

/-- `bit_reverse` on x86_64, src/bit_operations.c:107-138: eight bytes at a time, then
four, then one. -/
def bitReverse : List (BitVec 8) → List (BitVec 8)
  | b0 :: b1 :: b2 :: b3 :: b4 :: b5 :: b6 :: b7 :: rest =>
    store64 (bitReverse8Bytes (load64 b0 b1 b2 b3 b4 b5 b6 b7)) ++ bitReverse rest
  | rest => bitReverseWords rest

/-- `one_bits32` up to the byte counts, src/bit_operations.c:145-150. -/
def oneBitsLanes (x : BitVec 32) : BitVec 32 :=
  let x := x - ((x >>> 1) &&& 0x55555555#32)
  let x := (x &&& 0x33333333#32) + ((x >>> 2) &&& 0x33333333#32)
  (x + (x >>> 4)) &&& 0x0F0F0F0F#32

/-- `one_bits32`, multiplying version, src/bit_operations.c:143-153. -/
def oneBits32Mul (x : BitVec 32) : Nat := ((oneBitsLanes x * 0x01010101#32) >>> 24).toNat

/-- `one_bits32`, shifting version, src/bit_operations.c:143-158. -/
def oneBits32Shift (x : BitVec 32) : Nat :=
  let x := oneBitsLanes x
  let x := x + (x >>> 8)
  let x := x + (x >>> 16)
  (x &&& 0x0000003F#32).toNat

/-- `make_mask32`, src/bit_operations.c:163-171. -/
def makeMask32 (x : BitVec 32) : BitVec 32 :=
  let x := x ||| (x >>> 1)
  let x := x ||| (x >>> 2)
  let x := x ||| (x >>> 4)
  let x := x ||| (x >>> 8)
  x ||| (x >>> 16)

/-- `make_mask16`, src/bit_operations.c:174-181. -/
def makeMask16 (x : BitVec 16) : BitVec 16 :=
  let x := x ||| (x >>> 1)
  let x := x ||| (x >>> 2)
  let x := x ||| (x >>> 4)
  x ||| (x >>> 8)

/-- `least_significant_one32`, src/spandsp/bit_operations.h:260-263. `-(int32_t) x` wraps for
0x80000000 in the two's complement implementations (strictly, it overflows). -/
def leastSignificantOne32 (x : BitVec 32) : BitVec 32 := x &&& (-x)

/-- `most_significant_one32` by shifting, src/spandsp/bit_operations.h:273. `none` is
undefined behaviour: shifting by -1 when `x` is 0. (`1 << 31` is taken to give the sign
bit, as every compiler does.) -/
def mostSignificantOne32Shift (x : BitVec 32) : Option (BitVec 32) :=
  if topBit x < 0 then none else some (1#32 <<< (topBit x).toNat)

/-- `most_significant_one32` by masking, src/spandsp/bit_operations.h:275-276. -/
def mostSignificantOne32Mask (x : BitVec 32) : BitVec 32 :=
  let x := makeMask32 x
  x ^^^ (x >>> 1)

/-- `parity8`, src/spandsp/bit_operations.h:284-288. -/
def parity8 (x : BitVec 8) : Nat :=
  let x := (x ^^^ (x >>> 4)) &&& 0x0F#8
  ((0x6996#32 >>> x.toNat) &&& 1#32).toNat

/-- `parity16`, src/spandsp/bit_operations.h:294-299. -/
def parity16 (x : BitVec 16) : Nat :=
  let x := x ^^^ (x >>> 8)
  let x := (x ^^^ (x >>> 4)) &&& 0x0F#16
  ((0x6996#32 >>> x.toNat) &&& 1#32).toNat

/-- `parity32`, src/spandsp/bit_operations.h:305-311. -/
def parity32 (x : BitVec 32) : Nat :=
  let x := x ^^^ (x >>> 16)
  let x := x ^^^ (x >>> 8)
  let x := (x ^^^ (x >>> 4)) &&& 0x0F#32
  ((0x6996#32 >>> x.toNat) &&& 1#32).toNat

end BitOps
