/-!
# Model of src/spandsp/saturated.h

Values are two's complement bit vectors. The plain C version and the x86 assembler version of
each function are both modelled. The ARM versions and the floating point functions are not.
`none` is a signed overflow.
-/

namespace Saturated

/-- `saturate16`, src/spandsp/saturated.h:45-67. -/
def saturate16 (amp : BitVec 32) : BitVec 16 :=
  let z := amp.setWidth 16
  if amp = z.signExtend 32 then z
  else if amp.toInt > 32767 then 32767#16
  else BitVec.ofInt 16 (-32768)

/-- `saturate15`, src/spandsp/saturated.h:71-89. -/
def saturate15 (amp : BitVec 32) : BitVec 16 :=
  if amp.toInt > 16383 then 16383#16
  else if amp.toInt < -16384 then BitVec.ofInt 16 (-16384)
  else amp.setWidth 16

/-- `saturateu16`, src/spandsp/saturated.h:92-114. -/
def saturateu16 (amp : BitVec 32) : BitVec 16 :=
  let z := amp.setWidth 16
  if amp = z.zeroExtend 32 then z
  else if amp.toInt > 65535 then 65535#16
  else 0

/-- `saturateu8`, src/spandsp/saturated.h:117-139. -/
def saturateu8 (amp : BitVec 32) : BitVec 8 :=
  let z := amp.setWidth 8
  if amp = z.zeroExtend 32 then z
  else if amp.toInt > 255 then 255#8
  else 0

/-- The result of an x86 `add` instruction (used in src/spandsp/saturated.h:209, 237): the sum, the overflow flag and the carry flag. -/
def x86Add {w : Nat} (x y : BitVec w) : BitVec w × Bool × Bool :=
  (x + y, decide (x.toInt + y.toInt < -2 ^ (w - 1) ∨ x.toInt + y.toInt ≥ 2 ^ (w - 1)), decide (x.toNat + y.toNat ≥ 2 ^ w))

/-- The result of an x86 `sub` instruction (used in src/spandsp/saturated.h:271, 297): the difference, the overflow flag and the carry (borrow) flag. -/
def x86Sub {w : Nat} (x y : BitVec w) : BitVec w × Bool × Bool :=
  (x - y, decide (x.toInt - y.toInt < -2 ^ (w - 1) ∨ x.toInt - y.toInt ≥ 2 ^ (w - 1)), decide (x.toNat < y.toNat))

/-- `sat_add16` for x86, src/spandsp/saturated.h:206-218: add; if there was no overflow, done;
else load 0x7FFF, and add the carry. -/
def satAdd16X86 (x y : BitVec 16) : BitVec 16 :=
  let (x, o, c) := x86Add x y
  if o = false then x else 0x7FFF#16 + (BitVec.ofBool c).setWidth 16

/-- `sat_add16` elsewhere, src/spandsp/saturated.h:206-231. -/
def satAdd16 (x y : BitVec 16) : BitVec 16 := saturate16 (x.signExtend 32 + y.signExtend 32)

/-- `sat_add32` for x86, src/spandsp/saturated.h:234-246. -/
def satAdd32X86 (x y : BitVec 32) : BitVec 32 :=
  let (x, o, c) := x86Add x y
  if o = false then x else 0x7FFFFFFF#32 + (BitVec.ofBool c).setWidth 32

/-- `sat_add32` elsewhere, src/spandsp/saturated.h:234-265, for a compiler which wraps signed
sums (`-fwrapv`). In standard C `z = x + y` is undefined when it overflows: see `satAdd32C`. -/
def satAdd32Wrap (x y : BitVec 32) : BitVec 32 :=
  let z := x + y
  if (x ^^^ y).toInt ≥ 0 then
    if (z ^^^ x).toInt < 0 then (if x.toInt < 0 then BitVec.intMin 32 else BitVec.intMax 32) else z
  else z

/-- `sat_add32` elsewhere, src/spandsp/saturated.h:234-265, in standard C. -/
def satAdd32C (x y : BitVec 32) : Option (BitVec 32) :=
  if x.toInt + y.toInt < -2 ^ 31 ∨ x.toInt + y.toInt ≥ 2 ^ 31 then none else some (satAdd32Wrap x y)

/-- `sat_sub16` for x86, src/spandsp/saturated.h:268-280. -/
def satSub16X86 (x y : BitVec 16) : BitVec 16 :=
  let (x, o, c) := x86Sub x y
  if o = false then x else 0x8000#16 - (BitVec.ofBool c).setWidth 16

/-- `sat_sub16` elsewhere, src/spandsp/saturated.h:268-291. -/
def satSub16 (x y : BitVec 16) : BitVec 16 := saturate16 (x.signExtend 32 - y.signExtend 32)

/-- `sat_sub32` for x86, src/spandsp/saturated.h:294-306. -/
def satSub32X86 (x y : BitVec 32) : BitVec 32 :=
  let (x, o, c) := x86Sub x y
  if o = false then x else 0x80000000#32 - (BitVec.ofBool c).setWidth 32

/-- `sat_sub32` elsewhere, src/spandsp/saturated.h:294-325, for a compiler which wraps. -/
def satSub32Wrap (x y : BitVec 32) : BitVec 32 :=
  let z := x - y
  if (x ^^^ y).toInt < 0 then
    if (z ^^^ x).toInt < 0 then (if x.toInt < 0 then BitVec.intMin 32 else BitVec.intMax 32) else z
  else z

/-- `sat_mul16`, src/spandsp/saturated.h:328-346. -/
def satMul16 (x y : BitVec 16) : BitVec 16 :=
  let z := x.signExtend 32 * y.signExtend 32
  if z = 0x40000000#32 then 32767#16 else (z.sshiftRight 15).setWidth 16

/-- `sat_mul32_16`, src/spandsp/saturated.h:349-365. The left shift of a negative number is
taken to be what every compiler does. -/
def satMul32_16 (x y : BitVec 16) : BitVec 32 :=
  let z := x.signExtend 32 * y.signExtend 32
  if z = 0x40000000#32 then BitVec.intMax 32 else z <<< 1

/-- `sat_mac32_16` on x86, src/spandsp/saturated.h:368-381. -/
def satMac32_16 (z : BitVec 32) (x y : BitVec 16) : BitVec 32 := satAdd32X86 z (satMul32_16 x y)

/-- `sat_msu32_16` on x86, src/spandsp/saturated.h:384-397. -/
def satMsu32_16 (z : BitVec 32) (x y : BitVec 16) : BitVec 32 := satSub32X86 z (satMul32_16 x y)

/-- `sat_abs16`, src/spandsp/saturated.h:400-405. -/
def satAbs16 (x : BitVec 16) : BitVec 16 := if x = BitVec.intMin 16 then BitVec.intMax 16 else BitVec.ofInt 16 x.toInt.natAbs

/-- `sat_abs32`, src/spandsp/saturated.h:408-413. -/
def satAbs32 (x : BitVec 32) : BitVec 32 := if x = BitVec.intMin 32 then BitVec.intMax 32 else BitVec.ofInt 32 x.toInt.natAbs

end Saturated
