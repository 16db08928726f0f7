import Verif.Saturated.Model

/-!
# Model of src/ima_adpcm.c

Samples, and the fields of the state which are `int`, are integers. `none` is undefined behaviour:
an index outside a table or a buffer, or a signed overflow. Output buffers are taken to be large
enough.
-/

namespace Ima

abbrev Byte := BitVec 8

/-- `step_size`, src/ima_adpcm.c:121-135. -/
def stepSize : List Int :=
  [7, 8, 9, 10, 11, 12, 13, 14,
   16, 17, 19, 21, 23, 25, 28, 31,
   34, 37, 41, 45, 50, 55, 60, 66,
   73, 80, 88, 97, 107, 118, 130, 143,
   157, 173, 190, 209, 230, 253, 279, 307,
   337, 371, 408, 449, 494, 544, 598, 658,
   724, 796, 876, 963, 1060, 1166, 1282, 1411,
   1552, 1707, 1878, 2066, 2272, 2499, 2749, 3024,
   3327, 3660, 4026, 4428, 4871, 5358, 5894, 6484,
   7132, 7845, 8630, 9493, 10442, 11487, 12635, 13899,
   15289, 16818, 18500, 20350, 22385, 24623, 27086, 29794,
   32767]

/-- `step_adjustment`, src/ima_adpcm.c:137-140. -/
def stepAdjustment : List Int := [-1, -1, -1, -1, 2, 4, 6, 8]

/-- `vdvi_encode`, src/ima_adpcm.c:142-164: codes and their lengths. -/
def vdviEncode : List (Nat × Nat) :=
  [(0x00, 2), (0x02, 3), (0x0C, 4), (0x1C, 5), (0x3C, 6), (0x7C, 7), (0xFC, 8), (0xFE, 8),
   (0x02, 2), (0x03, 3), (0x0D, 4), (0x1D, 5), (0x3D, 6), (0x7D, 7), (0xFD, 8), (0xFF, 8)]

/-- `vdvi_decode`, src/ima_adpcm.c:166-189: codes, masks and lengths. -/
def vdviDecode : List (BitVec 16 × BitVec 16 × Nat) :=
  [(0x0000#16, 0xC000#16, 2), (0x4000#16, 0xE000#16, 3), (0xC000#16, 0xF000#16, 4), (0xE000#16, 0xF800#16, 5),
   (0xF000#16, 0xFC00#16, 6), (0xF800#16, 0xFE00#16, 7), (0xFC00#16, 0xFF00#16, 8), (0xFE00#16, 0xFF00#16, 8),
   (0x8000#16, 0xC000#16, 2), (0x6000#16, 0xE000#16, 3), (0xD000#16, 0xF000#16, 4), (0xE800#16, 0xF800#16, 5),
   (0xF400#16, 0xFC00#16, 6), (0xFA00#16, 0xFE00#16, 7), (0xFD00#16, 0xFF00#16, 8), (0xFF00#16, 0xFF00#16, 8)]

/-- The variants, src/spandsp/ima_adpcm.h:45-53. -/
inductive Variant
  | ima4
  | dvi4
  | vdvi
deriving DecidableEq

/-- `ima_adpcm_state_t`, src/spandsp/private/ima_adpcm.h:38-50. -/
structure State where
  variant : Variant
  chunkSize : Int
  last : Int
  stepIndex : Int
  imaByte : BitVec 16
  bits : Int
deriving DecidableEq

/-- Indexing a table with an `int`. -/
def at? {α : Type} (l : List α) (i : Int) : Option α := if 0 ≤ i then l[i.toNat]? else none

/-- Does a value fit in an `int`? -/
def fits (x : Int) : Bool := -2147483648 ≤ x ∧ x ≤ 2147483647

/-- `saturate16` of an `int` sum. -/
def sat16 (x : Int) : Option Int := if fits x then some (Saturated.saturate16 (BitVec.ofInt 32 x)).toInt else none

/-- Moving and limiting the step index, src/ima_adpcm.c:214-219 and 270-275. -/
def adjust (stepIndex : Int) (adpcm : Nat) : Option Int := do
  let i := stepIndex + (← stepAdjustment[adpcm % 8]?)
  return if i < 0 then 0 else if i > 88 then 88 else i

/-- `decode`, src/ima_adpcm.c:191-221. The arguments are nibbles. -/
def decode (s : State) (adpcm : Nat) : Option (State × Int) := do
  let ss ← at? stepSize s.stepIndex
  let e := ss / 8
  let e := if adpcm.testBit 0 then e + ss / 4 else e
  let e := if adpcm.testBit 1 then e + ss / 2 else e
  let e := if adpcm.testBit 2 then e + ss else e
  let e := if adpcm.testBit 3 then -e else e
  let linear ← sat16 (s.last + e)
  return ({ s with last := linear, stepIndex := ← adjust s.stepIndex adpcm }, linear)

/-- `encode`, src/ima_adpcm.c:224-277. -/
def encode (s : State) (linear : Int) : Option (State × Nat) := do
  let ss ← at? stepSize s.stepIndex
  let initialE := linear - s.last
  let diff := ss / 8
  let (adpcm, e) := if initialE < 0 then (0x08, -initialE) else (0x00, initialE)
  let (adpcm, e) := if e ≥ ss then (adpcm ||| 0x04, e - ss) else (adpcm, e)
  let ss := ss / 2
  let (adpcm, e) := if e ≥ ss then (adpcm ||| 0x02, e - ss) else (adpcm, e)
  let ss := ss / 2
  let (adpcm, e) := if e ≥ ss then (adpcm ||| 0x01, e - ss) else (adpcm, e)
  let diff := if initialE < 0 then -(diff - initialE - e) else diff + initialE - e
  let last ← sat16 (diff + s.last)
  return ({ s with last, stepIndex := ← adjust s.stepIndex adpcm }, adpcm)

/-- `ima_adpcm_init`, src/ima_adpcm.c:280-294. -/
def init (variant : Variant) (chunkSize : Int) : State :=
  { variant, chunkSize, last := 0, stepIndex := 0, imaByte := 0, bits := 0 }

/-- Two octets as an `int16_t`. -/
def int16 (hi lo : Byte) : Int := (hi ++ lo).toInt

/-- The decoding loop for IMA4, src/ima_adpcm.c:334-338, and for DVI4, :350-354: two nibbles an
octet, in an order given by `lowFirst`. -/
def decodeNibbles (lowFirst : Bool) : State → List Byte → Option (State × List Int)
  | s, [] => some (s, [])
  | s, b :: bs => do
    let lo := b.toNat % 16
    let hi := b.toNat / 16
    let (s, x) ← decode s (if lowFirst then lo else hi)
    let (s, y) ← decode s (if lowFirst then hi else lo)
    let (s, zs) ← decodeNibbles lowFirst s bs
    return (s, x :: y :: zs)

/-- The search of the VDVI table, src/ima_adpcm.c:379-389 and 398-410. If nothing matches the
result is 8, which is where the loop ends. -/
def vdviMatch (code : BitVec 16) : Nat → Nat → Option Nat
  | 0, j => some j
  | n + 1, j => do
    let a ← vdviDecode[j]?
    if a.2.1 &&& code = a.1 then some j else
    let b ← vdviDecode[j + 8]?
    if b.2.1 &&& code = b.1 then some (j + 8) else
    vdviMatch code n (j + 1)

/-- The tail of the VDVI decoder, src/ima_adpcm.c:396-418. `fuel` bounds the number of turns; to
run out of it is `none`. -/
def vdviTail : Nat → State → BitVec 16 → Option (State × List Int)
  | 0, _, _ => none
  | fuel + 1, s, code =>
    if s.bits > 0 then do
      let j ← vdviMatch code 8 0
      let e ← vdviDecode[j]?
      if e.2.2 > s.bits then return (s, [])
      let (s, x) ← decode s j
      let (s, xs) ← vdviTail fuel { s with bits := s.bits - e.2.2 } (code <<< e.2.2)
      return (s, x :: xs)
    else some (s, [])

/-- The main loop of the VDVI decoder, src/ima_adpcm.c:367-394. -/
def vdviLoop : Nat → State → BitVec 16 → List Byte → Option (State × List Int)
  | 0, _, _, _ => none
  | fuel + 1, s, code, data =>
    match (if s.bits ≤ 8 then
        match data with
        | [] => none
        | b :: bs => some ({ s with bits := s.bits + 8 }, code ||| (b.setWidth 16 <<< (8 - s.bits).toNat), bs)
      else some (s, code, data)) with
    | none => vdviTail (fuel + 1) s code
    | some (s, code, data) => do
      let j ← vdviMatch code 8 0
      let (s, x) ← decode s j
      let e ← vdviDecode[j]?
      let (s, xs) ← vdviLoop fuel { s with bits := s.bits - e.2.2 } (code <<< e.2.2) data
      return (s, x :: xs)

/-- `ima_adpcm_decode`, src/ima_adpcm.c:310-423. The result is the samples. -/
def imaDecode (s : State) (data : List Byte) : Option (State × List Int) :=
  match s.variant with
  | .ima4 =>
    if s.chunkSize = 0 then do
      let x := int16 (← data[1]?) (← data[0]?)
      let (s, xs) ← decodeNibbles true { s with stepIndex := (← data[2]?).toNat, last := x } (data.drop 4)
      return (s, x :: xs)
    else decodeNibbles true s data
  | .dvi4 =>
    if s.chunkSize = 0 then do
      let x := int16 (← data[0]?) (← data[1]?)
      decodeNibbles false { s with stepIndex := (← data[2]?).toNat, last := x } (data.drop 4)
    else decodeNibbles false s data
  | .vdvi =>
    if s.chunkSize = 0 then do
      let x := int16 (← data[0]?) (← data[1]?)
      vdviLoop (4 * data.length + 8) { s with stepIndex := (← data[2]?).toNat, last := x, bits := 0 } 0 (data.drop 4)
    else vdviLoop (4 * data.length + 8) { s with bits := 0 } 0 data

/-- An `int16_t` as two octets, the high one first. -/
def octets (x : Int) : Byte × Byte := (BitVec.ofInt 8 (x / 256), BitVec.ofInt 8 x)

/-- The encoding loop for IMA4, src/ima_adpcm.c:451-458, and for DVI4, :469-476. -/
def encodeNibbles (lowFirst : Bool) : State → List Int → Option (State × List Byte)
  | s, [] => some (s, [])
  | s, x :: xs => do
    let (s, c) ← encode s x
    let c := BitVec.ofNat 8 c
    let imaByte := if lowFirst then ((s.imaByte >>> 4) ||| (c.setWidth 16 <<< 4)).setWidth 8 else ((s.imaByte <<< 4) ||| c.setWidth 16).setWidth 8
    if s.bits = 2147483647 then none else
    let odd := s.bits % 2 = 1
    let (s, bs) ← encodeNibbles lowFirst { s with imaByte := imaByte.setWidth 16, bits := s.bits + 1 } xs
    return (s, if odd then imaByte :: bs else bs)

/-- The encoding loop for VDVI, src/ima_adpcm.c:488-503. -/
def encodeVdvi : State → List Int → Option (State × List Byte)
  | s, [] => some (s, if s.bits ≠ 0 then [((s.imaByte.setWidth 32 <<< 8 ||| 0xFF#32) >>> s.bits.toNat).setWidth 8] else [])
  | s, x :: xs => do
    let (s, c) ← encode s x
    let e ← vdviEncode[c]?
    let imaByte := (s.imaByte <<< e.2) ||| BitVec.ofNat 16 e.1
    let bits : Int := s.bits + (e.2 : Int)
    if bits ≥ 8 then
      let (s, bs) ← encodeVdvi { s with imaByte, bits := bits - 8 } xs
      return (s, (imaByte >>> (bits - 8).toNat).setWidth 8 :: bs)
    else encodeVdvi { s with imaByte, bits } xs

/-- `ima_adpcm_encode`, src/ima_adpcm.c:426-508. The result is the octets. -/
def imaEncode (s : State) (amp : List Int) : Option (State × List Byte) :=
  match s.variant with
  | .ima4 =>
    if s.chunkSize = 0 then do
      let x ← amp[0]?
      let (s', bs) ← encodeNibbles true { s with last := x, bits := 0 } (amp.drop 1)
      return (s', (octets x).2 :: (octets x).1 :: BitVec.ofInt 8 s.stepIndex :: 0 :: bs)
    else encodeNibbles true s amp
  | .dvi4 =>
    if s.chunkSize = 0 then do
      let (s', bs) ← encodeNibbles false s amp
      return (s', (octets s.last).1 :: (octets s.last).2 :: BitVec.ofInt 8 s.stepIndex :: 0 :: bs)
    else encodeNibbles false s amp
  | .vdvi =>
    if s.chunkSize = 0 then do
      let (s', bs) ← encodeVdvi { s with bits := 0 } amp
      return (s', (octets s.last).1 :: (octets s.last).2 :: BitVec.ofInt 8 s.stepIndex :: 0 :: bs)
    else encodeVdvi { s with bits := 0 } amp

end Ima
