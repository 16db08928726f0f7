import Verif.C

/-!
# Model of src/oki_adpcm.c

`none` is undefined behaviour: an index outside a table or a buffer, or a signed overflow. Output
buffers are taken to be large enough. The band limiting filter is in floating point, which is not
modelled: it is a parameter, a function from the taps used (the index of the coefficient, and the
sample it multiplies) to the `int16_t` which results.
-/

namespace Oki

abbrev Byte := BitVec 8

/-- `step_size`, src/oki_adpcm.c:50-59. -/
def stepSize : List Int :=
  [16, 17, 19, 21, 23, 25, 28, 31,
   34, 37, 41, 45, 50, 55, 60, 66,
   73, 80, 88, 97, 107, 118, 130, 143,
   157, 173, 190, 209, 230, 253, 279, 307,
   337, 371, 408, 449, 494, 544, 598, 658,
   724, 796, 876, 963, 1060, 1166, 1282, 1411,
   1552]

/-- `step_adjustment`, src/oki_adpcm.c:61-64. -/
def stepAdjustment : List Int := [-1, -1, -1, -1, 2, 4, 6, 8]

/-- The number of entries in `cutoff_coeffs`, src/oki_adpcm.c:68-151. -/
def coeffs : Nat := 81

/-- `oki_adpcm_state_t`, src/spandsp/private/oki_adpcm.h:37-55. -/
structure State where
  bitRate : Int
  last : Int
  stepIndex : Int
  okiByte : Byte
  history : List Int
  ptr : Int
  mark : Int
  phase : Int
deriving DecidableEq

/-- Conversion to `int16_t`. -/
def i16 (x : Int) : Int := (BitVec.ofInt 16 x).toInt

/-- Indexing a table with an `int`. -/
def at? {α : Type} (l : List α) (i : Int) : Option α := if 0 ≤ i then l[i.toNat]? else none

/-- `decode`, src/oki_adpcm.c:153-203. -/
def decode (s : State) (adpcm : Nat) : Option (State × Int) := do
  let ss ← at? stepSize s.stepIndex
  let d := i16 (ss / 8)
  let d := if adpcm.testBit 0 then i16 (d + ss / 4) else d
  let d := if adpcm.testBit 1 then i16 (d + ss / 2) else d
  let d := if adpcm.testBit 2 then i16 (d + ss) else d
  let d := if adpcm.testBit 3 then i16 (-d) else d
  let linear := i16 (s.last + d)
  let linear := if linear > 2047 then 2047 else if linear < -2048 then -2048 else linear
  let i := i16 (s.stepIndex + (← stepAdjustment[adpcm % 8]?))
  let i := if i < 0 then 0 else if i > 48 then 48 else i
  return ({ s with last := linear, stepIndex := i }, linear)

/-- `encode`, src/oki_adpcm.c:206-241. -/
def encode (s : State) (linear : Int) : Option (State × Nat) := do
  let ss ← at? stepSize s.stepIndex
  let d := i16 (linear / 16 - s.last)
  let (adpcm, d) := if d < 0 then (0x08, i16 (-d)) else (0x00, d)
  let (adpcm, d) := if d ≥ ss then (adpcm ||| 0x04, i16 (d - ss)) else (adpcm, d)
  let (adpcm, d) := if d ≥ ss / 2 then (adpcm ||| 0x02, i16 (d - ss / 2)) else (adpcm, d)
  let adpcm := if d ≥ ss / 4 then adpcm ||| 0x01 else adpcm
  let (s, last) ← decode s adpcm
  return ({ s with last := last }, adpcm)

/-- `oki_adpcm_init`, src/oki_adpcm.c:244-257. -/
def init (bitRate : Int) : Option State :=
  if bitRate ≠ 32000 ∧ bitRate ≠ 24000 then none
  else some { bitRate, last := 0, stepIndex := 0, okiByte := 0, history := List.replicate 32 0, ptr := 0, mark := 0, phase := 0 }

/-- Add a sample to the history, src/oki_adpcm.c:306-308, 357-358 and 365-366. -/
def push (s : State) (x : Int) : Option State :=
  if 0 ≤ s.ptr ∧ s.ptr < s.history.length then some { s with history := s.history.set s.ptr.toNat x, ptr := (s.ptr + 1) % 32 } else none

/-- The taps used by the filter, src/oki_adpcm.c:312-313 and 368-369. The first one is `l`, and the
step is `step`. `fuel` bounds the number of turns, and is enough if it is more than `l`. -/
def taps (history : List Int) (step : Int) : Nat → Int → Int → Option (List (Nat × Int))
  | 0, _, _ => none
  | fuel + 1, l, x =>
    if l ≥ 0 then do
      if l.toNat ≥ coeffs then none
      let h ← at? history (x % 32)
      let r ← taps history step fuel (l - step) (x - 1)
      return (l.toNat, h) :: r
    else some []

/-- The decoding loop at 32kbps, src/oki_adpcm.c:291-295. The shift of a value which may be negative
is taken to be a multiplication. -/
def decode32 : State → List Byte → Option (State × List Int)
  | s, [] => some (s, [])
  | s, b :: bs => do
    let (s, x) ← decode s (b.toNat / 16)
    let (s, y) ← decode s (b.toNat % 16)
    let (s, zs) ← decode32 s bs
    return (s, i16 (x * 16) :: i16 (y * 16) :: zs)

/-- The decoding loop at 24kbps, src/oki_adpcm.c:301-318. The list is what `i` still has to reach, and
`odd` is the bottom bit of `n`. `fuel` bounds the number of turns. -/
def decode24 (fir : List (Nat × Int) → Int) : Nat → Bool → State → List Byte → Option (State × List Int)
  | 0, _, _, _ => none
  | _ + 1, _, s, [] => some (s, [])
  | fuel + 1, odd, s, b :: bs => do
    let (s, odd, rest) ←
      if s.phase ≠ 0 then do
        let (s, x) ← decode s (if odd then b.toNat % 16 else b.toNat / 16)
        let s ← push s (i16 (x * 16))
        pure (s, !odd, if odd then bs else b :: bs)
      else pure (s, odd, b :: bs)
    let t ← taps s.history 4 100 (80 - 3 + s.phase) (s.ptr - 1)
    let (s', xs) ← decode24 fir fuel odd { s with phase := if s.phase + 1 > 3 then 0 else s.phase + 1 } rest
    return (s', fir t :: xs)

/-- `oki_adpcm_decode`, src/oki_adpcm.c:273-323. -/
def okiDecode (fir : List (Nat × Int) → Int) (s : State) (data : List Byte) : Option (State × List Int) :=
  if s.bitRate = 32000 then decode32 s data else decode24 fir (4 * data.length + 4) false s data

/-- Pack a code, src/oki_adpcm.c:342-344 and 371-373. -/
def emit (s : State) (c : Nat) : Option (State × List Byte) :=
  let okiByte := (s.okiByte <<< 4) ||| BitVec.ofNat 8 c
  if s.mark = 2147483647 then none
  else some ({ s with okiByte, mark := s.mark + 1 }, if s.mark % 2 = 1 then [okiByte] else [])

/-- The encoding loop at 32kbps, src/oki_adpcm.c:340-346. -/
def encode32 : State → List Int → Option (State × List Byte)
  | s, [] => some (s, [])
  | s, x :: xs => do
    let (s, c) ← encode s x
    let (s, b) ← emit s c
    let (s, bs) ← encode32 s xs
    return (s, b ++ bs)

/-- One turn of the encoding loop at 24kbps from src/oki_adpcm.c:365 to 375. -/
def code24 (fir : List (Nat × Int) → Int) (s : State) (x : Int) : Option (State × List Byte) := do
  let s ← push s x
  let t ← taps s.history 3 100 (80 - s.phase) (s.ptr - 1)
  let (s, c) ← encode s (fir t)
  let (s, b) ← emit s c
  return ({ s with phase := s.phase + 1 }, b)

/-- The encoding loop at 24kbps, src/oki_adpcm.c:352-379. It reads a sample before it looks at the
length. -/
def encode24 (fir : List (Nat × Int) → Int) : State → List Int → Option (State × List Byte)
  | _, [] => none
  | s, x :: xs =>
    if s.phase > 2 then do
      let s ← push s x
      let s := { s with phase := 0 }
      match xs with
      | [] => some (s, [])
      | y :: ys => do
        let (s, b) ← code24 fir s y
        match ys with
        | [] => some (s, b)
        | _ :: _ => do
          let (s, bs) ← encode24 fir s ys
          return (s, b ++ bs)
    else do
      let (s, b) ← code24 fir s x
      match xs with
      | [] => some (s, b)
      | _ :: _ => do
        let (s, bs) ← encode24 fir s xs
        return (s, b ++ bs)

/-- `oki_adpcm_encode`, src/oki_adpcm.c:326-384. -/
def okiEncode (fir : List (Nat × Int) → Int) (s : State) (amp : List Int) : Option (State × List Byte) :=
  if s.bitRate = 32000 then encode32 s amp else encode24 fir s amp

end Oki
