import Verif.Ima.Model

/-!
# What an ADPCM link should do

An ADPCM encoder runs a copy of the decoder: after each sample it holds the value the decoder should
have produced. `estimates` lists these values.
-/

namespace Ima.Spec

/-- A 16 bit sample. -/
def Sample (x : Int) : Prop := -32768 ≤ x ∧ x ≤ 32767

/-- The codes chosen for a sequence of samples, and the prediction after each of them. -/
def estimates : State → List Int → Option (State × List (Nat × Int))
  | s, [] => some (s, [])
  | s, x :: xs => do
    let (s, c) ← encode s x
    let (s', es) ← estimates s xs
    return (s', (c, s.last) :: es)

/-- Decoding a sequence of codes. -/
def runDecode : State → List Nat → Option (State × List Int)
  | t, [] => some (t, [])
  | t, c :: cs => do
    let (t, x) ← decode t c
    let (t, xs) ← runDecode t cs
    return (t, x :: xs)

/-- A sequence of calls to `ima_adpcm_encode`: all the octets. -/
def encodeCalls : State → List (List Int) → Option (State × List Byte)
  | s, [] => some (s, [])
  | s, x :: xs => do
    let (s, bs) ← imaEncode s x
    let (s, bs') ← encodeCalls s xs
    return (s, bs ++ bs')

/-- A sequence of calls to `ima_adpcm_decode`: all the samples. -/
def decodeCalls : State → List (List Byte) → Option (State × List Int)
  | s, [] => some (s, [])
  | s, b :: bs => do
    let (s, xs) ← imaDecode s b
    let (s, xs') ← decodeCalls s bs
    return (s, xs ++ xs')

/-- Each call's octets are passed on as one block to one call of the decoder: the samples of each. -/
def blocks : State → State → List (List Int) → Option (List (List Int))
  | _, _, [] => some []
  | s, t, x :: xs => do
    let (s, bs) ← imaEncode s x
    let (t, y) ← imaDecode t bs
    let ys ← blocks s t xs
    return y :: ys

/-- The values expected from an IMA4 chunk by chunk link: the first sample of each chunk is sent as it
is, and sets the prediction; the rest are pairs of codes. -/
def ima4Chunks : State → List (List Int) → Option (List (List Int))
  | _, [] => some []
  | _, [] :: _ => none
  | s, (x :: xs) :: calls => do
    let (s, es) ← estimates { s with last := x } xs
    let ys ← ima4Chunks s calls
    return (x :: (es.map (·.2)).take (2 * (xs.length / 2))) :: ys

/-- The values expected from a DVI4 or a VDVI link. -/
def dvi4Chunks : State → List (List Int) → Option (List (List Int))
  | _, [] => some []
  | s, xs :: calls => do
    let (s, es) ← estimates s xs
    let ys ← dvi4Chunks s calls
    return es.map (·.2) :: ys

/-- The bits of an octet, most significant first. -/
def octetBits (b : Byte) : List Bool := (List.range 8).map b.getMsbD

/-- The VDVI code words: short ones for small steps, the first half positive. -/
def codeWord : Nat → List Bool
  | 0 => [false, false]
  | 8 => [true, false]
  | c => if c < 8 then word (c - 1) false else word (c - 9) true
where
  /-- `0 1 s`, `1 1 0 s`, `1 1 1 0 s` and so on; the last one has no `0`. -/
  word (k : Nat) (sign : Bool) : List Bool :=
    if k = 0 then [false, true, sign]
    else if k = 6 then [true, true, true, true, true, true, true, sign]
    else List.replicate (k + 1) true ++ [false, sign]

end Ima.Spec
