import Verif.Oki.Model

/-!
# What an OKI ADPCM link should do

The encoder runs a copy of the decoder: after each sample it holds the 12 bit value the decoder
should have produced. At 24kbps the samples are first reduced from 8000 to 6000 per second by a
polyphase filter, and afterwards raised to 8000 per second again by another.
-/

namespace Oki.Spec

/-- A 16 bit sample. -/
def Sample (x : Int) : Prop := -32768 ≤ x ∧ x ≤ 32767

/-- A 12 bit sample. -/
def Sample12 (x : Int) : Prop := -2048 ≤ x ∧ x ≤ 2047

/-- The codes chosen for a sequence of samples, and the prediction after each of them. -/
def estimates : State → List Int → Option (State × List (Nat × Int))
  | s, [] => some (s, [])
  | s, x :: xs => do
    let (s, c) ← encode s x
    let (s', es) ← estimates s xs
    return (s', (c, s.last) :: es)

/-- The taps of one phase of a polyphase filter, whose coefficients are `l`, `l - step` and so on, given
the past samples, the newest first. Before the start there is silence. -/
def polyphase (step l : Nat) (past : List Int) : List (Nat × Int) :=
  (List.range (l / step + 1)).map fun k => (l - step * k, past.getD k 0)

/-- Four samples become three. -/
def decimate (fir : List (Nat × Int) → Int) : List Int → Nat → List Int → List Int
  | _, _, [] => []
  | past, p, x :: xs =>
    if p = 3 then decimate fir (x :: past) 0 xs
    else fir (polyphase 3 (80 - p) (x :: past)) :: decimate fir (x :: past) (p + 1) xs

/-- Three samples become four. The extra one comes before each group of three. -/
def interpolate (fir : List (Nat × Int) → Int) : List Int → Nat → List Int → List Int
  | _, _, [] => []
  | past, p, v :: vs =>
    (if p = 0 then [fir (polyphase 4 77 past)] else []) ++
      fir (polyphase 4 (77 + (if p = 0 then 1 else p)) (v :: past)) :: interpolate fir (v :: past) (((if p = 0 then 1 else p) + 1) % 4) vs

/-- A sequence of calls to `oki_adpcm_encode`: all the octets. -/
def encodeCalls (fir : List (Nat × Int) → Int) : State → List (List Int) → Option (State × List Byte)
  | s, [] => some (s, [])
  | s, x :: xs => do
    let (s, bs) ← okiEncode fir s x
    let (s, bs') ← encodeCalls fir s xs
    return (s, bs ++ bs')

/-- A sequence of calls to `oki_adpcm_decode`: all the samples. -/
def decodeCalls (fir : List (Nat × Int) → Int) : State → List (List Byte) → Option (State × List Int)
  | s, [] => some (s, [])
  | s, b :: bs => do
    let (s, xs) ← okiDecode fir s b
    let (s, xs') ← decodeCalls fir s bs
    return (s, xs ++ xs')

end Oki.Spec
