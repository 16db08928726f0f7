import Verif.Qm.Model

/-!
# What arithmetic coding is

A code is a number from 0 up to 1, of which the bytes are the digits. Each decision narrows an interval, and the code is a number in the last one.
-/

namespace Qm

/-- The bytes as they are sent, with a 0x00 behind each 0xFF. -/
def stuff : List Nat → List Nat
  | [] => []
  | b :: l => if b = 0xFF then b :: 0x00 :: stuff l else b :: stuff l

/-- The bytes as a number. -/
def val (l : List Nat) : Nat := l.foldl (fun x b => 256 * x + b) 0

/-- An interval, from `low` for the length of `a`, in units of 2^-t, and the states of the contexts. -/
structure Iv where
  low : Nat
  a : Nat
  t : Nat
  st : Cx → St

/-- The bytes, as the digits of a number from 0 to 1, are in the interval. -/
def Iv.Has (i : Iv) (l : List Nat) : Prop := i.low * 256 ^ l.length ≤ val l * 2 ^ i.t ∧ val l * 2 ^ i.t < (i.low + i.a) * 256 ^ l.length

/-- The part of an interval of length `a` which a decision selects: its start, its length, and the state of the context after it. The lower part, of
length `a - q`, is for the more probable symbol, unless it is the smaller of the two. -/
def part (a : Nat) (st : St) (pix : Bool) : Nat × Nat × St :=
  let q := lsz st
  if pix = mps st then
    if a - q ≥ 0x8000 then (0, a - q, st)
    else if a - q < q then (a - q, q, afterMps st) else (0, a - q, afterMps st)
  else
    if a - q < q then (0, a - q, afterLps st) else (a - q, q, afterLps st)

/-- An interval is given in smaller units. -/
def Iv.finer (i : Iv) (k : Nat) : Iv := { i with low := i.low * 2 ^ k, a := i.a * 2 ^ k, t := i.t + k }

/-- Units in which the length is at least 0x8000. -/
def Iv.renorm : Nat → Iv → Iv
  | 0, i => i
  | n + 1, i => if i.a < 0x8000 then Iv.renorm n (i.finer 1) else i

/-- A decision, without the change of units. -/
def Iv.narrow (i : Iv) (cx : Cx) (pix : Bool) : Iv :=
  let p := part i.a (i.st cx) pix
  { i with low := i.low + p.1, a := p.2.1, st := setSt i.st cx p.2.2 }

/-- A decision. -/
def Iv.step (i : Iv) (cx : Cx) (pix : Bool) : Iv := (i.narrow cx pix).renorm 16

/-- The whole interval at first. -/
def Iv.start (st : Cx → St) : Iv := ⟨0, 0x10000, 16, st⟩

/-! ## A caller of the decoder -/

/-- More data arrives behind what has not been read yet. -/
def Dec.more (d : Dec) (y : List Nat) : Dec := { d with data := d.data ++ y }

/-- A call, and another one if the answer was -2. -/
def decodeAgain (d : Dec) (cx : Cx) : Dec × Ret Bool :=
  match decode d cx with
  | (d', .marker) => decode d' cx
  | r => r

/-- A decision for each context, with data which arrives in pieces: the next piece is given when there is not enough data. -/
def decodeFed : Dec → List Cx → List (List Nat) → Option (Dec × List Bool)
  | d, [], _ => some (d, [])
  | d, cx :: l, ys =>
    match decodeAgain d cx, ys with
    | (d', .ok pix), ys => (decodeFed d' l ys).map (fun r => (r.1, pix :: r.2))
    | (d', .moreData), y :: ys => decodeFed (d'.more y) (cx :: l) ys
    | _, _ => none
termination_by _ l ys => l.length + ys.length

/-- What can happen to a decoder. -/
inductive DecEv where
  | data (y : List Nat)
  | call (cx : Cx)

def Dec.after (d : Dec) : List DecEv → Dec
  | [] => d
  | .data y :: l => (d.more y).after l
  | .call cx :: l => (decode d cx).1.after l

end Qm
