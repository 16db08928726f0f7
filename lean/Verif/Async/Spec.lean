import Verif.Async.Model

/-! # What an asynchronous serial link does -/

namespace Async.Spec

/-- What the far end should be told for one answer of the sender's `get_byte`: the low `d` bits
of a character, a status code which is passed on, or nothing. -/
def expect (d : Nat) (a : Answer) : List Int :=
  if a.value < 0 then (if a.value ∈ passedOn then [a.value] else [])
  else [a.value % 2 ^ d]

/-- The far end's view of the first `n` answers of `get_byte`. -/
def expectAll (d : Nat) (env : Nat → Answer) (n : Nat) : List Int :=
  (List.range n).flatMap fun i => expect d (env i)

/-- Transmit and receive `n` bits through a perfect line. -/
def loop (env : Nat → Answer) : Nat → Tx × Rx → Option (Tx × Rx)
  | 0, p => some p
  | n + 1, p => do
    let (tx, rx) ← loop env n p
    let (tx, bit) ← txGetBit env tx
    let rx ← rxPutBit rx bit
    return (tx, rx)

/-- Feed a list of bits to the receiver. -/
def feed (rx : Rx) : List Int → Option Rx
  | [] => some rx
  | b :: bs => do feed (← rxPutBit rx b) bs

/-- Take `n` bits from the transmitter. -/
def take (env : Nat → Answer) : Nat → Tx → Option (Tx × List Int)
  | 0, s => some (s, [])
  | n + 1, s => do
    let (s, b) ← txGetBit env s
    let (s, bs) ← take env n s
    return (s, b :: bs)

/-- Flip the bit at position `j`. -/
def flip (bs : List Int) (j : Nat) : List Int := bs.modify j (1 - ·)

end Async.Spec
