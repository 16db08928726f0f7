import Verif.BitOps.Model

/-!
# Model of src/async.c

The callbacks are modelled as data: what `put_byte` receives is a list, and what `get_byte`
answers at each call is a stream chosen by the environment. A `get_byte` callback may also call
`async_tx_presend_bits`, so an answer carries the number of bits it asked for, if it did.
Line bits are integers: 0, 1, or a negative status code. Other positive values are not modelled.
`none` is undefined behaviour (negative or oversized shifts).
-/

namespace Async

/-- `ASYNC_PARITY_xxx`, src/spandsp/async.h:151-157. Other values are not modelled. -/
inductive Parity | none | even | odd | mark | space
deriving DecidableEq

/-- `SIG_STATUS_LINK_IDLE`, src/spandsp/async.h:103. -/
def linkIdle : Int := -17

/-- The status codes passed on by the receiver, src/async.c:105-110 and src/spandsp/async.h:66-83. -/
def passedOn : List Int := [-2, -1, -3, -4, -5, -7]

/-- `struct async_rx_state_s`, src/spandsp/private/async.h. `out` is what `put_byte` has been
given so far. -/
structure Rx where
  parity : Parity
  totalDataBits : Nat
  useV14 : Bool
  frame : BitVec 16
  bitpos : Nat
  parityErrors : Nat
  framingErrors : Nat
  out : List Int
deriving DecidableEq

/-- `async_rx_init`, src/async.c:227-261. -/
def rxInit (dataBits : Nat) (parity : Parity) (useV14 : Bool) : Rx :=
  { parity, totalDataBits := if parity ≠ .none then dataBits + 1 else dataBits, useV14,
    frame := 0, bitpos := 0, parityErrors := 0, framingErrors := 0, out := [] }

/-- `put_byte(user_data, x)`. -/
def Rx.deliver (s : Rx) (x : Int) : Rx := { s with out := s.out ++ [x] }

/-- The parity bit the receiver expects for a character, src/async.c:151-167. `parity8` takes
its argument as a `uint8_t`. -/
def rxParityBit (p : Parity) (f : BitVec 16) : Nat :=
  match p with
  | .odd => BitOps.parity8 (f.setWidth 8) ^^^ 1
  | .even => BitOps.parity8 (f.setWidth 8)
  | .mark => 1
  | _ => 0

/-- The character is complete: src/async.c:144-178. -/
def rxComplete (s : Rx) : Rx :=
  if s.parity ≠ .none then
    let a := ((s.frame >>> 15) &&& 1#16).toNat
    let f := (s.frame &&& 0x7FFF#16) >>> (16 - s.totalDataBits)
    if a = rxParityBit s.parity f then { s with frame := f }.deliver f.toNat
    else { s with frame := f, parityErrors := s.parityErrors + 1 }
  else
    let f := s.frame >>> (16 - s.totalDataBits)
    { s with frame := f }.deliver f.toNat

/-- `async_rx_put_bit`, src/async.c:93-200. -/
def rxPutBit (s : Rx) (bit : Int) : Option Rx :=
  if bit < 0 then
    if bit ∈ passedOn then some { s.deliver bit with bitpos := 0, frame := 0 } else some s
  else if s.bitpos = 0 then
    some { s with bitpos := if bit = 0 then 1 else 0, frame := 0 }
  else if s.bitpos ≤ s.totalDataBits then
    some { s with frame := (s.frame >>> 1) ||| (BitVec.ofInt 16 bit <<< 15), bitpos := s.bitpos + 1 }
  else if bit = 0 ∧ s.useV14 = false then
    some { s with framingErrors := s.framingErrors + 1, bitpos := 0 }
  else if s.totalDataBits > 16 then none
  else
    let s := rxComplete s
    if bit = 1 then some { s with bitpos := 0 } else some { s with bitpos := 1, frame := 0 }

/-- `struct async_tx_state_s`, src/spandsp/private/async.h. `fetched` counts the calls of
`get_byte` so far. -/
structure Tx where
  dataBits : Nat
  parity : Parity
  totalDataBits : Nat
  totalBits : Nat
  presendBits : Int
  frame : BitVec 16
  bitpos : Nat
  fetched : Nat
deriving DecidableEq

/-- `async_tx_init`, src/async.c:347-379. -/
def txInit (dataBits : Nat) (parity : Parity) (stopBits : Nat) : Tx :=
  let t := if parity ≠ .none then dataBits + 1 else dataBits
  { dataBits, parity, totalDataBits := t, totalBits := t + stopBits, presendBits := 0, frame := 0,
    bitpos := 0, fetched := 0 }

/-- `async_tx_presend_bits`, src/async.c:341-344. -/
def txPresendBits (s : Tx) (bits : Int) : Tx := { s with presendBits := bits }

/-- An answer of `get_byte`: its value, and the presend time it asked for, if any. -/
structure Answer where
  value : Int
  presend : Option Int
deriving DecidableEq

/-- What a `get_byte` call does to the transmitter, if the callback calls
`async_tx_presend_bits`. -/
def Tx.asked (s : Tx) : Option Int → Tx
  | some n => txPresendBits s n
  | none => s

/-- Insert the parity bit above `dataBits` bits of data, src/async.c:307-320. -/
def txParity (p : Parity) (dataBits : Nat) (f : BitVec 16) : BitVec 16 :=
  match p with
  | .mark => f ||| (1#16 <<< dataBits)
  | .even => f ||| (BitVec.ofNat 16 (BitOps.parity8 (f.setWidth 8)) <<< dataBits)
  | .odd => f ||| (BitVec.ofNat 16 (BitOps.parity8 (f.setWidth 8) ^^^ 1) <<< dataBits)
  | _ => f

/-- A character prepared for transmission, src/async.c:303-323. -/
def txFrame (s : Tx) (byte : Int) : Option (BitVec 16) :=
  if s.dataBits > 16 ∨ s.totalDataBits > 15 then none else
  let f := BitVec.ofInt 16 byte
  let f := f &&& (0xFFFF#16 >>> (16 - s.dataBits))
  let f := txParity s.parity s.dataBits f
  some (f ||| (0xFFFF#16 <<< s.totalDataBits))

/-- `async_tx_get_bit`, src/async.c:277-338: the new state and the bit (or status). -/
def txGetBit (env : Nat → Answer) (s : Tx) : Option (Tx × Int) :=
  if s.bitpos = 0 then
    if s.presendBits > 0 then some ({ s with presendBits := s.presendBits - 1 }, 1)
    else
      let a := env s.fetched
      let s := { s with fetched := s.fetched + 1 }
      let s := s.asked a.presend
      if a.value < 0 then
        if a.value ≠ linkIdle then some (s, a.value) else some (s, 1)
      else do
        let f ← txFrame s a.value
        return ({ s with frame := f, bitpos := s.bitpos + 1 }, 0)
  else
    let bit := ((s.frame &&& 1#16).toNat : Int)
    let p := s.bitpos + 1
    some ({ s with frame := s.frame >>> 1, bitpos := if p > s.totalBits then 0 else p }, bit)

end Async
