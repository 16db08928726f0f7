import Verif.Hdlc.Model
import Verif.Crc.Spec

/-!
# What HDLC framing is

Bits on the line, in the order in which they are sent. This says what frames, flags and
stuffing are, without reference to how the code does it.
-/

namespace Hdlc.Spec
open Crc.Spec (bits octetBits serial poly16 poly32)

/-- A flag. -/
def flagBits : List Bool := [false, true, true, true, true, true, true, false]

/-- Insert a zero after each five consecutive ones. The first argument is the number of ones
just sent. -/
def stuff : Nat → List Bool → List Bool
  | _, [] => []
  | _, false :: bs => false :: stuff 0 bs
  | n, true :: bs => if n = 4 then true :: false :: stuff 0 bs else true :: stuff (n + 1) bs

/-- Remove the bit after each five consecutive ones, if it is a zero. -/
def destuff : Nat → List Bool → List Bool
  | _, [] => []
  | n, false :: bs => if n = 5 then destuff 0 bs else false :: destuff 0 bs
  | n, true :: bs => true :: destuff (n + 1) bs

/-- The frame check sequence of a frame: the complement of the CRC of its bits, low octet first. -/
def fcs (crcBytes : Nat) (p : List Byte) : List Byte :=
  if crcBytes = 2 then
    let c := ~~~ serial poly16 0xFFFF#16 (bits p)
    [c.setWidth 8, (c >>> 8).setWidth 8]
  else
    let c := ~~~ serial poly32 0xFFFFFFFF#32 (bits p)
    [c.setWidth 8, (c >>> 8).setWidth 8, (c >>> 16).setWidth 8, (c >>> 24).setWidth 8]

/-- What is on the line: flags and frames. -/
inductive Item
  | flag
  | frame (p : List Byte)
deriving DecidableEq

/-- The bits of an item. -/
def Item.bits (crcBytes : Nat) : Item → List Bool
  | .flag => flagBits
  | .frame p => stuff 0 (Crc.Spec.bits (p ++ fcs crcBytes p))

/-- The bits of a sequence of items. -/
def wire (crcBytes : Nat) (items : List Item) : List Bool := items.flatMap (Item.bits crcBytes)

/-- The frames among some items. -/
def framesIn (items : List Item) : List (List Byte) :=
  items.filterMap fun | .frame p => some p | .flag => none

/-- The last item, if there is one, is a flag, and each frame is followed by a flag. -/
def Delimited : List Item → Prop
  | [] => True
  | [i] => i = .flag
  | .frame _ :: j :: l => j = .flag ∧ Delimited (j :: l)
  | .flag :: j :: l => Delimited (j :: l)

/-! ## What the user of a transmitter has asked for

The pieces accepted between two calls of the underflow handler make one frame. (When the
transmitter is not in progressive mode, there is never more than one.) -/

/-- The completed frames, and the one which is not completed yet (maybe empty). -/
def framesOf : List Event → List (List Byte) × List Byte :=
  List.foldl (fun (done, cur) e =>
    match e with
    | .accepted p => (done, cur ++ p)
    | .underflow => (if cur = [] then done else done ++ [cur], [])) ([], [])

/-- The completed frames. -/
def completed (log : List Event) : List (List Byte) := (framesOf log).1

/-- The frame in progress. -/
def inProgress (log : List Event) : List Byte := (framesOf log).2

/-! ## Connecting a transmitter to a receiver -/

/-- What a program may do: make a call, or take the next bit (or octet) from the transmitter. -/
inductive Op
  | call (c : Call)
  | get
deriving DecidableEq

/-- Run a program which uses the transmitter, by the bit interface or by the octet interface: the
final state, and what was taken. -/
def txRun (bitwise : Bool) (h : List Event → List Call) (s : Tx) : List Op → Option (Tx × List Int)
  | [] => some (s, [])
  | .call c :: ops => do txRun bitwise h (← txCall s c) ops
  | .get :: ops => do
    let (s, v) ← if bitwise then txGetBit h s else txGetByte h s
    let (s, vs) ← txRun bitwise h s ops
    return (s, v :: vs)

/-- The bits of an octet, most significant first, the order of the octet interfaces. -/
def msbBits (b : Int) : List Bool := (octetBits (BitVec.ofInt 8 b)).reverse

/-- The line bits of a value: a bit, or the bits of an octet, or none if it is a status. -/
def passes (bitwise : Bool) (v : Int) : List Bool :=
  if v < 0 then [] else if bitwise then [v == 1] else msbBits v

/-- The line bits of what was taken from a transmitter. -/
def lineOf (bitwise : Bool) (vs : List Int) : List Bool := vs.flatMap (passes bitwise)

/-- The frames reported as good by a receiver. -/
def goodFrames (out : List Report) : List (List Byte) :=
  out.filterMap fun | .frame p true => some p | _ => none

/-- All the frames reported by a receiver. -/
def allFrames (out : List Report) : List (List Byte × Bool) :=
  out.filterMap fun | .frame p ok => some (p, ok) | _ => none

/-- Feed bits and statuses to a receiver. -/
def feed (s : Rx) : List Int → Option Rx
  | [] => some s
  | b :: bs => do feed (← rxPutBit s b) bs

/-- Feed octets and statuses to a receiver. -/
def feedOctets (s : Rx) : List Int → Option Rx
  | [] => some s
  | b :: bs => do feedOctets (← rxPutByte s b) bs

/-- The same inputs for the bit interface: the bits of each octet, and the statuses. -/
def asBits (x : Int) : List Int :=
  if x < 0 then [x] else (msbBits x).map fun b => if b then 1 else 0

/-- Feed what was taken from a transmitter to a receiver. -/
def receive (bitwise : Bool) (s : Rx) (vs : List Int) : Option Rx :=
  if bitwise then feed s vs else feedOctets s vs

/-- A number of flags, one after the other. -/
def flags (n : Nat) : List Bool := (List.replicate n flagBits).flatten

/-- The bits among some inputs, since the last one which resets the receiver. The line is taken to
have been at zero before that. -/
def lineBits : List Int → List Bool :=
  List.foldl (fun l x => if x = carrierUp ∨ x = trainingSucceeded then [false]
    else if x < 0 then l else l ++ [decide (x % 2 = 1)]) [false]

/-- `p` has just been received: the line bits end with a flag, and since the last flag before that
the bits, less the stuffed ones, are `p`, its check sequence, and the seven bits which, with the
bit just received, are the closing flag. -/
def JustReceived (crcBytes : Nat) (line : List Bool) (p : List Byte) : Prop :=
  flagBits <:+ line ∧ ∃ pre u e, line = pre ++ flagBits ++ u ++ [false] ∧ ¬ flagBits <:+: u ∧ e.length = 7 ∧
    destuff 0 u = Crc.Spec.bits (p ++ fcs crcBytes p) ++ e

end Hdlc.Spec
