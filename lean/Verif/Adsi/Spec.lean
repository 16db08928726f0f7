import Verif.Adsi.Model
import Verif.Crc.Spec

/-!
# What is asked of caller identity messages
-/

namespace Adsi

/-- The bits a transmitter gives to its modem until it says that there are no more. -/
def drain : Nat → Tx → Option (List Bool × Tx)
  | 0, _ => none
  | n + 1, s => (getBit s).bind fun r =>
    match r.2 with
    | none => some ([], r.1)
    | some b => (drain n r.1).bind fun q => some (b :: q.1, q.2)

/-- More than enough calls for any message. -/
def enough (s : Tx) : Nat := s.pre + s.ones + s.post + 256 * (s.stop + 10) + 1

/-- A receiver is given bits. -/
def putBits : Rx → List Bool → Option Rx
  | s, [] => some s
  | s, b :: l => (putBit s b).bind fun s => putBits s l

/-- What comes from a modem: bits, and that a carrier came up. -/
inductive Heard where
  | bit (b : Bool)
  | up

/-- A receiver hears something. -/
def Rx.hear (r : Rx) : Heard → Option Rx
  | .bit b => putBit r b
  | .up => some (carrierUp r)

/-- A receiver hears a lot. -/
def Rx.hears : Rx → List Heard → Option Rx
  | r, [] => some r
  | r, h :: l => (r.hear h).bind fun r => r.hears l

/-- A message is sent from `t` to `r`. -/
def send (t : Tx) (r : Rx) (msg : List Byte) : Option (Tx × Rx) :=
  (putMessage t msg).bind fun p => (drain (enough p.1) p.1).bind fun q => (putBits r q.1).bind fun r => some (q.2, r)

/-- Several messages are sent one after the other. -/
def sendAll : Tx → Rx → List (List Byte) → Option (Tx × Rx)
  | t, r, [] => some (t, r)
  | t, r, m :: l => (send t r m).bind fun p => sendAll p.1 p.2 l

/-- A transmitter with nothing to send. -/
structure Quiet (t : Tx) : Prop where
  len : t.msgLen = 0
  buf : t.msg.length = 256

/-- A receiver which is not in the middle of a message. -/
structure Clean (r : Rx) : Prop where
  pos : r.bitPos = 0
  prog : r.prog = 0
  msg : r.msg = []

/-- A message which passes the checks of its standard. -/
def Sound (std : Std) (m : List Byte) : Prop :=
  if std = .jclip then 9 ≤ m.length ∧ m.length ≤ 136 ∧ (∃ n, m[6]? = some n ∧ m.length = n.toNat + 9) ∧ m[0]? = some DLE ∧ ∀ o ∈ m, o.toNat < 128
  else 2 ≤ m.length ∧ m.length ≤ 255 ∧ ∃ n, m[1]? = some n ∧ m.length = n.toNat + 2

/-- Messages which can be sent in bits: their first two octets are the type and room for the length. -/
def Fits (std : Std) (m : List Byte) : Prop :=
  match std with
  | .jclip => 2 ≤ m.length ∧ m.length ≤ 119 ∧ m.length ≠ 18 ∧ ∀ o ∈ m, o.toNat < 128
  | .dtmf => False
  | .tdd => False
  | _ => 2 ≤ m.length ∧ m.length ≤ 255

instance (std : Std) (m : List Byte) : Decidable (Fits std m) := by unfold Fits; cases std <;> infer_instance

/-- What the application at the other end is given of a message. -/
def given (std : Std) (m : List Byte) : List Byte :=
  if std = .jclip then [DLE, 0x01, 0x07, DLE, 0x02] ++ m.take 1 ++ [BitVec.ofNat 8 (m.length - 2)] ++ m.drop 2 ++ [DLE, 0x03]
  else m.take 1 ++ [BitVec.ofNat 8 (m.length - 2)] ++ m.drop 2

/-- The octets a transmitter has in its buffer become `b` on their way to the receiver. -/
def sendAs (t : Tx) (r : Rx) (msg : List Byte) (b : List Byte → List Byte) : Option (Tx × Rx) :=
  (putMessage t msg).bind fun p =>
  let p' := { p.1 with msg := b (p.1.msg.take p.1.msgLen) ++ p.1.msg.drop p.1.msgLen }
  (drain (enough p') p').bind fun q => (putBits r q.1).bind fun r => some (q.2, r)

/-- Damage which the check at the end of a message always shows: to the bits of one octet or, in J-CLIP, to bits of which the first and the last
are at most 16 apart; but not to the octet with the length, and for J-CLIP not to the two before the check starts. -/
def Damaged (std : Std) (b b' : List Byte) : Prop :=
  b'.length = b.length ∧
  match std with
  | .jclip => b'[0]? = b[0]? ∧ b'[6]? = b[6]? ∧ Crc.Spec.Burst 16 (b.drop 2) (b'.drop 2)
  | _ => ∃ i o, 1 ≠ i ∧ b' = b.set i o ∧ b' ≠ b

/-- A message is built from its type and its fields. -/
def build (t : Tx) (type : Byte) (fields : List (Byte × List Byte)) : Option (Tx × List Byte) :=
  (addField t [] type []).bind fun r => fields.foldlM (fun r f => addField r.1 r.2 f.1 f.2) r

/-- An application walks over the fields of a message, from position `pos`: `some none` if it is told that the message is corrupt. -/
def walk (std : Std) (msg : List Byte) : Nat → Nat → Option (Option (List (Byte × List Byte)))
  | 0, _ => none
  | n + 1, pos => (nextField std msg pos).bind fun r =>
    match r with
    | .done => some (some [])
    | .corrupt => some none
    | .field pos type body => (walk std msg n pos).bind fun l => some (l.map ((type, body) :: ·))

/-- All fields of a message, with its type as the first. -/
def fields (std : Std) (msg : List Byte) : Option (Option (List (Byte × List Byte))) := walk std msg (msg.length + 2) 0

/-- What an application is given of a character which is sent as text: letters are capitals, and what Baudot does not have is left out. -/
def baudot (o : Byte) : Option Byte :=
  if 0x61 ≤ o.toNat ∧ o.toNat ≤ 0x7A then some (o - 0x20)
  else if (0x41 ≤ o.toNat ∧ o.toNat ≤ 0x5A) ∨ (0x30 ≤ o.toNat ∧ o.toNat ≤ 0x39) then some o
  else if o ∈ ("\n\r #$'()*+,-./:=?".toList.map fun c => BitVec.ofNat 8 c.toNat) then some o
  else none

/-- A receiver is given characters. -/
def putChars : Rx → List Byte → Option Rx
  | s, [] => some s
  | s, c :: l => (putChar s c).bind fun s => putChars s l

/-- The characters which a transmitter gives to its modem until it has no more. -/
def drainChars : Nat → Tx → Option (List Byte × Tx)
  | 0, _ => none
  | n + 1, s => (getChar s).bind fun r => if r.1.on then (drainChars n r.1).bind fun q => some (r.2 :: q.1, q.2) else some ([r.2], r.1)

/-- Text is sent from `t` to `r`, and the carrier goes down after it. -/
def sendText (t : Tx) (r : Rx) (text : List Byte) : Option (Tx × Rx) :=
  (addField t [] 0 text).bind fun a => (putMessage a.1 a.2).bind fun p => (drainChars 257 p.1).bind fun q =>
  (putChars r q.1).bind fun r => some (q.2, carrierDown r)

/-- A receiver of digits: samples pass, or the detector has digits. -/
inductive Dig where
  | samples (n : Nat)
  | digits (l : List Byte)

/-- One of these. -/
def Rx.dig (r : Rx) : Dig → Option Rx
  | .samples n => some (tick r n)
  | .digits l => putDigits r l

/-- All of them. -/
def Rx.digs : Rx → List Dig → Option Rx
  | r, [] => some r
  | r, d :: l => (r.dig d).bind fun r => r.digs l

/-- The digits of all of them. -/
def Dig.all (l : List Dig) : List Byte := l.flatMap fun d => match d with | .samples _ => [] | .digits l => l

/-- Digits are cut into messages after each `#` and `C`: the messages, and what is left. -/
def cut : List Byte → List Byte → List (List Byte) × List Byte
  | m, [] => ([], m)
  | m, d :: l => if d = 0x23 ∨ d = 0x43 then let r := cut [] l; ((m ++ [d]) :: r.1, r.2) else cut (m ++ [d]) l

/-- The time of all of them. -/
def Dig.time (l : List Dig) : Nat := (l.map fun d => match d with | .samples n => n | .digits _ => 0).sum

end Adsi
