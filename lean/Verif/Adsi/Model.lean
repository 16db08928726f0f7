import Verif.Crc.Model

/-!
# Caller identity and other display services: src/adsi.c

The messages, their fields, and the bits, characters or digits they are sent as. The modems and the DTMF generator and detector are not
modelled: what the transmitter gives to the modem is what a receiver gets, or, for the claims about safety, anything.

Octets are `BitVec 8`. `none` is an access outside of an array, or outside of a message which a function was given.
-/

namespace Adsi

abbrev Byte := BitVec 8

/-- `ADSI_STANDARD_...`, src/spandsp/adsi.h:185-194. -/
inductive Std where
  | cls
  | clip
  | aclip
  | jclip
  | dtmf
  | tdd
  deriving DecidableEq

/-- `DLE`, src/adsi.c:87. -/
def DLE : Byte := 0x10

/-- `struct adsi_tx_state_s`, src/spandsp/private/adsi.h:35-77, without the modems. `digits` is what was given to the DTMF generator. -/
structure Tx where
  std : Std
  on : Bool
  byteNo : Nat
  bitPos : Nat
  bitNo : Nat
  msg : List Byte
  msgLen : Nat
  pre : Nat
  ones : Nat
  post : Nat
  stop : Nat
  shift : Nat
  digits : List Byte

/-- `struct adsi_rx_state_s`, src/spandsp/private/adsi.h:83-115. `msg` is what is in use of the buffer of 256 octets. `out` are the messages
which the callback was given. `timer` is `in_progress` as the DTMF mode uses it. -/
structure Rx where
  std : Std
  ones : Nat
  bitPos : Nat
  prog : Byte
  msg : List Byte
  shift : Nat
  errors : Nat
  timer : Int
  out : List (List Byte)

/-! ## The transmitter -/

/-- `adsi_tx_get_bit`, src/adsi.c:94-170. The bit `none` is `SIG_STATUS_END_OF_DATA`. -/
def getBit (s : Tx) : Option (Tx × Option Bool) :=
  if s.bitNo < s.pre then some ({ s with bitNo := s.bitNo + 1 }, some (s.bitNo % 2 == 1))
  else if s.bitNo < s.pre + s.ones then some ({ s with bitNo := s.bitNo + 1 }, some true)
  else if s.bitNo ≤ s.pre + s.ones then
    if s.bitPos = 0 then some ({ s with bitPos := s.bitPos + 1 }, some false)
    else if s.bitPos < 9 then s.msg[s.byteNo]?.bind fun o => some ({ s with bitPos := s.bitPos + 1 }, some (o.getLsbD (s.bitPos - 1)))
    else if s.bitPos < 8 + s.stop then some ({ s with bitPos := s.bitPos + 1 }, some true)
    else
      some ({ s with bitPos := 0, byteNo := s.byteNo + 1, bitNo := if s.byteNo + 1 ≥ s.msgLen then s.bitNo + 1 else s.bitNo }, some true)
  else if s.bitNo ≤ s.pre + s.ones + s.post then some ({ s with bitNo := s.bitNo + 1 }, some true)
  else some (if s.on then { s with on := false, msgLen := 0 } else s, none)

/-- `adsi_tdd_get_async_byte`, src/adsi.c:173-189. -/
def getChar (s : Tx) : Option (Tx × Byte) :=
  if s.byteNo < s.msgLen then s.msg[s.byteNo]?.bind fun o => some ({ s with byteNo := s.byteNo + 1 }, o)
  else some (if s.on then { s with on := false, msgLen := 0 } else s, 0x1F)

/-- `start_tx`, src/adsi.c:409-433. -/
def startTx (s : Tx) : Tx := { s with on := true, shift := if s.std = .tdd then 2 else s.shift }

/-- `adsi_tx_set_preamble`, src/adsi.c:563-623. -/
def setPreamble (s : Tx) (pre ones post stop : Int) : Tx :=
  { s with
    pre := if pre < 0 then (if s.std = .jclip then 0 else 300) else pre.toNat
    ones := if ones < 0 then (if s.std = .jclip then 75 else 80) else ones.toNat
    post := if post < 0 then 5 else post.toNat
    stop := if stop < 0 then (if s.std = .jclip then 4 else 1) else stop.toNat }

/-- `adsi_tx_init`, src/adsi.c:732-757. -/
def txInit (std : Std) : Tx :=
  startTx (setPreamble
    { std := std, on := false, byteNo := 0, bitPos := 0, bitNo := 0, msg := List.replicate 256 0, msgLen := 0, pre := 0, ones := 0
      post := 0, stop := 0, shift := 0, digits := [] } (-1) (-1) (-1) (-1))

/-- The bits of the loop which works out the parity, src/adsi.c:680-684: bit 7 of the exclusive or of the octet shifted by 1 to 7. -/
def parity (o : Byte) : Byte := (List.range 7).foldl (fun p k => p ^^^ (o <<< (k + 1))) 0

/-- An octet with its parity bit, src/adsi.c:685. -/
def withParity (o : Byte) : Byte := (o &&& 0x7F) ||| (parity o &&& 0x80)

/-- The sum of octets in eight bits, src/adsi.c:302-305 and 709-713. -/
def sum8 (l : List Byte) : Byte := l.foldl (· + ·) 0

/-- What `adsi_tx_put_message` puts into the buffer for J-CLIP, src/adsi.c:655-693. -/
def jclipMsg (msg : List Byte) : Option (List Byte) :=
  if msg.length < 2 then none
  else
    msg[0]?.bind fun type =>
    let n := msg.length - 2
    let body := ([DLE, 0x01, 0x07, DLE, 0x02, type, BitVec.ofNat 8 n] ++ (if n = 16 then [DLE] else []) ++ msg.drop 2 ++ [DLE, 0x03]).map withParity
    (Crc.itu16Calc (body.drop 2) (body.length - 2) 0).bind fun crc =>
    some (body ++ [crc.setWidth 8, (crc >>> 8).setWidth 8])

/-- What `adsi_tx_put_message` puts into the buffer for CLASS, CLIP and A-CLIP, src/adsi.c:701-715. `msg[1]` is set also when the message is
shorter, which the sumcheck then is written over. -/
def sumMsg (msg : List Byte) : List Byte :=
  let m := msg.set 1 (BitVec.ofInt 8 (msg.length - 2))
  m ++ [0 - sum8 m]

/-- A message is put into the buffer of 256 octets, src/adsi.c:692, 698-699 and 705-714. -/
def load (s : Tx) (m : List Byte) : Option Tx :=
  if m.length ≤ 256 then some { s with msg := m ++ s.msg.drop m.length, msgLen := m.length } else none

/-- `adsi_tx_put_message`, src/adsi.c:626-723, with its result. The DTMF generator has room for all digits. -/
def putMessage (s : Tx) (msg : List Byte) : Option (Tx × Int) :=
  if s.msgLen > 0 then some (s, 0)
  else
    let s := if s.on then s else startTx s
    let go (s : Tx) : Tx := { s with byteNo := 0, bitPos := 0, bitNo := 0 }
    match s.std with
    | .dtmf => if msg.length ≥ 128 then some (s, -1) else some (go { s with digits := s.digits ++ msg }, msg.length)
    | .jclip =>
      if msg.length > 119 then some (s, -1)
      else (jclipMsg msg).bind fun m => (load s m).bind fun s => some (go s, msg.length)
    | .tdd => if msg.length > 255 then some (s, -1) else (load s msg).bind fun s => some (go s, msg.length)
    | _ => if msg.length > 255 then some (s, -1) else (load s (sumMsg msg)).bind fun s => some (go s, msg.length)

/-- `conv` of `adsi_encode_baudot`, src/adsi.c:775-905. -/
def encodeTable : List Byte := [
  0x00, 0xFF, 0xFF, 0xFF, 0xFF, 0xFF, 0xFF, 0xFF, 0xFF, 0xFF, 0x42, 0xFF, 0xFF, 0x48, 0xFF, 0xFF,
  0xFF, 0xFF, 0xFF, 0xFF, 0xFF, 0xFF, 0xFF, 0xFF, 0xFF, 0xFF, 0xFF, 0xFF, 0xFF, 0xFF, 0xFF, 0xFF,
  0x44, 0xFF, 0xFF, 0x94, 0x89, 0xFF, 0xFF, 0x85, 0x8F, 0x92, 0x8B, 0x91, 0x8C, 0x83, 0x9C, 0x9D,
  0x96, 0x97, 0x93, 0x81, 0x8A, 0x90, 0x95, 0x87, 0x86, 0x98, 0x8E, 0xFF, 0xFF, 0x9E, 0xFF, 0x99,
  0xFF, 0x03, 0x19, 0x0E, 0x09, 0x01, 0x0D, 0x1A, 0x14, 0x06, 0x0B, 0x0F, 0x12, 0x1C, 0x0C, 0x18,
  0x16, 0x17, 0x0A, 0x05, 0x10, 0x07, 0x1E, 0x13, 0x1D, 0x15, 0x11, 0xFF, 0xFF, 0xFF, 0x9B, 0xFF,
  0xFF, 0x03, 0x19, 0x0E, 0x09, 0x01, 0x0D, 0x1A, 0x14, 0x06, 0x0B, 0x0F, 0x12, 0x1C, 0x0C, 0x18,
  0x16, 0x17, 0x0A, 0x05, 0x10, 0x07, 0x1E, 0x13, 0x1D, 0x15, 0x11, 0xFF, 0xFF, 0xFF, 0xFF, 0xFF]

/-- `adsi_encode_baudot`, src/adsi.c:773-933: the new shift and the characters, with none for 0. The characters are five bits each. -/
def encodeBaudot (shift : Nat) (ch : Byte) : Option (Nat × List Byte) :=
  encodeTable[ch.toNat]?.bind fun c =>
  let five := c &&& 0x1F
  if c = 0xFF then some (shift, [])
  else if c &&& 0x40 ≠ 0 then some (shift, if five = 0 then [] else [five])
  else if c &&& 0x80 ≠ 0 then
    if shift = 1 then some (shift, if five = 0 then [] else [five]) else some (1, [0x1B, five])
  else
    if shift = 0 then some (shift, if five = 0 then [] else [five]) else some (0, [0x1F, five])

/-- `adsi_add_field` for TDD, src/adsi.c:1193-1209. -/
def addText : Nat → List Byte → Option (Nat × List Byte)
  | shift, [] => some (shift, [])
  | shift, ch :: l =>
    (encodeBaudot shift ch).bind fun r => (addText r.1 l).bind fun r' => some (r'.1, r.2 ++ r'.2)

/-- `adsi_add_field`, src/adsi.c:1100-1214. A message is the list of the octets it has up to now. -/
def addField (s : Tx) (msg : List Byte) (type : Byte) (body : List Byte) : Option (Tx × List Byte) :=
  match s.std with
  | .jclip =>
    if msg = [] then some (s, [type, 0])
    else
      some (s, msg ++ ([type] ++ (if type = DLE then [type] else []) ++ [BitVec.ofNat 8 body.length]
        ++ (if body.length = 16 then [BitVec.ofNat 8 body.length] else []) ++ body.flatMap fun o => if o = DLE then [o, o] else [o]))
  | .dtmf =>
    if msg = [] then some (s, [type])
    else msg.getLast?.bind fun x => some (s, msg.dropLast ++ (if type ≠ 0 then [type] else []) ++ body ++ [x])
  | .tdd => (addText s.shift body).bind fun r => some ({ s with shift := r.1 }, msg ++ r.2)
  | _ =>
    if msg = [] then some (s, [type, 0])
    else if type ≠ 0 then
      some (s, msg ++ ([type, BitVec.ofNat 8 body.length] ++ (if body.length = 16 then [BitVec.ofNat 8 body.length] else []) ++ body))
    else some (s, msg ++ body)

/-! ## The receiver -/

/-- `adsi_rx_init`, src/adsi.c:463-509. -/
def rxInit (std : Std) : Rx :=
  { std := std, ones := 0, bitPos := 0, prog := 0, msg := [], shift := 0, errors := 0, timer := 0, out := [] }

/-- `s->msg[s->msg_len++] = ...`, src/adsi.c:265, 270, 298, 368 and 396. -/
def Rx.store (s : Rx) (o : Byte) : Option Rx := if s.msg.length < 256 then some { s with msg := s.msg ++ [o] } else none

/-- `s->put_msg(s->user_data, ...)`, src/adsi.c:285, 307, 354, 372 and 399. -/
def Rx.give (s : Rx) (m : List Byte) : Rx := { s with out := s.out ++ [m] }

/-- An octet in J-CLIP, src/adsi.c:258-295. -/
def jclipOctet (s : Rx) (o : Byte) : Option Rx :=
  (if s.msg.length = 0 then (if o = 0x90 then s.store o else some s) else s.store o).bind fun s =>
  if s.msg.length ≥ 11 then
    s.msg[6]?.bind fun n =>
    if s.msg.length = (n &&& 0x7F).toNat + 11 then
      (Crc.itu16Calc (s.msg.drop 2) (s.msg.length - 2) 0).bind fun crc =>
      some { (if crc = 0 then s.give ((s.msg.take (s.msg.length - 2)).map (· &&& 0x7F)) else s) with msg := [] }
    else some s
  else some s

/-- An octet in CLASS, CLIP and A-CLIP, src/adsi.c:296-314. -/
def sumOctet (s : Rx) (o : Byte) : Option Rx :=
  (s.store o).bind fun s =>
  if s.msg.length ≥ 3 then
    s.msg[1]?.bind fun n =>
    if s.msg.length = n.toNat + 3 then
      s.msg[s.msg.length - 1]?.bind fun last =>
      let m := s.msg.take (s.msg.length - 1)
      some { (if 0 - sum8 m = last then s.give m else s) with msg := [] }
    else some s
  else some s

/-- An octet is complete, src/adsi.c:256-317. -/
def octet (s : Rx) (o : Byte) : Option Rx :=
  if s.msg.length < 256 then (if s.std = .jclip then jclipOctet s o else sumOctet s o) else some s

/-- `adsi_rx_put_bit` for a bit, src/adsi.c:192-328. -/
def putBit (s : Rx) (bit : Bool) : Option Rx :=
  if s.bitPos = 0 then
    if bit then some { s with ones := s.ones + 1 }
    else some { s with bitPos := 1, msg := if s.ones > 10 then [] else s.msg, ones := 0 }
  else if s.bitPos ≤ 8 then
    some { s with prog := (s.prog >>> 1) ||| (if bit then 0x80 else 0), bitPos := s.bitPos + 1 }
  else
    (if bit then octet s s.prog else some { s with errors := s.errors + 1 }).bind fun s => some { s with bitPos := 0, prog := 0 }

/-- `adsi_rx_put_bit` and `adsi_tdd_put_async_byte` when the carrier comes up, src/adsi.c:205-210 and 344-349. -/
def carrierUp (s : Rx) : Rx := { s with ones := 0, bitPos := 0, prog := 0, msg := [] }

/-- The letters of `conv` in `adsi_decode_baudot`, src/adsi.c:940. -/
def letters : List Byte := [
  0x00, 0x45, 0x0A, 0x41, 0x20, 0x53, 0x49, 0x55, 0x0D, 0x44, 0x52, 0x4A, 0x4E, 0x46, 0x43, 0x4B,
  0x54, 0x5A, 0x4C, 0x57, 0x48, 0x59, 0x50, 0x51, 0x4F, 0x42, 0x47, 0x5E, 0x4D, 0x58, 0x56, 0x5E]

/-- The figures of `conv` in `adsi_decode_baudot`, src/adsi.c:941. -/
def figures : List Byte := [
  0x00, 0x33, 0x0A, 0x2D, 0x20, 0x27, 0x38, 0x37, 0x0D, 0x24, 0x34, 0x2A, 0x2C, 0x2A, 0x3A, 0x28,
  0x35, 0x2B, 0x29, 0x32, 0x23, 0x36, 0x30, 0x31, 0x39, 0x3F, 0x2A, 0x5E, 0x2E, 0x2F, 0x3D, 0x5E]

/-- `adsi_decode_baudot`, src/adsi.c:936-958. -/
def decodeBaudot (shift : Nat) (ch : Byte) : Option (Nat × Byte) :=
  if ch = 0x1B then some (1, 0)
  else if ch = 0x1F then some (0, 0)
  else (if shift = 0 then letters[ch.toNat]? else if shift = 1 then figures[ch.toNat]? else none).bind fun o => some (shift, o)

/-- `adsi_tdd_put_async_byte` for a character, src/adsi.c:367-376. -/
def putChar (s : Rx) (ch : Byte) : Option Rx :=
  (decodeBaudot s.shift (ch &&& 0x1F)).bind fun r =>
  let s := { s with shift := r.1 }
  (if r.2 ≠ 0 then s.store r.2 else some s).bind fun s =>
  if s.msg.length ≥ 256 then some { s.give s.msg with msg := [] } else some s

/-- `adsi_tdd_put_async_byte` when the carrier goes down, src/adsi.c:350-358. -/
def carrierDown (s : Rx) : Rx := if s.msg.length > 0 then { s.give s.msg with msg := [] } else s

/-- The loop of `adsi_rx_dtmf`, src/adsi.c:394-405. -/
def dtmfLoop : Rx → List Byte → Option Rx
  | s, [] => some s
  | s, d :: l =>
    if s.msg.length < 256 then
      (s.store d).bind fun s => dtmfLoop (if d = 0x23 ∨ d = 0x43 then { s.give s.msg with msg := [] } else s) l
    else some s

/-- `adsi_rx_dtmf`, src/adsi.c:379-406. -/
def putDigits (s : Rx) (digits : List Byte) : Option Rx :=
  dtmfLoop (if s.msg.length = 0 then { s with timer := 80000 } else s) digits

/-- The part of `adsi_rx` for DTMF, src/adsi.c:440-447: `n` samples. -/
def tick (s : Rx) (n : Nat) : Rx :=
  let t := s.timer - n
  { s with timer := t, msg := if t ≤ 0 then [] else s.msg }

/-! ## Fields -/

/-- What `adsi_next_field` returns, src/adsi.c:961-1097: −1, −2, or the new position with the type and the body of a field. -/
inductive Next where
  | done
  | corrupt
  | field (pos : Nat) (type : Byte) (body : List Byte)
  deriving DecidableEq

/-- The test for a digit, src/adsi.c:1061 and 1068. -/
def isDigit (o : Byte) : Bool := decide (0x30 ≤ o.toNat ∧ o.toNat ≤ 0x39)

/-- `adsi_next_field` for CLASS, CLIP and A-CLIP, src/adsi.c:968-1008. -/
def nextSum (msg : List Byte) (pos : Nat) : Option Next :=
  if pos ≥ msg.length then some .done
  else if pos = 0 then
    msg[0]?.bind fun type => if 2 > msg.length then some .corrupt else some (.field 2 type [])
  else
    msg[0]?.bind fun t0 =>
    if t0 &&& 0x80 ≠ 0 then
      msg[pos]?.bind fun type => msg[pos + 1]?.bind fun n =>
      if pos + 2 + n.toNat > msg.length then some .corrupt
      else some (.field (pos + 2 + n.toNat) type ((msg.drop (pos + 2)).take n.toNat))
    else some (.field msg.length 0 (msg.drop pos))

/-- An octet of J-CLIP which may be doubled: its value, and the position after it, src/adsi.c:1017-1023 and 1029-1036. -/
def undouble (msg : List Byte) (pos : Nat) : Option (Byte × Nat) :=
  msg[pos]?.bind fun o => some (o, if o = DLE then pos + 2 else pos + 1)

/-- `adsi_next_field` for J-CLIP, src/adsi.c:1009-1045. -/
def nextJclip (msg : List Byte) (pos : Nat) : Option Next :=
  if pos + 2 ≥ msg.length then some .done
  else if pos = 0 then
    (undouble msg 5).bind fun t => (undouble msg t.2).bind fun n =>
    if n.2 + 2 > msg.length then some .corrupt else some (.field n.2 t.1 [])
  else
    (undouble msg pos).bind fun t => (undouble msg t.2).bind fun n =>
    if n.2 + n.1.toNat + 2 > msg.length then some .corrupt
    else some (.field (n.2 + n.1.toNat) t.1 ((msg.drop n.2).take n.1.toNat))

/-- `adsi_next_field` for DTMF, src/adsi.c:1046-1084. -/
def nextDtmf (msg : List Byte) (pos : Nat) : Option Next :=
  if pos > msg.length then some .done
  else if pos = 0 then (if msg.length = 0 then none else msg[msg.length - 1]?).bind fun type => some (.field 1 type [])
  else
    msg[pos - 1]?.bind fun o =>
    let type := if isDigit o then 0 else o
    let p := if isDigit o then pos - 1 else pos
    let body := (msg.drop p).takeWhile isDigit
    let q := p + body.length
    msg[q]?.bind fun e =>
    let q := if e = 0x23 ∨ e = 0x43 then q + 1 else q
    if q > msg.length then some .corrupt else some (.field (q + 1) type body)

/-- `adsi_next_field`, src/adsi.c:961-1097. -/
def nextField (std : Std) (msg : List Byte) (pos : Nat) : Option Next :=
  match std with
  | .jclip => nextJclip msg pos
  | .dtmf => nextDtmf msg pos
  | .tdd => if pos ≥ msg.length then some .done else some (.field msg.length 0 msg)
  | _ => nextSum msg pos

end Adsi
