import Mathlib.Data.List.Basic

/-!
# Model of src/t38_core.c, the coding of T.38 IFP packets and the checking of their sequence numbers

Not modelled: logging; the handlers of the application, which are taken not to call the T.38 core again and not to change it; the names and the rates of the types
(`t38_indicator_to_str` and the like, lines 108-310). Integers of C which count octets are natural numbers.
-/

namespace T38

abbrev Byte := BitVec 8

/-- `t38_transport_types_e`, src/spandsp/t38_core.h:154-160. -/
inductive Transport where
  | udptl
  | rtp
  | tcp
  | tpkt
deriving DecidableEq

/-- A field of a data message: its type and its octets. None of them is `field_data_present = 0`. -/
structure Field where
  type : Nat
  octets : List Byte
deriving DecidableEq

/-- The calls of the handlers of the receiver. -/
inductive Ev where
  | indicator (i : Nat)
  | data (type : Nat) (f : Field)
  | missing (expected actual : Int)
deriving DecidableEq

/-- `t38_core_state_s`, src/spandsp/private/t38_core.h:32-145. -/
structure Core where
  version : Nat
  transport : Transport
  check : Bool
  pace : Bool
  tep : Bool
  category : Nat → Int
  txSeq : Nat
  txIndicator : Int
  rxExpected : Int
  rxIndicator : Int
  rxDataType : Int
  rxFieldType : Int
  missing : Int

/-- `t38_core_init`, src/t38_core.c:1216-1266, and `t38_core_restart`, lines 1196-1214. -/
def init : Core :=
  { version := 0, transport := .udptl, check := true, pace := true, tep := false, category := fun _ => 1, txSeq := 0, txIndicator := -1, rxExpected := -1, rxIndicator := -1, rxDataType := -1,
    rxFieldType := -1, missing := 0 }

/-! ## The receiver -/

/-- Why a call ends early: a read outside of the data it was given, or a `return`. -/
inductive Stop where
  | fault
  | ret (r : Int)
deriving DecidableEq

/-- `buf[i]`. -/
def octet (buf : List Byte) (i : Nat) : Except Stop Nat :=
  match buf[i]? with
  | some b => .ok b.toNat
  | none => .error .fault

/-- `get_net_unaligned_uint16`, src/spandsp/unaligned.h:148-157. -/
def word (buf : List Byte) (i : Nat) : Except Stop Nat := (octet buf i).bind fun a => (octet buf (i + 1)).map fun b => 256 * a + b

/-- The octets a handler is given. -/
def slice (buf : List Byte) (i n : Nat) : Except Stop (List Byte) := if i + n ≤ buf.length then .ok ((buf.drop i).take n) else .error .fault

/-- `if (c) return r;`. -/
def stopIf (c : Prop) [Decidable c] (r : Int) : Except Stop Unit := if c then .error (.ret r) else .ok ()

/-- The number in an extended type, as in lines 440, 468 and 550. -/
def extended (a b : Nat) : Nat := ((a <<< 2) &&& 0x3C) ||| ((b >>> 6) &&& 3)

/-- The header of a packet, src/t38_core.c:381-420: where the packet begins, its length, and what is returned when it is too short. -/
def frame (s : Core) (buf : List Byte) : Except Stop (Nat × Nat × Int) :=
  match s.transport with
  | .tcp => .ok (0, buf.length, 0)
  | .tpkt =>
    if buf.length ≥ 4 then
      (octet buf 0).bind fun v => (stopIf (v ≠ 3) (-1)).bind fun _ =>
        (octet buf 1).bind fun r => (stopIf (r ≠ 0) (-1)).bind fun _ =>
          (word buf 2).bind fun n => (stopIf (buf.length < n) 0).bind fun _ => .ok (4, n, -1)
    else .ok (0, buf.length, -1)
  | _ => .ok (0, buf.length, -1)

/-- The type of an indicator, src/t38_core.c:434-453. -/
def rxIndicatorType (buf : List Byte) (ptr pktLen : Nat) (ret : Int) (b : Nat) : Except Stop (Nat × Nat) :=
  if b &&& 0x20 ≠ 0 then
    (stopIf (ptr + 2 > pktLen) ret).bind fun _ => (octet buf (ptr + 1)).bind fun c => (stopIf (16 + extended b c > 22) (-1)).bind fun _ => .ok (ptr + 2, 16 + extended b c)
  else .ok (ptr + 1, (b >>> 1) &&& 0xF)

/-- The type of data, src/t38_core.c:462-488. -/
def rxDataType (buf : List Byte) (ptr pktLen : Nat) (ret : Int) (b : Nat) : Except Stop (Nat × Nat) :=
  if b &&& 0x20 ≠ 0 then
    (stopIf (ptr + 2 > pktLen) ret).bind fun _ => (octet buf (ptr + 1)).bind fun c => (stopIf (9 + extended b c > 14) (-1)).bind fun _ => .ok (ptr + 2, 9 + extended b c)
  else (stopIf ((b >>> 1) &&& 0xF > 8) (-1)).bind fun _ => .ok (ptr + 1, (b >>> 1) &&& 0xF)

/-- The type of a field in the first pass, src/t38_core.c:509-564: if it has octets, and the new `ptr` and `other_half`. -/
def checkHead (version : Nat) (buf : List Byte) (pktLen : Nat) (ret : Int) (ptr : Nat) (half : Bool) (b : Nat) : Except Stop (Bool × Nat × Bool) :=
  if version = 0 then
    if half then (stopIf (b &&& 7 > 7) (-1)).bind fun _ => .ok ((b >>> 3) &&& 1 = 1, ptr + 1, false)
    else (stopIf ((b >>> 4) &&& 7 > 7) (-1)).bind fun _ => if (b >>> 7) &&& 1 = 1 then .ok (true, ptr + 1, half) else .ok (false, ptr, true)
  else if b &&& 0x40 ≠ 0 then
    (stopIf (ptr + 2 > pktLen) ret).bind fun _ => (octet buf (ptr + 1)).bind fun c => (stopIf (8 + extended b c > 11) (-1)).bind fun _ => .ok ((b >>> 7) &&& 1 = 1, ptr + 2, half)
  else .ok ((b >>> 7) &&& 1 = 1, ptr + 1, half)

/-- One field in the first pass, src/t38_core.c:506-579. -/
def checkField (version : Nat) (buf : List Byte) (pktLen : Nat) (ret : Int) (ptr : Nat) (half : Bool) : Except Stop (Nat × Bool) :=
  (stopIf (ptr ≥ pktLen) ret).bind fun _ => (octet buf ptr).bind fun b => (checkHead version buf pktLen ret ptr half b).bind fun h =>
    (if h.1 then (stopIf (h.2.1 + 2 > pktLen) ret).bind fun _ => (word buf h.2.1).map fun n => h.2.1 + ((n + 1) + 2) else .ok h.2.1).bind fun p =>
      (stopIf (p > pktLen) ret).bind fun _ => .ok (p, h.2.2)

/-- The first pass, src/t38_core.c:504-580, over `n` fields. -/
def checkFields (version : Nat) (buf : List Byte) (pktLen : Nat) (ret : Int) : Nat → Nat → Bool → Except Stop (Nat × Bool)
  | 0, ptr, half => .ok (ptr, half)
  | n + 1, ptr, half => (checkField version buf pktLen ret ptr half).bind fun r => checkFields version buf pktLen ret n r.1 r.2

/-- The type of a field in the second pass, src/t38_core.c:595-636: if it has octets, its type, and the new `ptr` and `other_half`. -/
def takeHead (version : Nat) (buf : List Byte) (ptr : Nat) (half : Bool) (b : Nat) : Except Stop (Bool × Nat × Nat × Bool) :=
  if version = 0 then
    if half then .ok ((b >>> 3) &&& 1 = 1, b &&& 7, ptr + 1, false)
    else if (b >>> 7) &&& 1 = 1 then .ok (true, (b >>> 4) &&& 7, ptr + 1, half) else .ok (false, (b >>> 4) &&& 7, ptr, true)
  else if b &&& 0x40 ≠ 0 then (octet buf (ptr + 1)).bind fun c => .ok ((b >>> 7) &&& 1 = 1, 8 + extended b c, ptr + 2, half)
  else .ok ((b >>> 7) &&& 1 = 1, (b >>> 3) &&& 7, ptr + 1, half)

/-- One field in the second pass, src/t38_core.c:595-661. -/
def takeField (version : Nat) (buf : List Byte) (ptr : Nat) (half : Bool) : Except Stop (Nat × Bool × Field) :=
  (octet buf ptr).bind fun b => (takeHead version buf ptr half b).bind fun h =>
    if h.1 then (word buf h.2.2.1).bind fun n => (slice buf (h.2.2.1 + 2) (n + 1)).map fun m => (h.2.2.1 + ((n + 1) + 2), h.2.2.2, ⟨h.2.1, m⟩)
    else .ok (h.2.2.1, h.2.2.2, ⟨h.2.1, []⟩)

/-- The second pass, src/t38_core.c:593-662, over `n` fields. -/
def takeFields (version : Nat) (buf : List Byte) : Nat → Nat → Bool → Except Stop (Nat × Bool × List Field)
  | 0, ptr, half => .ok (ptr, half, [])
  | n + 1, ptr, half => (takeField version buf ptr half).bind fun r => (takeFields version buf n r.1 r.2.1).map fun q => (q.1, q.2.1, r.2.2 :: q.2.2)

/-- The fields of a data message, src/t38_core.c:496-666. -/
def rxFields (version : Nat) (buf : List Byte) (ptr pktLen : Nat) (ret : Int) : Except Stop (Nat × List Field) :=
  (stopIf (ptr ≥ pktLen) ret).bind fun _ => (octet buf ptr).bind fun count => (checkFields version buf pktLen ret count (ptr + 1) false).bind fun r =>
    (stopIf ((if r.2 then r.1 + 1 else r.1) > pktLen) ret).bind fun _ =>
      (takeFields version buf count (ptr + 1) false).map fun q => (if q.2.1 then q.1 + 1 else q.1, q.2.2)

/-- A data message, src/t38_core.c:461-667. -/
def rxData (version : Nat) (buf : List Byte) (ptr pktLen : Nat) (ret : Int) (b : Nat) : Except Stop (Nat × Nat × List Field) :=
  (rxDataType buf ptr pktLen ret b).bind fun t =>
    if b &&& 0x80 ≠ 0 then (rxFields version buf t.1 pktLen ret).map fun q => (q.1, t.2, q.2) else .ok (t.1, t.2, [])

/-- `t38_core_rx_ifp_stream`, src/t38_core.c:356-676: what it returns, its state then, and the handlers it has called. `none` is a read outside of the data it was given. -/
def rxStream (s : Core) (buf : List Byte) : Option (Int × Core × List Ev) :=
  match (frame s buf).bind fun h => (stopIf (h.1 + 1 > h.2.1) h.2.2).bind fun _ => (octet buf h.1).map fun b => (h, b) with
  | .error .fault => none
  | .error (.ret r) => some (r, s, [])
  | .ok ((ptr, pktLen, ret), b) =>
    if (b >>> 6) &&& 1 = 0 then
      if b &&& 0x80 ≠ 0 then some (-1, s, [])
      else
        match rxIndicatorType buf ptr pktLen ret b with
        | .error .fault => none
        | .error (.ret r) => some (r, { s with rxDataType := -1, rxFieldType := -1 }, [])
        | .ok (p, i) => some (if p > pktLen then ret else p, { s with rxDataType := -1, rxFieldType := -1, rxIndicator := i }, [.indicator i])
    else
      match rxData s.version buf ptr pktLen ret b with
      | .error .fault => none
      | .error (.ret r) => some (r, s, [])
      | .ok (p, t, fs) =>
        some (if p > pktLen then ret else p, (match fs.getLast? with | some f => { s with rxDataType := t, rxFieldType := f.type } | none => s), fs.map (.data t))

/-- `classify_seq_no_offset`, src/t38_core.c:312-353. -/
def classify (expected actual : Int) : Int :=
  if expected > actual then
    if expected > actual + 0x10000 - 2000 then 1 else if expected < actual + 2000 then -1 else 0
  else if expected + 2000 > actual then 1
  else if expected + 0x10000 - 2000 < actual then -1
  else 0

/-- The checking of the sequence number, src/t38_core.c:686-740. `none` is a packet which is not used. -/
def checkSeq (s : Core) (seq : Nat) : Option (Core × List Ev) :=
  if s.check then
    if (seq : Int) ≠ s.rxExpected then
      if s.rxExpected ≠ -1 then
        if (((seq + 1) % 0x10000 : Nat) : Int) = s.rxExpected then none
        else if classify s.rxExpected seq = -1 then none
        else if classify s.rxExpected seq = 1 then
          some ({ s with missing := s.missing + (seq - s.rxExpected), rxExpected := seq }, [.missing s.rxExpected seq])
        else some ({ s with missing := s.missing + 1, rxExpected := seq }, [.missing (-1) (-1)])
      else some ({ s with rxExpected := seq }, [])
    else some (s, [])
  else some (s, [])

/-- `t38_core_rx_ifp_packet`, src/t38_core.c:679-768. `seq` is below 2^16. The next number is `(expected + 1) & 0xFFFF`. -/
def rxPacket (s : Core) (buf : List Byte) (seq : Nat) : Option (Int × Core × List Ev) :=
  match checkSeq s seq with
  | none => some (0, s, [])
  | some (s, evs) =>
    if buf.length < 1 then some (-1, s, evs)
    else (rxStream { s with rxExpected := (s.rxExpected + 1) % 0x10000 } buf).map fun r => (if r.1 ≠ (buf.length : Int) then -1 else 0, r.2.1, evs ++ r.2.2)

/-! ## The transmitter -/

/-- `put_net_unaligned_uint16`, src/spandsp/unaligned.h:160-169. -/
def word16 (n : Nat) : List Byte := [BitVec.ofNat 8 (n / 256), BitVec.ofNat 8 n]

/-- The TPKT header, src/t38_core.c:801-810 and 957-966, before the octets of the packet. -/
def withHeader (s : Core) (p : List Byte) : List Byte :=
  match s.transport with
  | .tpkt => [3, 0] ++ word16 (p.length + 4) ++ p
  | _ => p

/-- `t38_encode_indicator`, src/t38_core.c:771-813. `none` is -1. -/
def encodeIndicator (s : Core) (i : Nat) : Option (List Byte) :=
  if i ≤ 15 then some (withHeader s [BitVec.ofNat 8 (i <<< 1)])
  else if s.version ≠ 0 ∧ i ≤ 22 then some (withHeader s (word16 (0x2000 ||| ((i - 16) <<< 6))))
  else none

/-- One field, src/t38_core.c:895-936: what is written, and if this was all of it. -/
def encodeField (version : Nat) (f : Field) : List Byte × Bool :=
  let present : Nat := if f.octets.length > 0 then 1 else 0
  let head : Option (List Byte) :=
    if version = 0 then if f.type > 7 then none else some [BitVec.ofNat 8 ((present <<< 7) ||| (f.type <<< 4))]
    else if f.type ≤ 7 then some [BitVec.ofNat 8 ((present <<< 7) ||| (f.type <<< 3))]
    else if f.type ≤ 11 then some [BitVec.ofNat 8 ((present <<< 7) ||| 0x40 ||| ((f.type - 8) >>> 2)), BitVec.ofNat 8 (((f.type - 8) <<< 6) &&& 0xC0)]
    else none
  match head with
  | none => ([], false)
  | some h => if present = 0 then (h, true) else if f.octets.length > 65535 then (h, false) else (h ++ word16 (f.octets.length - 1) ++ f.octets, true)

/-- The fields, src/t38_core.c:893-938. -/
def encodeFields (version : Nat) : List Field → List Byte × Bool
  | [] => ([], true)
  | f :: t =>
    match encodeField version f with
    | (x, false) => (x, false)
    | (x, true) => (x ++ (encodeFields version t).1, (encodeFields version t).2)

/-- `t38_encode_data`, src/t38_core.c:816-976: what is written to the buffer, and if it is a packet (or -1 is returned). Simplified: with 16384 fields or more, for which each octet of a
field takes one of the 1000 of the buffer, the buffer is taken to be overrun at once (a list of 1001 octets). The TPKT header, which is put there later, is part of what is written. -/
def encodeData (s : Core) (type : Nat) (fields : List Field) : List Byte × Bool :=
  let present : Nat := if fields.length > 0 then 0x80 else 0
  let head : Option (List Byte) :=
    if type ≤ 8 then some [BitVec.ofNat 8 (present ||| 0x40 ||| (type <<< 1))]
    else if s.version ≠ 0 ∧ type ≤ 14 then some (word16 ((present <<< 8) ||| 0x6000 ||| ((type - 9) <<< 6)))
    else none
  match head with
  | none => ([], false)
  | some h =>
    if fields.length = 0 then (withHeader s h, true)
    else if fields.length < 0x80 then (withHeader s (h ++ [BitVec.ofNat 8 fields.length] ++ (encodeFields s.version fields).1), (encodeFields s.version fields).2)
    else if fields.length < 0x4000 then (withHeader s (h ++ word16 (0x8000 ||| fields.length) ++ (encodeFields s.version fields).1), (encodeFields s.version fields).2)
    else (List.replicate 1001 0, false)

/-- What a call to send gives: what it returns, its state then, and the packet handed to the application with its sequence number and the number of transmissions. -/
structure Sent where
  ret : Int
  core : Core
  packet : Option (Nat × List Byte × Int)

/-- `modem_startup_time`, src/t38_core.c:73-103: the times of training and for TEP. -/
def startup : List (Int × Int) :=
  [(75000, 0), (0, 0), (3000000, 0), (0, 0), (943000, 215000), (708000, 215000), (234000, 215000), (234000, 215000), (142000, 215000), (1393000, 215000), (142000, 215000), (1393000, 215000),
    (142000, 215000), (1393000, 215000), (142000, 215000), (1393000, 215000), (0, 0), (0, 0), (0, 0), (0, 0), (0, 0), (0, 215000), (0, 215000)]

/-- `t38_core_send_indicator`, src/t38_core.c:979-1025. `ok` is if the packet handler of the application succeeds. `none` is an access outside of `modem_startup_time`. -/
def sendIndicator (s : Core) (ok : Bool) (indicator : Nat) : Option Sent :=
  if s.txIndicator ≠ indicator then
    let times : Int := if indicator &&& 0x100 ≠ 0 then 1 else s.category 0
    let i := indicator &&& 0xFF
    if s.category 0 ≠ 0 then
      match encodeIndicator s i with
      | none => some ⟨-1, s, none⟩
      | some p =>
        if ok then
          let s' := { s with txSeq := (s.txSeq + 1) % 0x10000, txIndicator := (i : Int) }
          if s.pace then (startup[i]?).map fun t => ⟨if s.tep then t.1 + t.2 else t.1, s', some (s.txSeq, p, times)⟩
          else some ⟨0, s', some (s.txSeq, p, times)⟩
        else some ⟨-1, s, some (s.txSeq, p, times)⟩
    else some ⟨0, { s with txIndicator := (i : Int) }, none⟩
  else some ⟨0, s, none⟩

/-- `t38_core_send_data_multi_field`, src/t38_core.c:1072-1091, and `t38_core_send_data`, lines 1046-1069, which is the same for one field. `none` is a write beyond its 1000 octets. -/
def sendData (s : Core) (ok : Bool) (type : Nat) (fields : List Field) (category : Nat) : Option Sent :=
  let e := encodeData s type fields
  if e.1.length > 1000 then none
  else if e.2 then
    if ok then some ⟨0, { s with txSeq := (s.txSeq + 1) % 0x10000 }, some (s.txSeq, e.1, s.category category)⟩ else some ⟨-1, s, some (s.txSeq, e.1, s.category category)⟩
  else some ⟨-1, s, none⟩

end T38
