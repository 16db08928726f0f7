import Verif.Crc.Model
import Verif.BitOps.Model

/-!
# Model of src/hdlc.c

Callbacks are modelled as data. What the receiver's handlers are given is a list of reports. The
transmitter's underflow handler may call back into the transmitter, so it is an oracle: which
calls it makes the first time, the second time, and so on.

`none` is undefined behaviour: an access outside a buffer, or a signed overflow of `num_bits`.
The `unsigned long` statistics are unbounded numbers here. Counts of flag octets and octet
report intervals are unbounded integers (in C, calls with counts near `INT_MAX` could overflow).
-/

namespace Hdlc

abbrev Byte := BitVec 8

/-- `HDLC_MAXFRAME_LEN`, src/spandsp/hdlc.h:46. -/
def maxFrame : Nat := 400

/-- `sizeof(s->buffer)`, src/spandsp/private/hdlc.h:71 and :114. -/
def bufSize : Nat := maxFrame + 4

/-! ## The receiver -/

/-- A call of the receiver's `frame_handler` or `status_handler`. A status is a negative number.
(If there is no status handler, statuses go to the frame handler with a NULL buffer.) -/
inductive Report
  | frame (data : List Byte) (ok : Bool)
  | status (code : Int)
deriving DecidableEq

/-- `struct hdlc_rx_state_s`, src/spandsp/private/hdlc.h:32-85. `out` is what the handlers have
been given so far. -/
structure Rx where
  crcBytes : Nat
  maxFrameLen : Nat
  reportBadFrames : Bool
  framingOkThreshold : Nat
  framingOkAnnounced : Bool
  flagsSeen : Nat
  rawBitStream : BitVec 32
  byteInProgress : BitVec 32
  numBits : Nat
  octetCountingMode : Bool
  octetCount : Int
  octetCountReportInterval : Int
  buffer : List Byte
  len : Nat
  rxBytes : Nat
  rxFrames : Nat
  rxCrcErrors : Nat
  rxLengthErrors : Nat
  rxAborts : Nat
  out : List Report
deriving DecidableEq

/-- `hdlc_rx_init`, src/hdlc.c:373-396. -/
def rxInit (crc32 reportBadFrames : Bool) (framingOkThreshold : Int) : Rx :=
  { crcBytes := if crc32 then 4 else 2
    maxFrameLen := bufSize
    reportBadFrames
    framingOkThreshold := if framingOkThreshold < 1 then 1 else framingOkThreshold.toNat
    framingOkAnnounced := false
    flagsSeen := 0
    rawBitStream := 0
    byteInProgress := 0
    numBits := 0
    octetCountingMode := false
    octetCount := 0
    octetCountReportInterval := 0
    buffer := List.replicate bufSize 0
    len := 0
    rxBytes := 0
    rxFrames := 0
    rxCrcErrors := 0
    rxLengthErrors := 0
    rxAborts := 0
    out := [] }

/-- `hdlc_rx_set_max_frame_len`, src/hdlc.c:346-350. (In C the sum wraps if `max_len` is within 4 of the
largest `size_t`.) -/
def rxSetMaxFrameLen (s : Rx) (maxLen : Nat) : Rx :=
  let maxLen := maxLen + s.crcBytes
  { s with maxFrameLen := if maxLen ≤ bufSize then maxLen else bufSize }

/-- `hdlc_rx_set_octet_counting_report_interval`, src/hdlc.c:353-356. -/
def rxSetOctetCountingReportInterval (s : Rx) (interval : Int) : Rx :=
  { s with octetCountReportInterval := interval }

/-- `hdlc_rx_restart`, src/hdlc.c:359-370. -/
def rxRestart (s : Rx) : Rx :=
  { s with framingOkAnnounced := false, flagsSeen := 0, rawBitStream := 0, byteInProgress := 0,
           numBits := 0, octetCountingMode := false, octetCount := 0, len := 0 }

/-- `report_status_change`, src/hdlc.c:50-57. -/
def Rx.reportStatus (s : Rx) (status : Int) : Rx := { s with out := s.out ++ [.status status] }

/-- `s->frame_handler(s->frame_user_data, s->buffer, s->len, ok)`: the handler gets the first
`len` octets of the buffer. -/
def Rx.reportFrame (s : Rx) (ok : Bool) : Option Rx :=
  if s.len ≤ s.buffer.length then some { s with out := s.out ++ [.frame (s.buffer.take s.len) ok] }
  else none

/-- `SIG_STATUS_xxx`, src/spandsp/async.h:65-99. -/
def carrierDown : Int := -1
def carrierUp : Int := -2
def trainingInProgress : Int := -3
def trainingSucceeded : Int := -4
def trainingFailed : Int := -5
def framingOk : Int := -6
def endOfData : Int := -7
def abort : Int := -8
def octetReport : Int := -11

/-- `rx_special_condition`, src/hdlc.c:60-85. -/
def rxSpecialCondition (s : Rx) (status : Int) : Rx :=
  if status = carrierUp ∨ status = trainingSucceeded then
    Rx.reportStatus { s with rawBitStream := 0, len := 0, numBits := 0, flagsSeen := 0,
                             framingOkAnnounced := false } status
  else if status = trainingInProgress ∨ status = trainingFailed ∨ status = carrierDown ∨
      status = endOfData then
    s.reportStatus status
  else s

/-- `octet_set_and_count`, src/hdlc.c:88-111. -/
def octetSetAndCount (s : Rx) : Rx :=
  if s.octetCountReportInterval = 0 then s
  else if s.octetCountingMode then
    if s.octetCount - 1 ≤ 0 then
      Rx.reportStatus { s with octetCount := s.octetCountReportInterval } octetReport
    else { s with octetCount := s.octetCount - 1 }
  else { s with octetCountingMode := true, octetCount := s.octetCountReportInterval }

/-- `octet_count`, src/hdlc.c:114-132. -/
def octetCountStep (s : Rx) : Rx :=
  if s.octetCountReportInterval = 0 then s
  else if s.octetCountingMode then
    if s.octetCount - 1 ≤ 0 then
      Rx.reportStatus { s with octetCount := s.octetCountReportInterval } octetReport
    else { s with octetCount := s.octetCount - 1 }
  else s

/-- Back to counting flags, src/hdlc.c:145-149 and :224-228. -/
def backOff (s : Rx) : Rx :=
  { s with flagsSeen := if s.flagsSeen < s.framingOkThreshold - 1 then 0 else s.framingOkThreshold - 1 }

/-- An abort, src/hdlc.c:139-152. -/
def rxAbort (s : Rx) : Rx :=
  octetSetAndCount (backOff (Rx.reportStatus { s with rxAborts := s.rxAborts + 1 } abort))

/-- The CRC test of a frame, src/hdlc.c:167-169. -/
def rxCrcOk (s : Rx) : Option Bool :=
  if s.crcBytes = 2 then Crc.itu16Check s.buffer s.len else Crc.itu32Check s.buffer s.len

/-- A flag when framing is established, with something in the buffer, src/hdlc.c:165-210. -/
def rxEndFrame (s : Rx) : Option Rx :=
  if s.numBits = 7 ∧ s.len ≥ s.crcBytes ∧ s.len ≤ s.maxFrameLen then do
    let ok ← rxCrcOk s
    if ok then
      Rx.reportFrame { s with rxFrames := s.rxFrames + 1, rxBytes := s.rxBytes + (s.len - s.crcBytes),
                              len := s.len - s.crcBytes } true
    else
      let s := { s with rxCrcErrors := s.rxCrcErrors + 1 }
      if s.reportBadFrames then Rx.reportFrame { s with len := s.len - s.crcBytes } false
      else return s
  else do
    let s ← if s.reportBadFrames then
        Rx.reportFrame { s with len := if s.len ≥ s.crcBytes then s.len - s.crcBytes else 0 } false
      else some s
    return { s with rxLengthErrors := s.rxLengthErrors + 1 }

/-- A flag when framing is not established, src/hdlc.c:217-241. -/
def rxFramingFlag (s : Rx) : Rx :=
  let s := if s.flagsSeen ≠ s.framingOkThreshold - 1 ∧ s.numBits ≠ 7 then backOff s else s
  let s := { s with flagsSeen := s.flagsSeen + 1 }
  if s.flagsSeen ≥ s.framingOkThreshold ∧ s.framingOkAnnounced = false then
    { s.reportStatus framingOk with framingOkAnnounced := true }
  else s

/-- `rx_flag_or_abort`, src/hdlc.c:135-245. -/
def rxFlagOrAbort (s : Rx) : Option Rx := do
  let s ← if s.rawBitStream &&& 0x0100#32 ≠ 0 then some (rxAbort s)
    else
      let s := { s with octetCountingMode := false }
      if s.flagsSeen ≥ s.framingOkThreshold then
        if s.len ≠ 0 then rxEndFrame s else some s
      else some (rxFramingFlag s)
  return { s with len := 0, numBits := 0 }

/-- The end of an octet, src/hdlc.c:280-298. -/
def rxOctet (s : Rx) : Option Rx := do
  let s ← if s.len < s.maxFrameLen then
      if s.len < s.buffer.length then
        some { s with buffer := s.buffer.set s.len (s.byteInProgress.setWidth 8), len := s.len + 1 }
      else none
    else some (octetSetAndCount { s with len := bufSize + 1, flagsSeen := s.framingOkThreshold - 1 })
  return { s with numBits := 0 }

/-- A data bit, src/hdlc.c:269-299. -/
def rxDataBit (s : Rx) : Option Rx :=
  if s.numBits ≥ 2147483647 then none else
  let s := { s with numBits := s.numBits + 1 }
  if s.flagsSeen < s.framingOkThreshold then
    if s.numBits % 8 = 0 then some (octetCountStep s) else some s
  else
    let s := { s with byteInProgress :=
      (s.byteInProgress ||| (s.rawBitStream &&& 0x100#32)) >>> 1 }
    if s.numBits = 8 then rxOctet s else some s

/-- `hdlc_rx_put_bit_core`, src/hdlc.c:248-300. -/
def rxPutBitCore (s : Rx) : Option Rx :=
  if s.rawBitStream &&& 0x3E00#32 = 0x3E00#32 ∧ s.rawBitStream &&& 0x4100#32 = 0 then some s
  else if s.rawBitStream &&& 0x3E00#32 = 0x3E00#32 ∧ s.rawBitStream &&& 0xFE00#32 = 0x7E00#32 then
    rxFlagOrAbort s
  else rxDataBit s

/-- `hdlc_rx_put_bit`, src/hdlc.c:303-313. -/
def rxPutBit (s : Rx) (newBit : Int) : Option Rx :=
  if newBit < 0 then some (rxSpecialCondition s newBit)
  else rxPutBitCore { s with rawBitStream :=
    (s.rawBitStream <<< 1) ||| ((BitVec.ofInt 32 newBit <<< 8) &&& 0x100#32) }

/-- The loop of `hdlc_rx_put_byte`, src/hdlc.c:327-331. -/
def rxShiftBits : Nat → Rx → Option Rx
  | 0, s => some s
  | n + 1, s => do
    rxShiftBits n (← rxPutBitCore { s with rawBitStream := s.rawBitStream <<< 1 })

/-- `hdlc_rx_put_byte`, src/hdlc.c:316-333. The argument is an octet, or a negative status. -/
def rxPutByte (s : Rx) (newByte : Int) : Option Rx :=
  if newByte < 0 then some (rxSpecialCondition s newByte)
  else rxShiftBits 8 { s with rawBitStream := s.rawBitStream ||| BitVec.ofInt 32 newByte }

/-- `hdlc_rx_put`, src/hdlc.c:336-343. -/
def rxPut (s : Rx) : List Byte → Option Rx
  | [] => some s
  | b :: bs => do rxPut (← rxPutByte s b.toNat) bs

/-! ## The transmitter -/

/-- A record of what matters to the user: a piece of a frame was accepted by `hdlc_tx_frame`
(it returned 0 for a non-empty piece), or the underflow handler was called. -/
inductive Event
  | accepted (piece : List Byte)
  | underflow
deriving DecidableEq

/-- `struct hdlc_tx_state_s`, src/spandsp/private/hdlc.h:91-134. `log` is a record of events. -/
structure Tx where
  crcBytes : Nat
  interFrameFlags : Int
  progressive : Bool
  maxFrameLen : Nat
  octetsInProgress : BitVec 32
  numBits : Nat
  idleOctet : BitVec 32
  flagOctets : Int
  abortOctets : Int
  reportFlagUnderflow : Bool
  buffer : List Byte
  len : Nat
  pos : Nat
  crc : BitVec 32
  byte : BitVec 32
  bits : Nat
  txEnd : Bool
  log : List Event
deriving DecidableEq

/-- The starting value of the CRC, src/hdlc.c:591-594 and the like. -/
def Tx.crcStart (s : Tx) : BitVec 32 := if s.crcBytes = 2 then 0xFFFF#32 else 0xFFFFFFFF#32

/-- `hdlc_tx_init`, src/hdlc.c:704-738. -/
def txInit (crc32 : Bool) (interFrameFlags : Int) (progressive : Bool) : Tx :=
  { crcBytes := if crc32 then 4 else 2
    interFrameFlags := if interFrameFlags < 1 then 1 else interFrameFlags
    progressive
    maxFrameLen := maxFrame
    octetsInProgress := 0
    numBits := 0
    idleOctet := 0x7E#32
    flagOctets := 0
    abortOctets := 0
    reportFlagUnderflow := false
    buffer := List.replicate bufSize 0
    len := 0
    pos := 0
    crc := if crc32 then 0xFFFFFFFF#32 else 0xFFFF#32
    byte := 0
    bits := 0
    txEnd := false
    log := [] }

/-- `hdlc_tx_set_max_frame_len`, src/hdlc.c:676-679. -/
def txSetMaxFrameLen (s : Tx) (maxLen : Nat) : Tx :=
  { s with maxFrameLen := if maxLen ≤ maxFrame then maxLen else maxFrame }

/-- The CRC update of `hdlc_tx_frame`, src/hdlc.c:465-468. -/
def txCrc (s : Tx) (frame : List Byte) : Option (BitVec 32) :=
  if s.crcBytes = 2 then (Crc.itu16Calc frame frame.length (s.crc.setWidth 16)).map (·.setWidth 32)
  else Crc.itu32Calc frame frame.length s.crc

/-- `hdlc_tx_frame`, src/hdlc.c:437-476: the new state and the result. -/
def txFrame (s : Tx) (frame : List Byte) : Option (Tx × Int) :=
  if frame.length = 0 then some ({ s with txEnd := true }, 0)
  else if s.len + frame.length > s.maxFrameLen then some (s, -1)
  else if (s.progressive ∧ s.pos ≥ maxFrame) ∨ (s.progressive = false ∧ s.len ≠ 0) then some (s, -1)
  else if s.len + frame.length > s.buffer.length then none
  else do
    let crc ← txCrc s frame
    return ({ s with
      buffer := s.buffer.take s.len ++ frame ++ s.buffer.drop (s.len + frame.length)
      crc
      len := if s.progressive then s.len + frame.length else frame.length
      txEnd := false
      log := s.log ++ [.accepted frame] }, 0)

/-- `hdlc_tx_flags`, src/hdlc.c:479-494. -/
def txFlags (s : Tx) (len : Int) : Tx × Int :=
  if s.pos ≠ 0 then (s, -1)
  else ({ s with flagOctets := if len < 0 then s.flagOctets + -len else len,
                 reportFlagUnderflow := true, txEnd := false }, 0)

/-- `hdlc_tx_abort`, src/hdlc.c:497-504. -/
def txAbort (s : Tx) : Tx × Int :=
  ({ s with flagOctets := s.flagOctets + 1, abortOctets := s.abortOctets + 1 }, -1)

/-- `hdlc_tx_corrupt_frame`, src/hdlc.c:507-518. -/
def txCorruptFrame (s : Tx) : Tx × Int :=
  if s.len ≤ 0 then (s, -1)
  else ({ s with crc := s.crc ^^^ 0xFFFF#32,
                 buffer := [0, 1, 2, 3].foldl (fun b i => b.modify (maxFrame + i) (· ^^^ 0xFF#8)) s.buffer }, 0)

/-- `hdlc_tx_restart`, src/hdlc.c:682-701. -/
def txRestart (s : Tx) : Tx :=
  { s with octetsInProgress := 0, numBits := 0, idleOctet := 0x7E#32, flagOctets := 0,
           abortOctets := 0, reportFlagUnderflow := false, len := 0, pos := 0, crc := s.crcStart,
           byte := 0, bits := 0, txEnd := false }

/-- The calls a program makes to feed the transmitter. -/
inductive Call
  | frame (data : List Byte)
  | flags (n : Int)
  | setMaxFrameLen (n : Nat)
deriving DecidableEq

/-- Make a call. -/
def txCall (s : Tx) : Call → Option Tx
  | .frame d => (txFrame s d).map (·.1)
  | .flags n => some (txFlags s n).1
  | .setMaxFrameLen n => some (txSetMaxFrameLen s n)

/-- Make a list of calls. -/
def txCalls (s : Tx) : List Call → Option Tx
  | [] => some s
  | c :: cs => do txCalls (← txCall s c) cs

/-- `s->underflow_handler(s->user_data)`. The handler makes the calls the oracle `h` says, knowing
all that has happened so far. (A handler which is NULL, or does nothing, makes none.) -/
def txUnderflow (h : List Event → List Call) (s : Tx) : Option Tx :=
  let s := { s with log := s.log ++ [.underflow] }
  txCalls s (h s.log)

/-- The loop of `hdlc_tx_get_byte`, src/hdlc.c:613-624: `n` more bits of the octet `x` into
`octets_in_progress` and `num_bits`, with stuffing. -/
def txBits : Nat → BitVec 32 → BitVec 32 × Nat → BitVec 32 × Nat
  | 0, _, p => p
  | n + 1, x, (o, nb) =>
    let o := (o <<< 1) ||| (x &&& 1#32)
    txBits n (x >>> 1) (if o &&& 0x1F#32 = 0x1F#32 then (o <<< 1, nb + 1) else (o, nb))

/-- The next octet of the buffer, src/hdlc.c:609-626. -/
def txOctet (s : Tx) : Option (Tx × Int) := do
  let b ← s.buffer[s.pos]?
  let x : BitVec 32 := b.setWidth 32
  let i := (BitOps.bottomBit (x ||| 0x100#32)).toNat
  let (o, nb) := txBits (8 - i) (x >>> i) (s.octetsInProgress <<< i, s.numBits)
  return ({ s with pos := s.pos + 1, octetsInProgress := o, numBits := nb },
    ((o >>> nb) &&& 0xFF#32).toNat)

/-- The CRC goes in the buffer, src/hdlc.c:561-570. -/
def txStoreCrc (s : Tx) : Tx :=
  let crc := s.crc ^^^ 0xFFFFFFFF#32
  let buffer := (s.buffer.set maxFrame (crc.setWidth 8)).set (maxFrame + 1) ((crc >>> 8).setWidth 8)
  let buffer := if s.crcBytes = 4 then
      (buffer.set (maxFrame + 2) ((crc >>> 16).setWidth 8)).set (maxFrame + 3) ((crc >>> 24).setWidth 8)
    else buffer
  { s with crc, buffer, pos := maxFrame }

/-- The end of a frame, src/hdlc.c:574-605. -/
def txEndFrame (h : List Event → List Call) (s : Tx) : Option (Tx × Int) := do
  let txbyte := ((s.octetsInProgress <<< (8 - s.numBits)) ||| (0x7E#32 >>> s.numBits)) &&& 0xFF#32
  let idle := (0x7E7E#32 >>> s.numBits) &&& 0xFF#32
  let s := { s with idleOctet := idle, octetsInProgress := idle >>> (8 - s.numBits),
                    flagOctets := s.interFrameFlags - 1, len := 0, pos := 0, crc := s.crcStart,
                    reportFlagUnderflow := false }
  let s ← txUnderflow h s
  let s := if s.len = 0 ∧ s.flagOctets < 2 then { s with flagOctets := 2 } else s
  return (s, txbyte.toNat)

/-- A timed flag octet, src/hdlc.c:527-550. -/
def txTimedFlag (h : List Event → List Call) (s : Tx) : Option (Tx × Int) := do
  let s := { s with flagOctets := s.flagOctets - 1 }
  let s ← if s.flagOctets ≤ 0 ∧ s.reportFlagUnderflow then
      let s := { s with reportFlagUnderflow := false }
      if s.len = 0 then txUnderflow h s else some s
    else some s
  if s.abortOctets ≠ 0 then return ({ s with abortOctets := 0 }, 0x7F)
  else return (s, s.idleOctet.toNat)

/-- `hdlc_tx_get_byte`, src/hdlc.c:521-638: the new state, and the octet or status. -/
def txGetByte (h : List Event → List Call) (s : Tx) : Option (Tx × Int) :=
  if s.flagOctets > 0 then txTimedFlag h s
  else if s.len ≠ 0 then
    if s.numBits ≥ 8 then
      let s := { s with numBits := s.numBits - 8 }
      some (s, ((s.octetsInProgress >>> s.numBits) &&& 0xFF#32).toNat)
    else if s.pos ≥ s.len then
      if s.pos = s.len then txOctet (txStoreCrc s)
      else if s.pos = maxFrame + s.crcBytes then txEndFrame h s
      else txOctet s
    else txOctet s
  else if s.txEnd then some ({ s with txEnd := false }, endOfData)
  else some (s, s.idleOctet.toNat)

/-- `hdlc_tx_get_bit`, src/hdlc.c:641-656. (When the octet is a status, that is what `byte` is left
at; it is not looked at again, and not modelled.) -/
def txGetBit (h : List Event → List Call) (s : Tx) : Option (Tx × Int) :=
  let step (s : Tx) : Tx × Int :=
    let s := { s with bits := s.bits - 1 }
    (s, ((s.byte >>> s.bits) &&& 1#32).toNat)
  if s.bits = 0 then do
    let (s, b) ← txGetByte h s
    if b < 0 then return (s, b)
    else return step { s with byte := BitVec.ofInt 32 b, bits := 8 }
  else some (step s)

end Hdlc
