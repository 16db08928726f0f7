/-!
# V.8 negotiation between modems

Model of /repo/src/v8.c: the messages CI, CM, JM and CJ, down to the bits given to the V.21 modem and up
from the bits it finds, and the states of a negotiation.  The modem and the detectors of tones are not
modelled: what comes out of them is an input.
-/

namespace V8

abbrev Byte := BitVec 8

/-- /repo/src/spandsp/v8.h:125-134 (`v8_cm_jm_parms_t`), as 32 bit words. -/
structure Msg where
  call : BitVec 32
  modulations : BitVec 32
  protocols : BitVec 32
  pstn : BitVec 32
  nsf : BitVec 32
  pcm : BitVec 32
  t66 : BitVec 32
  deriving DecidableEq, Repr

/-! ## Sending -/

/-- `if (offered_modulations & (1 << k)) val |= x;`.  The numbers of the modulations are those of
/repo/src/spandsp/v8.h:62-78: V.17 is 0, V.21 1, V.22 2, V.23 half duplex 3, V.23 4, V.26bis 5, V.26ter 6,
V.27ter 7, V.29 8, V.32 9, V.34 half duplex 10, V.34 11, V.90 12, V.92 13. -/
def bitIf (m : BitVec 32) (k : Nat) (x : Byte) : Byte := if m.getLsbD k then x else 0#8

/-- The first octet of modulations.  /repo/src/v8.c:772-783. -/
def mod1 (m : BitVec 32) : Byte := 0x05#8 ||| bitIf m 12 0x20#8 ||| bitIf m 11 0x40#8 ||| bitIf m 10 0x80#8

/-- The second.  /repo/src/v8.c:784-803. -/
def mod2 (m : BitVec 32) : Byte :=
  0x10#8 ||| bitIf m 9 0x01#8 ||| bitIf m 2 0x02#8 ||| bitIf m 0 0x04#8 ||| bitIf m 8 0x40#8 |||
    bitIf m 7 0x80#8

/-- The third.  /repo/src/v8.c:804-823. -/
def mod3 (m : BitVec 32) : Byte :=
  0x10#8 ||| bitIf m 6 0x01#8 ||| bitIf m 5 0x02#8 ||| bitIf m 4 0x04#8 ||| bitIf m 3 0x40#8 |||
    bitIf m 1 0x80#8

/-- `(v << 5) | tag`, stored in an octet. -/
def octet (v : BitVec 32) (tag : Byte) : Byte := ((v <<< 5) ||| tag.zeroExtend 32).setWidth 8

/-- The octets of a CM or JM after the synchronising octet.  The call function and the modulations are
those of the result so far, the rest those of the parameters; `n` is `modulation_bytes`.  At most nine
octets with the first, for a buffer of ten.  /repo/src/v8.c:755-842 (`send_cm_jm`). -/
def cmOctets (result parms : Msg) (n : Nat) : List Byte :=
  [octet result.call 0x01#8, mod1 result.modulations] ++
  (if 1 < n then [mod2 result.modulations] else []) ++
  (if 2 < n then [mod3 result.modulations] else []) ++
  (if parms.protocols ≠ 0#32 then [octet parms.protocols 0x0A#8] else []) ++
  (if parms.pstn ≠ 0#32 then [octet parms.pstn 0x0D#8] else []) ++
  (if parms.pcm ≠ 0#32 then [octet parms.pcm 0x07#8] else []) ++
  (if 0 ≤ parms.t66.toInt then [octet parms.t66 0x0E#8] else [])

/-- An octet with its start and stop bits.  /repo/src/v8.c:730-752 (`v8_put_bytes`). -/
def frame (o : Byte) : List Bool := false :: (List.range 8).map o.getLsbD ++ [true]

/-- /repo/src/v8.c:719-727 (`v8_put_preamble`). -/
def preamble : List Bool := List.replicate 10 true

/-- A message: preamble, synchronising octet, octets. -/
def message (sync : Byte) (l : List Byte) : List Bool := preamble ++ (sync :: l).flatMap frame

def cmBits (result parms : Msg) (n : Nat) : List Bool := message 0xE0#8 (cmOctets result parms n)

/-- Four CI messages.  /repo/src/v8.c:931-947 (`send_ci`). -/
def ciBits (result : Msg) : List Bool :=
  (List.replicate 4 (message 0x00#8 [octet result.call 0x01#8])).flatten

/-- Two V.92 messages, if wanted.  /repo/src/v8.c:909-929 (`conditionally_send_v92`). -/
def v92Bits (v92 : BitVec 32) : List Bool :=
  if 0 ≤ v92.toInt then (List.replicate 2 (message 0x55#8 [v92.setWidth 8])).flatten else []

/-- CJ.  /repo/src/v8.c:1116-1117. -/
def cjBits : List Bool := [0#8, 0#8, 0#8].flatMap frame

/-! ## Receiving -/

/-- /repo/src/v8.c:92-98. -/
inductive Sync
  | unknown | ci | cmJm | v92
  deriving DecidableEq, Repr

/-- The receiver.  `data` is `rx_data` up to `rx_data_ptr`, `first` its first octet, which may be left
from before; `saved` is `cm_jm_data` up to `cm_jm_len`; `msg` is `result.jm_cm`, `modBytes` is
`modulation_bytes`.  `stream` has the 20 bits of `bit_stream` which are ever set.  The counts do not
overflow before some 80 days at 300 bits a second.  /repo/src/spandsp/private/v8.h:60-83. -/
structure Rx where
  stream : BitVec 20
  cnt : Nat
  sync : Sync
  data : List Byte
  first : Byte
  saved : List Byte
  gotCi : Bool
  gotCmJm : Bool
  gotCj : Bool
  zeros : Nat
  msg : Msg
  modBytes : Nat

/-- Whether an octet is an extension of the one before.  /repo/src/v8.c:376, 400, 543. -/
def isExt (o : Byte) : Bool := o &&& 0x38#8 == 0x10#8

/-- The modulations of each of the three octets.  /repo/src/v8.c:364-372, 379-393, 403-417. -/
def bitsOf (o : Byte) (l : List (Byte × Nat)) : BitVec 32 :=
  l.foldl (fun m e => if o &&& e.1 ≠ 0#8 then m ||| BitVec.twoPow 32 e.2 else m) 0#32
def mods1 (o : Byte) : BitVec 32 := bitsOf o [(0x80#8, 10), (0x40#8, 11), (0x20#8, 12)]
def mods2 (o : Byte) : BitVec 32 :=
  bitsOf o [(0x80#8, 7), (0x40#8, 8), (0x04#8, 0), (0x02#8, 2), (0x01#8, 9)]
def mods3 (o : Byte) : BitVec 32 :=
  bitsOf o [(0x80#8, 1), (0x40#8, 3), (0x04#8, 4), (0x02#8, 5), (0x01#8, 6)]

/-- What is left of the message, beginning with the octet `p` points to.  `none` is a read beyond its
terminating zero. -/
abbrev Rest := Option (List Byte)

/-- /repo/src/v8.c:354-423 (`process_modulation_mode`): the modulations, the number of octets, and what is
left after them. -/
def processMods (o : Byte) (l : List Byte) : Option (BitVec 32 × Nat × List Byte) :=
  match l with
  | [] => none
  | o2 :: l2 =>
    if isExt o2 then
      match l2 with
      | [] => none
      | o3 :: l3 =>
        if isExt o3 then some (mods1 o ||| mods2 o2 ||| mods3 o3, 3, l3)
        else some (mods1 o ||| mods2 o2, 2, o3 :: l3)
    else some (mods1 o, 1, o2 :: l2)

/-- The value of an octet with a tag.  /repo/src/v8.c:348, 427, 435, 444, 452, 460. -/
def value (o : Byte) : BitVec 32 := (o >>> 5).zeroExtend 32

/-- The `switch` of /repo/src/v8.c:511-539, for octet `o` with `l` after it.  The octet for non-standard
facilities is not moved past (/repo/src/v8.c:441-448). -/
def processOctet (o : Byte) (l : List Byte) (m : Msg) (n : Nat) : Option (Msg × Nat × List Byte) :=
  let tag := o &&& 0x1F#8
  if tag = 0x01#8 then some ({ m with call := value o }, n, l)
  else if tag = 0x05#8 then
    (processMods o l).map fun x => ({ m with modulations := x.1 }, x.2.1, x.2.2)
  else if tag = 0x0A#8 then some ({ m with protocols := value o }, n, l)
  else if tag = 0x0D#8 then some ({ m with pstn := value o }, n, l)
  else if tag = 0x0F#8 then some ({ m with nsf := value o }, n, o :: l)
  else if tag = 0x07#8 then some ({ m with pcm := value o }, n, l)
  else if tag = 0x0E#8 then some ({ m with t66 := value o }, n, l)
  else some (m, n, l)

/-- /repo/src/v8.c:542-545: extensions which are not understood are skipped. -/
def skipExts : List Byte → Option (List Byte)
  | [] => none
  | o :: l => if isExt o then skipExts l else some (o :: l)

/-- How far the loop has come after some rounds: at its end, still going, or with a read beyond the
terminating zero. -/
inductive Loop
  | done (m : Msg) (n : Nat)
  | going
  | fault
  deriving DecidableEq, Repr

/-- At most `k` rounds of the loop of /repo/src/v8.c:509-547. -/
def decodeLoop : Nat → List Byte → Msg → Nat → Loop
  | _, [], _, _ => .fault
  | 0, o :: _, m, n => if o = 0#8 then .done m n else .going
  | k + 1, o :: l, m, n =>
    if o = 0#8 then .done m n
    else match processOctet o l m n with
      | none => .fault
      | some (m, n, l) => match skipExts l with
        | none => .fault
        | some l => decodeLoop k l m n

/-- The message which is kept, with its terminating zero, is gone through.  A loop which moves on with
each round is done after as many rounds as there are octets; one which is not done by then never is
(`nsf_never_ends` and `decode_ends` in Props). -/
def decodeSaved (saved : List Byte) (m : Msg) (n : Nat) : Loop :=
  decodeLoop saved.length (saved ++ [0#8]) { m with modulations := 0#32 } n

/-- /repo/src/v8.c:480-550 (`cm_jm_decode`).  `none` if it never returns, or reads outside. -/
def cmJmDecode (r : Rx) : Option Rx :=
  if r.gotCmJm then some r
  else if r.saved = [] ∨ r.saved ≠ r.data then some { r with saved := r.data }
  else match decodeSaved r.saved r.msg r.modBytes with
    | .done m n => some { r with gotCmJm := true, msg := m, modBytes := n }
    | _ => none

/-- /repo/src/v8.c:466-477 (`ci_decode`); the report is not modelled. -/
def ciDecode (r : Rx) : Rx :=
  if r.gotCi then r
  else if r.first &&& 0x1F#8 = 0x01#8 then { r with gotCi := true, msg := { r.msg with call := value r.first } }
  else { r with gotCi := true }

/-- /repo/src/v8.c:584-603. -/
def syncOf (s : BitVec 20) : Sync :=
  if s = 0x803FF#20 then .ci
  else if s = 0xF03FF#20 then .cmJm
  else if s = 0xAABFF#20 then .v92
  else .unknown

/-- What was being received is processed.  /repo/src/v8.c:635-644. -/
def finish (r : Rx) : Option Rx :=
  match r.sync with
  | .ci => some (ciDecode r)
  | .cmJm => cmJmDecode r
  | _ => some r

/-- An octet is complete: it is counted if it is zero, and kept if there is room.
/repo/src/v8.c:660-680. -/
def store (r : Rx) (o : Byte) : Rx :=
  let r := if o = 0#8 then { r with zeros := r.zeros + 1, gotCj := r.gotCj || r.zeros + 1 == 3 }
    else { r with zeros := 0 }
  let r := if r.data.length < 63 then
      { r with data := r.data ++ [o], first := if r.data = [] then o else r.first }
    else r
  { r with cnt := 0 }

/-- /repo/src/v8.c:651-682: octets are taken from the bits. -/
def parse (r : Rx) : Rx :=
  if r.sync = .unknown then r
  else
    let r := { r with cnt := r.cnt + 1 }
    if r.stream.getLsbD 19 && !r.stream.getLsbD 10 && 10 ≤ r.cnt then
      store r ((r.stream >>> 11).setWidth 8)
    else r

/-- /repo/src/v8.c:553-685 (`put_bit`), for bits; the status codes do nothing. -/
def putBit (r : Rx) (b : Bool) : Option Rx :=
  let r := { r with stream := (r.stream >>> 1) ||| (if b then 0x80000#20 else 0#20) }
  let new := syncOf r.stream
  if new ≠ .unknown then
    (finish r).map fun r => parse { r with sync := new, cnt := 0, data := [] }
  else some (parse r)

def puts (r : Rx) : List Bool → Option Rx
  | [] => some r
  | b :: l => (putBit r b).bind fun r => puts r l

/-- /repo/src/v8.c:687-704 (`v8_decode_init`); `bit_cnt`, `rx_data`, the result and `modulation_bytes` are
left as they are. -/
def decodeInit (r : Rx) : Rx :=
  { r with sync := .unknown, stream := 0#20, saved := [], gotCi := false, gotCmJm := false, gotCj := false,
           zeros := 0, data := [] }

/-- The receiver after `v8_init`.  /repo/src/v8.c:1321-1343, 1378-1400. -/
def rxInit (parms : Msg) : Rx where
  stream := 0#20
  cnt := 0
  sync := .unknown
  data := []
  first := 0#8
  saved := []
  gotCi := false
  gotCmJm := false
  gotCj := false
  zeros := 0
  msg := { call := parms.call, modulations := parms.modulations, protocols := 0#32, pstn := 0#32,
           nsf := BitVec.allOnes 32, pcm := 0#32, t66 := BitVec.allOnes 32 }
  modBytes := 3

/-! ## A negotiation -/

/-- /repo/src/v8.c:72-90, without V8_SIGC, which is never entered. -/
inductive St
  | wait1s | awaitAnsam | ciOn | ciOff | heardAnsam | cmOn | cjOn | cmWait | postCmWait | jmOn | siga
  | parked
  deriving DecidableEq, Repr

/-- /repo/src/spandsp/v8.h:100-121 (`V8_STATUS_…`), those which are reported from the states below. -/
inductive Status
  | offered | v8Call | nonV8 | failed | callingTone | cng
  deriving DecidableEq, Repr

/-- A tone which a detector reports: modulated answer tones, calling tone, CNG, others. -/
inductive Tone
  | ansam | calling | cng | other
  deriving DecidableEq, Repr

/-- The parameters of the application.  /repo/src/spandsp/v8.h:136-144 (`v8_parms_t`). -/
structure Parms where
  status : BitVec 32
  gateway : Bool
  tone : BitVec 32
  sendCi : BitVec 32
  v92 : BitVec 32
  cm : Msg

/-- The whole state.  `queue` are the bits which wait to be sent, `sending` is `fsk_tx_on`; `reports` are
the statuses reported so far, the last one first. -/
structure V8 where
  parms : Parms
  rx : Rx
  st : St
  sending : Bool
  timer : Int
  ciTimer : Int
  ciCount : Nat
  proceed : Bool
  queue : List Bool
  reports : List Status

/-- Milliseconds as samples.  /repo/src/spandsp/telephony.h:72. -/
def ms (t : Int) : Int := 8*t

/-- The room in the queue of bits: a queue made for 1024 octets (/repo/src/v8.c:1371) holds that many
(/repo/src/queue.c, `queue_init`, adds one for its own use). -/
def room : Nat := 1024

/-- Bits are queued, as far as there is room. -/
def enqueue (s : V8) (l : List Bool) : V8 := { s with queue := s.queue ++ l.take (room - s.queue.length) }

def report (s : V8) (x : Status) : V8 := { s with reports := x :: s.reports }

/-- `send_cm_jm`. -/
def sendCmJm (s : V8) : V8 := enqueue s (cmBits s.rx.msg s.parms.cm s.rx.modBytes)

/-- /repo/src/v8.c:1321-1376 (`v8_restart`), after `v8_init`. -/
def v8Init (calling : Bool) (parms : Parms) : V8 where
  parms := parms
  rx := rxInit parms.cm
  st := if calling then (if parms.sendCi ≠ 0#32 then .wait1s else .awaitAnsam) else .cmWait
  sending := false
  timer := if calling then (if parms.sendCi ≠ 0#32 then ms 1000 else 0) else ms (200 + 5000)
  ciTimer := 0
  ciCount := 0
  proceed := false
  queue := []
  reports := []

/-- /repo/src/v8.c:949-975 (`handle_calling_modem_connect_tone`). -/
def callerTone (s : V8) (t : Tone) : V8 :=
  if t = .ansam then
    { s with st := .heardAnsam, ciTimer := ms 1000, timer := ms 5000, rx := decodeInit s.rx }
  else report { s with st := .parked } .nonV8

/-- /repo/src/v8.c:977-1004 (`handle_answering_modem_connect_tone`). -/
def answererTone (s : V8) (t : Tone) : V8 :=
  report { s with st := .parked } (if t = .calling then .callingTone else if t = .cng then .cng else .failed)

/-- The case V8_CM_ON.  /repo/src/v8.c:1108-1145. -/
def runCmOn (s : V8) (len : Nat) (bits : List Bool) : Option V8 :=
  (puts s.rx bits).map fun rx =>
    let s := { s with rx := rx }
    if s.rx.gotCmJm then { enqueue s cjBits with st := .cjOn, sending := true }
    else
      let s := { s with timer := s.timer - len }
      let s := if s.timer ≤ 0 then report { s with st := .parked } .failed else s
      if s.queue.length < 10 then sendCmJm s else s

/-- JM in place of ANSam.  /repo/src/v8.c:1183-1190, 1213-1219. -/
def startJm (s : V8) : V8 :=
  { sendCmJm { s with timer := ms 5000, st := .jmOn } with sending := true }

/-- /repo/src/v8.c:1035-1304 (`v8_rx`), with one round of its loop: the demodulator and the detectors use
up all of the samples.  `len` is the number of samples, `tone` what the detectors in use report, `bits`
what the demodulator finds in them, `edit` what the application makes of the result when a CM is reported
to it.  `none` if the call never returns or reads outside. -/
def rxStep (s : V8) (len : Nat) (tone : Option Tone) (bits : List Bool) (edit : Msg → Msg) : Option V8 :=
  match s.st with
  | .wait1s =>
    let s := { s with timer := s.timer - len }
    if s.timer > 0 then some s
    else some { enqueue s (ciBits s.rx.msg) with st := .ciOn, sending := true }
  | .ciOn =>
    match tone with
    | some t => some (callerTone s t)
    | none =>
      if !s.sending then some { s with st := .ciOff, ciTimer := ms 500, timer := ms 5000 } else some s
  | .ciOff =>
    match tone with
    | some t => some (callerTone s t)
    | none =>
      let s := { s with ciTimer := s.ciTimer - len }
      if s.ciTimer ≤ 0 then
        let s := { s with ciCount := s.ciCount + 1 }
        if s.ciCount ≥ 10 then some (report { s with st := .parked } .failed)
        else some { enqueue s (ciBits s.rx.msg) with st := .ciOn, sending := true }
      else some s
  | .awaitAnsam =>
    match tone with
    | some t => some (callerTone s t)
    | none => some s
  | .heardAnsam =>
    let s := { s with ciTimer := s.ciTimer - len }
    let s := if s.ciTimer ≤ 0 then
        { sendCmJm (enqueue { s with rx := decodeInit s.rx, timer := ms 5000 } (v92Bits s.parms.v92)) with
          sending := true, st := .cmOn }
      else s
    runCmOn s len bits
  | .cmOn => runCmOn s len bits
  | .cjOn =>
    (puts s.rx bits).map fun rx =>
      let s := { s with rx := rx }
      if !s.sending then report { s with st := .parked } .v8Call else s
  | .cmWait =>
    let s := match tone with
      | some t => answererTone s t
      | none => s
    (puts s.rx bits).map fun rx =>
      let s := { s with rx := rx }
      if s.rx.gotCmJm then
        let s := report s .offered
        let s := { s with rx := { s.rx with msg := edit s.rx.msg } }
        if s.parms.gateway then { s with st := .postCmWait } else startJm s
      else
        let s := { s with timer := s.timer - len }
        if s.timer ≤ 0 then report { s with st := .parked } .failed else s
  | .postCmWait => if s.proceed then some (startJm s) else some s
  | .jmOn =>
    (puts s.rx bits).map fun rx =>
      let s := { s with rx := rx }
      if s.rx.gotCj then { s with queue := [], timer := ms 75, st := .siga }
      else
        let s := { s with timer := s.timer - len }
        if s.timer ≤ 0 then report { s with st := .parked } .failed
        else if s.queue.length < 10 then sendCmJm s else s
  | .siga => if !s.sending then some (report { s with st := .parked } .v8Call) else some s
  | .parked => some s

/-- /repo/src/v8.c:1307-1312 (`v8_continue`): the first seven words of the parameters, which are not those
of the CM, are copied over those of the CM.  (A `bool` takes a word, with padding taken as zero.) -/
def continue_ (s : V8) (p : Parms) : V8 :=
  { s with
    parms := { s.parms with
      cm := { call := p.status, modulations := if p.gateway then 1#32 else 0#32, protocols := p.tone,
              pstn := p.sendCi, nsf := p.v92, pcm := p.cm.call, t66 := p.cm.modulations } },
    proceed := true }

/-- What can happen: samples are received, the modulator takes a bit, finds no more bits (`v8_tx`,
/repo/src/v8.c:883-893), or the application goes on. -/
inductive Event
  | rx (len : Nat) (tone : Option Tone) (bits : List Bool) (edit : Msg → Msg)
  | bit
  | dry
  | cont (p : Parms)

def step (s : V8) : Event → Option V8
  | .rx len tone bits edit => rxStep s len tone bits edit
  | .bit => some (if s.sending then { s with queue := s.queue.tail } else s)
  | .dry => some (if s.sending ∧ s.queue = [] then { s with sending := false } else s)
  | .cont p => some (continue_ s p)

def run (s : V8) : List Event → Option V8
  | [] => some s
  | e :: l => (step s e).bind fun s => run s l

end V8
