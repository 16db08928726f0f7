/-!
# Model of src/sprt.c: the transport of V.150.1, with its two reliable channels

An endpoint is modelled with its four channels, its timers and its buffers, and datagrams are modelled as octets. Not modelled: the
logging, the return value of the application's callbacks, and what happens when an application calls the library from the callback
which takes a datagram. From the callback which is given a payload it may call `sprt_set_local_busy`, and this is modelled.
Time stamps are natural numbers, so they do not wrap.

A result of `none` is an access outside of an array, or a loop which does not end within the steps it is given.
-/

namespace Sprt

/-- What an endpoint does which can be seen from outside: a datagram given to `tx_packet_handler`, a payload which `sprt_tx` took (it
returned 0), a payload given to `rx_delivery_handler`, and a value given to `status_handler`. -/
inductive Act where
  | sent (pkt : List Nat)
  | accepted (c : Nat) (p : List Nat)
  | delivered (c seq : Nat) (p : List Nat)
  | status (n : Nat)
deriving DecidableEq, Repr

/-- A channel of `tx` in `sprt_state_s`, src/spandsp/private/sprt.h:47-93. `buf i = none` is `buff_len[i] == SPRT_LEN_SLOT_FREE`,
and otherwise it is what `buff` and `buff_len` have for slot `i`. -/
structure TxChan where
  maxPayload : Nat
  window : Nat
  ta02Timeout : Nat
  tr03Timeout : Nat
  ta02Timer : Nat
  baseSeq : Nat
  queueSeq : Nat
  maxTries : Nat
  inPtr : Nat
  outPtr : Nat
  buf : Nat → Option (List Nat)
  timer : Nat → Nat
  prev : Nat → Nat
  next : Nat → Nat
  tries : Nat → Nat
  first : Nat
  last : Nat

/-- A channel of `rx` in `sprt_state_s`, src/spandsp/private/sprt.h:47-93. -/
structure RxChan where
  maxPayload : Nat
  window : Nat
  baseSeq : Nat
  inPtr : Nat
  buf : Nat → Option (List Nat)
  busy : Bool

/-- `sprt_state_s`, src/spandsp/private/sprt.h:95-165. `acts` is what the endpoint has done. -/
structure Ep where
  rxSub : Nat
  rxType : Nat
  txSub : Nat
  txType : Nat
  tx : Nat → TxChan
  rx : Nat → RxChan
  ackQueue : List Nat
  ta01Timeout : Nat
  ta01Timer : Nat
  immediate : Bool
  latest : Nat
  acts : List Act

/-- `x[i] = v`, for the arrays of the endpoint. -/
def upd {α : Type} (f : Nat → α) (i : Nat) (v : α) : Nat → α := fun j => if j = i then v else f j

/-- What `chan = &s->tx.chan[channel]` is written through. -/
def Ep.setTx (e : Ep) (c : Nat) (ch : TxChan) : Ep := { e with tx := upd e.tx c ch }

/-- What `chan = &s->rx.chan[channel]` is written through. -/
def Ep.setRx (e : Ep) (c : Nat) (ch : RxChan) : Ep := { e with rx := upd e.rx c ch }

/-- A callback is called. -/
def Ep.emit (e : Ep) (a : Act) : Ep := { e with acts := e.acts ++ [a] }

/-- The number of slots in the buffers of a reliable channel, src/spandsp/private/sprt.h:147-163. -/
def cap (c : Nat) : Nat := if c = 1 then 97 else if c = 2 then 33 else 0

/-- `put_net_unaligned_uint16`. -/
def be16 (n : Nat) : List Nat := [n / 256 % 256, n % 256]

/-- One of the comparisons of `update_timer`: a timer which is running and sooner. -/
def sooner (t shortest : Nat) : Nat := if t ≠ 0 ∧ t < shortest then t else shortest

/-- The timers of a channel in `update_timer`, src/sprt.c:179-211. -/
def chanSooner (ch : TxChan) (shortest : Nat) : Nat :=
  let s := sooner ch.ta02Timer shortest
  if ch.first ≠ 255 then sooner (ch.timer ch.first) s else s

/-- `update_timer`, src/sprt.c:161-222. -/
def updateTimer (e : Ep) : Ep :=
  if e.immediate then { e with latest := 1 }
  else
    let s := chanSooner (e.tx 2) (chanSooner (e.tx 1) (sooner e.ta01Timer (2 ^ 64 - 1)))
    { e with latest := if s = 2 ^ 64 - 1 then 0 else s }

/-- `delete_timer_queue_entry`, src/sprt.c:225-255. The arrays have `SPRT_MAX_WINDOWS_SIZE` (96) entries. -/
def delTimer (ch : TxChan) (slot : Nat) : Option TxChan :=
  if ch.first = 255 ∨ slot = 255 then some ch
  else if slot < 96 then
    (if ch.first = slot then some { ch with first := ch.next slot }
      else if ch.prev slot < 96 then some { ch with next := upd ch.next (ch.prev slot) (ch.next slot) } else none).bind fun ch =>
    (if ch.last = slot then some { ch with last := ch.prev slot }
      else if ch.next slot < 96 then some { ch with prev := upd ch.prev (ch.next slot) (ch.prev slot) } else none).bind fun ch =>
    some { ch with prev := upd ch.prev slot 255, next := upd ch.next slot 255 }
  else none

/-- `add_timer_queue_last_entry`, src/sprt.c:258-273. -/
def addTimer (ch : TxChan) (slot : Nat) : Option TxChan :=
  (if ch.last = 255 then some { ch with first := slot }
    else if ch.last < 96 then some { ch with next := upd ch.next ch.last slot } else none).bind fun ch =>
  if slot < 96 then some { ch with prev := upd ch.prev slot ch.last, next := upd ch.next slot 255, last := slot } else none

/-- The datagram of `build_and_send_packet`, src/sprt.c:287-317. -/
def packet (e : Ep) (c seq : Nat) (payload : List Nat) : List Nat :=
  [e.txSub, e.txType] ++ be16 (c * 16384 + seq % 16384) ++ be16 (e.ackQueue.length * 16384 + (e.rx c).baseSeq)
    ++ e.ackQueue.flatMap be16 ++ payload

/-- `build_and_send_packet`, src/sprt.c:276-324. -/
def buildSend (e : Ep) (c seq : Nat) (payload : List Nat) : Ep :=
  let pkt := packet e c seq payload
  let e := if e.ackQueue.length > 0 then { e with ackQueue := [], ta01Timer := 0 } else e
  updateTimer (e.emit (.sent pkt))

/-- The part of `queue_acknowledgement` after the queue has been checked, src/sprt.c:342-379. -/
def queueAckEntry (e : Ep) (c seq now : Nat) : Ep :=
  if c * 16384 + seq ∈ e.ackQueue then e
  else
    let e := { e with ackQueue := e.ackQueue ++ [c * 16384 + seq] }
    if e.ackQueue.length = 1 then updateTimer { e with ta01Timer := now + e.ta01Timeout }
    else if e.ackQueue.length ≥ 3 then buildSend e c 0 []
    else e

/-- `queue_acknowledgement`, src/sprt.c:327-379. -/
def queueAck (e : Ep) (c seq now : Nat) : Ep :=
  queueAckEntry (if e.ackQueue.length ≥ 3 then buildSend e c 0 [] else e) c seq now

/-- The sequence number of the payload in slot `i`, src/sprt.c:398-402. -/
def slotSeq (ch : TxChan) (i : Nat) : Nat :=
  let diff := if ch.inPtr < i then ch.inPtr + ch.window - i else ch.inPtr - i
  (ch.queueSeq + 65536 - diff) % 65536

/-- The bookkeeping after a slot has been sent again, src/sprt.c:417-432. -/
def requeue (e : Ep) (c i : Nat) : Option Ep :=
  (delTimer (e.tx c) i).bind fun ch =>
  let t := (ch.tries i + 255) % 256
  let ch := { ch with tries := upd ch.tries i t }
  if t = 0 then some ((e.setTx c ch).emit (.status 1))
  else (addTimer { ch with timer := upd ch.timer i (ch.timer i + ch.tr03Timeout) } i).bind fun ch => some (e.setTx c ch)

/-- The loop of `retransmit_the_unacknowledged`, src/sprt.c:394-438. -/
def retransmit (c now : Nat) : Nat → Ep → Bool → Option (Ep × Bool)
  | 0, _, _ => none
  | n + 1, e, sent =>
    let ch := e.tx c
    if ch.first = 255 then some (e, sent)
    else if ch.first < cap c then
      if ch.timer ch.first ≤ now then
        match ch.buf ch.first with
        | some p => (requeue (buildSend e c (slotSeq ch ch.first) p) c ch.first).bind fun e => retransmit c now n e true
        | none => (requeue e c ch.first).bind fun e => retransmit c now n e sent
      else some (e, sent)
    else none

/-- The loop of `process_acknowledgements` which moves over what has been acknowledged, src/sprt.c:487-494. -/
def advance (ch : TxChan) : Nat → Nat → Nat
  | 0, p => p
  | n + 1, p =>
    let p := if p + 1 ≥ ch.window then 0 else p + 1
    if p ≠ ch.inPtr ∧ (ch.buf p).isNone then advance ch n p else p

/-- One acknowledgement in `process_acknowledgements`, src/sprt.c:456-529. -/
def processAck (e : Ep) (c sqn : Nat) : Option Ep :=
  if c = 1 ∨ c = 2 then
    let ch := e.tx c
    let diff := (ch.queueSeq + 16384 - sqn) % 16384
    if diff < ch.window then
      let slot := if ch.inPtr < diff then ch.inPtr + ch.window - diff else ch.inPtr - diff
      if slot < cap c then
        if (ch.buf slot).isSome then
          (delTimer { ch with buf := upd ch.buf slot none, timer := upd ch.timer slot 0 } slot).bind fun ch =>
          some (e.setTx c (if slot = ch.outPtr then { ch with outPtr := advance ch ch.window slot } else ch))
        else some e
      else none
    else some e
  else some e

/-- `process_acknowledgements`, src/sprt.c:441-532, with `sqn` for the 16 bits of each acknowledgement. -/
def processAcks (e : Ep) : List Nat → Option Ep
  | [] => some e
  | a :: l => (processAck e (a / 16384 % 4) (a % 16384)).bind fun e => processAcks e l

/-- The loop which delivers what is in the buffer, src/sprt.c:545-562 and 816-833. `app` is what the application does in each call of
its callback: `true` if it calls `sprt_set_local_busy(s, channel, true)`. -/
def deliverLoop (c : Nat) : Nat → Ep → Nat → List Bool → Option (Ep × Nat × List Bool)
  | 0, _, _, _ => none
  | n + 1, e, i, app =>
    let ch := e.rx c
    if i < cap c then
      match ch.buf i with
      | none => some (e, i, app)
      | some p =>
        if ch.busy then some (e, i, app)
        else
          deliverLoop c n
            ((e.setRx c { ch with baseSeq := (ch.baseSeq + 1) % 16384, buf := upd ch.buf i none, busy := app.headD false }).emit
              (.delivered c ch.baseSeq p))
            (if i + 1 ≥ ch.window then 0 else i + 1) app.tail
    else none

/-- `sprt_deliver` for one channel, src/sprt.c:543-564, and the end of the delivery in `sprt_rx_packet`, src/sprt.c:815-835. -/
def deliverChan (e : Ep) (c i : Nat) (app : List Bool) : Option (Ep × List Bool) :=
  (deliverLoop c 98 e i app).bind fun r => some (r.1.setRx c { r.1.rx c with inPtr := r.2.1 }, r.2.2)

/-- `sprt_deliver`, src/sprt.c:535-568. -/
def deliver (e : Ep) (app : List Bool) : Option (Ep × List Bool) :=
  (deliverChan e 1 (e.rx 1).inPtr app).bind fun r => deliverChan r.1 2 (r.1.rx 2).inPtr r.2

/-- A payload which is the next in sequence, src/sprt.c:794-838. -/
def rxNext (e : Ep) (c seq : Nat) (p : List Nat) (now : Nat) (app : List Bool) : Option Ep :=
  let e := queueAck e c seq now
  let ch := e.rx c
  if ch.inPtr < cap c then
    if ch.busy then some (e.setRx c { ch with buf := upd ch.buf ch.inPtr (some p) })
    else
      (deliverChan
        ((e.setRx c { ch with
          baseSeq := (ch.baseSeq + 1) % 16384, buf := upd ch.buf ch.inPtr none, busy := app.headD false }).emit (.delivered c seq p))
        c (if ch.inPtr + 1 ≥ ch.window then 0 else ch.inPtr + 1) app.tail).bind fun r => some r.1
  else none

/-- A payload which is not the next in sequence, src/sprt.c:839-873. -/
def rxOther (e : Ep) (c seq : Nat) (p : List Nat) (now : Nat) : Option Ep :=
  let ch := e.rx c
  let diff := (seq + 16384 - ch.baseSeq) % 16384
  if diff < ch.window then
    let i := if ch.inPtr + diff ≥ ch.window then ch.inPtr + diff - ch.window else ch.inPtr + diff
    let e := queueAck e c seq now
    if i < cap c then some (e.setRx c { e.rx c with buf := upd (e.rx c).buf i (some p) }) else none
  else if diff > 192 then some ((queueAck e c seq now).emit (.status 3))
  else some e

/-- The payload of a datagram in `sprt_rx_packet`, src/sprt.c:779-898. -/
def rxPayload (e : Ep) (c seq : Nat) (p : List Nat) (now : Nat) (app : List Bool) : Option Ep :=
  if p.length = 0 ∨ p.length > (e.rx c).maxPayload then some e
  else if c = 1 ∨ c = 2 then
    if seq = (e.rx c).baseSeq then rxNext e c seq p now app else rxOther e c seq p now
  else some (e.emit (.delivered c seq p))

/-- `pkt[i]`: nothing may be read outside of the datagram. -/
def at8 (pkt : List Nat) (i : Nat) : Option Nat := pkt[i]?

/-- `get_net_unaligned_uint16(&pkt[i])`: nothing may be read outside of the datagram. -/
def at16 (pkt : List Nat) (i : Nat) : Option Nat := (at8 pkt i).bind fun a => (at8 pkt (i + 1)).bind fun b => some (a * 256 + b)

/-- The contents of a datagram, src/sprt.c:733-772. -/
def rxContents (e : Ep) (pkt : List Nat) (now : Nat) (app : List Bool) : Option (Ep × Bool) :=
  (at16 pkt 2).bind fun h =>
  (at16 pkt 4).bind fun n =>
  let c := h / 16384 % 4
  let seq := h % 16384
  let noa := n / 16384 % 4
  let e := e.setTx c { e.tx c with baseSeq := n % 16384 }
  if pkt.length < 6 + 2 * noa then some (e, false)
  else
    ((List.range noa).mapM fun i => at16 pkt (6 + 2 * i)).bind fun acks =>
    (processAcks e acks).bind fun e =>
    (rxPayload e c seq (pkt.drop (6 + 2 * noa)) now app).bind fun e => some (e, true)

/-- `sprt_rx_packet`, src/sprt.c:655-900. The result `true` is the return value 0. -/
def rxPacket (e : Ep) (pkt : List Nat) (now : Nat) (app : List Bool) : Option (Ep × Bool) :=
  if pkt.length < 6 then some (e, false)
  else
    (at8 pkt 0).bind fun b0 =>
    (at8 pkt 1).bind fun b1 =>
    if b0 / 128 % 2 ≠ 0 ∨ b1 / 128 % 2 ≠ 0 then some (e, false)
    else if b1 % 128 ≠ e.rxType then some (e, false)
    else if e.rxSub = 255 then rxContents { e with rxSub := b0 % 128 } pkt now app
    else if b0 % 128 ≠ e.rxSub then some (e.emit (.status 2), false)
    else rxContents e pkt now app

/-- The part of `sprt_timer_expired` for one channel, src/sprt.c:601-624. -/
def timerChan (e : Ep) (c now : Nat) : Option (Ep × Bool) :=
  (retransmit c now 30000 e false).bind fun r =>
  let e := r.1
  if (e.tx c).ta02Timer ≠ 0 then
    let keep : Bool := decide ((e.tx c).ta02Timer ≤ now) && !r.2
    let e := if keep then buildSend e c 0 [] else e
    if r.2 || keep then some (e.setTx c { e.tx c with ta02Timer := now + (e.tx c).ta02Timeout }, true) else some (e, false)
  else some (e, r.2)

/-- `sprt_timer_expired` when the time has come, src/sprt.c:590-645. -/
def timerDue (e : Ep) (now : Nat) (app : List Bool) : Option Ep :=
  (if e.immediate then (deliver { e with immediate := false } app).bind fun r => some r.1 else some e).bind fun e =>
  (timerChan e 1 now).bind fun r1 =>
  (timerChan r1.1 2 now).bind fun r2 =>
  let e := r2.1
  some (updateTimer
    (if !(r1.2 || r2.2) && e.ta01Timer != 0 && decide (e.ta01Timer ≤ now) && decide (e.ackQueue.length > 0) then buildSend e 0 0 [] else e))

/-- `sprt_timer_expired`, src/sprt.c:571-646. -/
def timerExpired (e : Ep) (now : Nat) (app : List Bool) : Option Ep :=
  if now < e.latest then some e else timerDue e now app

/-- `sprt_tx` for a reliable channel, src/sprt.c:921-959. -/
def txReliable (e : Ep) (c : Nat) (p : List Nat) (now : Nat) : Option (Ep × Bool) :=
  let ch := e.tx c
  let i := ch.inPtr
  let room := if ch.outPtr < i + 1 then ch.outPtr + ch.window - (i + 1) else ch.outPtr - (i + 1)
  if room < 1 then some (e, false)
  else if i < cap c then
    let seq := ch.queueSeq
    (addTimer { ch with
      buf := upd ch.buf i (some p), queueSeq := (ch.queueSeq + 1) % 16384, timer := upd ch.timer i (now + ch.tr03Timeout)
      tries := upd ch.tries i ch.maxTries } i).bind fun ch =>
    let ch := { ch with inPtr := if i + 1 ≥ ch.window then 0 else i + 1, ta02Timer := now + ch.ta02Timeout }
    some (buildSend ((e.setTx c ch).emit (.accepted c p)) c seq p, true)
  else none

/-- `sprt_tx`, src/sprt.c:903-975. The result `true` is the return value 0. -/
def tx (e : Ep) (c : Nat) (p : List Nat) (now : Nat) : Option (Ep × Bool) :=
  if c > 3 then some (e, false)
  else if p.length = 0 ∨ p.length > (e.tx c).maxPayload then some (e, false)
  else if c = 1 ∨ c = 2 then txReliable e c p now
  else if c = 0 then some (buildSend (e.emit (.accepted c p)) c 0 p, true)
  else
    let e := buildSend (e.emit (.accepted c p)) c (e.tx c).queueSeq p
    some (e.setTx c { e.tx c with queueSeq := ((e.tx c).queueSeq + 1) % 16384 }, true)

/-- `sprt_set_local_busy`, src/sprt.c:1170-1190. -/
def setBusy (e : Ep) (c : Nat) (busy : Bool) : Ep :=
  if c = 1 ∨ c = 2 then
    let was := (e.rx c).busy
    let e := e.setRx c { e.rx c with busy := busy }
    if was && !busy then updateTimer { e with immediate := true } else e
  else e

/-! ## Setting up -/

/-- `channel_parms_t`, src/spandsp/sprt.h:117-124. -/
structure Parms where
  payload : Nat
  window : Nat
  ta01 : Nat
  ta02 : Nat
  tr03 : Nat

/-- `default_channel_parms`, src/sprt.c:103-133. The timers of an unreliable channel are not used; they are −1 there. -/
def defaultParms (c : Nat) : Parms :=
  if c = 1 then ⟨132, 32, 90000, 130000, 500000⟩
  else if c = 2 then ⟨132, 8, 90000, 500000, 500000⟩
  else ⟨140, 1, 0, 0, 0⟩

/-- `channel_parm_limits`, src/sprt.c:70-101: the least and the greatest payload and window. -/
def limits (c : Nat) : (Nat × Nat) × (Nat × Nat) :=
  if c = 1 then ((132, 256), (32, 96)) else if c = 2 then ((132, 256), (8, 32)) else ((140, 256), (1, 1))

/-- Are these parameters within the limits? src/sprt.c:1231-1248. -/
def parmsOk (c : Nat) (p : Parms) : Bool :=
  decide ((limits c).1.1 ≤ p.payload ∧ p.payload ≤ (limits c).1.2 ∧ (limits c).2.1 ≤ p.window ∧ p.window ≤ (limits c).2.2)

/-- A channel of `tx` after `sprt_init`, src/sprt.c:1289-1312. -/
def txInit (p : Parms) : TxChan :=
  { maxPayload := p.payload, window := p.window, ta02Timeout := p.ta02, tr03Timeout := p.tr03, ta02Timer := 0, baseSeq := 0
    queueSeq := 0, maxTries := 10, inPtr := 0, outPtr := 0, buf := fun _ => none, timer := fun _ => 0, prev := fun _ => 255
    next := fun _ => 255, tries := fun _ => 0, first := 255, last := 255 }

/-- A channel of `rx` after `sprt_init`, src/sprt.c:1284-1309. -/
def rxInit (p : Parms) : RxChan :=
  { maxPayload := p.payload, window := p.window, baseSeq := 0, inPtr := 0, buf := fun _ => none, busy := false }

/-- `sprt_init`, src/sprt.c:1205-1327, with `none` when it returns NULL for the parameters it was given. -/
def init (sub rxType txType : Nat) (parms : Option (Nat → Parms)) : Option Ep :=
  let e : Ep :=
    { rxSub := 255, rxType := rxType, txSub := sub, txType := txType, tx := fun c => txInit (defaultParms c)
      rx := fun c => rxInit (defaultParms c), ackQueue := [], ta01Timeout := (defaultParms 1).ta01, ta01Timer := 0
      immediate := false, latest := 0, acts := [] }
  match parms with
  | none => some e
  | some p => if (List.range 4).all fun c => parmsOk c (p c) then some e else none

/-- `sprt_set_local_tc_windows_size`, src/sprt.c:978-992. -/
def setLocalWindow (e : Ep) (c size : Nat) : Option Ep :=
  if (c = 1 ∨ c = 2) ∧ (limits c).2.1 ≤ size ∧ size ≤ (limits c).2.2 then some (e.setRx c { e.rx c with window := size }) else none

/-- `sprt_set_far_tc_windows_size`, src/sprt.c:1056-1070. -/
def setFarWindow (e : Ep) (c size : Nat) : Option Ep :=
  if (c = 1 ∨ c = 2) ∧ (limits c).2.1 ≤ size ∧ size ≤ (limits c).2.2 then some (e.setTx c { e.tx c with window := size }) else none

/-- `sprt_set_local_tc_payload_bytes`, src/sprt.c:1004-1018. -/
def setLocalPayload (e : Ep) (c n : Nat) : Option Ep :=
  if c ≤ 3 ∧ (limits c).1.1 ≤ n ∧ n ≤ (limits c).1.2 then some (e.setRx c { e.rx c with maxPayload := n }) else none

/-- `sprt_set_far_tc_payload_bytes`, src/sprt.c:1082-1096. -/
def setFarPayload (e : Ep) (c n : Nat) : Option Ep :=
  if c ≤ 3 ∧ (limits c).1.1 ≤ n ∧ n ≤ (limits c).1.2 then some (e.setTx c { e.tx c with maxPayload := n }) else none

/-- `sprt_set_local_tc_max_tries`, src/sprt.c:1030-1044. -/
def setMaxTries (e : Ep) (c n : Nat) : Option Ep :=
  if (c = 1 ∨ c = 2) ∧ 1 ≤ n ∧ n ≤ 20 then some (e.setTx c { e.tx c with maxTries := n }) else none

/-- The calls which set an endpoint up. -/
inductive Set where
  | localWindow (c n : Nat)
  | farWindow (c n : Nat)
  | localPayload (c n : Nat)
  | farPayload (c n : Nat)
  | maxTries (c n : Nat)
  | ta01 (n : Nat)
  | ta02 (c n : Nat)
  | tr03 (c n : Nat)

/-- One of these calls. A call which is refused changes nothing. The last three are `sprt_set_tc_timeout`, src/sprt.c:1108-1135. -/
def Ep.set (e : Ep) : Set → Ep
  | .localWindow c n => (setLocalWindow e c n).getD e
  | .farWindow c n => (setFarWindow e c n).getD e
  | .localPayload c n => (setLocalPayload e c n).getD e
  | .farPayload c n => (setFarPayload e c n).getD e
  | .maxTries c n => (setMaxTries e c n).getD e
  | .ta01 n => { e with ta01Timeout := n }
  | .ta02 c n => if c = 1 ∨ c = 2 then e.setTx c { e.tx c with ta02Timeout := n } else e
  | .tr03 c n => if c = 1 ∨ c = 2 then e.setTx c { e.tx c with tr03Timeout := n } else e

/-! ## Two endpoints -/

/-- Two endpoints, `a` and `b`, and what both have done, with `true` for what `b` has done. -/
structure Sys where
  a : Ep
  b : Ep
  log : List (Bool × Act)

/-- One of the endpoints. -/
def Sys.ep (s : Sys) (x : Bool) : Ep := if x then s.b else s.a

/-- One of the endpoints has done something: it goes to the log. -/
def Sys.put (s : Sys) (x : Bool) (e : Ep) : Sys :=
  let e' := { e with acts := [] }
  { a := if x then s.a else e', b := if x then e' else s.b, log := s.log ++ e.acts.map fun a => (x, a) }

/-- What can happen: an application gives a payload to `sprt_tx`; the datagram at a place in the log arrives at the other side; a
timer expires; an application becomes busy, or no longer is. -/
inductive Ev where
  | tx (x : Bool) (c : Nat) (p : List Nat) (now : Nat)
  | arrive (k now : Nat) (app : List Bool)
  | timer (x : Bool) (now : Nat) (app : List Bool)
  | busy (x : Bool) (c : Nat) (b : Bool)

/-- The number of payloads which the application at `x` has given to channel `c`. -/
def accepts (x : Bool) (c : Nat) (log : List (Bool × Act)) : Nat :=
  (log.filter fun r => match r with | (y, .accepted d _) => y = x && d = c | _ => false).length

/-- Nothing is older on the network than 7000 payloads: since the datagram at `k` was sent, neither application has given more than
this to a reliable channel. -/
def fresh (log : List (Bool × Act)) (k : Nat) : Bool :=
  [false, true].all fun x => [1, 2].all fun c => decide (accepts x c (log.drop k) ≤ 7000)

/-- One event. A datagram may arrive any number of times, at any time until it is too old, or never. -/
def Sys.step (s : Sys) : Ev → Option Sys
  | .tx x c p now => (Sprt.tx (s.ep x) c p now).bind fun r => some (s.put x r.1)
  | .arrive k now app =>
    match s.log[k]? with
    | some (x, .sent pkt) => if fresh s.log k then (rxPacket (s.ep !x) pkt now app).bind fun r => some (s.put (!x) r.1) else some s
    | _ => some s
  | .timer x now app => (timerExpired (s.ep x) now app).bind fun e => some (s.put x e)
  | .busy x c b => some (s.put x (setBusy (s.ep x) c b))

/-- A history. -/
def Sys.run (s : Sys) : List Ev → Option Sys
  | [] => some s
  | ev :: l => (s.step ev).bind fun s => s.run l

/-- Two endpoints which have been set up. -/
def Sys.start (a b : Ep) : Sys := { a := a, b := b, log := [] }

end Sprt
