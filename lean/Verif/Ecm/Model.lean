/-!
# Model of the error correction mode of src/t30.c: a document sent in partial pages, and received from them

Two endpoints of the library are modelled from the moment the receiver has confirmed that it can receive (CFR) until the call
ends, with the line between them. The document is a list of pages of the same format, so that the messages after a page are MPS
and EOP. Not modelled: EOM and EOS, which return to phase B; the interrupt requests (PRI, PIN, PIP); CRP and FNV, which this
library does not send unless `T30_SUPPORT_COMMAND_REPEAT` is chosen; the phases, which choose modems; and SSL fax. After timer T2
has expired, the receiver starts the negotiation from its beginning, and the model follows it no further.
-/

namespace Ecm

/-- The messages which may be put after PPS and EOR: src/t30.c:1358 and 3700. -/
inductive Fcf2 where
  | null
  | mps
  | eop
deriving DecidableEq, Repr

/-- The HDLC frames of an ECM transfer. The two header octets and the `dis_received` bit are left out. A frame which fails its CRC
does not get here (src/t30.c:6982-7008): it is a lost frame. `fcd` carries its frame number and its image data, `pps` carries the
octets at `frame[3]` to `frame[6]` (src/t30.c:1351-1365), `ppr` the 32 octets of the map. -/
inductive Msg where
  | fcd (no : Nat) (data : List Nat)
  | rcp
  | pps (fcf2 : Fcf2) (page block count : Nat)
  | eor (fcf2 : Fcf2)
  | ctc
  | rr
  | mcf
  | ppr (map : List Nat)
  | rnr
  | ctr
  | err
  | dcn
deriving DecidableEq, Repr

/-- What is settled before the transfer. `sz` is `octets_per_ecm_frame`. `complete r` is what `t4_tx_image_complete` answers when
`r` is what has still to be got of the page. `tries` is `max_command_tries`. -/
structure Cfg where
  sz : Nat
  complete : List Nat → Bool
  tries : Nat

/-- A partial page buffer: `ecm_len[i]` is −1 when this is `none`, and otherwise `ecm_data[i]` has the image data.
src/spandsp/private/t30.h:282-285. -/
abbrev Buf := Nat → Option (List Nat)

/-- An assignment to `ecm_len[i]` and `ecm_data[i]`, as in src/t30.c:988-1001 and 3742-3748. -/
def Buf.set (b : Buf) (i : Nat) (x : Option (List Nat)) : Buf := fun j => if j = i then x else b j

/-! ## The sender -/

/-- The states of the sender: `T30_STATE_IV` to `T30_STATE_IV_EOR_RNR`, src/t30.c:181-187. `done` is any of the states in which a
call ends. -/
inductive TxSt where
  | iv
  | ppsNull
  | ppsQ
  | ppsRnr
  | ctc
  | eor
  | eorRnr
  | done
deriving DecidableEq, Repr

/-- What the sender keeps in `t30_state_s`. `rest` is what has still to be got of the current page, `docs` are the pages after it,
`ok` is that `report_tx_result(s, true)` has been called, `t5exp` is that the status is `T30_ERR_TX_T5EXP`. -/
structure Tx where
  st : TxSt
  rest : List Nat
  docs : List (List Nat)
  buf : Buf
  frames : Nat
  cur : Nat
  burst : Nat
  atEnd : Bool
  page : Nat
  block : Nat
  step : Fcf2
  pprCount : Nat
  progress : Nat
  fallback : Nat
  retries : Nat
  t5exp : Bool
  ok : Bool

/-- The loop of `get_partial_ecm_page`, src/t30.c:970-1003, from frame `i` with `n` frames to go: the buffer, the number of frames,
whether the page ended and what is left of it. The source gives as much as it is asked for until there is no more. -/
def fill (sz : Nat) : Nat → Nat → List Nat → Buf → Buf × Nat × Bool × List Nat
  | 0, i, rest, buf => (buf, i, false, rest)
  | n + 1, i, rest, buf =>
    let got := rest.take sz
    if got.length < sz then
      if got.length > 0 then (buf.set i (some (got ++ List.replicate (sz - got.length) 0)), i + 1, true, rest.drop sz)
      else (buf.set i none, i, true, rest.drop sz)
    else fill sz n (i + 1) (rest.drop sz) (buf.set i (some got))

/-- `get_partial_ecm_page`, src/t30.c:955-1008. It returns the number of frames, which it also leaves in `frames`. -/
def getPartial (cfg : Cfg) (t : Tx) : Tx :=
  let r := fill cfg.sz 256 0 t.rest t.buf
  { t with
    pprCount := 0, progress := 0
    buf := r.1, frames := r.2.1, rest := r.2.2.2
    atEnd := if r.2.2.1 then true else cfg.complete r.2.2.2 }

/-- `set_state(s, T30_STATE_IV)` with `send_first_ecm_frame`, src/t30.c:1068-1073. The first frame, which this function sends at
once, is here sent by the next `txStep`. -/
def startBurst (t : Tx) : Tx := { t with st := .iv, cur := 0, burst := 0 }

/-- The search of `send_next_ecm_frame` for a frame to send, src/t30.c:1020-1031, with `n` frames to go from frame `i`. -/
def nextFrame (buf : Buf) : Nat → Nat → Option (Nat × List Nat)
  | 0, _ => none
  | n + 1, i => match buf i with
    | some d => some (i, d)
    | none => nextFrame buf n (i + 1)

/-- `send_next_ecm_frame`, src/t30.c:1011-1055. `none` for the frame is its result −1. -/
def sendNext (t : Tx) : Tx × Option Msg :=
  match nextFrame t.buf (t.frames - t.cur) t.cur with
  | some (i, d) => ({ t with cur := i + 1, burst := t.burst + 1 }, some (.fcd i d))
  | none =>
    let cur := if t.cur < t.frames then t.frames else t.cur
    if cur < t.frames + 3 then ({ t with cur := cur + 1 }, some .rcp) else ({ t with cur := cur }, none)

/-- `send_pps_frame`, src/t30.c:1351-1365. -/
def ppsFrame (t : Tx) : Msg :=
  .pps (if t.atEnd then t.step else .null) (t.page % 256) (t.block % 256) (if t.burst = 0 then 0 else t.burst - 1)

/-- `check_next_tx_step`, src/t30.c:914-952: all pages have the same format and no other document follows. -/
def checkNext (t : Tx) : Fcf2 := if t.docs.isEmpty then .eop else .mps

/-- The end of a burst in state IV, src/t30.c:7251-7262. -/
def txPps (t : Tx) : Tx × List Msg :=
  let t := if t.atEnd then { t with step := checkNext t } else t
  ({ t with st := if t.atEnd && t.step != .null then .ppsQ else .ppsNull }, [ppsFrame t])

/-- `T30_FRONT_END_SEND_STEP_COMPLETE` in state IV, src/t30.c:7240-7264. The two steps at the end of a burst, the shutting down of
the modem and the sending of the PPS, are one here. -/
def txStep (t : Tx) : Tx × List Msg :=
  if t.st = .iv then
    match sendNext t with
    | (t, some m) => (t, [m])
    | (t, none) => txPps t
  else (t, [])

/-- `send_dcn`, src/t30.c:2652-2664, as far as the sender is concerned. -/
def txDcn (t : Tx) : Tx × List Msg := ({ t with st := .done }, [.dcn])

/-- `send_rr`, src/t30.c:1058-1065. -/
def txRr (t : Tx) : Tx × List Msg := if t.t5exp then txDcn t else (t, [.rr])

/-- "Moving on to the next page", src/t30.c:5011-5058. -/
def nextPage (cfg : Cfg) (t : Tx) : Tx × List Msg :=
  match t.step with
  | .mps =>
    match t.docs with
    | [] => ({ t with page := t.page + 1, block := 0, st := .done }, [])
    | d :: ds =>
      let t := getPartial cfg { t with page := t.page + 1, block := 0, retries := 0, rest := d, docs := ds }
      if t.frames > 0 then (startBurst t, []) else (t, [])
  | .eop => txDcn { t with page := t.page + 1, block := 0, retries := 0, ok := true }
  | .null => (t, [])

/-- MCF in the states IV_PPS_NULL, IV_PPS_Q and IV_PPS_RNR, src/t30.c:4997-5061. -/
def txMcf (cfg : Cfg) (t : Tx) : Tx × List Msg :=
  let t := { t with retries := 0 }
  if t.atEnd then nextPage cfg t
  else
    let t := getPartial cfg t
    if t.frames > 0 then (startBurst { t with block := t.block + 1 }, []) else nextPage cfg t

/-- Bit `no` of the map of a PPR, src/t30.c:3649-3651. -/
def mapBit (map : List Nat) (no : Nat) : Bool := ((map[no / 8]?).getD 0).testBit (no % 8)

/-- `process_rx_ppr`, src/t30.c:3622-3714. There is a slower modem as long as the entry after the current one is before the end of
`fallback_sequence`, src/t30.c:419-430. -/
def txPpr (t : Tx) (map : List Nat) : Tx × List Msg :=
  if map.length ≠ 32 then ({ t with st := .done }, [])
  else
    let t := { t with
      retries := 0
      progress := t.progress + ((List.range 256).filter fun i => !mapBit map i && (t.buf i).isSome).length
      buf := fun i => if i < 256 && !mapBit map i then none else t.buf i
      pprCount := t.pprCount + 1 }
    if t.pprCount ≥ 4 then
      let t := { t with pprCount := 0 }
      if t.progress ≠ 0 ∧ t.fallback + 1 < 8 then
        ({ t with fallback := t.fallback + 1, progress := 0, st := .ctc }, [.ctc])
      else ({ t with st := .eor }, [.eor (if t.atEnd then t.step else .null)])
    else (startBurst t, [])

/-- `process_state_iv_pps_null` and `process_state_iv_pps_q`, src/t30.c:4990-5240. A PPS which looks like the last one sent is taken
for an echo. -/
def txPpsSent (cfg : Cfg) (t : Tx) : Msg → Tx × List Msg
  | .mcf => txMcf cfg t
  | .ppr map => txPpr t map
  | .rnr => txRr { t with st := .ppsRnr }
  | .dcn => ({ t with st := .done }, [])
  | .pps f _ _ _ => if f = t.step then (t, []) else txDcn t
  | _ => txDcn t

/-- `process_state_iv_pps_rnr`, src/t30.c:5243-5376. -/
def txPpsRnr (cfg : Cfg) (t : Tx) : Msg → Tx × List Msg
  | .mcf => txMcf cfg t
  | .rnr => txRr t
  | .dcn => ({ t with st := .done }, [])
  | .pps f _ _ _ => if f = t.step then (t, []) else txDcn t
  | _ => txDcn t

/-- `process_state_iv_ctc`, src/t30.c:5379-5407. -/
def txCtc (t : Tx) : Msg → Tx × List Msg
  | .ctr => (startBurst t, [])
  | _ => txDcn t

/-- `process_state_iv_eor`, src/t30.c:5410-5456. -/
def txEor (t : Tx) : Msg → Tx × List Msg
  | .rnr => txRr { t with st := .eorRnr }
  | _ => txDcn t

/-- `process_state_iv_eor_rnr`, src/t30.c:5459-5509. -/
def txEorRnr (t : Tx) : Msg → Tx × List Msg
  | .rnr => txRr t
  | .dcn => ({ t with st := .done }, [])
  | _ => txDcn t

/-- `process_rx_control_msg` at the sender, src/t30.c:5518-5807, and `process_state_iv`, src/t30.c:4968-4987. -/
def txRecv (cfg : Cfg) (t : Tx) (m : Msg) : Tx × List Msg :=
  match t.st with
  | .iv => txDcn t
  | .ppsNull => txPpsSent cfg t m
  | .ppsQ => txPpsSent cfg t m
  | .ppsRnr => txPpsRnr cfg t m
  | .ctc => txCtc t m
  | .eor => txEor t m
  | .eorRnr => txEorRnr t m
  | .done => (t, [])

/-- `timer_t4_expired` and `repeat_last_command` at the sender, src/t30.c:6342-6357 and 5989-6085. The timer does not run while
frames are being sent. -/
def txT4 (cfg : Cfg) (t : Tx) : Tx × List Msg :=
  if t.st = .iv ∨ t.st = .done then (t, [])
  else
    let t := { t with retries := t.retries + 1 }
    if t.retries ≥ cfg.tries then txDcn t
    else match t.st with
      | .ppsNull | .ppsQ => (t, [ppsFrame t])
      | .ppsRnr | .eorRnr => txRr t
      | _ => (t, [])

/-! ## The receiver -/

/-- The states of the receiver: `T30_STATE_F_DOC_ECM` to `T30_STATE_F_POST_RCP_RNR`, src/t30.c:170-174. `done` is any of the states
in which a call ends, `gone` is what follows timer T2. -/
inductive RxSt where
  | docEcm
  | postDoc
  | postMcf
  | postPpr
  | postRnr
  | done
  | gone
deriving DecidableEq, Repr

/-- What the receiver keeps in `t30_state_s`. `frames = none` is `ecm_frames = -1`. `pages` is what the application was given of the
pages that have ended, `out` what it was given of the page in progress. -/
structure Rx where
  st : RxSt
  buf : Buf
  frames : Option Nat
  page : Nat
  block : Nat
  next : Fcf2
  last : Fcf2
  blockOk : Bool
  map : List Nat
  notReady : Nat
  retries : Nat
  pages : List (List Nat)
  out : List Nat

/-- `process_rx_fcd`, src/t30.c:3717-3763. -/
def rxFcd (r : Rx) (no : Nat) (data : List Nat) : Rx :=
  if r.st = .docEcm ∧ data.length ≤ 256 then { r with buf := r.buf.set no (some data) } else r

/-- `process_rx_rcp`, src/t30.c:3766-3791. -/
def rxRcp (r : Rx) : Rx := if r.st = .docEcm then { r with st := .postDoc } else r

/-- The vetting of the lengths of the frames of `process_rx_pps`, src/t30.c:3469-3506, from frame `i` with `n` frames to go: every
frame before the last one of the block must be as long as the first one that is there. Here, this loop is separate from the one
which makes the map. -/
def vet (frames : Nat) : Nat → Nat → Bool → Nat → Buf → Buf
  | 0, _, _, _, buf => buf
  | n + 1, i, first, expected, buf =>
    match buf i with
    | some d =>
      if i + 1 < frames then
        let expected := if first && d.length == 64 then 64 else expected
        vet frames n (i + 1) false expected (if d.length = expected then buf else buf.set i none)
      else vet frames n (i + 1) first expected buf
    | none => vet frames n (i + 1) first expected buf

/-- The octets of `ecm_frame_map`, src/t30.c:3472-3520: a bit for each frame which is not there. -/
def frameMap (buf : Buf) : List Nat :=
  (List.range 32).map fun i =>
    (List.range 8).foldl (fun m j => if (buf (8 * i + j)).isNone then m ||| (1 <<< j) else m) 0

/-- `first_bad_frame`, src/t30.c:3466 and 3511-3513, from frame `i` with `n` frames to go. -/
def firstBad (buf : Buf) : Nat → Nat → Nat
  | 0, _ => 256
  | n + 1, i => if (buf i).isNone then i else firstBad buf n (i + 1)

/-- `rx_end_page` and `rx_start_page`, src/t30.c:675-714. -/
def rxEndPage (r : Rx) : Rx :=
  { r with pages := r.pages ++ [r.out], out := [], page := r.page + 1, block := 0, buf := fun _ => none, frames := none }

/-- "Deliver the ECM data", src/t30.c:3523-3571, with `n` for `ecm_frames`. The application is taken to want more data whenever it is
given some; when it does not, the code leaves out the rest of the block. -/
def rxCommit (r : Rx) (n : Nat) : Rx :=
  let r := { r with
    out := r.out ++ (List.range n).flatMap fun i => (r.buf i).getD []
    buf := fun _ => none, block := r.block + 1, frames := none }
  if r.last = .null then r else rxEndPage { r with next := r.last }

/-- `send_response_to_pps`, src/t30.c:3347-3364. -/
def rxRespond (r : Rx) : Rx × List Msg :=
  if r.blockOk then ({ r with st := .postMcf }, [.mcf]) else ({ r with st := .postPpr }, [.ppr r.map])

/-- The reply of `process_rx_pps` and of RR, src/t30.c:3588-3612 and 4519-4543. -/
def rxReply (r : Rx) : Rx × List Msg :=
  if r.notReady > 0 then ({ r with notReady := r.notReady - 1, st := .postRnr }, [.rnr]) else rxRespond r

/-- `send_dcn`, src/t30.c:2652-2664, as far as the receiver is concerned. -/
def rxDcn (r : Rx) : Rx × List Msg := ({ r with st := .done }, [.dcn])

/-- `process_rx_pps`, src/t30.c:3367-3619. The subtraction of one from the block, modulo 256, adds 255 here. -/
def rxPps (r : Rx) (fcf2 : Fcf2) (page block count : Nat) : Rx × List Msg :=
  let r := { r with last := fcf2, frames := some (r.frames.getD (count + 1)) }
  if r.page % 256 ≠ page ∨ r.block % 256 ≠ block then
    if (r.page % 256 = page ∧ (r.block + 255) % 256 = block) ∨ ((r.page + 255) % 256 = page ∧ r.block = 0) then
      ({ r with buf := fun _ => none, frames := none, st := .postMcf }, [.mcf])
    else rxDcn r
  else
    let n := r.frames.getD 0
    let buf := vet n 256 0 true 256 r.buf
    let r := { r with buf := buf, map := frameMap buf, blockOk := decide (firstBad buf 256 0 ≥ n) }
    rxReply (if r.blockOk then rxCommit r n else r)

/-- `process_state_f_doc_and_post_doc_ecm`, src/t30.c:4367-4462, with the frames which have no final tag. -/
def rxDoc (r : Rx) : Msg → Rx × List Msg
  | .fcd no data => (rxFcd r no data, [])
  | .rcp => (rxRcp r, [])
  | .pps f p b c => rxPps r f p b c
  | .eor f => ({ r with next := f, st := .docEcm }, [.err])
  | .ctc => ({ r with st := .docEcm }, [.ctr])
  | .rr => (r, [])
  | .dcn => ({ r with st := .done }, [])
  | _ => rxDcn r

/-- `process_state_f_post_rcp_mcf`, src/t30.c:4465-4487. Frames which have no final tag are ignored. -/
def rxPostMcf (r : Rx) : Msg → Rx × List Msg
  | .fcd _ _ => (r, [])
  | .rcp => (r, [])
  | .dcn => ({ r with st := .done }, [])
  | _ => rxDcn r

/-- `process_state_f_post_rcp_ppr`, src/t30.c:4490-4509. -/
def rxPostPpr (r : Rx) : Msg → Rx × List Msg
  | .fcd _ _ => (r, [])
  | .rcp => (r, [])
  | _ => rxDcn r

/-- `process_state_f_post_rcp_rnr`, src/t30.c:4512-4558. -/
def rxPostRnr (r : Rx) : Msg → Rx × List Msg
  | .fcd _ _ => (r, [])
  | .rcp => (r, [])
  | .rr => rxReply r
  | _ => rxDcn r

/-- `process_rx_control_msg` at the receiver, src/t30.c:5518-5807. -/
def rxRecv (r : Rx) (m : Msg) : Rx × List Msg :=
  match r.st with
  | .docEcm => rxDoc r m
  | .postDoc => rxDoc r m
  | .postMcf => rxPostMcf r m
  | .postPpr => rxPostPpr r m
  | .postRnr => rxPostRnr r m
  | .done => (r, [])
  | .gone => (r, [])

/-- `T30_FRONT_END_SEND_STEP_COMPLETE` after a response, src/t30.c:7101-7152. -/
def rxSent (r : Rx) : Rx :=
  if r.st = .postMcf ∨ r.st = .postPpr then
    match r.next with
    | .mps => { r with st := .docEcm }
    | .eop => r
    | .null => { r with st := .done }
  else r

/-- The carrier goes without an RCP, `t30_hdlc_rx_status`, src/t30.c:6868-6885. -/
def rxCarrier (r : Rx) : Rx := if r.st = .docEcm then { r with st := .postDoc } else r

/-- `timer_t2_expired`, src/t30.c:6238-6309, in the two states which it runs in. -/
def rxT2 (r : Rx) : Rx := if r.st = .docEcm ∨ r.st = .postDoc then { r with st := .gone } else r

/-- `timer_t4_expired` and `repeat_last_command` at the receiver, src/t30.c:6342-6357 and 5989-6085. The timer runs while the receiver
waits for DCN (src/t30.c:7139-7143), and after RNR. -/
def rxT4 (cfg : Cfg) (r : Rx) : Rx × List Msg :=
  if r.st = .postMcf ∧ r.next = .eop then
    let r := { r with retries := r.retries + 1 }
    if r.retries ≥ cfg.tries then rxDcn r else (r, [.mcf])
  else if r.st = .postRnr then
    let r := { r with retries := r.retries + 1 }
    if r.retries ≥ cfg.tries then rxDcn r else (r, [])
  else (r, [])

/-! ## The call -/

/-- The two endpoints and the frames under way, the oldest first. -/
structure Sys where
  tx : Tx
  rx : Rx
  fwd : List Msg
  bwd : List Msg

/-- What can happen: the sender's modem has finished with a frame; the oldest frame on its way to one side arrives or is lost; the
receiver has sent its response, loses the carrier, or gives up waiting; a response timer expires. `txT4Early` is the sender's
response timer expiring while something is still under way. -/
inductive Ev where
  | txStep
  | fwdDeliver
  | fwdLose
  | bwdDeliver
  | bwdLose
  | rxSent
  | rxCarrier
  | rxT2
  | rxT4
  | txT4
  | txT5
  | txT4Early
deriving DecidableEq, Repr

/-- One event. An event which cannot happen changes nothing. The timers `txT4` and `rxT4` expire only when nothing is under way,
for the line is half duplex and the timer is stopped while a signal is heard (src/t30.c:6347-6355). -/
def Sys.step (cfg : Cfg) (s : Sys) : Ev → Sys
  | .txStep => let p := Ecm.txStep s.tx; { s with tx := p.1, fwd := s.fwd ++ p.2 }
  | .fwdDeliver => match s.fwd with
    | [] => s
    | m :: l => let p := rxRecv s.rx m; { s with rx := p.1, fwd := l, bwd := s.bwd ++ p.2 }
  | .fwdLose => { s with fwd := s.fwd.tail }
  | .bwdDeliver => match s.bwd with
    | [] => s
    | m :: l => let p := txRecv cfg s.tx m; { s with tx := p.1, fwd := s.fwd ++ p.2, bwd := l }
  | .bwdLose => { s with bwd := s.bwd.tail }
  | .rxSent => { s with rx := Ecm.rxSent s.rx }
  | .rxCarrier => { s with rx := Ecm.rxCarrier s.rx }
  | .rxT2 => { s with rx := Ecm.rxT2 s.rx }
  | .rxT4 => if s.fwd.isEmpty && s.bwd.isEmpty then let p := Ecm.rxT4 cfg s.rx; { s with rx := p.1, bwd := s.bwd ++ p.2 } else s
  | .txT4 => if s.fwd.isEmpty && s.bwd.isEmpty then let p := Ecm.txT4 cfg s.tx; { s with tx := p.1, fwd := s.fwd ++ p.2 } else s
  | .txT5 => { s with tx := { s.tx with t5exp := true } }
  | .txT4Early => let p := Ecm.txT4 cfg s.tx; { s with tx := p.1, fwd := s.fwd ++ p.2 }

/-- A history of the call. -/
def Sys.run (cfg : Cfg) (s : Sys) (evs : List Ev) : Sys := evs.foldl (Sys.step cfg) s

/-- The sender when CFR has come: `start_sending_document`, src/t30.c:3058-3071, with `process_state_d_post_tcf`,
src/t30.c:4034-4047. -/
def txInit (cfg : Cfg) (d : List Nat) (docs : List (List Nat)) (fallback : Nat) : Tx :=
  startBurst (getPartial cfg
    { st := .iv, rest := d, docs := docs, buf := fun _ => none, frames := 0, cur := 0, burst := 0, atEnd := false, page := 0,
      block := 0, step := .null, pprCount := 0, progress := 0, fallback := fallback, retries := 0, t5exp := false, ok := false })

/-- The receiver when it has sent CFR: `T30_STATE_F_CFR` in `t30_front_end_status`, src/t30.c:7066-7084, after `rx_start_page`.
`notReady` is what `t30_set_receiver_not_ready` has set (src/t30_api.c:991-995). -/
def rxInit (notReady : Nat) : Rx :=
  { st := .docEcm, buf := fun _ => none, frames := none, page := 0, block := 0, next := .mps, last := .null, blockOk := false,
    map := [], notReady := notReady, retries := 0, pages := [], out := [] }

/-- A call which sends the pages `d :: docs`. -/
def Sys.init (cfg : Cfg) (d : List Nat) (docs : List (List Nat)) (fallback notReady : Nat) : Sys :=
  { tx := txInit cfg d docs fallback, rx := rxInit notReady, fwd := [], bwd := [] }

end Ecm
