import Mathlib.Data.List.Basic

/-!
# Model of src/v42.c, the LAP-M part of V.42

Octets are natural numbers. A frame is a list of octets, without the FCS. The HDLC layer below (see `Verif/Hdlc`) calls `underflow` when it wants a frame, and `receive` when it has one.

Not modelled: the detection phase (lines 1204-1403), after which `restart` is called; logging; the time the timers run for: a timer which runs may expire at any moment. The message
handlers of the application do not call V.42. The one which is asked for data gives no more than it is asked for.
-/

namespace V42

abbrev Frame := List Nat

/-- The states of lines 142-153 which occur here. -/
inductive St where
  | idle
  | establish
  | data
  | release
deriving DecidableEq

/-- The functions `bit_timer_func` may be. -/
inductive Timer where
  | negotiate
  | t401
  | t403
deriving DecidableEq

/-- What the application is told: data (`iframe_put`) or a status. -/
inductive Ev where
  | data (d : List Nat)
  | connected
  | disconnected
  | error
deriving DecidableEq

/-- What the application answers when it is asked for data: an error, or some octets (none: no data). -/
abbrev Supply := Option (List Nat)

/-- `lapm_state_t` and `v42_state_s`, src/spandsp/private/v42.h:68-153. Simplified: the ring of control frames is the list of the frames in it (see `ctrlFrame`). The octets 0 to 2 of an
information frame are put there when it is sent, so only the others are kept. `timer` is none when `bit_timer` is 0. Added: `log`, what the application was told, and `taken`, the data it
has given. -/
structure Lapm where
  calling : Bool
  state : St
  configuring : Bool
  localBusy : Bool
  farBusy : Bool
  rejected : Bool
  retry : Nat
  vs : Nat
  va : Nat
  vr : Nat
  txK : Nat
  rxK : Nat
  txN401 : Nat
  rxN401 : Nat
  ctrl : List Frame
  put : Nat
  get : Nat
  acked : Nat
  info : Nat → List Nat
  timer : Option Timer
  log : List Ev
  taken : List (List Nat)

/-- `cmd_addr`, src/v42.c:1529. -/
def Lapm.cmdAddr (s : Lapm) : Nat := if s.calling then 3 else 1

/-- `rsp_addr`, src/v42.c:1530. -/
def Lapm.rspAddr (s : Lapm) : Nat := if s.calling then 1 else 3

/-- `report_rx_status_change`, src/v42.c:191-197. -/
def report (s : Lapm) (e : Ev) : Lapm := { s with log := s.log ++ [e] }

/-- `get_next_free_ctrl_frame`, src/v42.c:214-226, and what is then written to the frame: seven frames fit in the ring of eight. -/
def ctrlFrame (s : Lapm) (f : Frame) : Lapm := if s.ctrl.length ≥ 7 then s else { s with ctrl := s.ctrl ++ [f] }

/-- `tx_unnumbered_frame`, src/v42.c:229-246. It is only called without information. -/
def txUnnumbered (s : Lapm) (addr ctrl : Nat) : Lapm := ctrlFrame s [addr, 0x03 ||| ctrl]

/-- `tx_supervisory_frame`, src/v42.c:249-262. -/
def txSupervisory (s : Lapm) (addr ctrl pf : Nat) : Lapm := ctrlFrame s [addr, 0x01 ||| ctrl, ((s.vr <<< 1) ||| pf) % 256]

/-- `LAPM_S_RNR` or `LAPM_S_RR`. -/
def Lapm.ready (s : Lapm) : Nat := if s.localBusy then 0x04 else 0x00

/-- `t401_start`, src/v42.c:570-575. -/
def t401Start (s : Lapm) : Lapm := { s with timer := some .t401, retry := 0 }

/-- `t401_stop`, src/v42.c:578-582. -/
def t401Stop (s : Lapm) : Lapm := { s with timer := none, retry := 0 }

/-- `t401_stop_t403_start`, src/v42.c:599-604. -/
def t403Start (s : Lapm) : Lapm := { s with timer := some .t403, retry := 0 }

/-- `reset_lapm`, src/v42.c:1151-1174, with the configuration of `v42_init`, lines 1529-1532. -/
def reset (s : Lapm) : Lapm :=
  { s with localBusy := false, farBusy := false, vs := 0, va := 0, vr := 0, put := 0, acked := 0, get := 0, ctrl := [], txK := 15, rxK := 15, txN401 := 128, rxN401 := 128 }

/-- `lapm_disconnect`, src/v42.c:1122-1131. -/
def disconnect (s : Lapm) : Lapm := t401Start (txUnnumbered { s with state := .release } s.cmdAddr (0x40 ||| 0x10))

/-- `lapm_connect`, src/v42.c:1101-1119. -/
def connect (s : Lapm) : Lapm :=
  if s.state ≠ .idle then s else t401Start (txUnnumbered { reset s with state := .establish } s.cmdAddr (0x6C ||| 0x10))

/-! ## XID -/

/-- `set_param`, src/v42.c:265-272. -/
def setParam (param value deflt : Nat) : Nat :=
  if value < deflt ∧ param ≥ deflt ∨ value ≥ deflt ∧ param < deflt then deflt
  else if value < deflt ∧ param < value ∨ value ≥ deflt ∧ param > value then value
  else param

/-- `pack_value`, src/v42.c:200-211. `none` is a read beyond the frame. -/
def pack (len : Nat) (buf : List Nat) : Option Nat := if buf.length < len then none else some ((buf.take len).foldl (fun v b => (v * 256 + b) % 2 ^ 32) 0)

/-- One parameter, src/v42.c:314-340 and 357-372. What is only put into the local `config`, which is never used, is left out. -/
def xidParam (priv : Bool) (s : Lapm) (id len : Nat) (buf : List Nat) : Option Lapm :=
  if priv then if id = 0x01 ∨ id = 0x02 ∨ id = 0x03 then (pack len buf).map fun _ => s else some s
  else if id = 0x05 then (pack len buf).map fun v => { s with txN401 := setParam s.txN401 (v >>> 3) 128 }
  else if id = 0x06 then (pack len buf).map fun v => { s with rxN401 := setParam s.rxN401 (v >>> 3) 128 }
  else if id = 0x07 then (pack len buf).map fun v => { s with txK := setParam s.txK v 15 }
  else if id = 0x08 then (pack len buf).map fun v => { s with rxK := setParam s.rxK v 15 }
  else some s

/-- The parameters of a group, src/v42.c:306-344 and 349-375. The first argument bounds the number of parameters. -/
def xidGroup (priv : Bool) : Nat → Lapm → Nat → List Nat → Option Lapm
  | 0, s, _, _ => some s
  | n + 1, s, groupLen, buf =>
    if groupLen = 0 then some s
    else
      match buf with
      | id :: len :: rest => if groupLen < 2 + len then some s else (xidParam priv s id len rest).bind fun s => xidGroup priv n s (groupLen - (2 + len)) (rest.drop len)
      | _ => none

/-- The groups, src/v42.c:294-380. The first argument bounds the number of groups. -/
def xidGroups : Nat → Lapm → Nat → List Nat → Option Lapm
  | 0, s, _, _ => some s
  | n + 1, s, len, frame =>
    if len = 0 then some s
    else
      match frame with
      | id :: hi :: lo :: rest =>
        if len < 3 + (hi * 256 + lo) then some s
        else (if id = 0x80 then xidGroup false (hi * 256 + lo) s (hi * 256 + lo) rest
            else if id = 0xF0 then xidGroup true (hi * 256 + lo) s (hi * 256 + lo) rest else some s).bind fun s => xidGroups n s (len - (3 + (hi * 256 + lo))) (rest.drop (hi * 256 + lo))
      | _ => none

/-- `receive_xid`, src/v42.c:275-384. What it returns is not used. `none` is a read beyond the frame. -/
def receiveXid (s : Lapm) (frame : Frame) : Option Lapm :=
  match frame with
  | _ :: _ :: fi :: rest => if fi ≠ 0x82 then some s else xidGroups frame.length s rest.length rest
  | _ => none

/-- What `transmit_xid`, src/v42.c:387-492, writes, with the configuration of `v42_init`: note that line 428 does not move on after the four octets it writes, so that the next four take their
place, and the frame ends with four octets which are not written at all. They are taken to be 0. -/
def xidFrame (addr : Nat) : Frame :=
  [addr, 0xAC ||| 0x03, 0x82] ++ [0x80, 0, 20] ++ [0x03, 4] ++ [0x05, 2, (128 <<< 3) / 256, (128 <<< 3) % 256] ++ [0x06, 2, (128 <<< 3) / 256, (128 <<< 3) % 256] ++ [0x07, 1, 15] ++
    [0x08, 1, 15] ++ [0xF0, 0, 15] ++ [0x00, 3, 86, 52, 50] ++ [0x01, 1, 1] ++ [0x02, 2, 512 / 256, 512 % 256] ++ [0x03, 1, 6] ++ [0, 0, 0, 0]

/-- `transmit_xid`, src/v42.c:387-492. -/
def transmitXid (s : Lapm) (addr : Nat) : Lapm := ctrlFrame s (xidFrame addr)

/-- `lapm_config`, src/v42.c:1134-1148. -/
def config (s : Lapm) : Lapm :=
  let s := { s with configuring := true }
  let s := if s.state = .data then txSupervisory { s with localBusy := true } s.cmdAddr 0x04 1 else s
  t401Start (transmitXid s s.cmdAddr)

/-! ## Information frames -/

/-- `tx_information_frame`, src/v42.c:616-650: if there is a frame to send. -/
def txInformation (s : Lapm) (sup : Supply) : Bool × Lapm :=
  if s.farBusy ∨ (s.vs + 128 - s.va) % 128 ≥ s.txK then (false, s)
  else if s.get ≠ s.put then (true, s)
  else
    let next := if s.put + 1 ≥ 16 then 0 else s.put + 1
    if next = s.get ∨ next = s.acked then (false, s)
    else
      match sup with
      | none => (false, report s .error)
      | some [] => (false, s)
      | some d => (true, { s with info := fun i => if i = s.put then d else s.info i, put := next, taken := s.taken ++ [d] })

/-- `tx_information_rr_rnr_response`, src/v42.c:653-662, for a frame with the octets `addr` and `c`. -/
def response (s : Lapm) (sup : Supply) (addr c : Nat) : Lapm :=
  if c &&& 1 ≠ 0 then txSupervisory s addr s.ready 1
  else if (txInformation s sup).1 then (txInformation s sup).2
  else txSupervisory (txInformation s sup).2 addr (txInformation s sup).2.ready 1

/-- `reject_info`, src/v42.c:665-676. What it returns is not used. -/
def rejectInfo (s : Lapm) : Lapm := if s.state ≠ .data then s else { s with vs := s.va, get := s.acked }

/-- The loop of `ack_info`, src/v42.c:692-698. The first argument bounds the number of rounds; the result has the number of rounds. -/
def ackLoop (nr : Nat) : Nat → Lapm → Nat × Lapm
  | 0, s => (0, s)
  | n + 1, s =>
    if s.va ≠ nr ∧ s.acked ≠ s.get then
      let r := ackLoop nr n { s with acked := if s.acked + 1 ≥ 16 then 0 else s.acked + 1, va := (s.va + 1) % 128 }
      (r.1 + 1, r.2)
    else (0, s)

/-- `ack_info`, src/v42.c:679-709. What it returns is not used. The loop ends after at most 15 rounds. -/
def ackInfo (s : Lapm) (nr : Nat) : Lapm :=
  if ¬((nr + 128 - s.va) % 128 + (s.vs + 128 - nr) % 128 ≤ s.txK ∧ (s.vs + 128 - s.va) % 128 ≤ s.txK) then disconnect s
  else
    let r := ackLoop nr 16 s
    if r.1 > 0 ∧ r.2.retry = 0 then
      let s := t403Start r.2
      if (s.vs + 128 - s.va) % 128 ≠ 0 then t401Start s else s
    else r.2

/-- `valid_data_state`, src/v42.c:712-741. -/
def validDataState (s : Lapm) : Bool × Lapm :=
  match s.state with
  | .idle => (false, s)
  | .establish => (true, report { reset s with state := .data } .connected)
  | .data => (true, s)
  | .release => (false, report { reset s with state := .idle } .disconnected)

/-- `receive_information_frame`, src/v42.c:744-778. `none`: the frame has fewer than three octets (octets which are not in it are used, and a negative length is given to the application). -/
def receiveInformation (s : Lapm) (sup : Supply) (frame : Frame) : Option Lapm :=
  match frame with
  | addr :: b :: c :: d =>
    let v := validDataState s
    if ¬v.1 then some v.2
    else
      let s := v.2
      if frame.length > s.rxN401 + 3 then some s
      else
        let s := ackInfo s (c >>> 1)
        if s.localBusy then some (if c &&& 1 ≠ 0 then txSupervisory s s.rspAddr 0x04 1 else s)
        else if b >>> 1 ≠ s.vr then some (if ¬s.rejected then { txSupervisory s s.rspAddr 0x08 (c &&& 1) with rejected := true } else s)
        else
          let s := { s with rejected := false, log := s.log ++ [.data d], vr := (s.vr + 1) % 128 }
          some (response s sup addr c)
  | _ => none

/-- `rx_supervisory_cmd_frame`, src/v42.c:781-818, on the octets of the frame. -/
def rxSupervisoryCmd (s : Lapm) (sup : Supply) (addr b c : Nat) : Lapm :=
  if b &&& 0x0C = 0x00 then response (ackInfo { s with farBusy := false } (c >>> 1)) sup addr c
  else if b &&& 0x0C = 0x04 then
    let s := ackInfo { s with farBusy := true } (c >>> 1)
    if c &&& 1 ≠ 0 then txSupervisory s s.rspAddr s.ready 1 else s
  else if b &&& 0x0C = 0x08 then
    let s := ackInfo { s with farBusy := false } (c >>> 1)
    let s := if s.retry = 0 then rejectInfo (t403Start s) else s
    response s sup addr c
  else s

/-- `rx_supervisory_rsp_frame`, src/v42.c:821-866, on the octets of the frame. -/
def rxSupervisoryRsp (s : Lapm) (b c : Nat) : Lapm :=
  if s.retry = 0 ∧ c &&& 1 ≠ 0 then s
  else if b &&& 0x0C = 0x00 then
    let s := ackInfo { s with farBusy := false } (c >>> 1)
    if s.retry ≠ 0 ∧ c &&& 1 ≠ 0 then t403Start (rejectInfo s) else s
  else if b &&& 0x0C = 0x04 then
    let s := ackInfo { s with farBusy := true } (c >>> 1)
    let s := if s.retry ≠ 0 ∧ c &&& 1 ≠ 0 then t403Start (rejectInfo s) else s
    if s.retry = 0 then t401Start s else s
  else if b &&& 0x0C = 0x08 then
    let s := ackInfo { s with farBusy := false } (c >>> 1)
    if s.retry = 0 ∨ c &&& 1 ≠ 0 then t403Start (rejectInfo s) else s
  else s

/-! ## Unnumbered frames -/

/-- `rx_unnumbered_cmd_frame`, src/v42.c:869-920. -/
def rxUnnumberedCmd (s : Lapm) (b : Nat) (frame : Frame) : Option Lapm :=
  if b &&& 0xEC = 0x6C then some (report (t403Start (txUnnumbered { reset s with state := .data } s.rspAddr (0x60 ||| (b &&& 0x10)))) .connected)
  else if b &&& 0xEC = 0x40 then
    some (if s.state = .idle then txUnnumbered s s.rspAddr (0x0C ||| 0x10)
      else report (t401Stop (txUnnumbered (reset { s with state := .idle }) s.rspAddr (0x60 ||| (b &&& 0x10)))) .disconnected)
  else if b &&& 0xEC = 0xAC then (receiveXid s frame).map fun s => transmitXid s s.rspAddr
  else some s

/-- `rx_unnumbered_rsp_frame`, src/v42.c:923-1016. -/
def rxUnnumberedRsp (s : Lapm) (b : Nat) (frame : Frame) : Option Lapm :=
  if b &&& 0xEC = 0x0C then
    some (match s.state with
      | .idle => if b &&& 0x10 = 0 then report s .connected else s
      | .data => if s.retry ≠ 0 ∨ b &&& 0x10 = 0 then report (reset { s with state := .idle }) .disconnected else s
      | _ => if b &&& 0x10 ≠ 0 then report (t401Stop (reset { s with state := .idle })) .disconnected else s)
  else if b &&& 0xEC = 0x60 then
    some (match s.state with
      | .establish => report (t403Start (reset { s with state := .data })) .connected
      | .release => report (t401Stop (reset { s with state := .idle })) .disconnected
      | _ => s)
  else if b &&& 0xEC = 0xAC then
    if s.configuring then
      (receiveXid s frame).map fun s =>
        let s := t401Stop { s with configuring := false }
        match s.state with
        | .idle => connect s
        | .data => txSupervisory { s with localBusy := false } s.cmdAddr 0x00 0
        | _ => s
    else some s
  else some s

/-! ## The calls from outside -/

/-- `lapm_receive`, src/v42.c:1062-1098, of a frame with a correct FCS. `none`: octets which are not in the frame are used. -/
def receive (s : Lapm) (sup : Supply) (frame : Frame) : Option Lapm :=
  match frame with
  | addr :: b :: t =>
    if b &&& 3 = 3 then if addr = s.rspAddr then rxUnnumberedCmd s b frame else rxUnnumberedRsp s b frame
    else if b &&& 3 = 1 then
      let v := validDataState s
      if ¬v.1 then some v.2
      else
        match t with
        | c :: _ => some (if addr = v.2.rspAddr then rxSupervisoryCmd v.2 sup addr b c else rxSupervisoryRsp v.2 b c)
        | [] => none
    else receiveInformation s sup frame
  | _ => none

/-- `lapm_hdlc_underflow`, src/v42.c:1019-1059: the frame which is sent, if there is one (otherwise there are flags). -/
def underflow (s : Lapm) (sup : Supply) : Lapm × Option Frame :=
  match s.ctrl with
  | f :: t => ({ s with ctrl := t }, some f)
  | [] =>
    if s.farBusy ∨ s.configuring ∨ s.state ≠ .data then (s, none)
    else
      let r := if s.get = s.put then txInformation s sup else (true, s)
      if ¬r.1 then (r.2, none)
      else
        let s := r.2
        let f := [s.cmdAddr, (s.vs <<< 1) % 256, (s.vr <<< 1) % 256] ++ s.info s.get
        let s := { s with get := if s.get + 1 ≥ 16 then 0 else s.get + 1, vs := (s.vs + 1) % 128 }
        (if s.timer = none then t401Start s else s, some f)

/-- `t401_expired`, src/v42.c:523-567. -/
def t401Expired (s : Lapm) : Lapm :=
  if s.retry > 5 then
    let s := { s with retry := 0 }
    match s.state with
    | .establish | .release => report { s with state := .idle } .disconnected
    | .data => disconnect s
    | .idle => s
  else
    let s := { s with retry := s.retry + 1 }
    let s := if s.configuring then transmitXid s s.cmdAddr
      else
        match s.state with
        | .establish => txUnnumbered s s.cmdAddr (0x6C ||| 0x10)
        | .release => txUnnumbered s s.cmdAddr (0x40 ||| 0x10)
        | .data => txSupervisory s s.cmdAddr s.ready 1
        | .idle => s
    { s with timer := some .t401 }

/-- `t403_expired`, src/v42.c:585-596. -/
def t403Expired (s : Lapm) : Lapm := if s.state ≠ .data then s else { t401Start (txSupervisory s s.cmdAddr s.ready 1) with retry := 1 }

/-- The timer expires in `v42_tx_bit`, src/v42.c:1425-1429. For `initiate_negotiation_expired`, lines 607-613, the frame which is sent. -/
def expire (s : Lapm) (sup : Supply) : Lapm × Option Frame :=
  let s' := { s with timer := none }
  match s.timer with
  | none => (s, none)
  | some .negotiate => underflow (config s') sup
  | some .t401 => (t401Expired s', none)
  | some .t403 => (t403Expired s', none)

/-- `v42_set_local_busy_status`, src/v42.c:1439-1446. -/
def setLocalBusy (s : Lapm) (busy : Bool) : Lapm := { s with localBusy := busy }

/-- `v42_stop`, src/v42.c:1177-1185. -/
def stop (s : Lapm) : Lapm := disconnect { s with timer := none }

/-- `v42_init`, src/v42.c:1497-1550, without detection, and `v42_restart`, lines 1468-1494, with `restart_lapm`, lines 1188-1201. -/
def init (calling : Bool) : Lapm :=
  { calling := calling, state := .idle, configuring := false, localBusy := false, farBusy := false, rejected := false, retry := 0, vs := 0, va := 0, vr := 0, txK := 15, rxK := 15, txN401 := 128,
    rxN401 := 128, ctrl := [], put := 0, get := 0, acked := 0, info := fun _ => [], timer := if calling then some .negotiate else none, log := [], taken := [] }

end V42
