/-!
# Ademco Contact ID alarm reports

Model of /repo/src/ademco_contactid.c.  Digits are characters, as in the code; what goes out is modelled as a
list of samples which say what they are: silence, a sample of a tone, or a sample of a DTMF digit.  What comes
in is a string of DTMF digits at the receiver, and blocks of samples at the sender, of which the tone detector
(two Goertzel filters in floating point) is a parameter.
-/

namespace ContactId

/-! ## Messages -/

/-- /repo/src/spandsp/ademco_contactid.h:289-297.  The fields are `int`; negative ones print as eight digits
and are left out. -/
structure Report where
  acct : Nat
  mt : Nat
  q : Nat
  xyz : Nat
  gg : Nat
  ccc : Nat
  deriving DecidableEq, Repr

/-- The digit of a value, as `%X` prints it. -/
def hexChar (d : Nat) : Char := if d ≤ 9 then Char.ofNat (48 + d) else Char.ofNat (55 + d)

/-- `%0wX` of a value which needs no more than `w` digits. -/
def hex : Nat → Nat → List Char
  | 0, _ => []
  | w + 1, n => hex w (n/16) ++ [hexChar (n % 16)]

/-- The `sprintf` of /repo/src/ademco_contactid.c:477.  If a value needs more digits there is no room for the
check digit and the end of the string in the 17 characters of the callers (/repo/src/spandsp/private/ademco_contactid.h:79),
which is a fault. -/
def print (r : Report) : Option (List Char) :=
  if r.acct < 65536 ∧ r.mt < 256 ∧ r.q < 16 ∧ r.xyz < 4096 ∧ r.gg < 256 ∧ r.ccc < 4096 then
    some (hex 4 r.acct ++ hex 2 r.mt ++ hex 1 r.q ++ hex 3 r.xyz ++ hex 2 r.gg ++ hex 3 r.ccc)
  else none

/-- /repo/src/ademco_contactid.c:475. -/
def remap : List Char := ['D', '*', '#', 'A', 'B', 'C']

/-- The loop of /repo/src/ademco_contactid.c:478-499: the buffer, and the sum unless there was an `A`. -/
def encLoop (sum : Nat) : List Char → List Char × Option Nat
  | [] => ([], some sum)
  | c :: cs =>
    if c = 'A' then (c :: cs, none)
    else if c > '9' then
      let x := c.toNat - 55
      let (b, r) := encLoop (sum + x) cs
      ((remap[x - 10]?).getD c :: b, r)
    else
      let x := c.toNat - 48
      let (b, r) := encLoop (sum + if x = 0 then 10 else x) cs
      (c :: b, r)

/-- The check digit.  /repo/src/ademco_contactid.c:501-507. -/
def checkDigit (sum : Nat) : Char :=
  let sum := (sum + 15)/15*15 - sum
  if sum = 0 then 'C' else if sum ≤ 9 then Char.ofNat (48 + sum) else (remap[sum - 10]?).getD 'C'

/-- /repo/src/ademco_contactid.c:470-511 (`encode_msg`): the buffer and the result. -/
def encodeMsg (r : Report) : Option (List Char × Int) :=
  (print r).map fun l =>
    match encLoop 0 l with
    | (b, none) => (b, -1)
    | (b, some sum) => (b ++ [checkDigit sum], b.length + 1)

/-- The `switch` of /repo/src/ademco_contactid.c:527-552. -/
def unmap (c : Char) : Char :=
  if c = '*' then 'B' else if c = '#' then 'C' else if c = 'A' then 'D' else if c = 'B' then 'E'
  else if c = 'C' then 'F' else if c = 'D' then 'A' else c

/-- What a digit adds to the sum.  /repo/src/ademco_contactid.c:554-567. -/
def worth (c : Char) : Int := if c > '9' then (c.toNat : Int) - 55 else if c = '0' then 10 else (c.toNat : Int) - 48

/-- The value of a hexadecimal digit. -/
def hexVal (c : Char) : Option Nat :=
  if '0' ≤ c ∧ c ≤ '9' then some (c.toNat - 48) else if 'A' ≤ c ∧ c ≤ 'F' then some (c.toNat - 55) else none

/-- `%0wx` of `sscanf`: up to `w` digits, at least one, which make up the value `acc` so far.  Blanks, signs,
`0x` and small letters, which `sscanf` would take too, do not come from DTMF digits and are not modelled. -/
def scan (some? : Bool) (acc : Nat) : Nat → List Char → Option (Nat × List Char)
  | 0, l => some (acc, l)
  | _ + 1, [] => if some? then some (acc, []) else none
  | w + 1, c :: l =>
    match hexVal c with
    | some v => scan true (acc*16 + v) w l
    | none => if some? then some (acc, c :: l) else none

/-- /repo/src/ademco_contactid.c:513-577 (`decode_msg`).  The outer `none` is a string too long for `buf2`. -/
def decodeMsg (l : List Char) : Option (Option Report) :=
  if l.length ≥ 20 then none
  else
    let b := l.map unmap
    if (b.map worth).sum % 15 ≠ 0 then some none
    else some <|
      (scan false 0 4 b).bind fun (acct, b) => (scan false 0 2 b).bind fun (mt, b) =>
      (scan false 0 1 b).bind fun (q, b) => (scan false 0 3 b).bind fun (xyz, b) =>
      (scan false 0 2 b).bind fun (gg, b) => (scan false 0 3 b).map fun (ccc, _) => ⟨acct, mt, q, xyz, gg, ccc⟩

/-! ## Signals -/

/-- A sample: what it is a sample of, and the how-manieth.  `stale` is one which was not written. -/
inductive Sig where
  | silence
  | tone (hz pos : Nat)
  | dtmf (c : Char) (pos : Nat)
  | stale
  deriving DecidableEq, Repr

/-- `n` samples of a tone from the `p`-th on. -/
def toneFrom (hz p n : Nat) : List Sig := (List.range n).map fun i => .tone hz (p + i)

/-! ## The receiver -/

/-- /repo/src/spandsp/private/ademco_contactid.h:31-46.  `phase` counts samples of the tone. -/
structure Receiver where
  step : Nat
  remaining : Nat
  phase : Nat
  digits : List Char
  deriving DecidableEq, Repr

/-- /repo/src/ademco_contactid.c:789-813 (`ademco_contactid_receiver_init`). -/
def Receiver.init : Receiver := ⟨0, 4000, 0, []⟩

/-- A step of silence or of a tone: no more than what remains of it, and no more than there is room for.
When it is over comes the step `next` for `time` samples. -/
def stepFor (s : Receiver) (room : Nat) (hz : Option Nat) (next time : Nat) : Receiver × List Sig :=
  let n := if s.remaining > room then room else s.remaining
  let out := match hz with | none => List.replicate n .silence | some hz => toneFrom hz s.phase n
  let s := { s with remaining := s.remaining - n, phase := if hz.isSome then s.phase + n else s.phase }
  if s.remaining > 0 then (s, out)
  else ({ s with step := next, remaining := time, phase := if hz.isSome then s.phase else 0 }, out)

/-- /repo/src/ademco_contactid.c:639-733 (`ademco_contactid_receiver_tx`).  The phase is set to zero at the end
of each silence, also that of step 2, where the code does so too. -/
def Receiver.tx (s : Receiver) (room : Nat) : Receiver × List Sig :=
  match s.step with
  | 0 => stepFor s room none 1 800
  | 1 => stepFor s room (some 1400) 2 800
  | 2 => stepFor s room none 3 800
  | 3 => stepFor s room (some 2300) 4 800
  | 4 => (s, [])
  | 5 => stepFor s room none 6 6800
  | 6 => stepFor s room (some 1400) 4 800
  | _ => (s, List.replicate room .stale)

/-- /repo/src/ademco_contactid.c:754-777 (`dtmf_digit_delivery`).  A write outside of `rx_digits` is a fault.
`dtmf_rx` delivers one digit at a time (/repo/src/dtmf.c:326-332). -/
def Receiver.digit (s : Receiver) (c : Char) : Option (Receiver × List Report) :=
  if s.digits.length ≥ 17 then none
  else
    let d := s.digits ++ [c]
    if d.length = 16 then
      (decodeMsg d).map fun
        | some r => ({ s with step := s.step + 1, digits := [] }, [r])
        | none => ({ s with digits := [] }, [])
    else some ({ s with digits := d }, [])

/-! ## The DTMF generator -/

/-- /repo/src/dtmf.c:123. -/
def dtmfPositions : List Char := "123A456B789C*0#D".toList

/-- The digits waiting, and the digit under way with the samples of it which are out. -/
structure Dtmf where
  queue : List Char
  cur : Option (Char × Nat)
  deriving DecidableEq, Repr

/-- Sample `p` of a digit: 55 ms of tone and 55 ms of silence.  /repo/src/dtmf.c:629-633,
/repo/src/ademco_contactid.c:1195. -/
def digitSig (c : Char) (p : Nat) : Sig := if p < 440 then .dtmf c p else .silence

/-- `n` samples of a digit from the `p`-th on. -/
def digitFrom (c : Char) (p n : Nat) : List Sig := (List.range n).map fun i => digitSig c (p + i)

/-- What `tone_gen` does with a digit of which `p` samples are out: the digit if it is not over yet, and the
samples.  /repo/src/tone_generate.c:128-225.  The two sections, tone and silence, are taken together. -/
def toneGen (c : Char) (p room : Nat) : Option (Char × Nat) × List Sig :=
  if 880 - p > room then (some (c, p + room), digitFrom c p room) else (none, digitFrom c p (880 - p))

/-- The loop of /repo/src/dtmf.c:565-593. -/
def dtmfLoop : List Char → Nat → Dtmf × List Sig
  | [], _ => (⟨[], none⟩, [])
  | c :: q, room =>
    if room = 0 then (⟨c :: q, none⟩, [])
    else if c ∈ dtmfPositions then
      match toneGen c 0 room with
      | (some t, out) => (⟨q, some t⟩, out)
      | (none, out) => let (d, rest) := dtmfLoop q (room - out.length); (d, out ++ rest)
    else dtmfLoop q room

/-- /repo/src/dtmf.c:551-595 (`dtmf_tx`), without a callback. -/
def Dtmf.tx (d : Dtmf) (room : Nat) : Dtmf × List Sig :=
  match d.cur with
  | none => dtmfLoop d.queue room
  | some (c, p) =>
    match toneGen c p room with
    | (some t, out) => ({ d with cur := some t }, out)
    | (none, out) => let (d, rest) := dtmfLoop d.queue (room - out.length); (d, out ++ rest)

/-- /repo/src/dtmf.c:598-619 (`dtmf_tx_put`), for a given number of digits.  The queue has room for 128. -/
def Dtmf.put (d : Dtmf) (l : List Char) : Dtmf × Int :=
  if 128 - d.queue.length < l.length then (d, (l.length : Int) - (128 - d.queue.length : Nat))
  else ({ d with queue := d.queue ++ l }, 0)

/-! ## The sender -/

/-- What the callback of a sender is told: -1, or the result of a report. -/
inductive Event where
  | handshake
  | result (good : Bool)
  deriving DecidableEq, Repr

/-- What the tone detector says of a block. -/
inductive Hit where
  | none
  | hz1400
  | hz2300
  deriving DecidableEq, Repr

/-- /repo/src/spandsp/private/ademco_contactid.h:48-94.  `acc` are the samples of the block so far, of which
the code keeps the state of the filters.  `len` is `tx_digits_len`, and `msg` the string in `tx_digits`. -/
structure Sender where
  step : Nat
  remaining : Nat
  dtmf : Dtmf
  msg : List Char
  len : Int
  tries : Nat
  toneState : Nat
  duration : Nat
  lastHit : Hit
  inTone : Hit
  cts : Bool
  timer : Int
  busy : Bool
  acc : List Int
  deriving DecidableEq, Repr

/-- /repo/src/ademco_contactid.c:1162-1197 (`ademco_contactid_sender_init`). -/
def Sender.init : Sender := ⟨0, 800, ⟨[], none⟩, [], 0, 0, 0, 0, .none, .none, false, 0, false, []⟩

/-- /repo/src/ademco_contactid.c:1134-1144 (`ademco_contactid_sender_put`). -/
def Sender.put (s : Sender) (r : Report) : Option (Sender × Int) :=
  if s.busy then some (s, -1)
  else (encodeMsg r).map fun (b, n) =>
    let s := { s with msg := b, len := n }
    if n < 0 then (s, -1)
    else
      let (d, k) := s.dtmf.put b
      ({ s with busy := true, dtmf := d }, k)

/-- `dtmf_tx_put(&s->dtmf, s->tx_digits, s->tx_digits_len)`. -/
def Sender.again (s : Sender) : Sender :=
  { s with dtmf := (s.dtmf.put (if s.len < 0 then s.msg else s.msg.take s.len.toNat)).1 }

/-- The part of step 2.  If fewer samples come than there is room for, the loop goes round again and gets
none.  /repo/src/ademco_contactid.c:855-864. -/
def Sender.txDigits (s : Sender) (room : Nat) : Sender × List Sig :=
  if room = 0 then (s, [])
  else
    let (d, out) := s.dtmf.tx room
    let s := { s with dtmf := d }
    if out.length < room then ({ s with cts := false, step := 0 }, out) else (s, out)

/-- The part of step 1.  /repo/src/ademco_contactid.c:845-854. -/
def Sender.txSilence (s : Sender) (room : Nat) : Sender × List Sig :=
  let n := if s.remaining > room then room else s.remaining
  let s := { s with remaining := s.remaining - n }
  if s.remaining > 0 then (s, List.replicate n .silence)
  else
    let (s, out) := { s with step := 2 }.txDigits (room - n)
    (s, List.replicate n .silence ++ out)

/-- /repo/src/ademco_contactid.c:829-872 (`ademco_contactid_sender_tx`). -/
def Sender.tx (s : Sender) (room : Nat) : Sender × List Sig :=
  if room = 0 then (s, [])
  else match s.step with
    | 0 => if s.cts then { s with cts := false, step := 1, remaining := 2000 }.txSilence room else (s, [])
    | 1 => s.txSilence room
    | 2 => s.txDigits room
    | _ => (s, [])

/-- The `switch` of /repo/src/ademco_contactid.c:941-1079, for a change seen twice. -/
def Sender.change (s : Sender) (hit : Hit) : Sender × List Event :=
  match s.toneState with
  | 0 => if hit = .hz1400 then ({ s with inTone := hit, toneState := 1, duration := 0 }, []) else (s, [])
  | 1 =>
    if hit = .none then
      ({ s with toneState := if s.duration < 560 ∨ s.duration > 1040 then 0 else 2, inTone := hit, duration := 0 }, [])
    else (s, [])
  | 2 =>
    if s.duration < 560 ∨ s.duration > 1040 then ({ s with toneState := 0, inTone := hit, duration := 0 }, [])
    else if hit = .hz2300 then ({ s with toneState := 3, inTone := hit, duration := 0 }, [])
    else ({ s with toneState := 0, inTone := .none, duration := 0 }, [])
  | 3 =>
    if hit = .none then
      if s.duration < 560 ∨ s.duration > 1040 then ({ s with toneState := 0, inTone := hit, duration := 0 }, [])
      else
        ({ s with toneState := 4, cts := true, tries := 0, timer := if s.len ≠ 0 then 24000 else s.timer,
                  inTone := hit, duration := 0 }, [.handshake])
    else (s, [])
  | 4 => if hit = .hz1400 then ({ s with toneState := 5, inTone := hit, duration := 0 }, []) else (s, [])
  | 5 =>
    if hit = .none then
      let s := { s with busy := false }
      if s.duration < 3200 ∨ s.duration > 12000 then
        let s := { s with tries := s.tries + 1 }
        if s.tries < 4 then
          ({ s.again with timer := 24000, toneState := 4, inTone := hit, duration := 0 }, [])
        else ({ s with timer := 0, inTone := hit, duration := 0 }, [.result false])
      else
        ({ s with cts := true, len := 0, toneState := 4, tries := 0, inTone := hit, duration := 0 }, [.result true])
    else (s, [])
  | _ => (s, [])

/-- The timer.  /repo/src/ademco_contactid.c:1083-1107. -/
def Sender.tick (s : Sender) : Sender × List Event :=
  if s.timer > 0 then
    let s := { s with timer := s.timer - 55 }
    if s.timer ≤ 0 ∧ s.toneState = 4 ∧ s.len ≠ 0 then
      let s := { s with tries := s.tries + 1 }
      if s.tries < 4 then ({ s.again with timer := 24000 }, []) else ({ s with timer := 0 }, [.result false])
    else (s, [])
  else (s, [])

/-- What a block, which the tone detector has classified, does.  /repo/src/ademco_contactid.c:937-1110. -/
def Sender.block (s : Sender) (hit : Hit) : Sender × List Event :=
  let (s, e1) := if hit ≠ s.inTone ∧ hit = s.lastHit then s.change hit else (s, [])
  let (s, e2) := { s with lastHit := hit, duration := s.duration + 55 }.tick
  (s, e1 ++ e2)

/-- /repo/src/ademco_contactid.c:875-1114 (`ademco_contactid_sender_rx`), sample by sample: the inner loop
stops at the end of a block.  `detect` stands for the two filters and the comparison of energies, which begin
afresh with each block. -/
def Sender.rx (detect : List Int → Hit) (s : Sender) : List Int → Sender × List Event
  | [] => (s, [])
  | a :: l =>
    let acc := s.acc ++ [a]
    if acc.length < 55 then Sender.rx detect { s with acc := acc } l
    else
      let (s, e1) := { s with acc := [] }.block (detect acc)
      let (s, e2) := Sender.rx detect s l
      (s, e1 ++ e2)

/-- /repo/src/ademco_contactid.c:1117-1131 (`ademco_contactid_sender_fillin`). -/
def Sender.fillin (s : Sender) : Sender := { s with acc := [] }

end ContactId
