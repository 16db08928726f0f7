/-!
# Data between the computer and a class 1 modem

A model of the parts of `t31.c` which carry data, on an audio channel: the octets for a fast modem from the computer, the
bits of a fast modem to the computer, and HDLC frames both ways.  `none` is a write beyond an array.
-/

namespace T31

/-! ## To the line -/

/-- `non_ecm_tx`, `dled` and `double_escape` of `t31_state_t`: /repo/src/spandsp/private/t31.h:189-208.  `buf` is what is in
the first `in_bytes` octets; `cts` are the calls of the handler for the clear to send signal. -/
structure Tx where
  buf : List Nat
  out : Nat
  started : Bool
  holding : Bool
  final : Bool
  dled : Bool
  double : Bool
  cts : List Bool
  deriving DecidableEq, Repr

/-- A fast modem which starts to send: /repo/src/t31.c:2281-2284. -/
def Tx.init (double : Bool) : Tx := ⟨[], 0, false, false, false, false, double, []⟩

/-- A write to `buf`: /repo/src/t31.c:2399. -/
def Tx.write (s : Tx) (c : Nat) : Option Tx := if s.buf.length < 4096 then some { s with buf := s.buf ++ [c] } else none

/-- Flow control after data: /repo/src/t31.c:2421-2431. -/
def Tx.tide (s : Tx) : Tx :=
  if !s.holding && decide (s.buf.length > 3072) then { s with holding := true, cts := s.cts ++ [false] } else s

/-- One octet of /repo/src/t31.c:2383-2411, other than the one which ends data. -/
def Tx.octet (s : Tx) (c : Nat) : Option Tx :=
  if s.dled then
    if s.double && c == 0x1A then ({ s with dled := false }.write 0x10).bind fun s => s.write 0x10
    else { s with dled := false }.write c
  else if c = 0x10 then some { s with dled := true }
  else s.write c

/-- /repo/src/t31.c:2377-2433 (`dle_unstuff`). -/
def Tx.unstuff (s : Tx) : List Nat → Option Tx
  | [] => some s.tide
  | c :: l =>
    if s.dled ∧ c = 3 then some { s with dled := false, final := true }
    else (s.octet c).bind fun s => if s.buf.length > 4094 then some s else s.unstuff l

/-- /repo/src/t31.c:2671-2675 (`t31_at_rx_free_space`). -/
def Tx.free (s : Tx) : Int := 4096 - (s.buf.length - s.out) - 1

/-- /repo/src/t31.c:2677-2733 (`t31_at_rx`) while data for a fast modem is awaited. -/
def Tx.put (s : Tx) (l : List Nat) : Option Tx := { s with buf := s.buf.drop s.out, out := 0 }.unstuff l

/-- What a modem gets: an octet of data, an octet to fill, or the end. -/
inductive Out where
  | data (b : Nat)
  | fill (b : Nat)
  | endOfData
  deriving DecidableEq, Repr

/-- One octet of /repo/src/t31.c:1578-1630 (`non_ecm_get`), which is the same as that of 1520-1575 (`non_ecm_get_bit`), where
its bits are sent one by one. -/
def Tx.get (s : Tx) : Tx × Out :=
  if s.out ≠ s.buf.length then
    let b := s.buf.getD s.out 0
    let s := { s with out := if s.out + 1 > 4095 then 4095 else s.out + 1, started := true }
    if s.holding && decide (s.out > 1024) then ({ s with holding := false, cts := s.cts ++ [true] }, .data b) else (s, .data b)
  else if s.final then ({ s with final := false }, .endOfData)
  else (s, .fill (if s.started then 0x00 else 0xFF))

/-! ## From the line -/

/-- `rx_data` of `at_state_t`, `bit_no` and `current_byte` of the audio front end, and what the computer was sent. -/
structure Rx where
  data : List Nat
  bitNo : Nat
  cur : Nat
  told : List Nat
  deriving DecidableEq, Repr

/-- A fast modem which starts to receive: /repo/src/t31.c:2281-2282. -/
def Rx.init : Rx := ⟨[], 0, 0xFF, []⟩

/-- A write to `rx_data`, which has 256 octets: /repo/src/spandsp/private/at_interpreter.h:91. -/
def Rx.write (s : Rx) (c : Nat) : Option Rx := if s.data.length < 256 then some { s with data := s.data ++ [c] } else none

/-- An octet with the escape before it, if it needs one: /repo/src/t31.c:1467-1470 and 1843-1846. -/
def Rx.stuffed (s : Rx) (c : Nat) : Option Rx :=
  if c = 0x10 then (s.write 0x10).bind fun s => s.write c else s.write c

/-- The computer gets what there is: /repo/src/t31.c:1473-1476. -/
def Rx.tell (s : Rx) : Rx := { s with told := s.told ++ s.data, data := [] }

/-- /repo/src/t31.c:1453-1484 (`non_ecm_put_bit`) for a bit. -/
def Rx.bit (s : Rx) (b : Bool) : Option Rx :=
  let cur := s.cur/2 + if b then 128 else 0
  if s.bitNo + 1 ≥ 8 then
    (s.stuffed cur).map fun s => { (if s.data.length ≥ 250 then s.tell else s) with bitNo := 0, cur := 0 }
  else some { s with bitNo := s.bitNo + 1, cur := cur }

/-- The end of the data: /repo/src/t31.c:1429-1434 and 1849-1852. -/
def Rx.close (s : Rx) : Option Rx := (s.write 0x10).bind fun s => (s.write 3).map Rx.tell

/-- /repo/src/t31.c:1453-1484 (`non_ecm_put_bit`) for some bits and 1426-1438 (`non_ecm_rx_status`) for the end of the
carrier, after training. -/
def Rx.page (s : Rx) : List Bool → Option Rx
  | [] => s.close
  | b :: l => (s.bit b).bind fun s => s.page l

/-- /repo/src/t31.c:1840-1852 (`hdlc_accept_frame`) for a frame with its check, while the computer waits for it. -/
def Rx.frame (s : Rx) : List Nat → Option Rx
  | [] => s.close
  | c :: l => (s.stuffed c).bind fun s => s.frame l

/-! ## Frames to the line -/

/-- `hdlc_tx` of `t31_state_t` and the frames which were sent: /repo/src/spandsp/private/t31.h:181-188. -/
structure Frames where
  buf : List Nat
  dled : Bool
  double : Bool
  sent : List (List Nat)
  deriving DecidableEq, Repr

/-- A write to `buf`, which has 284 octets: /repo/src/t31.c:2319. -/
def Frames.write (s : Frames) (c : Nat) : Option Frames :=
  if s.buf.length < 284 then some { s with buf := s.buf ++ [c] } else none

/-- One octet of /repo/src/t31.c:2289-2334 (`dle_unstuff_hdlc`). -/
def Frames.octet (s : Frames) (c : Nat) : Option Frames :=
  if s.dled then
    if c = 3 then some { s with dled := false, buf := [], sent := s.sent ++ [s.buf] }
    else if s.double && c == 0x1A then ({ s with dled := false }.write 0x10).bind fun s => s.write 0x10
    else { s with dled := false }.write c
  else if c = 0x10 then some { s with dled := true }
  else s.write c

/-- /repo/src/t31.c:2289-2334 (`dle_unstuff_hdlc`). -/
def Frames.put (s : Frames) : List Nat → Option Frames
  | [] => some s
  | c :: l => (s.octet c).bind fun s => s.put l

end T31
