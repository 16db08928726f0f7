/-!
# Text telephones: src/v18.c

The text which a V.18 station sends and receives as Baudot codes (TDD) and as DTMF digits.  Characters are octets, given
by their value.  The modems, the tones which select a mode, and the framing of codes are not in this model.
-/

namespace V18

/-! ## Baudot -/

/-- `conv` of `encode_baudot`.  /repo/src/v18.c:770-900. -/
def encTable : List Nat :=
  [0xFF, 0xFF, 0xFF, 0xFF, 0xFF, 0xFF, 0xFF, 0xFF, 0x40, 0x44, 0x42, 0x42, 0x42, 0x48, 0xFF, 0xFF, 0xFF, 0xFF,
   0xFF, 0xFF, 0xFF, 0xFF, 0xFF, 0xFF, 0xFF, 0xFF, 0x99, 0xFF, 0x42, 0x42, 0x42, 0x44, 0x44, 0x8D, 0x91, 0x89,
   0x89, 0x9D, 0x9A, 0x8B, 0x8F, 0x92, 0x9C, 0x9A, 0x8C, 0x83, 0x9C, 0x9D, 0x96, 0x97, 0x93, 0x81, 0x8A, 0x90,
   0x95, 0x87, 0x86, 0x98, 0x8E, 0x9E, 0x8F, 0x94, 0x92, 0x99, 0x1D, 0x03, 0x19, 0x0E, 0x09, 0x01, 0x0D, 0x1A,
   0x14, 0x06, 0x0B, 0x0F, 0x12, 0x1C, 0x0C, 0x18, 0x16, 0x17, 0x0A, 0x05, 0x10, 0x07, 0x1E, 0x13, 0x1D, 0x15,
   0x11, 0x8F, 0x9D, 0x92, 0x8B, 0x44, 0x8B, 0x03, 0x19, 0x0E, 0x09, 0x01, 0x0D, 0x1A, 0x14, 0x06, 0x0B, 0x0F,
   0x12, 0x1C, 0x0C, 0x18, 0x16, 0x17, 0x0A, 0x05, 0x10, 0x07, 0x1E, 0x13, 0x1D, 0x15, 0x11, 0x8F, 0x8D, 0x92,
   0x44, 0xFF]

/-- /repo/src/v18.c:768-930 (`encode_baudot`), with the state of `baudot_tx_shift`. -/
def encodeBaudot (rep : Bool) (shift : Nat) (ch : Nat) : Nat × Nat :=
  let c := encTable.getD (ch % 128) 0xFF
  if c = 0xFF then (0, shift)
  else if c &&& 0x40 ≠ 0 then (0x8000 ||| (c &&& 0x1F), shift)
  else if c &&& 0x80 ≠ 0 then
    if !rep && shift == 1 then (c &&& 0x1F, shift) else (0x8000 ||| (0x1B <<< 5) ||| (c &&& 0x1F), 1)
  else
    if !rep && shift == 0 then (c &&& 0x1F, shift) else (0x8000 ||| (0x1F <<< 5) ||| (c &&& 0x1F), 0)

/-- `conv` of `decode_baudot`.  /repo/src/v18.c:936-940. -/
def letters : List Nat :=
  [8, 69, 10, 65, 32, 83, 73, 85, 13, 68, 82, 74, 78, 70, 67, 75, 84, 90, 76, 87, 72, 89, 80, 81, 79, 66, 71,
   94, 77, 88, 86, 94]

def figures : List Nat :=
  [8, 51, 10, 45, 32, 45, 56, 55, 13, 36, 52, 39, 44, 33, 58, 40, 53, 34, 41, 50, 61, 54, 48, 49, 57, 63, 43,
   94, 46, 47, 59, 94]

/-- /repo/src/v18.c:934-956 (`decode_baudot`), with the state of `baudot_rx_shift`.  A code outside the table is
a fault. -/
def decodeBaudot (shift : Nat) (ch : Nat) : Option (Nat × Nat) :=
  if ch = 0x1B then some (0xFF, 1)
  else if ch = 0x1F then some (0xFF, 0)
  else
    match shift with
    | 0 => letters[ch]?.map fun c => (c, shift)
    | 1 => figures[ch]?.map fun c => (c, shift)
    | _ => none

/-! ## A station -/

/-- What is used of `v18_state_t`.  /repo/src/spandsp/private/v18.h:68-140.  `msg` is `rx_msg` up to `rx_msg_len`. -/
structure Station where
  queue : List Nat
  repeatShifts : Bool
  txShift : Nat
  next : Nat
  draining : Bool
  signal : Nat
  rxShift : Nat
  msg : List Char
  progress : Nat
  rxSuppress : Nat
  txSuppress : Nat
  deriving DecidableEq, Repr

/-- The modes of Weitbrecht TDDs and the mode for DTMF.  /repo/src/spandsp/v18.h:41-61. -/
inductive Mode where
  | weitbrecht4545
  | weitbrecht476
  | weitbrecht50
  | dtmf
  deriving DecidableEq, Repr

/-- The value of a mode. -/
def Mode.value : Mode → Nat
  | .weitbrecht4545 => 0x0002
  | .weitbrecht476 => 0x0200
  | .weitbrecht50 => 0x0004
  | .dtmf => 0x0008

/-- /repo/src/v18.c:1367-1428 (`v18_set_modem`) for the modes above.  Others leave these fields as they are. -/
def setModem (s : Station) (mode : Nat) : Station :=
  if mode = 0x0002 ∨ mode = 0x0200 ∨ mode = 0x0004 then
    { s with repeatShifts := mode &&& 0x1000 != 0, txShift := 2, rxShift := 0, next := 0xFF }
  else s

/-- /repo/src/v18.c:2054-2115 (`v18_init`) without automoding. -/
def init (mode : Nat) : Station :=
  setModem ⟨[], false, 0, 0, false, 0, 0, [], 0, 0, 0⟩ (mode &&& (0xFFFF - 0x1000))

/-- /repo/src/v18.c:1990-2016 (`v18_put`).  The queue takes all or nothing; it has room for 128. -/
def put (s : Station) (l : List Nat) : Station × Bool :=
  if s.queue.length + l.length ≤ 128 then ({ s with queue := s.queue ++ l, signal := if s.signal = 0 then 1 else s.signal }, true)
  else (s, false)

/-- What `v18_tdd_get_async_byte` returns: a code, `SIG_STATUS_LINK_IDLE` or `SIG_STATUS_END_OF_DATA`. -/
inductive Out where
  | code (c : Nat)
  | idle
  | endOfData
  deriving DecidableEq, Repr

/-- The loop of /repo/src/v18.c:975-999: the first character which has a code, and what is left. -/
def nextChar (rep : Bool) (shift : Nat) : List Nat → Option (Nat × Nat × List Nat)
  | [] => none
  | ch :: q =>
    if (encodeBaudot rep shift ch).1 ≠ 0 then some ((encodeBaudot rep shift ch).1, (encodeBaudot rep shift ch).2, q)
    else nextChar rep (encodeBaudot rep shift ch).2 q

/-- /repo/src/v18.c:959-1017 (`v18_tdd_get_async_byte`). -/
def tddGet (s : Station) : Station × Out :=
  if s.next ≠ 0xFF then ({ s with rxSuppress := 2400, next := 0xFF }, .code s.next)
  else
    match nextChar s.repeatShifts s.txShift s.queue with
    | none =>
      if s.draining then ({ s with queue := [], draining := false }, .endOfData)
      else ({ s with queue := [], draining := true, rxSuppress := 2400 }, .idle)
    | some (x, shift, q) =>
      let s := { s with queue := q, txShift := shift, rxSuppress := 2400, signal := if s.signal = 1 then 2 else s.signal }
      if x &&& 0x3E0 ≠ 0 then ({ s with next := x &&& 0x1F }, .code ((x >>> 5) &&& 0x1F))
      else ({ s with next := 0xFF }, .code (x &&& 0x1F))

/-- /repo/src/v18.c:1155-1213 (`v18_tdd_put_async_byte`) for a code: what is told. -/
def tddPut (s : Station) (c : Nat) : Option (Station × List Nat) :=
  if s.rxSuppress > 0 then some (s, [])
  else (decodeBaudot s.rxShift c).map fun r => ({ s with rxShift := r.2 }, if r.1 ≠ 0xFF then [r.1] else [])

/-! ## DTMF -/

/-- `dtmf_to_ascii`, without the last entry.  /repo/src/v18.c:262-357. -/
def toAscii : List (String × Nat) :=
  [("###0", 33), ("###1", 67), ("###2", 70), ("###3", 73), ("###4", 76), ("###5", 79), ("###6", 82),
   ("###7", 85), ("###8", 88), ("###9", 59), ("##*1", 65), ("##*2", 68), ("##*3", 71), ("##*4", 74),
   ("##*5", 77), ("##*6", 80), ("##*7", 83), ("##*8", 86), ("##*9", 89), ("##1", 66), ("##2", 69), ("##3", 72),
   ("##4", 75), ("##5", 78), ("##6", 81), ("##7", 84), ("##8", 87), ("##9", 90), ("##0", 32), ("#*1", 230),
   ("#*2", 248), ("#*3", 229), ("#*4", 198), ("#*5", 216), ("#*6", 197), ("#0", 63), ("#1", 99), ("#2", 102),
   ("#3", 105), ("#4", 108), ("#5", 111), ("#6", 114), ("#7", 117), ("#8", 120), ("#9", 46), ("*#0", 48),
   ("*#1", 49), ("*#2", 50), ("*#3", 51), ("*#4", 52), ("*#5", 53), ("*#6", 54), ("*#7", 55), ("*#8", 56),
   ("*#9", 57), ("**1", 43), ("**2", 45), ("**3", 61), ("**4", 58), ("**5", 37), ("**6", 40), ("**7", 41),
   ("**8", 44), ("**9", 10), ("*0", 8), ("*1", 97), ("*2", 100), ("*3", 103), ("*4", 106), ("*5", 109),
   ("*6", 112), ("*7", 115), ("*8", 118), ("*9", 121), ("0", 32), ("1", 98), ("2", 101), ("3", 104),
   ("4", 107), ("5", 110), ("6", 113), ("7", 116), ("8", 119), ("9", 122)]

/-- `ascii_to_dtmf`.  /repo/src/v18.c:360-490. -/
def fromAscii : List String :=
  ["", "", "", "", "", "", "", "", "*0", "0", "**9", "**9", "**9", "", "", "", "", "", "", "", "", "", "", "",
   "", "", "#0", "", "**9", "**9", "**9", "0", "0", "###0", "", "", "", "**5", "**1", "", "**6", "**7", "#9",
   "**1", "**8", "**2", "#9", "", "*#0", "*#1", "*#2", "*#3", "*#4", "*#5", "*#6", "*#7", "*#8", "*#9", "**4",
   "###9", "**6", "**3", "**7", "#0", "###8", "##*1", "##1", "###1", "##*2", "##2", "###2", "##*3", "##3",
   "###3", "##*4", "##4", "###4", "##*5", "##5", "###5", "##*6", "##6", "###6", "##*7", "##7", "###7", "##*8",
   "##8", "###8", "##*9", "##9", "#*4", "#*5", "#*6", "", "0", "", "*1", "1", "#1", "*2", "2", "#2", "*3", "3",
   "#3", "*4", "4", "#4", "*5", "5", "#5", "*6", "6", "#6", "*7", "7", "#7", "*8", "8", "#8", "*9", "9", "#*1",
   "#*2", "#*3", "0", "*0"]

/-- `strncmp(key, code, strlen(code))`; the end of the key is a zero. -/
def cmp : List Char → List Char → Int
  | _, [] => 0
  | [], _ => -1
  | a :: l, c :: cs => if a = c then cmp l cs else (a.toNat : Int) - c.toNat

/-- `bsearch` of the C library: halving, as in glibc and most others. -/
def bsearch (key : List Char) : Nat → Nat → Nat → Option (List Char × Nat)
  | 0, _, _ => none
  | n + 1, l, u =>
    if l < u then
      match toAscii[(l + u)/2]? with
      | none => none
      | some (code, ascii) =>
        if cmp key code.toList < 0 then bsearch key n l ((l + u)/2)
        else if cmp key code.toList > 0 then bsearch key n ((l + u)/2 + 1) u
        else some (code.toList, ascii)
    else none

/-- The loop of `decode_dtmf`, with a bound on the turns.  /repo/src/v18.c:1227-1259: the character, if any, and the
number of digits which are taken for it. -/
def decodeDtmf : Nat → List Char → Option Nat × Nat
  | 0, _ => (none, 0)
  | _, [] => (none, 0)
  | n + 1, t =>
    match bsearch t (toAscii.length + 1) 0 toAscii.length with
    | some (code, ascii) => (some ascii, code.length)
    | none => decodeDtmf n ((t.dropWhile fun c => c = '#' || c = '*').drop 1)

/-- One digit of /repo/src/v18.c:1282-1298, for `m` in `rx_msg`.  It is a fault to write beyond `rx_msg`, which has 257
octets, and to copy to where it overlaps. -/
def digit (m : List Char) (d : Char) : Option (List Char × List Nat) :=
  if m.length ≥ 257 then none
  else
    let m := m ++ [d]
    if '0' ≤ d ∧ d ≤ '9' then
      if m.length ≥ 257 then none
      else
        let r := decodeDtmf (m.length + 1) m
        if m.length > r.2 ∧ m.length - r.2 > r.2 ∧ r.2 > 0 then none
        else some (m.drop r.2, r.1.toList)
    else some (m, [])

/-- The loop of /repo/src/v18.c:1280-1300. -/
def digits (m : List Char) : List Char → Option (List Char × List Nat)
  | [] => some (m, [])
  | d :: l => (digit m d).bind fun r => (digits r.1 l).map fun x => (x.1, r.2 ++ x.2)

/-- /repo/src/v18.c:1262-1302 (`v18_dtmf_put`) in the mode for DTMF. -/
def dtmfPut (s : Station) (l : List Char) : Option (Station × List Nat) :=
  let s := { s with txSuppress := 3200 }
  if s.rxSuppress > 0 then some (s, [])
  else (digits s.msg l).map fun r => ({ s with msg := r.1, progress := 40000 }, r.2)

/-- The digits for a character.  /repo/src/v18.c:1034-1074. -/
def dtmfCode (ch : Nat) : List Char :=
  (if ch &&& 0x80 ≠ 0 then
    match ch with
    | 0xC6 => fromAscii.getD 0x5B ""
    | 0xD8 => fromAscii.getD 0x5C ""
    | 0xC5 => fromAscii.getD 0x5D ""
    | 0xE6 => fromAscii.getD 0x7B ""
    | 0xF8 => fromAscii.getD 0x7C ""
    | 0xE5 => fromAscii.getD 0x7D ""
    | _ => ""
  else fromAscii.getD ch "").toList

/-- /repo/src/v18.c:1020-1083 (`v18_dtmf_get`): the digits which are put.  It is called when the generator has none
left, so that they fit. -/
def dtmfGet (s : Station) : Station × List Char :=
  if s.txSuppress > 0 then (s, [])
  else
    match s.queue with
    | [] => (s, [])
    | ch :: q =>
      if (dtmfCode ch).length > 0 then ({ s with queue := q, rxSuppress := (300 + 100*(dtmfCode ch).length)*8 }, dtmfCode ch)
      else ({ s with queue := q }, [])

/-- The timers of /repo/src/v18.c:1876-1883 and 1917-1929, in the mode for DTMF, for `len` samples. -/
def rxTime (s : Station) (len : Nat) : Station :=
  let s := { s with rxSuppress := s.rxSuppress - len }
  if s.progress ≠ 0 then
    if s.progress ≤ len then { s with progress := 0, msg := [] } else { s with progress := s.progress - len }
  else s

/-- The timer of /repo/src/v18.c:1812-1819. -/
def txTime (s : Station) (len : Nat) : Station := { s with txSuppress := s.txSuppress - len }

end V18
