import Verif.Qm.Model

/-!
# Model of src/t85_encode.c and src/t85_decode.c, the JBIG fax image coder of T.85

One bit plane, as T.85 has it. Rows are lists of bytes. The arithmetic coder is that of `Verif.Qm.Model`. The handlers for rows are modelled by lists: the
rows which the source will still give, and the rows which have been delivered. The handler for rows never interrupts the decoder, and there is no handler for
comments. An application which calls `t85_encode_set_image_length`, `t85_encode_comment` or `t85_encode_abort` in the middle of a page is not modelled.
Memory allocation does not fail.
-/

namespace T85

open Qm (u32 sub32 Cx)

/-- The registers `row_h[3]` with the pixels around the one to be coded. -/
structure Regs where
  r0 : Nat
  r1 : Nat
  r2 : Nat
deriving DecidableEq, Repr

/-- `(s->xd + 7) >> 3`, src/t85_encode.c:262 and src/t85_decode.c:470. -/
def bpr (xd : Nat) : Nat := u32 (xd + 7) / 8

/-- `TPB2CX` and `TPB3CX`, src/spandsp/private/t85.h:33-34. -/
def tpCx (two : Bool) : Cx := if two then 0x195 else 0x0E5

/-- The pixel `k` of a row, `(hp[0][o >> 3] >> (7 - (o & 7))) & 1` where `hp[0]` points to the byte of pixel `j` and `o` is `k - (j & ~7)`, as in
src/t85_encode.c:378-379. -/
def pixel (row : List Nat) (k : Nat) : Nat := (row.getD (k / 8) 0 >>> (7 - k % 8)) &&& 1

/-- `put_net_unaligned_uint32`. -/
def net32 (v : Nat) : List Nat := [v / 2 ^ 24 % 256, v / 2 ^ 16 % 256, v / 2 ^ 8 % 256, v % 256]

/-- `get_net_unaligned_uint32`. -/
def get32 (l : List Nat) : Nat := l.getD 0 0 * 2 ^ 24 + l.getD 1 0 * 2 ^ 16 + l.getD 2 0 * 2 ^ 8 + l.getD 3 0

/-! ## The encoder -/

/-- src/t85_encode.c:58-63. -/
inductive NewLen where
  | none
  | pending
  | handled
deriving DecidableEq, Repr

/-- `t85_encode_state_s`, src/spandsp/private/t85.h:51-113. `options` is `tpb`, `vlen` and `two`. `newTx` is `none` for -1. `out` is the part of `bitstream`
from `bitstream_optr` to `bitstream_iptr`. `src` are the rows which the row handler will give: after them it returns 0. -/
structure Enc where
  xd : Nat
  yd : Nat
  l0 : Nat
  mx : Nat
  tpb : Bool
  vlen : Bool
  two : Bool
  y : Nat
  i : Nat
  newlen : NewLen
  tx : Nat
  newTx : Option Nat
  cAll : Nat
  c : List Nat
  prevLtp : Bool
  row0 : List Nat
  row1 : List Nat
  row2 : List Nat
  fill : Bool
  qm : Qm.Enc
  out : List Nat
  src : List (List Nat)

/-- `put_stuff`, src/t85_encode.c:65-86. -/
def Enc.put (s : Enc) (b : List Nat) : Enc := { s with out := s.out ++ b }

/-- A call of the arithmetic encoder, which gives its bytes to `output_byte`, src/t85_encode.c:90-98. -/
def Enc.arith (s : Enc) (f : Qm.Enc → Qm.Enc) : Enc :=
  { s with qm := f { s.qm with out := [] }, out := s.out ++ (f { s.qm with out := [] }).out }

/-- `output_newlen`, src/t85_encode.c:111-130. -/
def Enc.putNewlen (s : Enc) : Enc :=
  if s.newlen = .pending then
    let s := s.put ([0xFF, 0x05] ++ net32 s.yd)
    let s := if s.y = s.yd then s.put [0xFF, 0x02] else s
    { s with newlen := .handled }
  else s

/-- `output_atmove`, src/t85_encode.c:151-166. -/
def Enc.putAtmove (s : Enc) : Enc :=
  match s.newTx with
  | some t => if t ≠ s.tx then { s with tx := t }.put [0xFF, 0x06, 0, 0, 0, 0, t, 0] else s
  | none => s

/-- The options byte. -/
def optionsByte (tpb vlen two : Bool) : Nat := (if tpb then 0x08 else 0) + (if vlen then 0x20 else 0) + (if two then 0x40 else 0)

/-- `generate_bih`, src/t85_encode.c:169-208. -/
def Enc.bih (s : Enc) : List Nat :=
  [0, 0, 1, 0] ++ net32 s.xd ++ net32 s.yd ++ net32 s.l0 ++ [s.mx, 0, 0, optionsByte s.tpb s.vlen s.two]

/-- `t85_encode_set_options`, src/t85_encode.c:211-229. A negative `mx` or `options` is not modelled. -/
def Enc.setOptions (s : Enc) (l0 mx options : Nat) : Enc :=
  if s.y > 0 then s else
  { s with
    l0 := if l0 ≥ 1 ∧ l0 ≤ s.yd then l0 else s.l0
    mx := if mx ≤ 127 then mx else s.mx
    tpb := options.testBit 3
    vlen := options.testBit 5
    two := options.testBit 6 }

/-- The flush and the marker at the end of a stripe, src/t85_encode.c:490-492 and 605-607. -/
def Enc.endStripe (s : Enc) : Enc := { (s.arith Qm.flush).put [0xFF, 0x02] with i := 0 }

/-- `t85_encode_set_image_length`, src/t85_encode.c:575-614. The return value -1 is `none`. -/
def Enc.setLength (s : Enc) (n : Nat) : Option Enc :=
  if s.vlen = false ∨ s.newlen = .handled ∨ n ≥ s.yd ∨ n < 1 then none
  else
    let n := if s.y > 0 ∧ n < s.y then s.y else n
    let s := if s.y > 0 ∧ s.yd ≠ n then { s with newlen := .pending } else s
    let s := { s with yd := n }
    if s.y = s.yd then some (if s.i > 0 then s.endStripe else s).putNewlen else some s

/-- The registers at the start of a row, src/t85_encode.c:350-352. -/
def initRegs (row1 row2 : List Nat) : Regs := ⟨0, row1.getD 0 0 * 2 ^ 8, row2.getD 0 0 * 2 ^ 8⟩

/-- The next byte of each row goes into the registers, src/t85_encode.c:357-362. -/
def encLoad (xd : Nat) (row0 row1 row2 : List Nat) (j : Nat) (r : Regs) : Regs :=
  if j < (bpr xd - 1) * 8 then ⟨r.r0 ||| row0.getD (j / 8) 0, r.r1 ||| row1.getD (j / 8 + 1) 0, r.r2 ||| row2.getD (j / 8 + 1) 0⟩
  else ⟨r.r0 ||| row0.getD (j / 8) 0, r.r1, r.r2⟩

/-- `row_h[k] <<= 1`, src/t85_encode.c:369-371. -/
def encShift (r : Regs) : Regs := ⟨u32 (2 * r.r0), u32 (2 * r.r1), u32 (2 * r.r2)⟩

/-- The context of a pixel, src/t85_encode.c:372-387 and 428-443. -/
def encCx (two : Bool) (tx : Nat) (row0 : List Nat) (j : Nat) (r : Regs) : Nat :=
  if two then
    ((r.r0 >>> 9) &&& 0x00F) |||
      (if tx ≠ 0 then ((r.r1 >>> 10) &&& 0x3E0) ||| (if j ≥ tx then pixel row0 (j - tx) <<< 4 else 0) else (r.r1 >>> 10) &&& 0x3F0)
  else
    ((r.r2 >>> 8) &&& 0x380) ||| ((r.r0 >>> 9) &&& 0x003) |||
      (if tx ≠ 0 then ((r.r1 >>> 12) &&& 0x078) ||| (if j ≥ tx then pixel row0 (j - tx) <<< 2 else 0) else (r.r1 >>> 12) &&& 0x07C)

/-- A pixel which has been coded: its context, its colour, and the colour of the pixel above it which the statistics look at. -/
structure Coded where
  cx : Nat
  pix : Nat
  up : Nat
deriving DecidableEq, Repr

/-- The loop over the pixels of a row, src/t85_encode.c:354-480: `n` pixels, from pixel `j`. -/
def encPixels (xd : Nat) (two : Bool) (tx : Nat) (row0 row1 row2 : List Nat) : Nat → Nat → Regs → List Coded
  | 0, _, _ => []
  | n + 1, j, r =>
    let r := encShift (if j % 8 = 0 then encLoad xd row0 row1 row2 j r else r)
    ⟨encCx two tx row0 j r, (r.r0 >>> 8) &&& 1, (r.r1 >>> 14) &&& 1⟩ :: encPixels xd two tx row0 row1 row2 n (j + 1) r

/-- The smallest offset of the adaptive pixel. -/
def lowTx (two : Bool) : Nat := if two then 5 else 3

/-- The statistics for adaptive template changes, src/t85_encode.c:391-415 and 447-471, for pixel `j`. The analysis is in progress. `xd - 2` is computed in
`uint32_t`. -/
def stat (xd mx : Nat) (two : Bool) (row0 : List Nat) (j : Nat) (p : Coded) (s : Nat × List Nat) : Nat × List Nat :=
  if j ≥ mx ∧ j < sub32 xd 2 then
    (s.1 + 1, s.2.mapIdx (fun t n =>
      if t = 0 then (if p.pix = p.up then n + 1 else n)
      else if lowTx two ≤ t ∧ t ≤ mx then
        if t ≤ j then (if pixel row0 (j - t) = p.pix then n + 1 else n) else (if p.pix = 0 then n + 1 else n)
      else n))
  else s

/-- The statistics of a row, from pixel `j`. -/
def stats (xd mx : Nat) (two : Bool) (row0 : List Nat) : Nat → List Coded → Nat × List Nat → Nat × List Nat
  | _, [], s => s
  | j, p :: l, s => stats xd mx two row0 (j + 1) l (stat xd mx two row0 j p s)

/-- The offsets which the analysis compares. -/
def offsets (mx : Nat) (two : Bool) : List Nat := (List.range (mx + 1)).filter (lowTx two ≤ ·)

/-- The offset with the highest count, src/t85_encode.c:505-516. -/
def tMax (mx : Nat) (two : Bool) (c : List Nat) : Nat := (offsets mx two).foldl (fun m i => if c.getD i 0 > c.getD m 0 then i else m) 0

/-- The test of T.82 figure C.2, src/t85_encode.c:497-542. -/
def newOffset (mx : Nat) (two : Bool) (tx cAll : Nat) (c : List Nat) : Nat :=
  let cMax := (offsets mx two).foldl (fun m i => if c.getD i 0 > m then c.getD i 0 else m) 0
  let cMin := (offsets mx two).foldl (fun m i => if c.getD i 0 < m then c.getD i 0 else m) (2 ^ 32 - 1)
  let clMin := if c.getD 0 0 < cMin then c.getD 0 0 else cMin
  let clMax := if c.getD 0 0 > cMax then c.getD 0 0 else cMax
  let ctx := c.getD tx 0
  if sub32 cAll cMax < cAll / 8 ∧ sub32 cMax ctx > sub32 cAll cMax ∧ sub32 cMax ctx > cAll / 16 ∧
      sub32 cMax (sub32 cAll ctx) > sub32 cAll cMax ∧ sub32 cMax (sub32 cAll ctx) > cAll / 16 ∧ sub32 cMax cMin > cAll / 4 ∧
      (tx ≠ 0 ∨ sub32 clMax clMin > cAll / 8) then tMax mx two c
  else tx

/-- `t81_t82_arith_encode` for each pixel. -/
def toDec (p : Coded) : Cx × Bool := (Fin.ofNat 4096 p.cx, p.pix = 1)

/-- Things to be done before the first row, and before a stripe, src/t85_encode.c:297-327. -/
def Enc.beginRow (s : Enc) : Enc :=
  let s := if s.y = 0 then s.put s.bih else s
  if s.i = 0 then
    let s := s.putNewlen.putAtmove
    let s := if s.mx = 0 then { s with newTx := some 0 } else { s with newTx := none, cAll := 0, c := List.replicate 128 0 }
    s.arith (fun q => { Qm.encodeRestart q.st true with out := q.out })
  else s

/-- The row is typical, src/t85_encode.c:331-340. -/
def Enc.ltp (s : Enc) : Bool := s.tpb && s.row0 == s.row1

/-- The coding of a row, src/t85_encode.c:330-482. -/
def Enc.codeRow (s : Enc) : Enc :=
  let px := if s.ltp then [] else encPixels s.xd s.two s.tx s.row0 s.row1 s.row2 s.xd 0 (initRegs s.row1 s.row2)
  let tp := if s.tpb then [(tpCx s.two, s.ltp == s.prevLtp)] else []
  let s := s.arith (Qm.encodeAll · (tp ++ px.map toDec))
  let st := if s.newTx = none then stats s.xd s.mx s.two s.row0 0 px (s.cAll, s.c) else (s.cAll, s.c)
  { s with prevLtp := if s.tpb then s.ltp else s.prevLtp, cAll := st.1, c := st.2 }

/-- The end of a row, src/t85_encode.c:485-543. -/
def Enc.endRow (s : Enc) : Enc :=
  let s := { s with i := s.i + 1, y := s.y + 1 }
  let s := if s.i = s.l0 ∨ s.y = s.yd then s.endStripe.putNewlen else s
  if s.newTx = none ∧ s.cAll > 2048 then { s with newTx := some (newOffset s.mx s.two s.tx s.cAll s.c) } else s

/-- The padding bits of the last byte are cleared, src/t85_encode.c:293-294. -/
def mask (xd : Nat) (row : List Nat) : List Nat :=
  if xd % 8 ≠ 0 then row.set (bpr xd - 1) (row.getD (bpr xd - 1) 0 / 2 ^ (8 - xd % 8) * 2 ^ (8 - xd % 8)) else row

/-- A row is there, src/t85_encode.c:293-543. -/
def Enc.doRow (s : Enc) (row : List Nat) : Enc := ({ s with row0 := mask s.xd row }.beginRow).codeRow.endRow

/-- All white. -/
def white (xd : Nat) : List Nat := List.replicate (bpr xd) 0

/-- `get_next_row`, src/t85_encode.c:232-546. The return value -1 is `none`. -/
def Enc.nextRow (s : Enc) : Option Enc :=
  if s.y ≥ s.yd then none
  else
    let s := { s with out := [], row0 := s.row2, row1 := s.row0, row2 := s.row1 }
    if s.fill then some (s.doRow (white s.xd))
    else
      match s.src with
      | row :: t => some ({ s with src := t }.doRow row)
      | [] =>
        match s.setLength 1 with
        | some s => some s
        | none => some ({ s with fill := true }.doRow (white s.xd))

/-- `t85_encode_get`, src/t85_encode.c:642-665. A call reads at most `s.yd - s.y` rows. -/
def Enc.getLoop : Nat → Enc → Nat → Enc × List Nat
  | 0, s, _ => (s, [])
  | k + 1, s, n =>
    if n = 0 then (s, [])
    else
      match (if s.out = [] then s.nextRow else some s) with
      | none => (s, [])
      | some s =>
        let (s', b) := Enc.getLoop k { s with out := s.out.drop n } (n - s.out.length)
        (s', s.out.take n ++ b)

def Enc.get (s : Enc) (n : Nat) : Enc × List Nat := Enc.getLoop (s.yd - s.y + 2) s n

/-- `t85_encode_init`, src/t85_encode.c:702-775, with the rows which its handler will give. -/
def Enc.init (xd yd : Nat) (src : List (List Nat)) : Enc :=
  ⟨xd, yd, 128, 127, true, true, false, 0, 0, .none, 0, none, 0, List.replicate 128 0, false, white xd, white xd, white xd, false,
    Qm.encodeRestart (fun _ => 0) false, [], src⟩

/-! ## The decoder -/

/-- The part of `t85_decode_state_s`, src/spandsp/private/t85.h:116-209, for the pixels. `at` is `at_row[0]` and `at_tx[0]` if `at_moves` is 1. The three
rows of `row_buf` are `b0`, `b1` and `b2`. `p1` and `p2` are `none` for -1. `rows` are the rows which have been given to the row handler. -/
structure Pic where
  xd : Nat
  yd : Nat
  l0 : Nat
  tpb : Bool
  two : Bool
  x : Nat
  y : Nat
  i : Nat
  pseudo : Bool
  lntp : Bool
  tx : Nat
  at' : Option (Nat × Nat)
  r : Regs
  buf : List (List Nat)
  p0 : Nat
  p1 : Option Nat
  p2 : Option Nat
  rows : List (List Nat)
deriving DecidableEq, Repr

/-- `s->row_buf + p*s->bytes_per_row`. -/
def Pic.row (s : Pic) (p : Nat) : List Nat := s.buf.getD p []

/-- The byte `k` of the row, if there is one. -/
def Pic.byte (s : Pic) (p : Option Nat) (k : Nat) : Nat :=
  match p with
  | some p => (s.row p).getD k 0
  | none => 0

/-- The adaptive template changes, src/t85_decode.c:82-90. -/
def Pic.move (s : Pic) : Pic :=
  { s with
    tx :=
      match s.at' with
      | some (row, tx) => if s.x = 0 ∧ s.pseudo = true ∧ row = s.i then tx else s.tx
      | none => s.tx }

/-- The registers at the start of a row, src/t85_decode.c:126-131. -/
def Pic.initRegs (s : Pic) : Pic := { s with r := if s.x = 0 then ⟨0, s.byte s.p1 0 * 2 ^ 8, s.byte s.p2 0 * 2 ^ 8⟩ else s.r }

/-- The next bytes of the rows above, src/t85_decode.c:136-144. -/
def Pic.load (s : Pic) : Pic :=
  { s with
    r :=
      if s.x % 8 = 0 ∧ s.x < (bpr s.xd - 1) * 8 ∧ s.p1.isSome then
        ⟨s.r.r0, s.r.r1 ||| s.byte s.p1 (s.x / 8 + 1), s.r.r2 ||| s.byte s.p2 (s.x / 8 + 1)⟩
      else s.r }

/-- The context of a pixel, src/t85_decode.c:150-169 and 182-201. -/
def Pic.cx (s : Pic) : Nat :=
  if s.two then
    (s.r.r0 &&& 0x00F) |||
      (if s.tx ≠ 0 then
        ((s.r.r1 >>> 9) &&& 0x3E0) |||
          (if s.x ≥ s.tx then (if s.tx < 8 then (s.r.r0 >>> (s.tx - 5)) &&& 0x010 else pixel (s.row s.p0) (s.x - s.tx) <<< 4) else 0)
      else (s.r.r1 >>> 9) &&& 0x3F0)
  else
    ((s.r.r2 >>> 7) &&& 0x380) ||| (s.r.r0 &&& 0x003) |||
      (if s.tx ≠ 0 then
        ((s.r.r1 >>> 11) &&& 0x078) |||
          (if s.x ≥ s.tx then (if s.tx < 8 then (s.r.r0 >>> (s.tx - 3)) &&& 0x004 else pixel (s.row s.p0) (s.x - s.tx) <<< 2) else 0)
      else (s.r.r1 >>> 11) &&& 0x07C)

/-- What is done up to the next call of the arithmetic decoder, and the context for it. -/
def Pic.ask (s : Pic) : Pic × Cx :=
  let s := s.move
  if s.tpb = true ∧ s.pseudo = true then (s, tpCx s.two)
  else
    let s := { s with pseudo := false }.initRegs.load
    (s, Fin.ofNat 4096 s.cx)

/-- The next row of the ring, `buffered_rows` is 2 or 3, src/t85_decode.c:111-112. -/
def Pic.next (s : Pic) : Nat := if s.p0 + 1 ≥ (if s.two then 2 else 3) then 0 else s.p0 + 1

/-- A typical row, src/t85_decode.c:99-120. -/
def Pic.typical (s : Pic) : Pic :=
  match s.p1 with
  | none =>
    { s with buf := s.buf.set s.p0 (white s.xd), rows := s.rows ++ [white s.xd], p2 := s.p1, p1 := some s.p0, p0 := s.next, i := s.i + 1, y := s.y + 1 }
  | some p => { s with rows := s.rows ++ [s.row p], p2 := s.p1, i := s.i + 1, y := s.y + 1 }

/-- The end of a row, src/t85_decode.c:218-226: the pixels of the last byte are moved to its top. -/
def Pic.endRow (s : Pic) : Pic :=
  let k := bpr s.xd - 1
  let row := (s.row s.p0).set k ((s.row s.p0).getD k 0 * 2 ^ (bpr s.xd * 8 - s.xd) % 256)
  { s with buf := s.buf.set s.p0 row, rows := s.rows ++ [row], x := 0, pseudo := true, p2 := s.p1, p1 := some s.p0, p0 := s.next, i := s.i + 1, y := s.y + 1 }

/-- The registers with the next pixel, src/t85_decode.c:173-174 and 205-207. In the two row template `row_h[2]` is not shifted. -/
def decShift (two : Bool) (r : Regs) (b : Bool) : Regs :=
  ⟨u32 (2 * r.r0) ||| (if b then 1 else 0), u32 (2 * r.r1), if two then r.r2 else u32 (2 * r.r2)⟩

/-- The next pixel, src/t85_decode.c:173-217: a byte of the row is written when it is complete. -/
def Pic.shift (s : Pic) (b : Bool) : Pic :=
  { s with
    r := decShift s.two s.r b
    x := s.x + 1
    buf :=
      if (s.x + 1) % 8 = 0 ∨ s.x + 1 = s.xd then s.buf.set s.p0 ((s.row s.p0).set (s.x / 8) ((decShift s.two s.r b).r0 % 256))
      else s.buf }

/-- What is done with the answer of the arithmetic decoder. -/
def Pic.feed (s : Pic) (b : Bool) : Pic :=
  if s.tpb = true ∧ s.pseudo = true then
    if (b == s.lntp) = false then { s with lntp := b == s.lntp }.typical else { s with lntp := b == s.lntp, pseudo := false }
  else if s.x + 1 = s.xd then (s.shift b).endRow
  else s.shift b

/-- The loop of `decode_pscd`, src/t85_decode.c:76-227: one round for each call of the arithmetic decoder, until the stripe or the image ends, or the
arithmetic decoder needs data. A row takes at most `xd + 1` rounds. -/
def pscdLoop : Nat → Pic → Qm.Dec → Pic × Qm.Dec
  | 0, s, d => (s, d)
  | n + 1, s, d =>
    if s.i < s.l0 ∧ s.y < s.yd then
      match Qm.decode d s.ask.2 with
      | (d, .ok b) => pscdLoop n (s.ask.1.feed b) d
      | (d, _) => (s.ask.1, d)
    else (s, d)

/-- The rest of `t85_decode_state_s`. `bih` is `buffer` while the header is read: its length is `bie_len`. After that `mark` is `buffer`: its length is
`buf_len`. -/
structure Dec where
  maxXd : Nat
  maxYd : Nat
  mx : Nat
  vlen : Bool
  bih : List Nat
  mark : List Nat
  needed : Nat
  eod : Nat
  commentLen : Nat
  commentProgress : Nat
  pic : Pic
  qm : Qm.Dec

/-- `decode_pscd`, src/t85_decode.c:61-229. The second part of the result is the data which has not been read. -/
def Dec.pscd (s : Dec) (data : List Nat) : Dec × List Nat :=
  let r := pscdLoop ((s.pic.yd - s.pic.y) * (s.pic.xd + 1)) s.pic { s.qm with data := data }
  ({ s with pic := r.1, qm := { r.2 with data := [] } }, r.2.data)

/-- `finish_sde`, src/t85_decode.c:232-257, for the marker `m`. -/
def Dec.finish (s : Dec) (m : Nat) : Dec :=
  let s := ({ s with qm := { s.qm with nopadding := false } }.pscd [0xFF, m]).1
  let p := { s.pic with x := 0, i := 0, pseudo := true, at' := none }
  let p := if m = 0x03 then { p with tx := 0, lntp := true, p0 := 0, p1 := none, p2 := none } else p
  { s with qm := Qm.decodeRestart s.qm.st (m = 0x02) s.vlen [], pic := p }

/-- What a call of `t85_decode_put` returns. -/
inductive Status where
  | moreData
  | ok
  | invalid
  | aborted
deriving DecidableEq, Repr

/-- `extract_bih`, src/t85_decode.c:306-403, and the preparations in src/t85_decode.c:469-505. The rows of the ring are as long as they have to be, and hold
zeros, where the C code leaves whatever was there: they are not read before they are written. -/
def Dec.begin (s : Dec) : Option Dec :=
  let b := s.bih
  let xd := get32 (b.drop 4)
  let yd := get32 (b.drop 8)
  let l0 := get32 (b.drop 12)
  let mx := b.getD 16 0
  let op := b.getD 19 0
  if b.getD 0 0 ≠ 0 ∨ b.getD 1 0 ≠ 0 ∨ b.getD 3 0 ≠ 0 ∨ b.getD 17 0 ≠ 0 ∨ b.getD 18 0 / 16 ≠ 0 ∨ b.getD 2 0 ≠ 1 ∨ xd = 0 ∨
      (s.maxXd ≠ 0 ∧ xd > s.maxXd) ∨ yd = 0 ∨ (s.maxYd ≠ 0 ∧ op.testBit 5 = false ∧ yd > s.maxYd) ∨ l0 = 0 ∨ mx > 127 ∨
      op &&& 0x97 ≠ 0 then none
  else
    some { s with
      mx := mx
      vlen := op.testBit 5
      mark := []
      needed := 2
      commentLen := 0
      commentProgress := 0
      qm := Qm.decodeRestart (fun _ => 0) false (op.testBit 5) []
      pic := ⟨xd, if s.maxYd ≠ 0 ∧ yd > s.maxYd then s.maxYd else yd, l0, op.testBit 3, op.testBit 6, 0, 0, 0, true, true, 0, none, ⟨0, 0, 0⟩,
        List.replicate 3 (white xd), 0, none, none, []⟩ }

/-- What one round of the loop of `t85_decode_put` leads to: another round, with the rest of the data, or the end of the call. -/
inductive Act where
  | again (s : Dec) (data : List Nat)
  | stop (s : Dec) (r : Status)

/-- After the end of a stripe: was this the last one, src/t85_decode.c:665-670. -/
def Dec.sde (s : Dec) (m : Nat) (next : List Nat) (data : List Nat) : Act :=
  let s := s.finish m
  if s.pic.y ≥ s.pic.yd then .stop s .ok else .again { s with mark := next } data

/-- The end of a stripe, src/t85_decode.c:656-766. -/
def Dec.sdMark (s : Dec) (m : Nat) (data : List Nat) : Act :=
  if s.vlen = false then { s with mark := [] }.sde m [] data
  else
    let s := { s with needed := max s.needed 3 }
    if s.mark.length < 3 then .again s data
    else if s.mark.getD 2 0 ≠ 0xFF then { s with needed := 2, mark := [] }.sde m [] (s.mark.getD 2 0 :: data)
    else
      let s := { s with needed := max s.needed 4 }
      if s.mark.length < 4 then .again s data
      else if s.mark.getD 3 0 ≠ 0x05 then { s with needed := 2 }.sde m [0xFF, s.mark.getD 3 0] data
      else
        let s := { s with needed := max s.needed 8 }
        if s.mark.length < 8 then .again s data
        else
          let y := get32 (s.mark.drop 4)
          let s := { s with needed := 2, mark := [], vlen := false }
          if y > s.pic.yd then .stop { s with eod := 2 } .invalid
          else .again ({ s with pic := { s.pic with yd := y } }.finish m) data

/-- The adaptive template change, src/t85_decode.c:605-631. -/
def Dec.atMark (s : Dec) (data : List Nat) : Act :=
  let s := { s with needed := 8 }
  if s.mark.length < 8 then .again s data
  else
    let row := get32 (s.mark.drop 2)
    let tx := s.mark.getD 6 0
    let z := s.mark.getD 7 0
    let s := { s with needed := 2, mark := [] }
    if s.pic.at'.isSome then .stop { s with eod := 2 } .invalid
    else if tx > s.mx ∨ (tx > 0 ∧ tx < lowTx s.pic.two) ∨ z ≠ 0 then .stop { s with eod := 2 } .invalid
    else .again { s with pic := { s.pic with at' := some (row, tx) } } data

/-- The new length, src/t85_decode.c:632-655. -/
def Dec.newlenMark (s : Dec) (data : List Nat) : Act :=
  let s := { s with needed := 6 }
  if s.mark.length < 6 then .again s data
  else
    let y := get32 (s.mark.drop 2)
    let s := { s with needed := 2, mark := [] }
    if s.vlen = false then .stop { s with eod := 2 } .invalid
    else if y > s.pic.yd then .stop { s with eod := 2, vlen := false } .invalid
    else .again { s with vlen := false, pic := { s.pic with yd := y } } data

/-- A comment, src/t85_decode.c:585-604. -/
def Dec.commentMark (s : Dec) (data : List Nat) : Act :=
  let s := { s with needed := 6 }
  if s.mark.length < 6 then .again s data
  else .again { s with needed := 2, mark := [], commentLen := get32 (s.mark.drop 2), commentProgress := 0 } data

/-- A marker, of which at least two bytes are there, src/t85_decode.c:572-771. -/
def Dec.marker (s : Dec) (data : List Nat) : Act :=
  let m := s.mark.getD 1 0
  if m = 0x00 then .again { (s.pscd (s.mark.take 2)).1 with mark := [] } data
  else if m = 0x04 then .stop { s with mark := [] } .aborted
  else if m = 0x07 then s.commentMark data
  else if m = 0x06 then s.atMark data
  else if m = 0x05 then s.newlenMark data
  else if m = 0x02 ∨ m = 0x03 then s.sdMark m data
  else .stop { s with mark := [], eod := 2 } .invalid

/-- The body of the loop of `t85_decode_put`, src/t85_decode.c:510-794. -/
def Dec.round (s : Dec) (data : List Nat) : Act :=
  let s := if s.eod = 1 then { s with needed := 2, vlen := false, eod := 2 } else s
  if s.commentLen ≠ 0 then
    if s.commentProgress + data.length ≥ s.commentLen then
      .again { s with commentLen := 0, commentProgress := 0 } (data.drop (s.commentLen - s.commentProgress))
    else .again { s with commentProgress := s.commentProgress + data.length } []
  else if s.mark ≠ [] then
    let k := s.needed - s.mark.length
    let s := { s with mark := s.mark ++ data.take k }
    if s.mark.length < s.needed then .again s (data.drop k) else s.marker (data.drop k)
  else if data.head? = some 0xFF then .again { s with mark := [0xFF] } data.tail
  else
    let (s, rest) := s.pscd data
    if rest ≠ [] ∧ rest.head? ≠ some 0xFF then .stop { s with eod := 2 } .invalid else .again s rest

/-- A number which gets smaller with each round, as long as the end of the data has not been announced. -/
def Dec.work (s : Dec) (data : List Nat) : Nat := 8 * data.length + 4 * s.mark.length + (8 - s.needed) + 2

/-- The loop of `t85_decode_put`, src/t85_decode.c:509-795. -/
def Dec.loop : Nat → Dec → List Nat → Dec × Status
  | 0, s, _ => (s, .moreData)
  | n + 1, s, data =>
    if data = [] ∧ s.eod ≠ 1 then (s, .moreData)
    else
      match s.round data with
      | .again s data => Dec.loop n s data
      | .stop s r => (s, r)

/-- `t85_decode_put`, src/t85_decode.c:429-797. -/
def Dec.put (s : Dec) (data : List Nat) : Dec × Status :=
  if data = [] ∧ s.pic.y ≥ s.pic.yd then (s, .ok)
  else if data = [] ∧ s.eod > 0 then (s, .invalid)
  else
    let s := if data = [] then { s with eod := 1 } else s
    if s.bih.length < 20 then
      let k := 20 - s.bih.length
      let s := { s with bih := s.bih ++ data.take k }
      if s.bih.length < 20 then (s, .moreData)
      else
        match s.begin with
        | none => ({ s with eod := 2 }, .invalid)
        | some s => s.loop (s.work (data.drop k)) (data.drop k)
    else s.loop (s.work data) data

/-- `t85_decode_init`, src/t85_decode.c:904-967, and `t85_decode_set_image_size_constraints`, src/t85_decode.c:822-829. 0 is no constraint. -/
def Dec.init (maxXd maxYd : Nat) : Dec :=
  ⟨maxXd, maxYd, 0, false, [], [], 0, 0, 0, 0, ⟨0, 0, 0, false, false, 0, 0, 0, false, false, 0, none, ⟨0, 0, 0⟩, [], 0, none, none, []⟩,
    Qm.decodeRestart (fun _ => 0) false false []⟩

end T85
