import Verif.T4.Tables
import Verif.BitOps.Model

/-! # T.4 and T.6: one dimensional, two dimensional and MMR coding of images

`none` is behaviour which C leaves undefined: an index outside of its array. The `int` values of the code are taken as integers. A run of more than two
thousand million pixels, which a hostile stream of more than 800000 make-up codes in one row could build up, is not looked at.

The monitoring values `min_row_bits`, `max_row_bits`, `compressed_image_size` and the bad row runs are left out. -/

namespace T4
open BitOps

abbrev Byte := BitVec 8

/-- `T4_COMPRESSION_T4_1D`, `T4_COMPRESSION_T4_2D` and `T4_COMPRESSION_T6`, src/spandsp/t4_rx.h:53-58. -/
inductive Encoding where
  | t4_1d | t4_2d | t6
deriving DecidableEq

/-! ## The encoder -/

/-- The part of `t4_t6_encode_state_t` which `put_encoded_bits` changes. `buf` is `bitstream` from `bitstream_optr` up to `bitstream_iptr`. -/
structure W where
  tx : Nat
  txBits : Nat
  rowBits : Int
  buf : List Byte

/-- `while (s->tx_bits >= 8)`, src/t4_t6_encode.c:409-415. -/
def emit : Nat → Nat → Nat → List Byte → Nat × Nat × List Byte
  | 0, x, n, l => (x, n, l)
  | k + 1, x, n, l => if n ≥ 8 then emit k (x / 2 ^ 8) (n - 8) (l ++ [BitVec.ofNat 8 x]) else (x, n, l)

/-- `put_encoded_bits`, src/t4_t6_encode.c:402-417. The size of `bitstream` is looked at in a theorem. -/
def putBits (w : W) (bits length : Nat) : W :=
  let r := emit (w.txBits + length) ((w.tx ||| bits * 2 ^ w.txBits) % 2 ^ 32) (w.txBits + length) w.buf
  { tx := r.1, txBits := r.2.1, rowBits := w.rowBits + length, buf := r.2.2 }

/-- An entry of a code table is sent. -/
def putEntry (w : W) (tab : List (Nat × Nat × Nat)) (i : Nat) : Option (W × Nat) :=
  match tab[i]? with
  | none => none
  | some e => some (putBits w e.2.1 e.1, e.2.2)

/-- `while (span >= 2560 + 64)`, src/t4_t6_encode.c:429-435. -/
def putLong (tab : List (Nat × Nat × Nat)) : Nat → W → Nat → Option (W × Nat)
  | 0, _, _ => none
  | n + 1, w, span =>
    if span ≥ 2560 + 64 then
      match putEntry w tab (63 + 2560 / 64) with
      | none => none
      | some (w, r) => if r ≤ span then putLong tab n w (span - r) else none
    else some (w, span)

/-- `put_1d_span`, src/t4_t6_encode.c:424-450. -/
def put1d (tab : List (Nat × Nat × Nat)) (w : W) (span : Nat) : Option W :=
  match putLong tab (span + 1) w span with
  | none => none
  | some (w, span) =>
    if span ≥ 64 then
      match putEntry w tab (63 + span / 64) with
      | none => none
      | some (w, r) => if r ≤ span then (putEntry w tab (span - r)).map (·.1) else none
    else (putEntry w tab span).map (·.1)

/-- `31 - top_bit(x)`. -/
def frag (x : BitVec 32) : Nat := (31 - topBit x).toNat

/-- The state of `row_to_run_lengths`: `flip`, `span`, `pos` and `list`. -/
structure Rl where
  flip : BitVec 32
  span : Nat
  pos : Nat
  list : List Nat

/-- "Now see if there are any more", src/t4_t6_encode.c:484-491 and 517-524. The result has `rem`. -/
def moreRuns (mask : BitVec 32) : Nat → BitVec 32 → Nat → Rl → Nat × Rl
  | 0, _, rem, r => (rem, r)
  | n + 1, x, rem, r =>
    let f := frag (x ^^^ r.flip)
    if f < rem then
      moreRuns mask n (x <<< f) (rem - f) { r with pos := r.pos + f, list := r.list ++ [r.pos + f], flip := r.flip ^^^ mask }
    else (rem, r)

/-- The body of the loops over words, src/t4_t6_encode.c:473-495 with `size` 32 and `mask` 0xFFFFFFFF, and over bytes, lines 506-528 with `size` 8 and
`mask` 0xFF000000. -/
def chunk (mask : BitVec 32) (size : Nat) (x : BitVec 32) (i : Nat) (r : Rl) : Rl :=
  if x ≠ r.flip then
    let f := frag (x ^^^ r.flip)
    let pos := r.pos + (i * 8 - r.span + f)
    let q := moreRuns mask 32 (x <<< f) (size - f) { r with pos := pos, list := r.list ++ [pos], flip := r.flip ^^^ mask }
    { q.2 with span := i * 8 + size - q.1 }
  else r

/-- A byte of a row. -/
def byteAt (row : List Byte) (i : Nat) : BitVec 32 := (row.getD i 0).setWidth 32

/-- `get_net_unaligned_uint32`. -/
def wordAt (row : List Byte) (i : Nat) : BitVec 32 :=
  byteAt row i <<< 24 ||| byteAt row (i + 1) <<< 16 ||| byteAt row (i + 2) <<< 8 ||| byteAt row (i + 3)

/-- "Deal with whole words first", src/t4_t6_encode.c:470-496. -/
def wordLoop (row : List Byte) : Nat → Nat → Rl → Rl
  | 0, _, r => r
  | n + 1, i, r => wordLoop row n (i + 4) (chunk 0xFFFFFFFF 32 (wordAt row i) i r)

/-- "Now deal with some whole bytes", src/t4_t6_encode.c:503-529. -/
def byteLoop (row : List Byte) : Nat → Nat → Rl → Rl
  | 0, _, r => r
  | n + 1, i, r => byteLoop row n (i + 1) (chunk 0xFF000000 8 (byteAt row i <<< 24) i r)

/-- The loop over the left over fractional byte, src/t4_t6_encode.c:538-552. -/
def fracLoop : Nat → BitVec 32 → Nat → Rl → Rl
  | 0, _, _, r => r
  | n + 1, x, rem, r =>
    let f := min (frag (x ^^^ r.flip)) rem
    let pos := r.pos + (r.span + f)
    let r := { r with pos := pos, list := r.list ++ [pos], span := 0, flip := r.flip ^^^ 0xFF000000 }
    if rem - f > 0 then fracLoop n (x <<< f) (rem - f) r else r

/-- `row_to_run_lengths`, src/t4_t6_encode.c:453-582. -/
def rowToRuns (row : List Byte) (width : Nat) : List Nat :=
  let words := width / 8 / 4
  let r := wordLoop row words 0 ⟨0, 0, 0, []⟩
  let r := { r with flip := r.flip &&& 0xFF000000 }
  let limit := width / 8
  let r := byteLoop row (limit - 4 * words) (4 * words) r
  let r := { r with span := limit * 8 - r.span }
  if width % 8 ≠ 0 then (fracLoop 8 (byteAt row limit <<< 24) (width % 8) r).list
  else if r.span ≠ 0 then r.list ++ [r.pos + r.span]
  else r.list

/-- `pixel_is_black`, src/t4_t6_encode.c:585. -/
def black (row : List Byte) (bit : Nat) : Bool := (row.getD (bit / 8) 0).getLsbD (7 - bit % 8)

/-- The codes of the two dimensional modes, src/t4_t6_encode.c:641-652. -/
def codes2d : List (Nat × Nat × Nat) := [(7, 0x60, 0), (6, 0x30, 0), (3, 0x06, 0), (1, 0x01, 0), (3, 0x02, 0), (6, 0x10, 0), (7, 0x20, 0), (3, 0x04, 0), (4, 0x08, 0)]

/-- Stepping back through the reference row, src/t4_t6_encode.c:797-803. -/
def back (ref : List Nat) (a0 : Nat) : Nat → Option Nat
  | 0 => match ref[0]? with
    | none => none
    | some r => if a0 ≥ r then some 2 else some 0
  | 1 => match ref[1]? with
    | none => none
    | some r => if a0 ≥ r then some 3 else some 1
  | b + 2 => match ref[b + 2]? with
    | none => none
    | some r => if a0 ≥ r then some (b + 4) else back ref a0 b

/-- Stepping forward through the reference row, src/t4_t6_encode.c:807-815. -/
def fwd (ref : List Nat) (steps a0 : Nat) : Nat → Nat → Option Nat
  | 0, _ => none
  | n + 1, b =>
    if b < steps then
      match ref[b]? with
      | none => none
      | some r => if a0 < r then some b else fwd ref steps a0 n (b + 2)
    else some (steps - 1)

/-- "We need to hunt for the correct position in the reference row", src/t4_t6_encode.c:791-817. -/
def hunt (ref : List Nat) (steps a0 : Nat) (isBlack : Bool) (b : Nat) : Option Nat :=
  let b := if isBlack then b / 2 * 2 + 1 else b / 2 * 2
  match ref[b]? with
  | none => none
  | some r => if a0 < r then back ref a0 b else fwd ref steps a0 (steps + 2) b

/-- Horizontal mode, src/t4_t6_encode.c:745-757. -/
def putHoriz (w : W) (row : List Byte) (a0 a1 a2 : Nat) : Option W :=
  if a1 < a0 ∨ a2 < a1 then none
  else
    let w := putBits w 0x04 3
    if a0 + a1 = 0 ∨ black row a0 = false then
      (put1d whiteCodes w (a1 - a0)).bind fun w => put1d blackCodes w (a2 - a1)
    else
      (put1d blackCodes w (a1 - a0)).bind fun w => put1d whiteCodes w (a2 - a1)

/-- The loop of `encode_2d_row`, src/t4_t6_encode.c:726-829. `a` and `b` are `a_cursor` and `b_cursor`. Each turn moves `a0` to the right, or is the first, so there
are no more than `width` + 1 turns. -/
def loop2d (row : List Byte) (width : Nat) (cur : List Nat) (curSteps : Nat) (ref : List Nat) (refSteps : Nat) : Nat → W → Nat → Nat → Nat → Option W
  | 0, _, _, _, _ => none
  | n + 1, w, a0, a, b =>
    match cur[a]?, ref[b]?, ref[b + 1]? with
    | some a1, some b1, some b2 =>
      if b2 ≥ a1 then
        let diff : Int := b1 - a1
        if -3 ≤ diff ∧ diff ≤ 3 then
          match putEntry w codes2d (diff + 3).toNat with
          | none => none
          | some (w, _) =>
            if a1 ≥ width then some w
            else (hunt ref refSteps a1 (black row a1) b).bind fun b =>
              loop2d row width cur curSteps ref refSteps n w a1 (if a + 1 ≥ curSteps then curSteps - 1 else a + 1) b
        else
          match cur[a + 1]? with
          | none => none
          | some a2 =>
            (putHoriz w row a0 a1 a2).bind fun w =>
              if a2 ≥ width then some w
              else (hunt ref refSteps a2 (black row a2) b).bind fun b =>
                loop2d row width cur curSteps ref refSteps n w a2 (if a + 2 ≥ curSteps then curSteps - 1 else a + 2) b
      else
        let w := putBits w 0x08 4
        if b2 ≥ width then some w
        else (hunt ref refSteps b2 (black row b2) b).bind fun b =>
          loop2d row width cur curSteps ref refSteps n w b2 a b
    | _, _, _ => none

/-- The encoder, `t4_t6_encode_state_t`. `ref` has the first `ref_steps` + 3 values of `ref_runs`. `rows` is what `row_read_handler` has still to give. -/
structure Enc where
  encoding : Encoding
  width : Nat
  minBits : Int
  maxRows : Int
  rowsTo1d : Int
  rowIs2d : Bool
  w : W
  ref : List Nat
  refSteps : Nat
  rows : List (List Byte)

/-- The positions of a row with the stretch at the end, src/t4_t6_encode.c:711-717 and 854-858. -/
def stretch (runs : List Nat) : List Nat := runs ++ List.replicate 3 (runs.getLastD 0)

/-- `encode_2d_row`, src/t4_t6_encode.c:639-835. -/
def encode2d (s : Enc) (row : List Byte) : Option Enc :=
  let cur := rowToRuns row s.width
  (loop2d row s.width (stretch cur) cur.length s.ref s.refSteps (s.width + 2) s.w 0 0 0).map fun w =>
    { s with w := w, ref := stretch cur, refSteps := cur.length }

/-- The loop of `encode_1d_row`, src/t4_t6_encode.c:851-853: `i` is odd when `isBlack`. -/
def loop1d : Bool → Nat → List Nat → W → Option W
  | _, _, [], w => some w
  | isBlack, prev, p :: t, w =>
    if p < prev then none
    else (put1d (if isBlack then blackCodes else whiteCodes) w (p - prev)).bind (loop1d (!isBlack) p t)

/-- `encode_1d_row`, src/t4_t6_encode.c:842-858. -/
def encode1d (s : Enc) (row : List Byte) : Option Enc :=
  let runs := rowToRuns row s.width
  (loop1d false 0 runs s.w).map fun w => { s with w := w, ref := stretch runs, refSteps := runs.length }

/-- `encode_eol`, src/t4_t6_encode.c:591-633. -/
def encodeEol (s : Enc) : Enc :=
  let code := match s.encoding with
    | .t4_2d => if s.rowIs2d then 0x0800 else 0x1800
    | _ => 0x0800
  let length : Nat := match s.encoding with
    | .t4_2d => 13
    | _ => 12
  let w :=
    if s.w.rowBits ≠ 0 ∧ s.encoding ≠ .t6 ∧ s.w.rowBits + length < s.minBits then
      putBits s.w 0 (s.minBits - (s.w.rowBits + length)).toNat
    else s.w
  { s with w := { putBits w code length with rowBits := 0 } }

/-- `encode_row`, src/t4_t6_encode.c:861-902. -/
def encodeRow (s : Enc) (row : List Byte) : Option Enc :=
  match s.encoding with
  | .t6 => encode2d s row
  | .t4_2d =>
    let s := encodeEol s
    let r := if s.rowIs2d then (encode2d s row).map fun s => { s with rowsTo1d := s.rowsTo1d - 1 }
      else (encode1d s row).map fun s => { s with rowIs2d := true }
    r.map fun s => if s.rowsTo1d ≤ 0 then { s with rowIs2d := false, rowsTo1d := s.maxRows - 1 } else s
  | .t4_1d => encode1d (encodeEol s) row

/-- Some calls of `encode_eol`. -/
def eols : Nat → Enc → Enc
  | 0, s => s
  | n + 1, s => eols n (encodeEol s)

/-- `finalise_page`, src/t4_t6_encode.c:905-931. -/
def finalise (s : Enc) : Enc :=
  let s := match s.encoding with
    | .t6 => eols 2 s
    | _ => eols 6 { s with rowIs2d := false }
  { s with w := { putBits s.w 0xFF 7 with rowBits := -1 } }

/-- The loop of `get_next_row`, src/t4_t6_encode.c:948-963, with the rows the handler gives. -/
def nextRows : List (List Byte) → Enc → Option Enc
  | [], s => some { finalise s with rows := [] }
  | row :: t, s => (encodeRow s row).bind fun s => if s.w.buf = [] then nextRows t s else some { s with rows := t }

/-- `get_next_row`, src/t4_t6_encode.c:934-964. `.inl` is the end of the data. The buffer is empty when it is called. It has room for
`(image_width + 1)*sizeof(uint16_t)` octets, line 1094, and `put_bits` (lines 404-415) does not look if there is room; as octets are only added here, `none` at the end stands for any write
beyond the buffer. -/
def getNextRow (s : Enc) : Option (Unit ⊕ Enc) :=
  if s.w.rowBits < 0 then some (.inl ()) else (nextRows s.rows s).bind fun s => if s.w.buf.length ≤ 2 * (s.width + 1) then some (.inr s) else none

/-- The loop of `t4_t6_encode_get`, src/t4_t6_encode.c:1007-1023. -/
def getLoop : Nat → Enc → Nat → Option (List Byte × Enc)
  | 0, _, _ => none
  | n + 1, s, maxLen =>
    if maxLen = 0 then some ([], s)
    else
      let next : Option (Unit ⊕ Enc) := if s.w.buf = [] then getNextRow s else some (.inr s)
      match next with
      | none => none
      | some (.inl _) => some ([], s)
      | some (.inr s) =>
        let got := s.w.buf.take maxLen
        (getLoop n { s with w := { s.w with buf := s.w.buf.drop maxLen } } (maxLen - got.length)).map fun r => (got ++ r.1, r.2)

/-- `t4_t6_encode_get`, src/t4_t6_encode.c:1002-1025. -/
def encodeGet (s : Enc) (maxLen : Nat) : Option (List Byte × Enc) := getLoop (maxLen + 1) s maxLen

/-- `t4_t6_encode_restart`, src/t4_t6_encode.c:1181-1206, and `t4_t6_encode_init`, lines 1209-1235, with `t4_t6_encode_set_min_bits_per_row`, lines 1057-1070, and the rows which
there will be. -/
def encInit (encoding : Encoding) (width : Nat) (minBits maxRows : Int) (rows : List (List Byte)) : Enc :=
  { encoding := encoding, width := width, minBits := if encoding = .t6 then 0 else minBits, maxRows := maxRows, rowsTo1d := maxRows - 1,
    rowIs2d := encoding = .t6, w := ⟨0, 0, 0, []⟩, ref := List.replicate 4 width, refSteps := 1, rows := rows }

/-! ## The decoder -/

/-- `t4_t6_decode_state_t`. `rx` is the `rx_bits` bits of `rx_bitstream`, the oldest first. `rows` is what `row_write_handler`, which accepts every row, was given. -/
structure Dec where
  encoding : Encoding
  width : Nat
  rowBuf : List Byte
  rowIs2d : Bool
  rowLen : Int
  cur : Nat → Nat
  ref : Nat → Nat
  eols : Int
  a0 : Int
  b1 : Int
  runLength : Int
  blackWhite : Nat
  inBlack : Bool
  aCursor : Nat
  bCursor : Nat
  rx : List Bool
  skip : Nat
  pixelStream : Nat
  pixels : Nat
  badRows : Nat
  rows : List (List Byte)

/-- The number of values in `cur_runs` and `ref_runs`, src/t4_t6_decode.c:857. -/
def Dec.space (s : Dec) : Nat := s.width + 4

/-- `s->cur_runs[i] = v`. -/
def Dec.setCur (s : Dec) (i v : Nat) : Option Dec :=
  if i < s.space then some { s with cur := fun j => if j = i then v else s.cur j } else none

/-- `s->ref_runs[i]`. -/
def Dec.getRef (s : Dec) (i : Nat) : Option Nat := if i < s.space then some (s.ref i) else none

/-- `add_run_to_row`, src/t4_t6_decode.c:164-176. -/
def addRun (s : Dec) : Option Dec :=
  if s.runLength ≥ 0 then
    let s := { s with rowLen := s.rowLen + s.runLength }
    if s.rowLen ≤ s.width then
      (s.setCur s.aCursor s.runLength.toNat).map fun s => { s with aCursor := s.aCursor + 1, runLength := 0 }
    else some { s with runLength := 0 }
  else some { s with runLength := 0 }

/-- The state of the conversion of runs to a row: `pixel_stream`, `pixels`, `row_pos` and `row_buf`. -/
structure Pk where
  stream : Nat
  pixels : Nat
  pos : Nat
  buf : List Byte

/-- `for (i += (8 - s->pixels);  i >= 8;  i -= 8)`, src/t4_t6_decode.c:250-255. -/
def packBytes (fudge : Nat) : Nat → Nat → Pk → Option (Nat × Pk)
  | 0, _, _ => none
  | n + 1, i, p =>
    if i ≥ 8 then
      if p.pos < p.buf.length then
        packBytes fudge n (i - 8) { p with pixels := 8, buf := p.buf.set p.pos (BitVec.ofNat 8 p.stream), pos := p.pos + 1, stream := fudge }
      else none
    else some (i, p)

/-- A run of pixels is put into the row, src/t4_t6_decode.c:245-260. `msbmask[i] & fudge` is 2^i - 1 or 0. -/
def packRun (i fudge : Nat) (p : Pk) : Option Pk :=
  let r : Option (Nat × Pk) :=
    if i ≥ p.pixels then
      packBytes fudge (i + 9) (i + (8 - p.pixels)) { p with stream := (p.stream * 2 ^ p.pixels ||| ((2 ^ p.pixels - 1) &&& fudge)) % 2 ^ 32 }
    else some (i, p)
  r.map fun (i, p) => { p with stream := (p.stream * 2 ^ i ||| ((2 ^ i - 1) &&& fudge)) % 2 ^ 32, pixels := p.pixels - i }

/-- The loop over the runs, src/t4_t6_decode.c:243-261. -/
def packRuns (cur : Nat → Nat) : Nat → Nat → Nat → Pk → Option Pk
  | 0, _, _, p => some p
  | n + 1, x, fudge, p => (packRun (cur x) fudge p).bind fun p => packRuns cur n (x + 1) (fudge ^^^ 0xFF) p

/-- The length of a bad row, src/t4_t6_decode.c:271-273. -/
def badLen (cur : Nat → Nat) (width : Nat) : Nat → Nat → Nat → Nat
  | 0, _, fudge => fudge
  | n + 1, j, fudge => if fudge < width then badLen cur width n (j + 1) (fudge + cur j) else fudge

/-- "Try to clean up the bad runs", src/t4_t6_decode.c:266-301. -/
def fixRow (s : Dec) : Option Dec :=
  let fudge := badLen s.cur s.width s.aCursor 0 0
  let r :=
    if fudge < s.width then
      if s.aCursor % 2 = 1 then
        (s.setCur s.aCursor 1).bind fun s =>
          let s := { s with aCursor := s.aCursor + 1 }
          if fudge + 1 < s.width then (s.setCur s.aCursor (s.width - (fudge + 1))).map fun s => { s with aCursor := s.aCursor + 1 } else some s
      else (s.setCur s.aCursor (s.width - fudge)).map fun s => { s with aCursor := s.aCursor + 1 }
    else s.setCur s.aCursor ((s.cur s.aCursor + s.width - fudge : Int) % 2 ^ 32).toNat
  r.map fun s => { s with badRows := s.badRows + 1 }

/-- "Convert the runs to a bit image of the row", src/t4_t6_decode.c:240-262. -/
def packRow (s : Dec) : Option Dec :=
  (packRuns s.cur s.aCursor 0 0 ⟨s.pixelStream, s.pixels, 0, s.rowBuf⟩).map fun p => { s with pixelStream := p.stream, pixels := p.pixels, rowBuf := p.buf }

/-- The buffers are swapped, and the row is handed over, src/t4_t6_decode.c:316-331. -/
def swapRow (s : Dec) : Dec :=
  { s with cur := s.ref, ref := s.cur, bCursor := 1, aCursor := 0, b1 := s.cur 0, a0 := 0, runLength := 0, rows := s.rows ++ [s.rowBuf] }

/-- `put_decoded_row`, src/t4_t6_decode.c:191-332. -/
def putRow (s : Dec) : Option Dec :=
  ((if s.runLength ≠ 0 then addRun s else some s).bind fun s => if s.rowLen = s.width then packRow s else fixRow s).bind fun s =>
    (s.setCur s.aCursor 0).bind fun s => (s.setCur (s.aCursor + 1) 0).bind fun s => some (swapRow s)

/-- The number with the given bits, the lowest first. -/
def val : List Bool → Nat
  | [] => 0
  | b :: t => b.toNat + 2 * val t

/-- `s->rx_bitstream & (2^n - 1)`, when there are `n` bits. -/
def Dec.look (s : Dec) (n : Nat) : Nat := val (s.rx.take n)

/-- `drop_rx_bits`, src/t4_t6_decode.c:335-344. -/
def Dec.drop (s : Dec) (bits : Nat) : Dec := { s with skip := s.skip + (bits - 1), rx := s.rx.drop 1 }

/-- `force_drop_rx_bits`, src/t4_t6_decode.c:347-355. -/
def Dec.forceDrop (s : Dec) (bits : Nat) : Dec := { s with skip := 0, rx := s.rx.drop bits }

/-- An EOL has been found, src/t4_t6_decode.c:422-471. The result tells whether the page has ended. -/
def eolRow (s : Dec) : Option (Dec × Bool) :=
  if s.rowLen = 0 then
    if (s.encoding = .t6 ∧ s.eols + 1 ≥ 2) ∨ (s.encoding ≠ .t6 ∧ s.eols + 1 ≥ 5) then some ({ s with eols := 6 }, true)
    else some ({ s with eols := s.eols + 1 }, false)
  else ((if s.runLength > 0 then addRun s else some s).bind fun s => putRow { s with eols := 0 }).map fun s => (s, false)

/-- The bits of an EOL are taken, src/t4_t6_decode.c:472-485. -/
def eolEnd (s : Dec) : Dec :=
  let t := if s.encoding = .t4_2d then { s with rowIs2d := !(s.rx.getD 12 false) }.forceDrop 13 else s.forceDrop 12
  { t with inBlack := false, blackWhite := 0, runLength := 0, rowLen := 0 }

/-- "Move past a0", src/t4_t6_decode.c:510-513. -/
def moveB : Nat → Dec → Option Dec
  | 0, _ => none
  | n + 1, s =>
    if s.b1 ≤ s.a0 then
      (s.getRef s.bCursor).bind fun x => (s.getRef (s.bCursor + 1)).bind fun y => moveB n { s with b1 := s.b1 + (x + y), bCursor := s.bCursor + 2 }
    else some s

/-- "We need to move one step in one direction or the other", src/t4_t6_decode.c:556-568. -/
def vertMove (k : Int) (s : Dec) : Option Dec :=
  if k ≥ 0 then (s.getRef s.bCursor).bind fun x => some { s with b1 := s.b1 + x, bCursor := s.bCursor + 1 }
  else if s.bCursor ≠ 0 then (s.getRef (s.bCursor - 1)).bind fun x => some { s with b1 := s.b1 - x, bCursor := s.bCursor - 1 }
  else some s

/-- Vertical mode, src/t4_t6_decode.c:529-569. -/
def vertical (s : Dec) (k : Int) : Option Dec :=
  if s.b1 + k ≤ s.a0 ∧ (s.b1 + k < s.a0 ∨ s.bCursor > 1) then some s
  else (addRun { s with a0 := s.b1 + k, runLength := s.runLength + (s.b1 + k - s.a0) }).bind (vertMove k)

/-- Pass mode, src/t4_t6_decode.c:570-582. -/
def passMode (s : Dec) : Option Dec :=
  (s.getRef s.bCursor).bind fun x => (s.getRef (s.bCursor + 1)).bind fun y =>
    some { s with b1 := s.b1 + x + y, bCursor := s.bCursor + 2, a0 := s.b1 + x, runLength := s.runLength + (s.b1 + x - s.a0) }

/-- The effect of an entry of the two dimensional table, src/t4_t6_decode.c:516-600. -/
def mode2d (e : Nat) (s : Dec) : Option Dec :=
  match st e with
  | .horiz => some { s with inBlack := s.aCursor % 2 = 1, blackWhite := 2 }
  | .vert => vertical s (vparam e)
  | .pass => passMode s
  | _ => some s

/-- A code of the two dimensional table for a row which is not complete, src/t4_t6_decode.c:508-600. -/
def code2d (e : Nat) (s : Dec) : Option Dec := (if s.aCursor ≠ 0 then moveB (s.space + 1) s else some s).bind (mode2d e)

/-- The end of a run of the one dimensional tables, src/t4_t6_decode.c:621-633 and 658-668. -/
def termRun (s : Dec) (toBlack : Bool) (p : Nat) : Option Dec :=
  (if s.rowLen < s.width then addRun { s with inBlack := toBlack, runLength := s.runLength + p, a0 := s.a0 + p } else some { s with inBlack := toBlack }).bind fun s =>
    some { s with blackWhite := s.blackWhite - 1 }

/-- The entry for the next code of the one dimensional tables, src/t4_t6_decode.c:607 and 644. -/
def entry1d (s : Dec) : Nat := if s.inBlack then entry tableB (s.look 13) else entry tableW (s.look 12)

/-- The effect of an entry of the one dimensional tables, src/t4_t6_decode.c:614-639 and 651-674. -/
def runCode (e : Nat) (inBlack : Bool) (s : Dec) : Option Dec :=
  match st e, inBlack with
  | .makeUp, _ | .makeUpB, true | .makeUpW, false => some { s with runLength := s.runLength + param e, a0 := s.a0 + param e }
  | .termB, true => termRun s false (param e)
  | .termW, false => termRun s true (param e)
  | _, _ => some { s with blackWhite := 0 }

/-- The same, with the colour of the state. -/
def code1d (e : Nat) (s : Dec) : Option Dec := runCode e s.inBlack s

/-- `a0` is kept in the row, src/t4_t6_decode.c:680-682. -/
def clampA0 (s : Dec) : Dec := if s.a0 ≥ s.width then { s with a0 := s.width - 1 } else s

/-- "We sense the end of a line by its length alone", src/t4_t6_decode.c:690-703. -/
def endT6 (s : Dec) : Option Dec :=
  (if s.runLength > 0 then addRun s else some s).bind fun s => (putRow s).bind fun s =>
    some { s with inBlack := false, blackWhite := 0, runLength := 0, rowLen := 0 }

/-- What follows every code, src/t4_t6_decode.c:680-707. -/
def afterCode (s : Dec) : Option Dec :=
  if (clampA0 s).encoding = .t6 ∧ (clampA0 s).blackWhite = 0 ∧ (clampA0 s).rowLen ≥ (clampA0 s).width then endT6 (clampA0 s) else some (clampA0 s)

/-- A code of `n` bits with the effect `f` is taken. -/
def takeCode (f : Dec → Option Dec) (n : Nat) (s : Dec) : Option (Dec × Bool) := (((f s).map (·.drop n)).bind afterCode).map fun s => (s, false)

/-- The body of the loop of `put_bits`, src/t4_t6_decode.c:410-708. The result tells whether the page has ended. -/
def step (s : Dec) : Option (Dec × Bool) :=
  if s.look 12 = 0x800 then (eolRow s).map fun r => if r.2 then (r.1, true) else (eolEnd r.1, false)
  else if s.skip ≠ 0 then some ({ s with skip := s.skip - 1, rx := s.rx.drop 1 }, false)
  else if s.rowIs2d ∧ s.blackWhite = 0 then
    if s.rowLen ≥ s.width then some (s.drop (width (entry table2d (s.look 7))), false)
    else takeCode (code2d (entry table2d (s.look 7))) (width (entry table2d (s.look 7))) s
  else takeCode (code1d (entry1d s)) (width (entry1d s)) s

/-- "We are waiting for the very first EOL", src/t4_t6_decode.c:383-407: one bit is dropped, or the page begins. -/
def stepWait (s : Dec) : Dec :=
  if s.look 12 ≠ 0x800 then { s with rx := s.rx.drop 1 }
  else if s.encoding = .t4_1d then { s with eols := 0, rowIs2d := false }.forceDrop 12
  else { s with eols := 0, rowIs2d := !(s.rx.getD 12 false) }.forceDrop 13

/-- `while (s->rx_bits >= 13)`, src/t4_t6_decode.c:410-708, with the loop which waits for the first EOL, lines 385-391, put into it: `consecutive_eols` never becomes
negative again. Each turn takes at least one bit. The result tells whether the page has ended. -/
def stepLoop : Nat → Dec → Option (Dec × Bool)
  | 0, s => some (s, false)
  | n + 1, s =>
    if s.rx.length ≥ 13 then
      if s.eols < 0 then stepLoop n (stepWait s)
      else
        match step s with
        | none => none
        | some (s, true) => some (s, true)
        | some (s, false) => stepLoop n s
    else some (s, false)

/-- `put_bits`, src/t4_t6_decode.c:358-710, with the bits of `bit_string`, the lowest first. A shift by 32 or more is undefined. -/
def rxBits (s : Dec) (bits : List Bool) : Option (Dec × Bool) :=
  if s.rx.length ≥ 32 then none
  else
    let s := { s with rx := s.rx ++ bits }
    if s.rx.length < 13 then some (s, false)
    else if s.eols ≥ 6 then some (s, true)
    else stepLoop s.rx.length s

/-- The bits of an octet, the lowest first. -/
def octetBits (b : Byte) : List Bool := (List.range 8).map b.getLsbD

/-- `t4_t6_decode_put`, src/t4_t6_decode.c:787-797, for some octets. The result is `T4_DECODE_OK`. -/
def decodePut (s : Dec) : List Byte → Option (Dec × Bool)
  | [] => some (s, false)
  | b :: t =>
    match rxBits s (octetBits b) with
    | none => none
    | some (s, true) => some (s, true)
    | some (s, false) => decodePut s t

/-- `t4_t6_decode_put_bit`, src/t4_t6_decode.c:736-749, for a bit. -/
def decodePutBit (s : Dec) (bit : Bool) : Option (Dec × Bool) := rxBits s [bit]

/-- `t4_t6_decode_put` with no data, src/t4_t6_decode.c:757-784. -/
def decodeEnd (s : Dec) : Option Dec :=
  (if s.eols ≠ 6 then (rxBits s (List.replicate 8 false)).bind fun r => (rxBits r.1 (List.replicate 5 false)).map (·.1) else some s).map fun s =>
    { s with rx := [], skip := 0, eols := 6 }

/-- `t4_t6_decode_restart`, src/t4_t6_decode.c:849-926. -/
def decInit (encoding : Encoding) (width : Nat) : Dec :=
  { encoding := encoding, width := width, rowBuf := List.replicate ((width + 7) / 8) 0, rowIs2d := encoding = .t6, rowLen := 0, cur := fun _ => 0,
    ref := fun i => if i = 0 then width else 0, eols := if encoding = .t6 then 0 else -1, a0 := 0, b1 := width, runLength := 0, blackWhite := 0,
    inBlack := false, aCursor := 0, bCursor := 1, rx := [], skip := 0, pixelStream := 0, pixels := 8, badRows := 0, rows := [] }

end T4
