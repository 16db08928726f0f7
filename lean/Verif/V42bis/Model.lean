/-!
# Model of src/v42bis.c, the V.42bis compressor and decompressor

Codes, counts and lengths are numbers, with the wrap around of `uint16_t` made explicit where it can happen. An access outside of `dict[4096]` or of
`string[250]`, a shift which C does not define and a loop which does not end are `Err.fault`. The return of -1 by the decompressor is `Err.invalid`.
The calls of the handler are collected in `sent`. It is taken for granted that `max_output_len` is not less than 1.
-/

namespace V42bis

abbrev Byte := BitVec 8

/-- What a call which does not succeed does. -/
inductive Err where
  /-- The call returns -1. -/
  | invalid
  /-- Undefined behaviour, or a loop without end. -/
  | fault
deriving DecidableEq, Repr

abbrev M := Except Err

/-- `v42bis_dict_node_t`, src/spandsp/private/v42bis.h:34-44. -/
structure Node where
  octet : Byte
  parent : Nat
  child : Nat
  next : Nat

abbrev Dict := Nat → Node

/-- The compression modes, src/spandsp/v42bis.h:52-57. -/
inductive Mode where
  | dynamic
  | always
  | never
deriving DecidableEq, Repr

/-- The output side of `v42bis_comp_state_t`, src/spandsp/private/v42bis.h:57-62 and 98-101: `buf` is `output_buf` with `output_octet_count`, and `sent`
has the calls of the handler. -/
structure Out where
  maxOut : Nat
  buf : List Byte
  sent : List (List Byte)

/-- The part of `v42bis_comp_state_t` which has to do with codes: the output, `bit_buffer`, `bit_count`, `v42bis_parm_c2` and `v42bis_parm_c3`. -/
structure W where
  o : Out
  bitBuf : Nat
  bitCount : Nat
  c2 : Nat
  c3 : Nat

/-- `v42bis_comp_state_t`, src/spandsp/private/v42bis.h:50-107. The compressor and the decompressor have one each. `str` is `string` with
`string_length`. -/
structure S where
  p0 : Bool
  mode : Mode
  transparent : Bool
  c1 : Nat
  updateAt : Nat
  lastMatched : Nat
  lastAdded : Nat
  n2 : Nat
  n7 : Nat
  dict : Dict
  str : List Byte
  flushed : Nat
  perf : Nat
  w : W
  esc : Byte
  escaped : Bool

/-- `V42BIS_MAX_CODEWORDS`, src/spandsp/v42bis.h:41. -/
abbrev maxCodewords : Nat := 4096

/-- `V42BIS_MAX_STRING_SIZE`, src/spandsp/v42bis.h:38. -/
abbrev maxString : Nat := 250

/-! ## Output -/

/-- `push_octet`, src/v42bis.c:89-97. -/
def Out.push (o : Out) (b : Byte) : Out :=
  if o.buf.length + 1 ≥ o.maxOut then { o with sent := o.sent ++ [o.buf ++ [b]], buf := [] } else { o with buf := o.buf ++ [b] }

/-- The loop of `push_octets`, src/v42bis.c:106-119. Each turn takes at least one octet. -/
def Out.pushChunks : Nat → Out → List Byte → Out
  | 0, o, _ => o
  | n + 1, o, l =>
    if o.buf.length + l.length ≥ o.maxOut then
      let chunk := o.maxOut - o.buf.length
      Out.pushChunks n { o with sent := o.sent ++ [o.buf ++ l.take chunk], buf := [] } (l.drop chunk)
    else { o with buf := o.buf ++ l }

/-- `push_octets`, src/v42bis.c:100-120. -/
def Out.pushAll (o : Out) (l : List Byte) : Out := o.pushChunks (l.length + 1) l

/-- `while (s->bit_count >= 8)`, src/v42bis.c:127-132 and 141-146, on the output, `bit_buffer` and `bit_count`. -/
def emit : Nat → Out → Nat → Nat → Out × Nat × Nat
  | 0, o, x, n => (o, x, n)
  | k + 1, o, x, n => if n ≥ 8 then emit k (o.push (BitVec.ofNat 8 x)) (x / 2 ^ 8) (n - 8) else (o, x, n)

/-- The result of `emit`. -/
def emitted (w : W) (x n : Nat) : W :=
  let r := emit n w.o x n
  { w with o := r.1, bitBuf := r.2.1, bitCount := r.2.2 }

/-- `push_compressed_code`, src/v42bis.c:123-133. -/
def pushCode (w : W) (code : Nat) : W := emitted w (w.bitBuf ||| code * 2 ^ w.bitCount) (w.bitCount + w.c2)

/-- `push_octet_alignment`, src/v42bis.c:136-148. -/
def pushAlign (w : W) : W :=
  if w.bitCount % 8 ≠ 0 then emitted w w.bitBuf (w.bitCount + (8 - w.bitCount % 8)) else w

/-- `flush_octets`, src/v42bis.c:151-158. -/
def Out.flush (o : Out) : Out := if o.buf.length > 0 then { o with sent := o.sent ++ [o.buf], buf := [] } else o

/-! ## The dictionary -/

/-- The dictionary of `dictionary_init`, src/v42bis.c:165-167. -/
def dict0 : Dict := fun i => if 3 ≤ i ∧ i < 259 then ⟨BitVec.ofNat 8 (i - 3), 0, 0, 0⟩ else ⟨0, 0, 0, 0⟩

/-- `dictionary_init`, src/v42bis.c:161-182. -/
def dictInit (s : S) : S :=
  { s with dict := dict0, c1 := 259, w := { s.w with c2 := 9, c3 := 512, bitBuf := 0, bitCount := 0 }, lastMatched := 0, updateAt := 0, lastAdded := 0,
           flushed := 0, str := [], esc := 0, transparent := true, escaped := false, perf := 2048 }

/-- `s->dict[i]`. -/
def rd (d : Dict) (i : Nat) : M Node := if i < maxCodewords then .ok (d i) else .error .fault

/-- A change of `s->dict[i]`. -/
def wr (d : Dict) (i : Nat) (f : Node → Node) : M Dict :=
  if i < maxCodewords then .ok (fun j => if j = i then f (d i) else d j) else .error .fault

/-- The loop of `match_octet`, src/v42bis.c:191-198. A chain which has no end within the size of the dictionary has none. -/
def matchChain : Nat → Dict → Nat → Byte → M Nat
  | 0, _, _, _ => .error .fault
  | n + 1, d, e, b =>
    if e = 0 then .ok 0
    else do
      let x ← rd d e
      if x.octet = b then .ok e else matchChain n d x.next b

/-- `match_octet`, src/v42bis.c:185-199. -/
def matchOctet (d : Dict) (at' : Nat) (b : Byte) : M Nat :=
  if at' = 0 then .ok (b.toNat + 3)
  else do
    let x ← rd d at'
    matchChain (maxCodewords + 1) d x.child b

/-- Recovering a dictionary entry, src/v42bis.c:216-222. -/
def findLeaf : Nat → Dict → Nat → Nat → M Nat
  | 0, _, _, _ => .error .fault
  | n + 1, d, n2, next => do
    let next := if next + 1 = n2 then 259 else next + 1
    let x ← rd d next
    if x.child ≠ 0 then findLeaf n d n2 next else .ok next

/-- `while (s->dict[e].next != next)`, src/v42bis.c:235-236, and the change in line 237. -/
def unlinkAfter : Nat → Dict → Nat → Nat → M Dict
  | 0, _, _, _ => .error .fault
  | n + 1, d, e, next => do
    let x ← rd d e
    if x.next ≠ next then unlinkAfter n d x.next next
    else do
      let y ← rd d next
      wr d e (fun z => { z with next := y.next })

/-- Detaching the leaf `next`, src/v42bis.c:224-239. -/
def detach (d : Dict) (next : Nat) : M Dict := do
  let y ← rd d next
  if y.parent ≠ 0 then do
    let x ← rd d y.parent
    if x.child = next then wr d y.parent (fun z => { z with child := y.next })
    else unlinkAfter (maxCodewords + 1) d x.child next
  else .ok d

/-- `add_octet_to_dictionary`, src/v42bis.c:202-242. The result is the dictionary and the new `v42bis_parm_c1`. What is returned is the old one. -/
def addOctet (d : Dict) (c1 n2 at' : Nat) (b : Byte) : M (Dict × Nat) := do
  let d ← wr d c1 (fun z => { z with octet := b, parent := at', child := 0 })
  let x ← rd d at'
  let d ← wr d c1 (fun z => { z with next := x.child })
  let d ← wr d at' (fun z => { z with child := c1 })
  let next ← findLeaf (maxCodewords + 1) d n2 c1
  let d ← detach d next
  .ok (d, next)

/-- "6.4 Add the string to the dictionary", src/v42bis.c:446-451 and 584-589. -/
def update (s : S) (b : Byte) : M S :=
  if s.updateAt ≠ 0 then do
    let m ← matchOctet s.dict s.updateAt b
    if m = 0 then do
      let r ← addOctet s.dict s.c1 s.n2 s.updateAt b
      .ok { s with dict := r.1, c1 := r.2, lastAdded := s.c1, updateAt := 0 }
    else .ok { s with updateAt := 0 }
  else .ok s

/-- `s->string[s->string_length++] = octet`. -/
def appendStr (s : S) (b : Byte) : M S :=
  if s.str.length < maxString then .ok { s with str := s.str ++ [b] } else .error .fault

/-- The walk from a node to the root, src/v42bis.c:259-260 and 264-268. -/
def path : Nat → Dict → Nat → M (List Byte)
  | 0, _, _ => .error .fault
  | n + 1, d, p =>
    if p = 0 then .ok []
    else do
      let x ← rd d p
      let l ← path n d x.parent
      .ok (l ++ [x.octet])

/-- `expand_codeword_to_string`, src/v42bis.c:253-269. -/
def expand (s : S) (code : Nat) : M S := do
  let l ← path (maxCodewords + 1) s.dict code
  if s.str.length + l.length ≤ maxString then .ok { s with str := s.str ++ l } else .error .fault

/-- The changes of the escape code for a string which is sent as a code, src/v42bis.c:294-298 and 681-685. -/
def escapes (esc : Byte) (l : List Byte) : Byte := l.foldl (fun e b => if b = e then e + 51 else e) esc

/-! ## The compressor -/

/-- One octet of the string in transparent mode, src/v42bis.c:283-288, on the output and the escape code. -/
def pushEscaped (x : Out × Byte) (b : Byte) : Out × Byte :=
  if b = x.2 then ((x.1.push b).push 1, x.2 + 51) else (x.1.push b, x.2)

/-- The loop of src/v42bis.c:300-310. From `c3` = 512 there are no more than 7 turns until `c3` is 0. -/
def stepUps : Nat → W → Nat → M W
  | 0, _, _ => .error .fault
  | n + 1, w, code =>
    if code ≥ w.c3 then
      let w := pushCode w 2
      stepUps n { w with c2 := (w.c2 + 1) % 65536, c3 := w.c3 * 2 % 65536 } code
    else .ok w

/-- The compressibility metric, src/v42bis.c:278. -/
def metric (s : S) : Nat :=
  (((s.perf : Int) + ((s.w.c2 : Int) - (s.perf * s.str.length * 8 / 2048 : Nat))) % 65536).toNat

/-- The output of `send_encoded_data`, src/v42bis.c:279-313. -/
def sendData (transparent : Bool) (w : W) (esc : Byte) (str : List Byte) (code : Nat) : M (W × Byte) :=
  if transparent then
    let r := str.foldl pushEscaped (w.o, esc)
    .ok ({ w with o := r.1 }, r.2)
  else do
    let w ← stepUps 16 w code
    .ok (pushCode w code, escapes esc str)

/-- `send_encoded_data`, src/v42bis.c:272-316. -/
def sendEncoded (s : S) (code : Nat) : M S := do
  let r ← sendData s.transparent s.w s.esc s.str code
  .ok { s with perf := metric s, w := r.1, esc := r.2, str := [], flushed := 0 }

/-- The pending string is sent before a change of mode, src/v42bis.c:329-334 and 352-357. -/
def sendPending (s : S) : M S :=
  if s.lastMatched ≠ 0 then do
    let s ← sendEncoded { s with updateAt := s.lastMatched } s.lastMatched
    .ok { s with lastMatched := 0 }
  else .ok s

/-- `go_compressed`, src/v42bis.c:319-339. -/
def goCompressed (s : S) : M S :=
  if s.transparent then do
    let s ← sendPending s
    .ok { s with w := { s.w with o := (s.w.o.push s.esc).push 0, bitBuf := 0 }, transparent := false }
  else .ok s

/-- `go_transparent`, src/v42bis.c:342-362. -/
def goTransparent (s : S) : M S :=
  if s.transparent then .ok s
  else do
    let s ← sendPending s
    .ok { s with lastAdded := 0, w := pushAlign (pushCode s.w 0), transparent := true }

/-- `monitor_for_mode_change`, src/v42bis.c:365-401. -/
def monitor (s : S) : M S :=
  match s.mode with
  | .dynamic =>
    if s.transparent then (if s.perf < 2048 - 11 then goCompressed s else .ok s)
    else (if s.perf > 2048 then goTransparent s else .ok s)
  | .always => if s.transparent then goCompressed s else .ok s
  | .never => if s.transparent then .ok s else goTransparent s

/-- "Match string", src/v42bis.c:453-483. The result has the octets which are left. -/
def matchString : S → List Byte → M (S × List Byte)
  | s, [] => .ok (s, [])
  | s, b :: t => do
    let code ← matchOctet s.dict s.lastMatched b
    if code = 0 then do
      let s ← sendEncoded { s with updateAt := s.lastMatched } s.lastMatched
      .ok ({ s with lastMatched := 0 }, b :: t)
    else if code = s.lastAdded then do
      let s ← sendEncoded { s with lastAdded := 0 } s.lastMatched
      .ok ({ s with lastMatched := 0 }, b :: t)
    else do
      let s ← appendStr { s with lastMatched := code } b
      if s.str.length + s.flushed = s.n7 then do
        let s ← sendEncoded s s.lastMatched
        .ok ({ s with lastMatched := 0 }, t)
      else matchString s t

/-- The loop of `v42bis_compress`, src/v42bis.c:443-485. An octet which ends a string is looked at a second time, so there are no more than two turns
for an octet. -/
def compressLoop : Nat → S → List Byte → M S
  | _, s, [] => .ok s
  | 0, _, _ :: _ => .error .fault
  | n + 1, s, b :: t => do
    let s ← update s b
    let r ← matchString s (b :: t)
    let s ← monitor r.1
    compressLoop n s r.2

/-- `v42bis_compress`, src/v42bis.c:430-487. -/
def compress (s : S) (l : List Byte) : M S :=
  if s.p0 then compressLoop (2 * l.length) s l else .ok { s with w := { s.w with o := s.w.o.pushAll l } }

/-- The pending string is sent by a flush, src/v42bis.c:498-503. -/
def flushPending (s : S) : M S :=
  if s.lastMatched ≠ 0 then do
    let len := s.str.length
    let s ← sendEncoded s s.lastMatched
    .ok { s with flushed := s.flushed + len }
  else .ok s

/-- `v42bis_compress_flush`, src/v42bis.c:490-514. -/
def compressFlush (s : S) : M S :=
  if s.updateAt ≠ 0 then .ok s
  else do
    let s ← flushPending s
    let s := if s.transparent then s
      else { s with updateAt := s.lastMatched, lastMatched := 0, flushed := 0, w := pushAlign (pushCode s.w 1) }
    .ok { s with w := { s.w with o := s.w.o.flush } }

/-! ## The decompressor -/

/-- `send_string`, src/v42bis.c:245-250. -/
def sendString (s : S) : S := { s with w := { s.w with o := s.w.o.pushAll s.str }, str := [], flushed := 0 }

/-- The body of the loop over `j` in `v42bis_decompress`, src/v42bis.c:584-615. The result tells whether the octet was taken. -/
def matchOnce (s : S) (b : Byte) : M (S × Bool) := do
  let s ← update s b
  let code ← matchOctet s.dict s.lastMatched b
  if code = 0 then .ok ({ sendString { s with updateAt := s.lastMatched } with lastMatched := 0 }, false)
  else if code = s.lastAdded then .ok ({ sendString { s with lastAdded := 0 } with lastMatched := 0 }, false)
  else do
    let s ← appendStr { s with lastMatched := code } b
    if s.str.length + s.flushed = s.n7 then .ok ({ sendString s with lastMatched := 0 }, true)
    else .ok (s, true)

/-- The loop over `j` in `v42bis_decompress`, src/v42bis.c:581-616. An octet which is not taken in two turns would be read again: it is proved that
there is no such octet. -/
def matchTwice (s : S) (b : Byte) : M S := do
  let r ← matchOnce s b
  if r.2 then .ok r.1
  else do
    let r ← matchOnce r.1 b
    if r.2 then .ok r.1 else .error .fault

/-- Transparent mode, src/v42bis.c:539-616. -/
def decTransparent (s : S) (b : Byte) : M S :=
  if s.escaped then
    if b = 0 then
      .ok { sendString { s with escaped := false } with transparent := false, updateAt := s.lastMatched, lastMatched := 0 }
    else if b = 1 then matchTwice { s with escaped := false, esc := s.esc + 51 } s.esc
    else if b = 2 then .ok (dictInit (sendString { s with escaped := false }))
    else .error .invalid
  else if b = s.esc then .ok { s with escaped := true }
  else matchTwice s b

/-- The control codes, src/v42bis.c:635-659. -/
def decControl (s : S) (code : Nat) : M S :=
  if code = 0 then .ok { s with w := { s.w with bitCount := 0 }, transparent := true, lastMatched := 0, lastAdded := 0 }
  else if code = 1 then .ok { s with w := { s.w with bitCount := 0 } }
  else
    let s := { s with w := { s.w with c2 := (s.w.c2 + 1) % 65536, c3 := s.w.c3 * 2 % 65536 } }
    if s.w.c2 > s.n2 / 8 then .error .invalid else .ok s

/-- The addition to the dictionary for a code, src/v42bis.c:665-678. `update_at` is set afterwards. -/
def decUpdate (s : S) (code : Nat) : M S :=
  if s.updateAt ≠ 0 then do
    let ch := s.str.headD 0
    let p ← matchOctet s.dict s.updateAt ch
    if p = 0 then do
      let r ← addOctet s.dict s.c1 s.n2 s.updateAt ch
      let s := { s with dict := r.1, c1 := r.2, lastAdded := s.c1 }
      if code = s.c1 then .error .invalid else .ok s
    else if p = s.lastAdded then .ok { s with lastAdded := 0 }
    else .ok s
  else .ok s

/-- A regular codeword, src/v42bis.c:662-686. -/
def decString (s : S) (code : Nat) : M S :=
  if code = s.c1 then .error .invalid
  else do
    let s ← expand s code
    let s ← decUpdate s code
    let s := { s with updateAt := if s.str.length + s.flushed = s.n7 then 0 else code, esc := escapes s.esc s.str }
    .ok (sendString s)

/-- A code, src/v42bis.c:632-686. -/
def decCode (s : S) (code : Nat) : M S := if code < 3 then decControl s code else decString s code

/-- Compressed mode, src/v42bis.c:620-686, for one octet. No more than 7 bits are left when a code has been taken out, and a code has at least 9 bits,
so a code is looked for whenever an octet has been put in, and at no other time. -/
def decCompressed (s : S) (b : Byte) : M S :=
  if b.toNat * 2 ^ s.w.bitCount ≥ 2 ^ 31 then .error .fault
  else
    let x := s.w.bitBuf ||| b.toNat * 2 ^ s.w.bitCount
    let n := s.w.bitCount + 8
    if n < s.w.c2 then .ok { s with w := { s.w with bitBuf := x, bitCount := n } }
    else if s.w.c2 ≥ 31 then .error .fault
    else decCode { s with w := { s.w with bitBuf := x / 2 ^ s.w.c2, bitCount := n - s.w.c2 } } (x % 2 ^ s.w.c2 % 65536)

/-- The body of the loop of `v42bis_decompress`, src/v42bis.c:537-687, for one octet. -/
def decOctet (s : S) (b : Byte) : M S := if s.transparent then decTransparent s b else decCompressed s b

/-- The loop of `v42bis_decompress`. -/
def decompressLoop : S → List Byte → M S
  | s, [] => .ok s
  | s, b :: t => do
    let s ← decOctet s b
    decompressLoop s t

/-- `v42bis_decompress`, src/v42bis.c:517-690. -/
def decompress (s : S) (l : List Byte) : M S :=
  if s.p0 then decompressLoop s l else .ok { s with w := { s.w with o := s.w.o.pushAll l } }

/-- `v42bis_decompress_flush`, src/v42bis.c:693-704. -/
def decompressFlush (s : S) : S :=
  let len := s.str.length
  let s := sendString s
  { s with flushed := s.flushed + len, w := { s.w with o := s.w.o.flush } }

/-! ## The interface -/

/-- `v42bis_comp_init`, src/v42bis.c:404-420. -/
def compInit (p0 : Bool) (p1 p2 maxOut : Nat) : S :=
  dictInit { p0 := p0, mode := .dynamic, transparent := true, c1 := 0, updateAt := 0, lastMatched := 0,
             lastAdded := 0, n2 := p1, n7 := p2, dict := dict0, str := [], flushed := 0, perf := 0, w := ⟨⟨min maxOut 1024, [], []⟩, 0, 0, 0, 0⟩,
             esc := 0, escaped := false }

/-- `v42bis_init`, src/v42bis.c:719-756: the compressor and the decompressor, or none. -/
def init (p0 : Nat) (p1 p2 : Nat) (maxEnc maxDec : Nat) : Option (S × S) :=
  if p1 < 512 ∨ p1 > 65535 then none
  else if p2 < 6 ∨ p2 > 250 then none
  else some (compInit (p0 / 2 % 2 = 1) p1 p2 maxEnc, compInit (p0 % 2 = 1) p1 p2 maxDec)

/-- `v42bis_compression_control`, src/v42bis.c:707-710. -/
def control (s : S) (mode : Mode) : S := { s with mode := mode }

end V42bis
