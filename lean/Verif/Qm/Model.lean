/-!
# Model of src/t81_t82_arith_coding.c, the QM coder of T.81 and T.82

The registers are numbers with the wrap around of `uint32_t` made explicit. A context is an index of `st[4096]`: that the caller keeps to it is
taken for granted. The count of pending 0xFF bytes is not bounded (it is an `int32_t`). A decision is 0 or 1.
-/

namespace Qm

/-- `uint32_t` arithmetic. -/
def u32 (x : Nat) : Nat := x % 2 ^ 32

/-- Subtraction of `uint32_t` values. -/
def sub32 (x y : Nat) : Nat := (x + 2 ^ 32 - y) % 2 ^ 32

/-- A context: an index of `st[4096]`, src/spandsp/private/t81_t82_arith_coding.h:40. -/
abbrev Cx := Fin 4096

/-- The state of a context: the more probable symbol in the top bit, the index into the table in the others. -/
abbrev St := BitVec 8

/-- `prob`, src/t81_t82_arith_coding.c:62-182: `lsz`, `nlps` and `nmps`. -/
def prob : List (Nat × St × St) :=
  [
    (0x5A1D, 129, 1), (0x2586, 14, 2), (0x1114, 16, 3), (0x080B, 18, 4), (0x03D8, 20, 5), (0x01DA, 23, 6),
    (0x00E5, 25, 7), (0x006F, 28, 8), (0x0036, 30, 9), (0x001A, 33, 10), (0x000D, 35, 11), (0x0006, 9, 12),
    (0x0003, 10, 13), (0x0001, 12, 13), (0x5A7F, 143, 15), (0x3F25, 36, 16), (0x2CF2, 38, 17), (0x207C, 39, 18),
    (0x17B9, 40, 19), (0x1182, 42, 20), (0x0CEF, 43, 21), (0x09A1, 45, 22), (0x072F, 46, 23), (0x055C, 48, 24),
    (0x0406, 49, 25), (0x0303, 51, 26), (0x0240, 52, 27), (0x01B1, 54, 28), (0x0144, 56, 29), (0x00F5, 57, 30),
    (0x00B7, 59, 31), (0x008A, 60, 32), (0x0068, 62, 33), (0x004E, 63, 34), (0x003B, 32, 35), (0x002C, 33, 9),
    (0x5AE1, 165, 37), (0x484C, 64, 38), (0x3A0D, 65, 39), (0x2EF1, 67, 40), (0x261F, 68, 41), (0x1F33, 69, 42),
    (0x19A8, 70, 43), (0x1518, 72, 44), (0x1177, 73, 45), (0x0E74, 74, 46), (0x0BFB, 75, 47), (0x09F8, 77, 48),
    (0x0861, 78, 49), (0x0706, 79, 50), (0x05CD, 48, 51), (0x04DE, 50, 52), (0x040F, 50, 53), (0x0363, 51, 54),
    (0x02D4, 52, 55), (0x025C, 53, 56), (0x01F8, 54, 57), (0x01A4, 55, 58), (0x0160, 56, 59), (0x0125, 57, 60),
    (0x00F6, 58, 61), (0x00CB, 59, 62), (0x00AB, 61, 63), (0x008F, 61, 32), (0x5B12, 193, 65), (0x4D04, 80, 66),
    (0x412C, 81, 67), (0x37D8, 82, 68), (0x2FE8, 83, 69), (0x293C, 84, 70), (0x2379, 86, 71), (0x1EDF, 87, 72),
    (0x1AA9, 87, 73), (0x174E, 72, 74), (0x1424, 72, 75), (0x119C, 74, 76), (0x0F6B, 74, 77), (0x0D51, 75, 78),
    (0x0BB6, 77, 79), (0x0A40, 77, 48), (0x5832, 208, 81), (0x4D1C, 88, 82), (0x438E, 89, 83), (0x3BDD, 90, 84),
    (0x34EE, 91, 85), (0x2EAE, 92, 86), (0x299A, 93, 87), (0x2516, 86, 71), (0x5570, 216, 89), (0x4CA9, 95, 90),
    (0x44D9, 96, 91), (0x3E22, 97, 92), (0x3824, 99, 93), (0x32B4, 99, 94), (0x2E17, 93, 86), (0x56A8, 223, 96),
    (0x4F46, 101, 97), (0x47E5, 102, 98), (0x41CF, 103, 99), (0x3C3D, 104, 100), (0x375E, 99, 93), (0x5231, 105, 102),
    (0x4C0F, 106, 103), (0x4639, 107, 104), (0x415E, 103, 99), (0x5627, 233, 106), (0x50E7, 108, 107), (0x4B85, 109, 103),
    (0x5597, 110, 109), (0x504F, 111, 107), (0x5A10, 238, 111), (0x5522, 112, 109), (0x59EB, 240, 111)
  ]

/-- `s->st[cx] & 0x7F`, src/t81_t82_arith_coding.c:256 and 452. -/
def index (st : St) : Nat := (st &&& 0x7F).toNat

/-- `prob[ss]`. That `ss` stays within the table is proved, see `index_in_table`. -/
def row (st : St) : Nat × St × St := prob.getD (index st) (0, 0, 0)

def lsz (st : St) : Nat := (row st).1

/-- `(s->st[cx] & 0x80) ^ prob[ss].nlps`, src/t81_t82_arith_coding.c:267, 468 and 480. -/
def afterLps (st : St) : St := (st &&& 0x80) ^^^ (row st).2.1

/-- `(s->st[cx] & 0x80) | prob[ss].nmps`, src/t81_t82_arith_coding.c:282, 461 and 485. -/
def afterMps (st : St) : St := (st &&& 0x80) ||| (row st).2.2

/-- `s->st[cx] >> 7`. -/
def mps (st : St) : Bool := st.msb

def setSt (st : Cx → St) (cx : Cx) (x : St) : Cx → St := fun i => if i = cx then x else st i

/-! ## The encoder -/

/-- `t81_t82_arith_encode_state_s`, src/spandsp/private/t81_t82_arith_coding.h:33-51. `buffer` is `none` for -1. The bytes given to the handler
are collected in `out`. -/
structure Enc where
  a : Nat
  c : Nat
  st : Cx → St
  sc : Nat
  ct : Nat
  buffer : Option Nat
  out : List Nat

/-- `output_byte_handler`. -/
def Enc.put (s : Enc) (b : Nat) : Enc := { s with out := s.out ++ [b] }

/-- `output_stuffed_byte`, src/t81_t82_arith_coding.c:184-190. -/
def Enc.putStuffed (s : Enc) (b : Nat) : Enc := if b = 0xFF then (s.put b).put 0x00 else s.put b

/-- `if (s->buffer >= 0) output_stuffed_byte(s, s->buffer + k)`, as in src/t81_t82_arith_coding.c:201-202. -/
def Enc.putBuffer (s : Enc) (k : Nat) : Enc :=
  match s.buffer with
  | some b => s.putStuffed (b + k)
  | none => s

/-- `while (s->sc) { output(s, b); s->sc--; }`, as in src/t81_t82_arith_coding.c:204-208. -/
def Enc.putPending (s : Enc) (b : Nat) : Enc := { Nat.repeat (Enc.putStuffed · b) s.sc s with sc := 0 }

/-- `byteout`, src/t81_t82_arith_coding.c:193-232. The zeros of line 206 go to the handler without `output_stuffed_byte`, which is the same for
zeros. -/
def byteout (s : Enc) : Enc :=
  let temp := s.c / 2 ^ 19
  let s :=
    if temp > 0xFF then { (s.putBuffer 1).putPending 0x00 with buffer := some (temp % 256) }
    else if temp = 0xFF then { s with sc := s.sc + 1 }
    else { (s.putBuffer 0).putPending 0xFF with buffer := some temp }
  { s with c := s.c % 2 ^ 19, ct := 8 }

/-- The body of the loop of `renorme`, src/t81_t82_arith_coding.c:240-245. `ct` is never 0 here, see `EncOk`. -/
def renormeStep (s : Enc) : Enc :=
  let s := { s with a := u32 (2 * s.a), c := u32 (2 * s.c), ct := s.ct - 1 }
  if s.ct = 0 then byteout s else s

/-- `renorme`, src/t81_t82_arith_coding.c:235-248, a `do` ... `while`. The loop doubles `a` until it reaches 0x8000, which is at most 16 times for
an `a` which is not 0. -/
def renorme : Nat → Enc → Enc
  | 0, s => s
  | n + 1, s =>
    let s := renormeStep s
    if s.a < 0x8000 then renorme n s else s

/-- `t81_t82_arith_encode`, src/t81_t82_arith_coding.c:251-288. -/
def encode (s : Enc) (cx : Cx) (pix : Bool) : Enc :=
  let st := s.st cx
  let q := lsz st
  if pix ≠ mps st then
    let s := { s with a := sub32 s.a q }
    let s := if s.a ≥ q then { s with c := u32 (s.c + s.a), a := q } else s
    renorme 16 { s with st := setSt s.st cx (afterLps st) }
  else
    let s := { s with a := sub32 s.a q }
    if s.a < 0x8000 then
      let s := if s.a < q then { s with c := u32 (s.c + s.a), a := q } else s
      renorme 16 { s with st := setSt s.st cx (afterMps st) }
    else s

/-- The two last bytes, src/t81_t82_arith_coding.c:335-342. -/
def finalBytes (s : Enc) : Enc :=
  if s.c &&& 0x7FFF800 ≠ 0 then
    let s := s.putStuffed (s.c / 2 ^ 19 % 256)
    if s.c &&& 0x7F800 ≠ 0 then s.putStuffed (s.c / 2 ^ 11 % 256) else s
  else s

/-- CLEARBITS, src/t81_t82_arith_coding.c:297-298. -/
def clearBits (c a : Nat) : Nat :=
  let temp := sub32 (u32 (c + a)) 1 &&& 0xFFFF0000
  if temp < c then u32 (temp + 0x8000) else temp

/-- The pending zeros are only sent if something else will follow, src/t81_t82_arith_coding.c:306-316. -/
def finalZeros (s : Enc) : Enc := if s.c &&& 0x7FFF800 ≠ 0 then s.putPending 0x00 else s

/-- FINALWRITES, src/t81_t82_arith_coding.c:301-342. -/
def finalWrites (s : Enc) : Enc :=
  finalBytes (if s.c > 0x7FFFFFF then finalZeros (s.putBuffer 1) else (s.putBuffer 0).putPending 0xFF)

/-- `t81_t82_arith_encode_flush`, src/t81_t82_arith_coding.c:291-343. -/
def flush (s : Enc) : Enc := finalWrites { s with c := u32 (clearBits s.c s.a * 2 ^ s.ct) }

/-- `t81_t82_arith_encode_restart`, src/t81_t82_arith_coding.c:346-358. What was given to the handler before does not matter. -/
def encodeRestart (st : Cx → St) (reuse : Bool) : Enc := ⟨0x10000, 0, if reuse then st else fun _ => 0, 0, 11, none, []⟩

/-- The encoding of a number of decisions. -/
def encodeAll (s : Enc) (l : List (Cx × Bool)) : Enc := l.foldl (fun s x => encode s x.1 x.2) s

/-! ## The decoder -/

/-- `t81_t82_arith_decode_state_s`, src/spandsp/private/t81_t82_arith_coding.h:54-75. `data` is what there is from `pscd_ptr` to `pscd_end`. -/
structure Dec where
  a : Nat
  c : Nat
  st : Cx → St
  ct : Int
  data : List Nat
  startup : Bool
  nopadding : Bool

/-- What a call returns: a decision, -1 or -2. -/
inductive Ret (α : Type) where
  | ok (x : α)
  | moreData
  | marker
deriving DecidableEq

/-- The inner loop of `t81_t82_arith_decode`, src/t81_t82_arith_coding.c:405-439, by recursion over the data. -/
def fill (a c : Nat) (st : Cx → St) (ct : Int) (startup nopadding : Bool) (data : List Nat) : Dec × Ret Unit :=
  if ct ≤ 8 ∧ ct ≥ 0 then
    match data with
    | [] => (⟨a, c, st, ct, [], startup, nopadding⟩, .moreData)
    | b :: t =>
      if b = 0xFF then
        match t with
        | [] => (⟨a, c, st, ct, [b], startup, nopadding⟩, .moreData)
        | b' :: t' =>
          if b' = 0x00 then fill a (u32 (c ||| 0xFF * 2 ^ (8 - ct).toNat)) st (ct + 8) startup nopadding t'
          else if nopadding then (⟨a, c, st, -1, b :: b' :: t', startup, false⟩, .marker)
          else (⟨a, c, st, -1, b :: b' :: t', startup, nopadding⟩, .ok ())
      else fill a (u32 (c ||| b * 2 ^ (8 - ct).toNat)) st (ct + 8) startup nopadding t
  else (⟨a, c, st, ct, data, startup, nopadding⟩, .ok ())
termination_by data.length

/-- The renormalisation, src/t81_t82_arith_coding.c:403-449. The loop doubles `a` until it reaches 0x8000, or 0x10000 at the start, which is at most
16 times for an `a` which is not 0. -/
def renormd : Nat → Dec → Dec × Ret Unit
  | 0, s => (s, .ok ())
  | n + 1, s =>
    if s.a < 0x8000 ∨ s.startup = true then
      match fill s.a s.c s.st s.ct s.startup s.nopadding s.data with
      | (s, .ok ()) =>
        let a := u32 (2 * s.a)
        renormd n { s with a := a, c := u32 (2 * s.c), ct := if s.ct ≥ 0 then s.ct - 1 else s.ct, startup := if a = 0x10000 then false else s.startup }
      | r => r
    else (s, .ok ())

/-- The decision, src/t81_t82_arith_coding.c:452-497. -/
def decision (s : Dec) (cx : Cx) : Dec × Bool :=
  let st := s.st cx
  let q := lsz st
  let s := { s with a := sub32 s.a q }
  if s.c / 2 ^ 16 ≥ s.a then
    if s.a < q then ({ s with c := sub32 s.c (u32 (s.a * 2 ^ 16)), a := q, st := setSt s.st cx (afterMps st) }, mps st)
    else ({ s with c := sub32 s.c (u32 (s.a * 2 ^ 16)), a := q, st := setSt s.st cx (afterLps st) }, !mps st)
  else if s.a < 0x8000 then
    if s.a < q then ({ s with st := setSt s.st cx (afterLps st) }, !mps st)
    else ({ s with st := setSt s.st cx (afterMps st) }, mps st)
  else (s, mps st)

/-- `t81_t82_arith_decode`, src/t81_t82_arith_coding.c:397-498. -/
def decode (s : Dec) (cx : Cx) : Dec × Ret Bool :=
  match renormd 17 s with
  | (s, .ok ()) => ((decision s cx).1, .ok (decision s cx).2)
  | (s, .moreData) => (s, .moreData)
  | (s, .marker) => (s, .marker)

/-- `t81_t82_arith_decode_restart`, src/t81_t82_arith_coding.c:501-512, and the setting of `nopadding`, `pscd_ptr` and `pscd_end` by the caller. -/
def decodeRestart (st : Cx → St) (reuse nopadding : Bool) (data : List Nat) : Dec :=
  ⟨1, 0, if reuse then st else fun _ => 0, 0, data, true, nopadding⟩

end Qm
