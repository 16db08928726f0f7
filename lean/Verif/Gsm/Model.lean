/-!
# Model of the frame packing of GSM 06.10, src/gsm0610_encode.c and src/gsm0610_decode.c

The packing functions are straight line programs over a frame, a 16 bit register `sr` and the packed bytes, apart from loops over
the four sub-frames. They are written down here as programs, statement by statement, with a semantics in natural numbers.

Not modelled: negative fields (which are not in the range of any field).
-/

namespace Gsm

/-- A field of `gsm0610_frame_t`, src/spandsp/gsm0610.h:59-67. -/
inductive Place where
  | larc (j : Fin 8)
  | nc (i : Fin 4)
  | bc (i : Fin 4)
  | mc (i : Fin 4)
  | xmaxc (i : Fin 4)
  | xmc (i : Fin 4) (k : Fin 13)
deriving DecidableEq

/-- The expressions. `c` is `*c`; a statement whose expression has `*c++` steps the pointer. -/
inductive Expr where
  | sr
  | c
  | fld (p : Place)
  | num (n : Nat)
  | shr (e : Expr) (k : Nat)
  | shl (e : Expr) (k : Nat)
  | and (e : Expr) (m : Nat)
  | or (e f : Expr)
deriving DecidableEq

/-- The statements: `sr = e`, `*c++ = (uint8_t) (e)`, `s->p = e`, `s->p |= e` and `s++`. The truth value tells if the expression steps `c`. -/
inductive Stmt where
  | sr (e : Expr) (step : Bool)
  | out (e : Expr)
  | set (p : Place) (e : Expr) (step : Bool)
  | join (p : Place) (e : Expr) (step : Bool)
  | next
deriving DecidableEq

/-- The variables of the program. `input` are the bytes from `c` on when unpacking, `output` the bytes written when packing, `cur` is the frame `s`
points to. -/
structure State where
  reg : Nat
  input : List Nat
  output : List Nat
  cur : Nat
  frames : Nat → Place → Nat

/-- The value of an expression; `none` is a read past the end of the packed bytes. -/
def Expr.eval (s : State) : Expr → Option Nat
  | .sr => some s.reg
  | .c => s.input.head?
  | .fld p => some (s.frames s.cur p)
  | .num n => some n
  | .shr e k => (e.eval s).map (· >>> k)
  | .shl e k => (e.eval s).map (· <<< k)
  | .and e m => (e.eval s).map (· &&& m)
  | .or e f => (e.eval s).bind fun x => (f.eval s).map fun y => x ||| y

/-- The bytes after `c` was stepped or not. -/
def stepped {α : Type} (step : Bool) (l : List α) : List α := if step then l.tail else l

/-- A field of a frame gets a value. -/
def put {α : Type} (f : Nat → Place → α) (cur : Nat) (p : Place) (v : α) : Nat → Place → α :=
  fun i q => if i = cur ∧ q = p then v else f i q

/-- A statement. `sr` is a `uint16_t`. -/
def Stmt.exec (s : State) : Stmt → Option State
  | .sr e step => (e.eval s).map fun v => { s with reg := v % 65536, input := stepped step s.input }
  | .out e => (e.eval s).map fun v => { s with output := s.output ++ [v % 256] }
  | .set p e step => (e.eval s).map fun v => { s with frames := put s.frames s.cur p v, input := stepped step s.input }
  | .join p e step => (e.eval s).map fun v =>
      { s with frames := put s.frames s.cur p (s.frames s.cur p ||| v), input := stepped step s.input }
  | .next => some { s with cur := s.cur + 1 }

/-- A program. -/
def exec (s : State) : List Stmt → Option State
  | [] => some s
  | t :: ts => (t.exec s).bind fun s => exec s ts

/-- `gsm0610_pack_none`, src/gsm0610_encode.c:115-137. -/
def packNone : List Stmt :=
    ([0, 1, 2, 3, 4, 5, 6, 7].map fun j => .out (.fld (.larc j))) ++
    ([0, 1, 2, 3].flatMap fun j => [
      .out (.fld (.nc j)),
      .out (.fld (.bc j)),
      .out (.fld (.mc j)),
      .out (.fld (.xmaxc j))] ++
      [0, 1, 2, 3, 4, 5, 6, 7, 8, 9, 10, 11, 12].map fun k => .out (.fld (.xmc j k)))

/-- `gsm0610_pack_wav49`, src/gsm0610_encode.c:140-232. The first loop is lines 159-186, the second lines 203-230. -/
def packWav49 : List Stmt :=
    [
      .sr (.num 0) false,
      .sr (.or (.shr .sr 6) (.shl (.fld (.larc 0)) 10)) false,
      .sr (.or (.shr .sr 6) (.shl (.fld (.larc 1)) 10)) false,
      .out (.shr .sr 4),
      .sr (.or (.shr .sr 5) (.shl (.fld (.larc 2)) 11)) false,
      .out (.shr .sr 7),
      .sr (.or (.shr .sr 5) (.shl (.fld (.larc 3)) 11)) false,
      .sr (.or (.shr .sr 4) (.shl (.fld (.larc 4)) 12)) false,
      .out (.shr .sr 6),
      .sr (.or (.shr .sr 4) (.shl (.fld (.larc 5)) 12)) false,
      .sr (.or (.shr .sr 3) (.shl (.fld (.larc 6)) 13)) false,
      .out (.shr .sr 7),
      .sr (.or (.shr .sr 3) (.shl (.fld (.larc 7)) 13)) false] ++
    ([0, 1, 2, 3].flatMap fun i => [
      .sr (.or (.shr .sr 7) (.shl (.fld (.nc i)) 9)) false,
      .out (.shr .sr 5),
      .sr (.or (.shr .sr 2) (.shl (.fld (.bc i)) 14)) false,
      .sr (.or (.shr .sr 2) (.shl (.fld (.mc i)) 14)) false,
      .sr (.or (.shr .sr 6) (.shl (.fld (.xmaxc i)) 10)) false,
      .out (.shr .sr 3),
      .sr (.or (.shr .sr 3) (.shl (.fld (.xmc i 0)) 13)) false,
      .out (.shr .sr 8),
      .sr (.or (.shr .sr 3) (.shl (.fld (.xmc i 1)) 13)) false,
      .sr (.or (.shr .sr 3) (.shl (.fld (.xmc i 2)) 13)) false,
      .sr (.or (.shr .sr 3) (.shl (.fld (.xmc i 3)) 13)) false,
      .out (.shr .sr 7),
      .sr (.or (.shr .sr 3) (.shl (.fld (.xmc i 4)) 13)) false,
      .sr (.or (.shr .sr 3) (.shl (.fld (.xmc i 5)) 13)) false,
      .sr (.or (.shr .sr 3) (.shl (.fld (.xmc i 6)) 13)) false,
      .out (.shr .sr 6),
      .sr (.or (.shr .sr 3) (.shl (.fld (.xmc i 7)) 13)) false,
      .sr (.or (.shr .sr 3) (.shl (.fld (.xmc i 8)) 13)) false,
      .out (.shr .sr 8),
      .sr (.or (.shr .sr 3) (.shl (.fld (.xmc i 9)) 13)) false,
      .sr (.or (.shr .sr 3) (.shl (.fld (.xmc i 10)) 13)) false,
      .sr (.or (.shr .sr 3) (.shl (.fld (.xmc i 11)) 13)) false,
      .out (.shr .sr 7),
      .sr (.or (.shr .sr 3) (.shl (.fld (.xmc i 12)) 13)) false]) ++
    [
      .next,
      .sr (.or (.shr .sr 6) (.shl (.fld (.larc 0)) 10)) false,
      .out (.shr .sr 6),
      .sr (.or (.shr .sr 6) (.shl (.fld (.larc 1)) 10)) false,
      .out (.shr .sr 8),
      .sr (.or (.shr .sr 5) (.shl (.fld (.larc 2)) 11)) false,
      .sr (.or (.shr .sr 5) (.shl (.fld (.larc 3)) 11)) false,
      .out (.shr .sr 6),
      .sr (.or (.shr .sr 4) (.shl (.fld (.larc 4)) 12)) false,
      .sr (.or (.shr .sr 4) (.shl (.fld (.larc 5)) 12)) false,
      .out (.shr .sr 6),
      .sr (.or (.shr .sr 3) (.shl (.fld (.larc 6)) 13)) false,
      .sr (.or (.shr .sr 3) (.shl (.fld (.larc 7)) 13)) false,
      .out (.shr .sr 8)] ++
    ([0, 1, 2, 3].flatMap fun i => [
      .sr (.or (.shr .sr 7) (.shl (.fld (.nc i)) 9)) false,
      .sr (.or (.shr .sr 2) (.shl (.fld (.bc i)) 14)) false,
      .out (.shr .sr 7),
      .sr (.or (.shr .sr 2) (.shl (.fld (.mc i)) 14)) false,
      .sr (.or (.shr .sr 6) (.shl (.fld (.xmaxc i)) 10)) false,
      .out (.shr .sr 7),
      .sr (.or (.shr .sr 3) (.shl (.fld (.xmc i 0)) 13)) false,
      .sr (.or (.shr .sr 3) (.shl (.fld (.xmc i 1)) 13)) false,
      .sr (.or (.shr .sr 3) (.shl (.fld (.xmc i 2)) 13)) false,
      .out (.shr .sr 6),
      .sr (.or (.shr .sr 3) (.shl (.fld (.xmc i 3)) 13)) false,
      .sr (.or (.shr .sr 3) (.shl (.fld (.xmc i 4)) 13)) false,
      .out (.shr .sr 8),
      .sr (.or (.shr .sr 3) (.shl (.fld (.xmc i 5)) 13)) false,
      .sr (.or (.shr .sr 3) (.shl (.fld (.xmc i 6)) 13)) false,
      .sr (.or (.shr .sr 3) (.shl (.fld (.xmc i 7)) 13)) false,
      .out (.shr .sr 7),
      .sr (.or (.shr .sr 3) (.shl (.fld (.xmc i 8)) 13)) false,
      .sr (.or (.shr .sr 3) (.shl (.fld (.xmc i 9)) 13)) false,
      .sr (.or (.shr .sr 3) (.shl (.fld (.xmc i 10)) 13)) false,
      .out (.shr .sr 6),
      .sr (.or (.shr .sr 3) (.shl (.fld (.xmc i 11)) 13)) false,
      .sr (.or (.shr .sr 3) (.shl (.fld (.xmc i 12)) 13)) false,
      .out (.shr .sr 8)])

/-- `gsm0610_pack_voip`, src/gsm0610_encode.c:235-279. The loop is lines 252-277. -/
def packVoip : List Stmt :=
    [
      .out (.or (.shl (.and (.num 0xD) 0xF) 4) (.and (.shr (.fld (.larc 0)) 2) 0xF)),
      .out (.or (.shl (.and (.fld (.larc 0)) 0x3) 6) (.and (.fld (.larc 1)) 0x3F)),
      .out (.or (.shl (.and (.fld (.larc 2)) 0x1F) 3) (.and (.shr (.fld (.larc 3)) 2) 0x7)),
      .out (.or (.or (.shl (.and (.fld (.larc 3)) 0x3) 6) (.shl (.and (.fld (.larc 4)) 0xF) 2)) (.and (.shr (.fld (.larc 5)) 2) 0x3)),
      .out (.or (.or (.shl (.and (.fld (.larc 5)) 0x3) 6) (.shl (.and (.fld (.larc 6)) 0x7) 3)) (.and (.fld (.larc 7)) 0x7))] ++
    ([0, 1, 2, 3].flatMap fun i => [
      .out (.or (.shl (.and (.fld (.nc i)) 0x7F) 1) (.and (.shr (.fld (.bc i)) 1) 0x1)),
      .out (.or (.or (.shl (.and (.fld (.bc i)) 0x1) 7) (.shl (.and (.fld (.mc i)) 0x3) 5)) (.and (.shr (.fld (.xmaxc i)) 1) 0x1F)),
      .out (.or (.or (.or (.shl (.and (.fld (.xmaxc i)) 0x1) 7) (.shl (.and (.fld (.xmc i 0)) 0x7) 4)) (.shl (.and (.fld (.xmc i 1)) 0x7) 1)) (.and (.shr (.fld (.xmc i 2)) 2) 0x1)),
      .out (.or (.or (.shl (.and (.fld (.xmc i 2)) 0x3) 6) (.shl (.and (.fld (.xmc i 3)) 0x7) 3)) (.and (.fld (.xmc i 4)) 0x7)),
      .out (.or (.or (.shl (.and (.fld (.xmc i 5)) 0x7) 5) (.shl (.and (.fld (.xmc i 6)) 0x7) 2)) (.and (.shr (.fld (.xmc i 7)) 1) 0x3)),
      .out (.or (.or (.or (.shl (.and (.fld (.xmc i 7)) 0x1) 7) (.shl (.and (.fld (.xmc i 8)) 0x7) 4)) (.shl (.and (.fld (.xmc i 9)) 0x7) 1)) (.and (.shr (.fld (.xmc i 10)) 2) 0x1)),
      .out (.or (.or (.shl (.and (.fld (.xmc i 10)) 0x3) 6) (.shl (.and (.fld (.xmc i 11)) 0x7) 3)) (.and (.fld (.xmc i 12)) 0x7))])

/-- `gsm0610_unpack_none`, src/gsm0610_decode.c:103-125. -/
def unpackNone : List Stmt :=
    ([0, 1, 2, 3, 4, 5, 6, 7].map fun j => .set (.larc j) .c true) ++
    ([0, 1, 2, 3].flatMap fun j => [
      .set (.nc j) .c true,
      .set (.bc j) .c true,
      .set (.mc j) .c true,
      .set (.xmaxc j) .c true] ++
      [0, 1, 2, 3, 4, 5, 6, 7, 8, 9, 10, 11, 12].map fun k => .set (.xmc j k) .c true)

/-- `gsm0610_unpack_wav49`, src/gsm0610_decode.c:128-263. The first loop is lines 155-197, the second lines 219-261. -/
def unpackWav49 : List Stmt :=
    [
      .sr .c true,
      .set (.larc 0) (.and .sr 0x3F) false,
      .sr (.shr .sr 6) false,
      .sr (.or .sr (.shl .c 2)) true,
      .set (.larc 1) (.and .sr 0x3F) false,
      .sr (.shr .sr 6) false,
      .sr (.or .sr (.shl .c 4)) true,
      .set (.larc 2) (.and .sr 0x1F) false,
      .sr (.shr .sr 5) false,
      .set (.larc 3) (.and .sr 0x1F) false,
      .sr (.shr .sr 5) false,
      .sr (.or .sr (.shl .c 2)) true,
      .set (.larc 4) (.and .sr 0xF) false,
      .sr (.shr .sr 4) false,
      .set (.larc 5) (.and .sr 0xF) false,
      .sr (.shr .sr 4) false,
      .sr (.or .sr (.shl .c 2)) true,
      .set (.larc 6) (.and .sr 0x7) false,
      .sr (.shr .sr 3) false,
      .set (.larc 7) (.and .sr 0x7) false,
      .sr (.shr .sr 3) false] ++
    ([0, 1, 2, 3].flatMap fun i => [
      .sr (.or .sr (.shl .c 4)) true,
      .set (.nc i) (.and .sr 0x7F) false,
      .sr (.shr .sr 7) false,
      .set (.bc i) (.and .sr 0x3) false,
      .sr (.shr .sr 2) false,
      .set (.mc i) (.and .sr 0x3) false,
      .sr (.shr .sr 2) false,
      .sr (.or .sr (.shl .c 1)) true,
      .set (.xmaxc i) (.and .sr 0x3F) false,
      .sr (.shr .sr 6) false,
      .set (.xmc i 0) (.and .sr 0x7) false,
      .sr .c true,
      .set (.xmc i 1) (.and .sr 0x7) false,
      .sr (.shr .sr 3) false,
      .set (.xmc i 2) (.and .sr 0x7) false,
      .sr (.shr .sr 3) false,
      .sr (.or .sr (.shl .c 2)) true,
      .set (.xmc i 3) (.and .sr 0x7) false,
      .sr (.shr .sr 3) false,
      .set (.xmc i 4) (.and .sr 0x7) false,
      .sr (.shr .sr 3) false,
      .set (.xmc i 5) (.and .sr 0x7) false,
      .sr (.shr .sr 3) false,
      .sr (.or .sr (.shl .c 1)) true,
      .set (.xmc i 6) (.and .sr 0x7) false,
      .sr (.shr .sr 3) false,
      .set (.xmc i 7) (.and .sr 0x7) false,
      .sr (.shr .sr 3) false,
      .set (.xmc i 8) (.and .sr 0x7) false,
      .sr .c true,
      .set (.xmc i 9) (.and .sr 0x7) false,
      .sr (.shr .sr 3) false,
      .set (.xmc i 10) (.and .sr 0x7) false,
      .sr (.shr .sr 3) false,
      .sr (.or .sr (.shl .c 2)) true,
      .set (.xmc i 11) (.and .sr 0x7) false,
      .sr (.shr .sr 3) false,
      .set (.xmc i 12) (.and .sr 0x7) false,
      .sr (.shr .sr 3) false]) ++
    [
      .next,
      .sr (.or .sr (.shl .c 4)) true,
      .set (.larc 0) (.and .sr 0x3F) false,
      .sr (.shr .sr 6) false,
      .set (.larc 1) (.and .sr 0x3F) false,
      .sr .c true,
      .set (.larc 2) (.and .sr 0x1F) false,
      .sr (.shr .sr 5) false,
      .sr (.or .sr (.shl .c 3)) true,
      .set (.larc 3) (.and .sr 0x1F) false,
      .sr (.shr .sr 5) false,
      .set (.larc 4) (.and .sr 0xF) false,
      .sr (.shr .sr 4) false,
      .sr (.or .sr (.shl .c 2)) true,
      .set (.larc 5) (.and .sr 0xF) false,
      .sr (.shr .sr 4) false,
      .set (.larc 6) (.and .sr 0x7) false,
      .sr (.shr .sr 3) false,
      .set (.larc 7) (.and .sr 0x7) false] ++
    ([0, 1, 2, 3].flatMap fun i => [
      .sr .c true,
      .set (.nc i) (.and .sr 0x7F) false,
      .sr (.shr .sr 7) false,
      .sr (.or .sr (.shl .c 1)) true,
      .set (.bc i) (.and .sr 0x3) false,
      .sr (.shr .sr 2) false,
      .set (.mc i) (.and .sr 0x3) false,
      .sr (.shr .sr 2) false,
      .sr (.or .sr (.shl .c 5)) true,
      .set (.xmaxc i) (.and .sr 0x3F) false,
      .sr (.shr .sr 6) false,
      .set (.xmc i 0) (.and .sr 0x7) false,
      .sr (.shr .sr 3) false,
      .set (.xmc i 1) (.and .sr 0x7) false,
      .sr (.shr .sr 3) false,
      .sr (.or .sr (.shl .c 1)) true,
      .set (.xmc i 2) (.and .sr 0x7) false,
      .sr (.shr .sr 3) false,
      .set (.xmc i 3) (.and .sr 0x7) false,
      .sr (.shr .sr 3) false,
      .set (.xmc i 4) (.and .sr 0x7) false,
      .sr .c true,
      .set (.xmc i 5) (.and .sr 0x7) false,
      .sr (.shr .sr 3) false,
      .set (.xmc i 6) (.and .sr 0x7) false,
      .sr (.shr .sr 3) false,
      .sr (.or .sr (.shl .c 2)) true,
      .set (.xmc i 7) (.and .sr 0x7) false,
      .sr (.shr .sr 3) false,
      .set (.xmc i 8) (.and .sr 0x7) false,
      .sr (.shr .sr 3) false,
      .set (.xmc i 9) (.and .sr 0x7) false,
      .sr (.shr .sr 3) false,
      .sr (.or .sr (.shl .c 1)) true,
      .set (.xmc i 10) (.and .sr 0x7) false,
      .sr (.shr .sr 3) false,
      .set (.xmc i 11) (.and .sr 0x7) false,
      .sr (.shr .sr 3) false,
      .set (.xmc i 12) (.and .sr 0x7) false])

/-- `gsm0610_unpack_voip`, src/gsm0610_decode.c:266-309. The loop is lines 282-307. -/
def unpackVoip : List Stmt :=
    [
      .set (.larc 0) (.shl (.and .c 0xF) 2) true,
      .join (.larc 0) (.and (.shr .c 6) 0x3) false,
      .set (.larc 1) (.and .c 0x3F) true,
      .set (.larc 2) (.and (.shr .c 3) 0x1F) false,
      .set (.larc 3) (.shl (.and .c 0x7) 2) true,
      .join (.larc 3) (.and (.shr .c 6) 0x3) false,
      .set (.larc 4) (.and (.shr .c 2) 0xF) false,
      .set (.larc 5) (.shl (.and .c 0x3) 2) true,
      .join (.larc 5) (.and (.shr .c 6) 0x3) false,
      .set (.larc 6) (.and (.shr .c 3) 0x7) false,
      .set (.larc 7) (.and .c 0x7) true] ++
    ([0, 1, 2, 3].flatMap fun i => [
      .set (.nc i) (.and (.shr .c 1) 0x7F) false,
      .set (.bc i) (.shl (.and .c 0x1) 1) true,
      .join (.bc i) (.and (.shr .c 7) 0x1) false,
      .set (.mc i) (.and (.shr .c 5) 0x3) false,
      .set (.xmaxc i) (.shl (.and .c 0x1F) 1) true,
      .join (.xmaxc i) (.and (.shr .c 7) 0x1) false,
      .set (.xmc i 0) (.and (.shr .c 4) 0x7) false,
      .set (.xmc i 1) (.and (.shr .c 1) 0x7) false,
      .set (.xmc i 2) (.shl (.and .c 0x1) 2) true,
      .join (.xmc i 2) (.and (.shr .c 6) 0x3) false,
      .set (.xmc i 3) (.and (.shr .c 3) 0x7) false,
      .set (.xmc i 4) (.and .c 0x7) true,
      .set (.xmc i 5) (.and (.shr .c 5) 0x7) false,
      .set (.xmc i 6) (.and (.shr .c 2) 0x7) false,
      .set (.xmc i 7) (.shl (.and .c 0x3) 1) true,
      .join (.xmc i 7) (.and (.shr .c 7) 0x1) false,
      .set (.xmc i 8) (.and (.shr .c 4) 0x7) false,
      .set (.xmc i 9) (.and (.shr .c 1) 0x7) false,
      .set (.xmc i 10) (.shl (.and .c 0x1) 2) true,
      .join (.xmc i 10) (.and (.shr .c 6) 0x3) false,
      .set (.xmc i 11) (.and (.shr .c 3) 0x7) false,
      .set (.xmc i 12) (.and .c 0x7) true])

/-- A call of a packing function for the given frames. -/
def pack (prog : List Stmt) (frames : Nat → Place → Nat) : Option (List Nat) :=
  (exec ⟨0, [], [], 0, frames⟩ prog).map (·.output)

/-- A call of an unpacking function for the given bytes. What is in the frames before the call is arbitrary. -/
def unpack (prog : List Stmt) (old : Nat → Place → Nat) (bytes : List Nat) : Option (Nat → Place → Nat) :=
  (exec ⟨0, bytes, [], 0, old⟩ prog).map (·.frames)

end Gsm
