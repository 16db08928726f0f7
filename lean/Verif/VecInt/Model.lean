/-!
# Vectors of 16-bit numbers

The C code of /repo/src/vector_int.c, which is what is compiled unless the assembler of MMX is asked for.  An array is a list,
`none` is a read or write outside of one, or a sum beyond 32 bits.  Lengths and positions are not negative.
-/

namespace VecInt

/-- Conversion to `int16_t`. -/
def i16 (z : Int) : Int := (z + 32768) % 65536 - 32768

/-- A value of `int32_t`. -/
def fits (z : Int) : Bool := -2147483648 ≤ z ∧ z ≤ 2147483647

/-- The loop of /repo/src/vector_int.c:254-256, on `x` from `px` and `y` from `py`. -/
def dotLoop (x y : List Int) (px py : Nat) : Nat → Nat → Int → Option Int
  | 0, _, z => some z
  | n + 1, i, z =>
    x[px + i]?.bind fun a => y[py + i]?.bind fun b =>
      if fits (a*b) ∧ fits (z + a*b) then dotLoop x y px py n (i + 1) (z + a*b) else none

/-- /repo/src/vector_int.c:50-259 (`vec_dot_prodi16`). -/
def dot (x : List Int) (px : Nat) (y : List Int) (py n : Nat) : Option Int := dotLoop x y px py n 0 0

/-- /repo/src/vector_int.c:262-269 (`vec_circular_dot_prodi16`). -/
def circularDot (x y : List Int) (n pos : Nat) : Option Int :=
  (dot x pos y 0 (n - pos)).bind fun a => (dot x 0 y (n - pos) pos).bind fun b => if fits (a + b) then some (a + b) else none

/-- The loop of /repo/src/vector_int.c:276-277.  The product of two numbers of 16 bits is in 32 bits, and its shift is a division
that rounds down. -/
def lmsLoop (x : List Int) (px py : Nat) (error : Int) : Nat → Nat → List Int → Option (List Int)
  | 0, _, y => some y
  | n + 1, i, y =>
    x[px + i]?.bind fun a => y[py + i]?.bind fun b =>
      lmsLoop x px py error n (i + 1) (y.set (py + i) (i16 (b + i16 (a*error/32768))))

/-- /repo/src/vector_int.c:272-279 (`vec_lmsi16`). -/
def lms (x : List Int) (px : Nat) (y : List Int) (py n : Nat) (error : Int) : Option (List Int) := lmsLoop x px py error n 0 y

/-- /repo/src/vector_int.c:282-286 (`vec_circular_lmsi16`). -/
def circularLms (x y : List Int) (n pos : Nat) (error : Int) : Option (List Int) :=
  (lms x pos y 0 (n - pos) error).bind fun y => lms x 0 y (n - pos) pos error

/-- The loop of /repo/src/vector_int.c:605-614. -/
def minMaxLoop : List Int → Int → Int → Int × Int
  | [], max, min => (max, min)
  | a :: r, max, min => minMaxLoop r (if a > max then a else max) (if a < min then a else min)

/-- /repo/src/vector_int.c:289-628 (`vec_min_maxi16`): what is returned, and what is stored, the greatest and the least. -/
def minMax (x : List Int) : Int × (Int × Int) :=
  let p := minMaxLoop x (-32768) 32767
  let z := if p.2 < 0 then -p.2 else p.2
  (if z > p.1 then z else p.1, p)

end VecInt
