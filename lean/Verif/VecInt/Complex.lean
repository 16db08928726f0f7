import Verif.VecInt.Model

/-!
# Vectors of complex 16-bit numbers

/repo/src/complex_vector_int.c, with arrays and faults as in `Verif.VecInt.Model`.  A product of two numbers of 16 bits is always in
32 bits; their sums are looked at.
-/

namespace VecInt

/-- `complexi16_t` and `complexi32_t`: /repo/src/spandsp/complex.h. -/
structure Cx where
  re : Int
  im : Int
  deriving DecidableEq, Repr

/-- The loop of /repo/src/complex_vector_int.c:64-68, on `x` from `px` and `y` from `py`. -/
def cdotLoop (x y : List Cx) (px py : Nat) : Nat → Nat → Cx → Option Cx
  | 0, _, z => some z
  | n + 1, i, z =>
    x[px + i]?.bind fun a => y[py + i]?.bind fun b =>
      if (fits (a.re*b.re - a.im*b.im) ∧ fits (z.re + (a.re*b.re - a.im*b.im))) ∧
          fits (a.re*b.im + a.im*b.re) ∧ fits (z.im + (a.re*b.im + a.im*b.re)) then
        cdotLoop x y px py n (i + 1) ⟨z.re + (a.re*b.re - a.im*b.im), z.im + (a.re*b.im + a.im*b.re)⟩
      else none

/-- /repo/src/complex_vector_int.c:58-71 (`cvec_dot_prodi16`). -/
def cdot (x : List Cx) (px : Nat) (y : List Cx) (py n : Nat) : Option Cx := cdotLoop x y px py n 0 ⟨0, 0⟩

/-- /repo/src/complex_vector_int.c:90-99 (`cvec_circular_dot_prodi16`). -/
def circularCdot (x y : List Cx) (n pos : Nat) : Option Cx :=
  (cdot x pos y 0 (n - pos)).bind fun a => (cdot x 0 y (n - pos) pos).bind fun b =>
    if fits (a.re + b.re) ∧ fits (a.im + b.im) then some ⟨a.re + b.re, a.im + b.im⟩ else none

/-- The loop of /repo/src/complex_vector_int.c:106-110. -/
def clmsLoop (x : List Cx) (px py : Nat) (error : Cx) : Nat → Nat → List Cx → Option (List Cx)
  | 0, _, y => some y
  | n + 1, i, y =>
    x[px + i]?.bind fun a => y[py + i]?.bind fun b =>
      if fits (a.im*error.im + a.re*error.re) ∧ fits (a.re*error.im - a.im*error.re) then
        clmsLoop x px py error n (i + 1) (y.set (py + i)
          ⟨i16 (b.re + i16 ((a.im*error.im + a.re*error.re)/4096)), i16 (b.im + i16 ((a.re*error.im - a.im*error.re)/4096))⟩)
      else none

/-- /repo/src/complex_vector_int.c:102-112 (`cvec_lmsi16`). -/
def clms (x : List Cx) (px : Nat) (y : List Cx) (py n : Nat) (error : Cx) : Option (List Cx) := clmsLoop x px py error n 0 y

/-- /repo/src/complex_vector_int.c:115-119 (`cvec_circular_lmsi16`). -/
def circularClms (x y : List Cx) (n pos : Nat) (error : Cx) : Option (List Cx) :=
  (clms x pos y 0 (n - pos) error).bind fun y => clms x 0 y (n - pos) pos error

end VecInt
