import Verif.G726.Model

/-!
# What the codes of G.726 mean
-/

namespace G726

/-- The power of two which has the logarithm `v/128`, with straight lines between whole powers. -/
def level (v : Int) : Int := if v < 0 then 0 else (128 + v % 128)*2^(v/128).toNat/128

/-- How far from the middle a code is. -/
def index (t : Tab) (i : Nat) : Nat := if i < 2^(t.bits - 1) then i else 2^t.bits - 1 - i

/-- `x` belongs to the code `i` at the scale `y`: it lies between the decision levels to both sides, and, unless
the code is one in the middle, has the sign of the code. -/
structure Cell (t : Tab) (y : Int) (i : Nat) (x : Int) : Prop where
  lower : ∀ lo, 0 < index t i → t.q[index t i - 1]? = some lo → level (lo + y/4) ≤ x.natAbs
  upper : ∀ hi, t.q[index t i]? = some hi → x.natAbs ≤ level (hi + y/4)
  sign : 0 < index t i → if i < 2^(t.bits - 1) then 0 < x else x < 0

/-- What the predictor expects next. -/
def estimate (s : Pred) : Option Int :=
  (predictorZero s).bind fun z => (predictorPole s).map fun p => s16 (z + p)/2

/-- Codes in the order of the values which they stand for. -/
def rank (t : Tab) (i : Nat) : Nat := i ^^^ t.sign

/-- `c` has the next lower level to that of `a`; if there is none, it is `a`. -/
def Lower (level : Byte → Int) (a c : Byte) : Prop :=
  (level c < level a ∧ ∀ b, level b < level a → level b ≤ level c) ∨ (c = a ∧ ∀ b, level a ≤ level b)

def Higher (level : Byte → Int) (a c : Byte) : Prop :=
  (level a < level c ∧ ∀ b, level a < level b → level c ≤ level b) ∨ (c = a ∧ ∀ b, level b ≤ level a)

/-- Several calls of `g726_encode`. -/
def encodeCalls (g : Cfg) (s : Codec) : List (List Int) → Option (Codec × List Byte)
  | [] => some (s, [])
  | l :: ls => (encode g s l).bind fun x => (encodeCalls g x.1 ls).map fun z => (z.1, x.2 ++ z.2)

/-- Several calls of `g726_decode`. -/
def decodeCalls (g : Cfg) (s : Codec) : List (List Byte) → Option (Codec × List Int)
  | [] => some (s, [])
  | l :: ls => (decode g s l).bind fun x => (decodeCalls g x.1 ls).map fun z => (z.1, x.2 ++ z.2)

end G726
