/-!
# What the bit operations are supposed to compute
-/

namespace BitOps.Spec

/-- `y` is `x` with its bits in the opposite order. -/
def Reversed {n : Nat} (x y : BitVec n) : Prop := ∀ i, i < n → y.getLsbD i = x.getLsbD (n - 1 - i)

/-- `y` is `x` with the bits of each byte in the opposite order. -/
def BytesReversed {n : Nat} (x y : BitVec n) : Prop :=
  ∀ i, i < n → y.getLsbD i = x.getLsbD (8 * (i / 8) + (7 - i % 8))

/-- `r` is the position of the highest set bit, or -1 if there is none. -/
def IsTop {n : Nat} (x : BitVec n) (r : Int) : Prop :=
  (x = 0 ∧ r = -1) ∨ ∃ k : Nat, r = k ∧ x.getLsbD k = true ∧ ∀ j, k < j → x.getLsbD j = false

/-- `r` is the position of the lowest set bit, or -1 if there is none. -/
def IsBottom {n : Nat} (x : BitVec n) (r : Int) : Prop :=
  (x = 0 ∧ r = -1) ∨ ∃ k : Nat, r = k ∧ x.getLsbD k = true ∧ ∀ j, j < k → x.getLsbD j = false

/-- The number of set bits. -/
def ones {n : Nat} (x : BitVec n) : Nat := (List.range n).countP fun i => x.getLsbD i

/-- `y` has ones from bit 0 up to the highest set bit of `x`. -/
def IsMask {n : Nat} (x y : BitVec n) : Prop :=
  ∀ i, y.getLsbD i = true ↔ ∃ j, i ≤ j ∧ x.getLsbD j = true

end BitOps.Spec
