import Verif.Scrambler.Model

/-!
# What a scrambler should do
-/

namespace Scrambler.Spec

open Scrambler

/-- Send bits one by one through something with a state, whose bits are words. -/
def pass {σ : Type} (f : σ → Word → σ × Word) : σ → List Bool → List Bool
  | _, [] => []
  | s, x :: xs => ((f s (if x then 1 else 0)).2 == 1) :: pass f (f s (if x then 1 else 0)).1 xs

/-- The state afterwards. -/
def after {σ : Type} (f : σ → Word → σ × Word) : σ → List Bool → σ
  | s, [] => s
  | s, x :: xs => after f (f s (if x then 1 else 0)).1 xs

/-- The bit which was on the line `d` bits before bit `n`. What was on the line before the first bit is what the register
held. -/
def earlier (reg : Word) (line : List Bool) (n d : Nat) : Bool :=
  if d ≤ n then line.getD (n - d) false else reg.getLsbD (d - n - 1)

/-- The recurrence 1 + x^-a + x^-b, with the data in some places inverted. -/
def Follows (a b : Nat) (reg : Word) (inverted : Nat → Bool) (data line : List Bool) : Prop :=
  line.length = data.length ∧
  ∀ n, n < data.length → line.getD n false =
    (data.getD n false ^^ inverted n ^^ earlier reg line n a ^^ earlier reg line n b)

/-- The number of ones on the line just before bit `n`. -/
def ones (line : List Bool) (n : Nat) : Nat := ((line.take n).reverse.takeWhile (· = true)).length

/-- Bit `n` on the line repeats the one 8, 9 or 12 bits earlier. -/
def repeats (reg : Word) (line : List Bool) (n : Nat) : Bool :=
  line.getD n false == earlier reg line n 8 || line.getD n false == earlier reg line n 9 || line.getD n false == earlier reg line n 12

/-- Two registers hold the same last `d` bits of the line. -/
def Same (d : Nat) (r r' : Word) : Prop := ∀ i, i < d → r.getLsbD i = r'.getLsbD i

/-- Invert bit `k`. -/
def invert (k : Nat) (xs : List Bool) : List Bool := xs.modify k (!·)

/-- Send words through something with a state. The state afterwards, and what came out. -/
def passWords {σ : Type} (f : σ → Word → σ × Word) : σ → List Word → σ × List Word
  | s, [] => (s, [])
  | s, w :: ws => ((passWords f (f s w).1 ws).1, (f s w).2 :: (passWords f (f s w).1 ws).2)

/-- What goes through the V.17 scrambler in training: two ones for each symbol of segment 2, and then the bits of the bridge. -/
def training17 (symbols bridges : Nat) : List Word :=
  List.replicate (2 * symbols) 1 ++ (List.range bridges).flatMap fun n => [(bridge n).1, (bridge n).2]

end Scrambler.Spec
