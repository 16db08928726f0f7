import Verif.At.Model

/-!
# What command lines are
-/

namespace At

/-- Every command takes some of the line. -/
def Cmds.Takes {R : Type} (m : Cmds R) : Prop := ∀ e r t r' t', m.run e r t = (r', .next t') → t'.length < t.length ∧ t' <:+ t

/-- What is left of what was typed after AT: a character is added, and the delete key takes the last one. -/
def typed (del : Nat) (before : List Nat) : List Nat → List Nat
  | [] => before
  | c :: l => typed del (if c = del then before.dropLast else before ++ [upper c]) l

/-- What may be typed: printable characters as long as there is room, and the delete key as long as there is something to
delete. -/
def Proper (del : Nat) (before : List Nat) : List Nat → Prop
  | [] => True
  | c :: l => (if c = del then before ≠ [] else 0x20 ≤ c ∧ c ≤ 0x7E ∧ before.length < 253) ∧
      Proper del (if c = del then before.dropLast else before ++ [upper c]) l

/-- Some commands at the head of a line which are known and run one after the other without an error, with what follows. -/
def Ran {R : Type} (m : Cmds R) (r : R) (tail : List Nat) : List (List Nat) → R → Prop
  | [], r' => r' = r
  | p :: ps, r' => p ≠ [] ∧ 0 < m.search (p ++ (ps.flatten ++ tail)) ∧ m.search (p ++ (ps.flatten ++ tail)) ≤ m.count ∧
      ∃ r1, m.run (m.search (p ++ (ps.flatten ++ tail))) r (p ++ (ps.flatten ++ tail)) = (r1, .next (ps.flatten ++ tail)) ∧
        Ran m r1 tail ps r'

/-- The value of decimal digits. -/
def value (l : List Nat) : Nat := l.foldl (fun v c => 10*v + (c - 48)) 0

end At
