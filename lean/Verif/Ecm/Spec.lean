import Verif.Ecm.Model
import Mathlib.Data.List.Forall2

/-!
# What a fax transfer with error correction is to do, in terms of pages and octets
-/

namespace Ecm

/-- The page `x` as it was given to the receiving application is the page `d` as the sending one supplied it, but for zeros, less
than one frame of them, after its end. -/
def Padded (sz : Nat) (d x : List Nat) : Prop := ∃ k < sz, x = d ++ List.replicate k 0

/-- The pages `xs`, and `out` of a page which has not ended, are `docs` from its start: whole pages in order, then some octets from
the start of the next page. -/
def Prefix (sz : Nat) (docs xs : List (List Nat)) (out : List Nat) : Prop :=
  ∃ past rest, docs = past ++ rest ∧ List.Forall₂ (Padded sz) past xs ∧ (out = [] ∨ ∃ d more, rest = d :: more ∧ out <+: d)

/-- The pages `xs` are `docs`, every page of it, in order. -/
def Whole (sz : Nat) (docs xs : List (List Nat)) : Prop := List.Forall₂ (Padded sz) docs xs

end Ecm
