import Verif.SuperTone.Model

/-!
# What a cadence sounds like

Here what is to go on for ever, a tone of length zero or a step of zero cycles, does so for `n` samples or `n` times.
-/

namespace SuperTone

variable {T : Type}

/-- The samples of a step itself. -/
def own (n : Nat) (tone : Option T) (length : Nat) : List (Option T) :=
  if tone.isSome ∧ length = 0 then List.replicate n tone else List.replicate length tone

mutual
/-- A step: its own samples and those of what is nested in it, as many times as it has cycles. -/
def sound (n : Nat) : Step T → List (Option T)
  | .mk t l c nest => (List.replicate (if c = 0 then n else c) (own n t l ++ sounds n nest)).flatten
/-- Steps one after the other. -/
def sounds (n : Nat) : List (Step T) → List (Option T)
  | [] => []
  | s :: r => sound n s ++ sounds n r
end

/-- A step once. -/
def body (n : Nat) (s : Step T) : List (Option T) := own n s.tone s.length ++ sounds n s.nest

mutual
/-- Whatever is repeated for ever has some sample. -/
def Step.Fine : Step T → Prop
  | .mk t l c nest => (c = 0 → own 1 t l ++ sounds 1 nest ≠ []) ∧ Fines nest
def Fines : List (Step T) → Prop
  | [] => True
  | s :: r => s.Fine ∧ Fines r
end

mutual
/-- The number of levels. -/
def Step.depth : Step T → Nat
  | .mk _ _ _ nest => 1 + depths nest
def depths : List (Step T) → Nat
  | [] => 0
  | s :: r => max s.depth (depths r)
end

/-- Pieces of the given lengths, as far as there is enough. -/
def pieces (x : List (Option T)) : List Nat → List (List (Option T))
  | [] => []
  | n :: l => x.take n :: pieces (x.drop n) l

end SuperTone
