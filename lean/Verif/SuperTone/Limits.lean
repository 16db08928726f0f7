import Verif.SuperTone.Props

/-!
# Where supervisory tones fall short
-/

namespace SuperTone

theorem move_deep {T : Type} (f : Frame T) (below : List (Frame T)) (h1 : f.cur.nest ≠ []) (h2 : 3 ≤ below.length) :
    move (f :: below) = f :: below := by
  rw [move, if_pos h1, if_neg (by omega)]

/-- On the fourth level what is nested in a step is never heard: the step itself goes on for ever, whatever its cycles. -/
theorem fifth_level_unheard {T : Type} (f : Frame T) (below : List (Frame T)) (h1 : f.cur.nest ≠ []) (h2 : 3 ≤ below.length)
    (h3 : 0 < f.cur.length) : ∀ n, ∃ fuel s, tx fuel ⟨f :: below, 0⟩ n = some (s, List.replicate n f.cur.tone) := by
  intro n
  induction n using Nat.strongRecOn with
  | ind n ih =>
    by_cases hn : n = 0
    · subst hn; exact ⟨1, _, rfl⟩
    · by_cases hl : f.cur.length - 0 > n
      · refine ⟨1, ⟨f :: below, 0 + n⟩, ?_⟩
        rw [tx]
        simp only
        rw [if_neg hn, if_neg (by omega), if_pos hl]
      · obtain ⟨fuel, s, h⟩ := ih (n - (f.cur.length - 0)) (by omega)
        refine ⟨fuel + 1, s, ?_⟩
        rw [tx]
        simp only
        rw [if_neg hn, if_neg (by omega), if_neg hl, move_deep f below h1 h2, h, Option.map_some,
          List.replicate_append_replicate]
        congr 3
        omega

/-- So it is with five levels. -/
example : let c : List (Step Nat) := [.mk none 0 1 [.mk none 0 1 [.mk none 0 1 [.mk (some 1) 1 1 [.mk (some 2) 1 1 []]]]]]
    depths c = 5 ∧ sounds 6 c = [some 1, some 2] ∧ (tx 20 (init c) 6).map (fun r => r.2) = some (List.replicate 6 (some 1)) := by
  decide +kernel

/-- A silent step which is repeated for ever is never left, so that the call does not return. -/
theorem hangs (fuel n : Nat) (hn : 0 < n) : tx fuel (init [(.mk none 0 0 [] : Step Nat)]) n = none := by
  have e : move [(⟨.mk none 0 0 [], [], 0⟩ : Frame Nat)] = [⟨.mk none 0 0 [], [], 0⟩] := by
    simp [move, finish, Step.nest, Step.cycles]
  show tx fuel ⟨[⟨.mk none 0 0 [], [], 0⟩], 0⟩ n = none
  induction fuel with
  | zero => rfl
  | succ fuel ih =>
    rw [tx]
    simp only
    rw [if_neg (by omega), if_neg (by simp [Step.tone]), if_neg (by simp [Step.length]), e]
    simp only [Step.length, Nat.sub_zero]
    rw [ih]; rfl

example : depths [(.mk none 0 0 [] : Step Nat)] = 1 ∧ ¬ Fines [(.mk none 0 0 [] : Step Nat)] := by
  refine ⟨by decide +kernel, ?_⟩
  simp [Fines, Step.Fine, own, sounds]

end SuperTone
