import Verif.Ima.Model
import Verif.Saturated.Props

namespace Ima

/-- A state whose prediction and step index are in range. -/
def Valid (s : State) : Prop := 0 ≤ s.stepIndex ∧ s.stepIndex ≤ 88 ∧ -32768 ≤ s.last ∧ s.last ≤ 32767

theorem step_at {i : Int} (h0 : 0 ≤ i) (h1 : i ≤ 88) : ∃ ss, at? stepSize i = some ss ∧ 7 ≤ ss ∧ ss ≤ 32767 := by
  have : ∀ k : Fin 89, (stepSize[k.val]?).any (fun ss => decide (7 ≤ ss ∧ ss ≤ 32767)) = true := by decide +kernel
  obtain ⟨ss, hss, h⟩ := (Option.any_eq_true _ _).1 (this ⟨i.toNat, by omega⟩)
  exact ⟨ss, by unfold at?; rw [if_pos h0]; exact hss, of_decide_eq_true h⟩

theorem step_at_iff (i : Int) : (∃ ss, at? stepSize i = some ss) ↔ 0 ≤ i ∧ i ≤ 88 := by
  constructor
  · rintro ⟨ss, h⟩
    unfold at? at h
    by_cases h0 : 0 ≤ i
    · rw [if_pos h0] at h
      have := (List.getElem?_eq_some_iff.1 h).1
      simp only [stepSize, List.length_cons, List.length_nil] at this
      omega
    · rw [if_neg h0] at h; simp at h
  · rintro ⟨h0, h1⟩; obtain ⟨ss, h, _⟩ := step_at h0 h1; exact ⟨ss, h⟩

theorem sat16_eq {x : Int} (h : -2147483648 ≤ x) (h' : x ≤ 2147483647) : sat16 x = some (Saturated.clamp (-32768) 32767 x) := by
  unfold sat16
  have : fits x = true := by unfold fits; simp; omega
  rw [if_pos this, Saturated.saturate16_correct]
  congr 2
  rw [BitVec.toInt_ofInt]
  exact Int.bmod_eq_of_le (by omega) (by omega)

theorem clamp_range (x : Int) : -32768 ≤ Saturated.clamp (-32768) 32767 x ∧ Saturated.clamp (-32768) 32767 x ≤ 32767 := by
  unfold Saturated.clamp; repeat' split
  all_goals omega

theorem adjust_ok (i : Int) (c : Nat) : ∃ j, adjust i c = some j ∧ 0 ≤ j ∧ j ≤ 88 := by
  unfold adjust
  have : c % 8 < stepAdjustment.length := by simp [stepAdjustment]; omega
  rw [List.getElem?_eq_getElem this]
  refine ⟨_, rfl, ?_⟩
  repeat' split
  all_goals omega

/-- What the decoder adds for a code. -/
def delta (ss : Int) (c : Nat) : Int :=
  let e := ss / 8 + (if c.testBit 0 then ss / 4 else 0) + (if c.testBit 1 then ss / 2 else 0) + (if c.testBit 2 then ss else 0)
  if c.testBit 3 then -e else e

theorem delta_range {ss : Int} (h : 7 ≤ ss) (h' : ss ≤ 32767) (c : Nat) : -65536 ≤ delta ss c ∧ delta ss c ≤ 65536 := by
  unfold delta; simp only; repeat' split
  all_goals omega

theorem decode_eq (t : State) (c : Nat) (ss : Int) (hss : at? stepSize t.stepIndex = some ss) (hv : Valid t) (h7 : 7 ≤ ss) (h8 : ss ≤ 32767) :
    ∃ j, adjust t.stepIndex c = some j ∧ 0 ≤ j ∧ j ≤ 88 ∧
      decode t c = some ({ t with last := Saturated.clamp (-32768) 32767 (t.last + delta ss c), stepIndex := j },
        Saturated.clamp (-32768) 32767 (t.last + delta ss c)) := by
  obtain ⟨j, hj, h0, h1⟩ := adjust_ok t.stepIndex c
  refine ⟨j, hj, h0, h1, ?_⟩
  have hd := delta_range h7 h8 c
  unfold Valid at hv
  unfold decode
  rw [hss]
  simp only [Option.bind_eq_bind, Option.bind_some]
  have : ∀ (b0 b1 b2 b3 : Bool), (if b3 = true then -(if b2 = true then (if b1 = true then (if b0 = true then ss / 8 + ss / 4 else ss / 8) + ss / 2 else
      if b0 = true then ss / 8 + ss / 4 else ss / 8) + ss else if b1 = true then (if b0 = true then ss / 8 + ss / 4 else ss / 8) + ss / 2 else
      if b0 = true then ss / 8 + ss / 4 else ss / 8) else if b2 = true then (if b1 = true then (if b0 = true then ss / 8 + ss / 4 else ss / 8) + ss / 2 else
      if b0 = true then ss / 8 + ss / 4 else ss / 8) + ss else if b1 = true then (if b0 = true then ss / 8 + ss / 4 else ss / 8) + ss / 2 else
      if b0 = true then ss / 8 + ss / 4 else ss / 8) = (if b3 = true then -(ss / 8 + (if b0 = true then ss / 4 else 0) + (if b1 = true then ss / 2 else 0) +
        (if b2 = true then ss else 0)) else ss / 8 + (if b0 = true then ss / 4 else 0) + (if b1 = true then ss / 2 else 0) + (if b2 = true then ss else 0)) := by
    intro b0 b1 b2 b3
    cases b0 <;> cases b1 <;> cases b2 <;> cases b3 <;> simp
  rw [this]
  rw [show (if c.testBit 3 = true then -(ss / 8 + (if c.testBit 0 = true then ss / 4 else 0) + (if c.testBit 1 = true then ss / 2 else 0) +
        (if c.testBit 2 = true then ss else 0)) else ss / 8 + (if c.testBit 0 = true then ss / 4 else 0) + (if c.testBit 1 = true then ss / 2 else 0) +
        (if c.testBit 2 = true then ss else 0)) = delta ss c from rfl]
  rw [sat16_eq (by omega) (by omega), hj]
  rfl

/-- How the encoder picks a code. -/
theorem encode_eq (s : State) (x : Int) (ss : Int) (hss : at? stepSize s.stepIndex = some ss) (hv : Valid s) (h7 : 7 ≤ ss) (h8 : ss ≤ 32767)
    :
    ∃ c j, c < 16 ∧ adjust s.stepIndex c = some j ∧ 0 ≤ j ∧ j ≤ 88 ∧
      encode s x = some ({ s with last := Saturated.clamp (-32768) 32767 (s.last + delta ss c), stepIndex := j }, c) ∧
      ((if x < s.last then s.last - x else x - s.last) < 2 * ss → (x - s.last - delta ss c) * 8 ≤ ss + 20 ∧ -(ss + 20) ≤ (x - s.last - delta ss c) * 8) := by
  unfold Valid at hv
  have core : ∀ c : Nat, c < 16 → (∃ last, last = s.last + delta ss c ∧ encode s x =
      (do let last ← sat16 last; let j ← adjust s.stepIndex c; return ({ s with last, stepIndex := j }, c))) →
      ((if x < s.last then s.last - x else x - s.last) < 2 * ss → (x - s.last - delta ss c) * 8 ≤ ss + 20 ∧ -(ss + 20) ≤ (x - s.last - delta ss c) * 8) →
      ∃ c j, c < 16 ∧ adjust s.stepIndex c = some j ∧ 0 ≤ j ∧ j ≤ 88 ∧
      encode s x = some ({ s with last := Saturated.clamp (-32768) 32767 (s.last + delta ss c), stepIndex := j }, c) ∧
      ((if x < s.last then s.last - x else x - s.last) < 2 * ss → (x - s.last - delta ss c) * 8 ≤ ss + 20 ∧ -(ss + 20) ≤ (x - s.last - delta ss c) * 8) := by
    intro c hc ⟨last, hlast, he⟩ hb
    obtain ⟨j, hj, h0, h1⟩ := adjust_ok s.stepIndex c
    have hd := delta_range h7 h8 c
    refine ⟨c, j, hc, hj, h0, h1, ?_, hb⟩
    rw [he, hlast, sat16_eq (by omega) (by omega), hj]
    rfl
  unfold encode at core ⊢
  rw [hss] at core ⊢
  simp only [Option.bind_eq_bind, Option.bind_some] at core ⊢
  by_cases h1 : x - s.last < 0
  · simp only [h1, if_true] at core ⊢
    have h1' : x < s.last := by omega
    rw [if_pos h1'] at core ⊢
    by_cases h2 : -(x - s.last) ≥ ss
    · simp only [h2, if_true] at core ⊢
      by_cases h3 : -(x - s.last) - ss ≥ ss / 2
      · simp only [h3, if_true] at core ⊢
        by_cases h4 : -(x - s.last) - ss - ss / 2 ≥ ss / 2 / 2
        · simp only [h4, if_true] at core ⊢
          have e : delta ss 15 = -(ss / 8 + ss / 4 + ss / 2 + ss) := rfl
          exact core 15 (by omega) ⟨_, by rw [e]; omega, rfl⟩ (by rw [e]; omega)
        · simp only [h4, if_false] at core ⊢
          have e : delta ss 14 = -(ss / 8 + 0 + ss / 2 + ss) := rfl
          exact core 14 (by omega) ⟨_, by rw [e]; omega, rfl⟩ (by rw [e]; omega)
      · simp only [h3, if_false] at core ⊢
        by_cases h4 : -(x - s.last) - ss ≥ ss / 2 / 2
        · simp only [h4, if_true] at core ⊢
          have e : delta ss 13 = -(ss / 8 + ss / 4 + 0 + ss) := rfl
          exact core 13 (by omega) ⟨_, by rw [e]; omega, rfl⟩ (by rw [e]; omega)
        · simp only [h4, if_false] at core ⊢
          have e : delta ss 12 = -(ss / 8 + 0 + 0 + ss) := rfl
          exact core 12 (by omega) ⟨_, by rw [e]; omega, rfl⟩ (by rw [e]; omega)
    · simp only [h2, if_false] at core ⊢
      by_cases h3 : -(x - s.last) ≥ ss / 2
      · simp only [h3, if_true] at core ⊢
        by_cases h4 : -(x - s.last) - ss / 2 ≥ ss / 2 / 2
        · simp only [h4, if_true] at core ⊢
          have e : delta ss 11 = -(ss / 8 + ss / 4 + ss / 2 + 0) := rfl
          exact core 11 (by omega) ⟨_, by rw [e]; omega, rfl⟩ (by rw [e]; omega)
        · simp only [h4, if_false] at core ⊢
          have e : delta ss 10 = -(ss / 8 + 0 + ss / 2 + 0) := rfl
          exact core 10 (by omega) ⟨_, by rw [e]; omega, rfl⟩ (by rw [e]; omega)
      · simp only [h3, if_false] at core ⊢
        by_cases h4 : -(x - s.last) ≥ ss / 2 / 2
        · simp only [h4, if_true] at core ⊢
          have e : delta ss 9 = -(ss / 8 + ss / 4 + 0 + 0) := rfl
          exact core 9 (by omega) ⟨_, by rw [e]; omega, rfl⟩ (by rw [e]; omega)
        · simp only [h4, if_false] at core ⊢
          have e : delta ss 8 = -(ss / 8 + 0 + 0 + 0) := rfl
          exact core 8 (by omega) ⟨_, by rw [e]; omega, rfl⟩ (by rw [e]; omega)
  · simp only [h1, if_false] at core ⊢
    have h1' : ¬ x < s.last := by omega
    rw [if_neg h1'] at core ⊢
    by_cases h2 : x - s.last ≥ ss
    · simp only [h2, if_true] at core ⊢
      by_cases h3 : x - s.last - ss ≥ ss / 2
      · simp only [h3, if_true] at core ⊢
        by_cases h4 : x - s.last - ss - ss / 2 ≥ ss / 2 / 2
        · simp only [h4, if_true] at core ⊢
          have e : delta ss 7 = ss / 8 + ss / 4 + ss / 2 + ss := rfl
          exact core 7 (by omega) ⟨_, by rw [e]; omega, rfl⟩ (by rw [e]; omega)
        · simp only [h4, if_false] at core ⊢
          have e : delta ss 6 = ss / 8 + 0 + ss / 2 + ss := rfl
          exact core 6 (by omega) ⟨_, by rw [e]; omega, rfl⟩ (by rw [e]; omega)
      · simp only [h3, if_false] at core ⊢
        by_cases h4 : x - s.last - ss ≥ ss / 2 / 2
        · simp only [h4, if_true] at core ⊢
          have e : delta ss 5 = ss / 8 + ss / 4 + 0 + ss := rfl
          exact core 5 (by omega) ⟨_, by rw [e]; omega, rfl⟩ (by rw [e]; omega)
        · simp only [h4, if_false] at core ⊢
          have e : delta ss 4 = ss / 8 + 0 + 0 + ss := rfl
          exact core 4 (by omega) ⟨_, by rw [e]; omega, rfl⟩ (by rw [e]; omega)
    · simp only [h2, if_false] at core ⊢
      by_cases h3 : x - s.last ≥ ss / 2
      · simp only [h3, if_true] at core ⊢
        by_cases h4 : x - s.last - ss / 2 ≥ ss / 2 / 2
        · simp only [h4, if_true] at core ⊢
          have e : delta ss 3 = ss / 8 + ss / 4 + ss / 2 + 0 := rfl
          exact core 3 (by omega) ⟨_, by rw [e]; omega, rfl⟩ (by rw [e]; omega)
        · simp only [h4, if_false] at core ⊢
          have e : delta ss 2 = ss / 8 + 0 + ss / 2 + 0 := rfl
          exact core 2 (by omega) ⟨_, by rw [e]; omega, rfl⟩ (by rw [e]; omega)
      · simp only [h3, if_false] at core ⊢
        by_cases h4 : x - s.last ≥ ss / 2 / 2
        · simp only [h4, if_true] at core ⊢
          have e : delta ss 1 = ss / 8 + ss / 4 + 0 + 0 := rfl
          exact core 1 (by omega) ⟨_, by rw [e]; omega, rfl⟩ (by rw [e]; omega)
        · simp only [h4, if_false] at core ⊢
          have e : delta ss 0 = ss / 8 + 0 + 0 + 0 := rfl
          exact core 0 (by omega) ⟨_, by rw [e]; omega, rfl⟩ (by rw [e]; omega)

end Ima
