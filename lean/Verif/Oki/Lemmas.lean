import Verif.Oki.Spec

namespace Oki
open Spec

/-- A state whose prediction and step index are in range. -/
def Valid (s : State) : Prop := 0 ≤ s.stepIndex ∧ s.stepIndex ≤ 48 ∧ -2048 ≤ s.last ∧ s.last ≤ 2047

theorem i16_eq {x : Int} (h : -32768 ≤ x) (h' : x ≤ 32767) : i16 x = x := by
  unfold i16
  rw [BitVec.toInt_ofInt]
  exact Int.bmod_eq_of_le (by omega) (by omega)

theorem step_at {i : Int} (h0 : 0 ≤ i) (h1 : i ≤ 48) : ∃ ss, at? stepSize i = some ss ∧ 16 ≤ ss ∧ ss ≤ 1552 := by
  have : ∀ k : Fin 49, (stepSize[k.val]?).any (fun ss => decide (16 ≤ ss ∧ ss ≤ 1552)) = true := by decide +kernel
  obtain ⟨ss, hss, h⟩ := (Option.any_eq_true _ _).1 (this ⟨i.toNat, by omega⟩)
  exact ⟨ss, by unfold at?; rw [if_pos h0]; exact hss, of_decide_eq_true h⟩

theorem adjustment (c : Nat) : ∃ a, stepAdjustment[c % 8]? = some a ∧ -1 ≤ a ∧ a ≤ 8 := by
  have : ∀ k : Fin 8, (stepAdjustment[k.val]?).any (fun a => decide (-1 ≤ a ∧ a ≤ 8)) = true := by decide +kernel
  obtain ⟨a, ha, h⟩ := (Option.any_eq_true _ _).1 (this ⟨c % 8, by omega⟩)
  exact ⟨a, ha, of_decide_eq_true h⟩

def clip (x : Int) : Int := if x > 2047 then 2047 else if x < -2048 then -2048 else x

theorem clip_range (x : Int) : Sample12 (clip x) := by
  unfold clip Sample12; repeat' split
  all_goals omega

/-- What the decoder adds for a code. -/
def delta (ss : Int) (c : Nat) : Int :=
  let e := ss / 8 + (if c.testBit 0 then ss / 4 else 0) + (if c.testBit 1 then ss / 2 else 0) + (if c.testBit 2 then ss else 0)
  if c.testBit 3 then -e else e

theorem decode_eq (t : State) (c : Nat) (ss a : Int) (hss : at? stepSize t.stepIndex = some ss) (ha : stepAdjustment[c % 8]? = some a) (hv : Valid t)
    (h7 : 16 ≤ ss) (h8 : ss ≤ 1552) (ha0 : -1 ≤ a) (ha1 : a ≤ 8) :
    decode t c = some ({ t with last := clip (t.last + delta ss c),
                                stepIndex := if t.stepIndex + a < 0 then 0 else if t.stepIndex + a > 48 then 48 else t.stepIndex + a },
        clip (t.last + delta ss c)) := by
  unfold Valid at hv
  unfold decode
  simp only [hss, ha, Option.bind_eq_bind, Option.bind_some]
  have hlin : i16 (t.last + (if c.testBit 3 = true then i16 (-(if c.testBit 2 = true then i16 ((if c.testBit 1 = true then i16 ((if c.testBit 0 = true then
      i16 (i16 (ss / 8) + ss / 4) else i16 (ss / 8)) + ss / 2) else if c.testBit 0 = true then i16 (i16 (ss / 8) + ss / 4) else i16 (ss / 8)) + ss) else
      if c.testBit 1 = true then i16 ((if c.testBit 0 = true then i16 (i16 (ss / 8) + ss / 4) else i16 (ss / 8)) + ss / 2) else
      if c.testBit 0 = true then i16 (i16 (ss / 8) + ss / 4) else i16 (ss / 8))) else
      if c.testBit 2 = true then i16 ((if c.testBit 1 = true then i16 ((if c.testBit 0 = true then
      i16 (i16 (ss / 8) + ss / 4) else i16 (ss / 8)) + ss / 2) else if c.testBit 0 = true then i16 (i16 (ss / 8) + ss / 4) else i16 (ss / 8)) + ss) else
      if c.testBit 1 = true then i16 ((if c.testBit 0 = true then i16 (i16 (ss / 8) + ss / 4) else i16 (ss / 8)) + ss / 2) else
      if c.testBit 0 = true then i16 (i16 (ss / 8) + ss / 4) else i16 (ss / 8))) = t.last + delta ss c := by
    unfold delta
    generalize c.testBit 0 = b0
    generalize c.testBit 1 = b1
    generalize c.testBit 2 = b2
    generalize c.testBit 3 = b3
    rw [i16_eq (x := ss / 8) (by omega) (by omega), i16_eq (x := ss / 8 + ss / 4) (by omega) (by omega)]
    cases b0 <;> cases b1 <;> cases b2 <;> cases b3 <;>
    · simp only [if_true, Bool.false_eq_true, if_false, Int.add_zero]
      simp (disch := omega) only [i16_eq]
  rw [hlin, i16_eq (x := t.stepIndex + a) (by omega) (by omega)]
  rfl

theorem decode_total (s : State) (c : Nat) (hv : Valid s) : ∃ l i, decode s c = some ({ s with last := l, stepIndex := i }, l) ∧
    Valid { s with last := l, stepIndex := i } := by
  obtain ⟨ss, hss, h7, h8⟩ := step_at hv.1 hv.2.1
  obtain ⟨a, ha, ha0, ha1⟩ := adjustment c
  refine ⟨_, _, decode_eq s c ss a hss ha hv h7 h8 ha0 ha1, ?_⟩
  have := clip_range (s.last + delta ss c)
  refine ⟨?_, ?_, this.1, this.2⟩ <;> simp only <;> repeat' split
  all_goals omega

/-- The decoder's result depends on, and changes, only the prediction and the step index. -/
theorem decode_sync (s t s' : State) (c : Nat) (x : Int) (hl : t.last = s.last) (hi : t.stepIndex = s.stepIndex) (h : decode s c = some (s', x)) :
    decode t c = some ({ t with last := s'.last, stepIndex := s'.stepIndex }, x) := by
  unfold decode at h ⊢
  simp only [Option.bind_eq_bind, Option.bind_eq_some_iff] at h
  obtain ⟨ss, h1, a, h2, h3⟩ := h
  simp only [hi, hl, h1, h2, Option.bind_eq_bind, Option.bind_some]
  simp only [Option.pure_def, Option.some.injEq, Prod.mk.injEq] at h3 ⊢
  obtain ⟨rfl, rfl⟩ := h3
  exact ⟨rfl, rfl⟩

/-- The code chosen. -/
def choose (ss last x : Int) : Nat :=
  let d := i16 (x / 16 - last)
  let (adpcm, d) := if d < 0 then (0x08, i16 (-d)) else (0x00, d)
  let (adpcm, d) := if d ≥ ss then (adpcm ||| 0x04, i16 (d - ss)) else (adpcm, d)
  let (adpcm, d) := if d ≥ ss / 2 then (adpcm ||| 0x02, i16 (d - ss / 2)) else (adpcm, d)
  if d ≥ ss / 4 then adpcm ||| 0x01 else adpcm

theorem choose_lt (ss last x : Int) : choose ss last x < 16 := by
  unfold choose
  simp only
  repeat' split
  all_goals simp

theorem encode_eq (s : State) (x ss : Int) (hss : at? stepSize s.stepIndex = some ss) (s' : State) (l : Int) (h : decode s (choose ss s.last x) = some (s', l)) (hl : s'.last = l) :
    encode s x = some (s', choose ss s.last x) := by
  unfold encode
  rw [hss]
  simp only [Option.bind_eq_bind, Option.bind_some]
  unfold choose at h
  simp only at h
  rw [h]
  simp only [Option.bind_some, Option.pure_def, ← hl]
  rfl

theorem lockstep (s t : State) (x : Int) (hv : Valid s) (hl : t.last = s.last) (hi : t.stepIndex = s.stepIndex) :
    ∃ l i c, encode s x = some ({ s with last := l, stepIndex := i }, c) ∧ c < 16 ∧ Valid { s with last := l, stepIndex := i } ∧
      decode t c = some ({ t with last := l, stepIndex := i }, l) := by
  obtain ⟨ss, hss, h7, h8⟩ := step_at hv.1 hv.2.1
  obtain ⟨l, i, hd, hv'⟩ := decode_total s (choose ss s.last x) hv
  exact ⟨l, i, _, encode_eq s x ss hss _ _ hd rfl, choose_lt _ _ _, hv', decode_sync s t _ _ _ hl hi hd⟩

/-- The quantisation error. -/
theorem quantise (ss last x : Int) (h7 : 16 ≤ ss) (h8 : ss ≤ 1552) (hl : Sample12 last) (hx : Sample x)
    (hc : last - 2 * ss < x / 16 ∧ x / 16 < last + 2 * ss) :
    8 * (last + delta ss (choose ss last x) - x / 16) ≤ ss + 20 ∧ -(ss + 20) ≤ 8 * (last + delta ss (choose ss last x) - x / 16) := by
  unfold Sample12 at hl
  unfold Sample at hx
  unfold choose
  rw [i16_eq (x := x / 16 - last) (by omega) (by omega)]
  generalize x / 16 = y at *
  simp only
  by_cases h1 : y - last < 0
  · simp only [h1, if_true]
    rw [i16_eq (x := -(y - last)) (by omega) (by omega)]
    by_cases h2 : -(y - last) ≥ ss
    · simp only [h2, if_true]
      rw [i16_eq (x := -(y - last) - ss) (by omega) (by omega)]
      by_cases h3 : -(y - last) - ss ≥ ss / 2
      · simp only [h3, if_true]
        rw [i16_eq (x := -(y - last) - ss - ss / 2) (by omega) (by omega)]
        by_cases h4 : -(y - last) - ss - ss / 2 ≥ ss / 4
        · simp only [h4, if_true]
          have e : delta ss (0x08 ||| 0x04 ||| 0x02 ||| 0x01) = -(ss / 8 + ss / 4 + ss / 2 + ss) := rfl
          omega
        · simp only [h4, if_false]
          have e : delta ss (0x08 ||| 0x04 ||| 0x02) = -(ss / 8 + 0 + ss / 2 + ss) := rfl
          omega
      · simp only [h3, if_false]
        by_cases h4 : -(y - last) - ss ≥ ss / 4
        · simp only [h4, if_true]
          have e : delta ss (0x08 ||| 0x04 ||| 0x01) = -(ss / 8 + ss / 4 + 0 + ss) := rfl
          omega
        · simp only [h4, if_false]
          have e : delta ss (0x08 ||| 0x04) = -(ss / 8 + 0 + 0 + ss) := rfl
          omega
    · simp only [h2, if_false]
      by_cases h3 : -(y - last) ≥ ss / 2
      · simp only [h3, if_true]
        rw [i16_eq (x := -(y - last) - ss / 2) (by omega) (by omega)]
        by_cases h4 : -(y - last) - ss / 2 ≥ ss / 4
        · simp only [h4, if_true]
          have e : delta ss (0x08 ||| 0x02 ||| 0x01) = -(ss / 8 + ss / 4 + ss / 2 + 0) := rfl
          omega
        · simp only [h4, if_false]
          have e : delta ss (0x08 ||| 0x02) = -(ss / 8 + 0 + ss / 2 + 0) := rfl
          omega
      · simp only [h3, if_false]
        by_cases h4 : -(y - last) ≥ ss / 4
        · simp only [h4, if_true]
          have e : delta ss (0x08 ||| 0x01) = -(ss / 8 + ss / 4 + 0 + 0) := rfl
          omega
        · simp only [h4, if_false]
          have e : delta ss 0x08 = -(ss / 8 + 0 + 0 + 0) := rfl
          omega
  · simp only [h1, if_false]
    by_cases h2 : y - last ≥ ss
    · simp only [h2, if_true]
      rw [i16_eq (x := y - last - ss) (by omega) (by omega)]
      by_cases h3 : y - last - ss ≥ ss / 2
      · simp only [h3, if_true]
        rw [i16_eq (x := y - last - ss - ss / 2) (by omega) (by omega)]
        by_cases h4 : y - last - ss - ss / 2 ≥ ss / 4
        · simp only [h4, if_true]
          have e : delta ss (0x00 ||| 0x04 ||| 0x02 ||| 0x01) = ss / 8 + ss / 4 + ss / 2 + ss := rfl
          omega
        · simp only [h4, if_false]
          have e : delta ss (0x00 ||| 0x04 ||| 0x02) = ss / 8 + 0 + ss / 2 + ss := rfl
          omega
      · simp only [h3, if_false]
        by_cases h4 : y - last - ss ≥ ss / 4
        · simp only [h4, if_true]
          have e : delta ss (0x00 ||| 0x04 ||| 0x01) = ss / 8 + ss / 4 + 0 + ss := rfl
          omega
        · simp only [h4, if_false]
          have e : delta ss (0x00 ||| 0x04) = ss / 8 + 0 + 0 + ss := rfl
          omega
    · simp only [h2, if_false]
      by_cases h3 : y - last ≥ ss / 2
      · simp only [h3, if_true]
        rw [i16_eq (x := y - last - ss / 2) (by omega) (by omega)]
        by_cases h4 : y - last - ss / 2 ≥ ss / 4
        · simp only [h4, if_true]
          have e : delta ss (0x00 ||| 0x02 ||| 0x01) = ss / 8 + ss / 4 + ss / 2 + 0 := rfl
          omega
        · simp only [h4, if_false]
          have e : delta ss (0x00 ||| 0x02) = ss / 8 + 0 + ss / 2 + 0 := rfl
          omega
      · simp only [h3, if_false]
        by_cases h4 : y - last ≥ ss / 4
        · simp only [h4, if_true]
          have e : delta ss (0x00 ||| 0x01) = ss / 8 + ss / 4 + 0 + 0 := rfl
          omega
        · simp only [h4, if_false]
          have e : delta ss 0x00 = ss / 8 + 0 + 0 + 0 := rfl
          omega

end Oki
