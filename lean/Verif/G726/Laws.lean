import Verif.G726.Close

/-!
# Neighbours among the codes of A-law and u-law
-/

namespace G726

/-- Codes in the order of their levels are found by their places. -/
structure Order (lv : Byte → Int) (f : Nat → Byte) (inv : Byte → Nat) : Prop where
  back : ∀ a, f (inv a) = a ∧ inv a < 256
  step : ∀ k, k < 255 → lv (f k) ≤ lv (f (k + 1))

theorem Order.mono {lv : Byte → Int} {f : Nat → Byte} {inv : Byte → Nat} (h : Order lv f inv) :
    ∀ i j, i ≤ j → j ≤ 255 → lv (f i) ≤ lv (f j) :=
  G711.mono_of_step (fun k => lv (f k)) 255 h.step

theorem Order.lower {lv : Byte → Int} {f : Nat → Byte} {inv : Byte → Nat} (h : Order lv f inv) (a c : Byte)
    (hc : (lv c < lv a ∧ inv c < 255 ∧ lv a ≤ lv (f (inv c + 1))) ∨ (c = a ∧ lv a ≤ lv (f 0))) : Lower lv a c := by
  rcases hc with ⟨h1, h2, h3⟩ | ⟨h1, h2⟩
  · refine Or.inl ⟨h1, fun b hb => ?_⟩
    by_cases hk : inv b ≤ inv c
    · have := h.mono _ _ hk (by omega)
      rw [(h.back b).1, (h.back c).1] at this
      exact this
    · have := h.mono (inv c + 1) (inv b) (by omega) (by have := (h.back b).2; omega)
      rw [(h.back b).1] at this
      omega
  · refine Or.inr ⟨h1, fun b => ?_⟩
    have := h.mono 0 (inv b) (by omega) (by have := (h.back b).2; omega)
    rw [(h.back b).1] at this
    omega

theorem Order.higher {lv : Byte → Int} {f : Nat → Byte} {inv : Byte → Nat} (h : Order lv f inv) (a c : Byte)
    (hc : (lv a < lv c ∧ 0 < inv c ∧ lv (f (inv c - 1)) ≤ lv a) ∨ (c = a ∧ lv (f 255) ≤ lv a)) : Higher lv a c := by
  rcases hc with ⟨h1, h2, h3⟩ | ⟨h1, h2⟩
  · refine Or.inl ⟨h1, fun b hb => ?_⟩
    by_cases hk : inv c ≤ inv b
    · have := h.mono _ _ hk (by have := (h.back b).2; omega)
      rw [(h.back b).1, (h.back c).1] at this
      exact this
    · have := h.mono (inv b) (inv c - 1) (by omega) (by have := (h.back c).2; omega)
      rw [(h.back b).1] at this
      omega
  · refine Or.inr ⟨h1, fun b => ?_⟩
    have := h.mono (inv b) 255 (by have := (h.back b).2; omega) (by omega)
    rw [(h.back b).1] at this
    omega

def ainv (a : Byte) : Nat :=
  if (a ^^^ 0x55#8).toNat < 128 then 127 - (a ^^^ 0x55#8).toNat else (a ^^^ 0x55#8).toNat

def uinv (a : Byte) : Nat := if a.toNat < 128 then a.toNat else 383 - a.toNat

theorem aorder_ok : Order G711.alawToLinear G711.aorder ainv :=
  ⟨by decide +kernel, by decide +kernel⟩

theorem uorder_ok : Order G711.ulawToLinear G711.uorder uinv :=
  ⟨by decide +kernel, by decide +kernel⟩

theorem alaw_lower (a : Byte) : Lower G711.alawToLinear a (alawLower a) := by
  apply aorder_ok.lower; revert a; decide +kernel

theorem alaw_higher (a : Byte) : Higher G711.alawToLinear a (alawHigher a) := by
  apply aorder_ok.higher; revert a; decide +kernel

theorem ulaw_lower (a : Byte) : Lower G711.ulawToLinear a (ulawLower a) := by
  apply uorder_ok.lower; revert a; decide +kernel

theorem ulaw_higher (a : Byte) : Higher G711.ulawToLinear a (ulawHigher a) := by
  apply uorder_ok.higher; revert a; decide +kernel

end G726
