import Verif.Saturated.Model

/-! # C24: saturating arithmetic clamps exactly -/

namespace Saturated

/-- The true result, held to a range. -/
def clamp (lo hi v : Int) : Int := if v < lo then lo else if hi < v then hi else v

/-- What a signed value of some width is, from its bits. -/
theorem bounds {w : Nat} (x : BitVec w) : -(2 ^ w : Nat) ≤ 2 * x.toInt ∧ 2 * x.toInt < (2 ^ w : Nat) ∧
    (x.toInt = x.toNat ∨ x.toInt = (x.toNat : Int) - (2 ^ w : Nat)) := by
  have hl := x.isLt
  have := BitVec.toInt_eq_toNat_cond x
  split at this <;> omega

/-- A value is found from its remainder and its range. -/
theorem toInt_of {w : Nat} (x : BitVec w) (v : Int) (h : ∃ k : Int, v = x.toNat + k * (2 ^ w : Nat)) (h1 : -(2 ^ w : Nat) ≤ 2 * v)
    (h2 : 2 * v < (2 ^ w : Nat)) : x.toInt = v := by
  obtain ⟨k, hk⟩ := h
  have b := bounds x
  have hl := x.isLt
  have hp : (0 : Int) < (2 ^ w : Nat) := by have := Nat.two_pow_pos w; omega
  generalize (2 ^ w : Nat) = P at *
  have : k = 0 ∨ k = -1 := by
    rcases Int.lt_trichotomy k 0 with h | h | h
    · by_cases h' : k = -1
      · exact Or.inr h'
      · have := Int.mul_le_mul_of_nonneg_right (show k ≤ -2 by omega) (show (0:Int) ≤ P by omega)
        omega
    · exact Or.inl h
    · have := Int.mul_le_mul_of_nonneg_right (show 1 ≤ k by omega) (show (0:Int) ≤ P by omega)
      omega
  rcases this with rfl | rfl <;> omega

theorem eq_signExtend (amp : BitVec 32) : amp = (amp.setWidth 16).signExtend 32 ↔ -32768 ≤ amp.toInt ∧ amp.toInt ≤ 32767 := by
  have e : ((amp.setWidth 16).signExtend 32).toInt = (amp.setWidth 16).toInt := BitVec.toInt_signExtend_of_le (by decide)
  have b := bounds (amp.setWidth 16)
  have b' := bounds amp
  have hn : (amp.setWidth 16).toNat = amp.toNat % 65536 := BitVec.toNat_setWidth ..
  have hl := amp.isLt
  rw [← BitVec.toInt_inj, e]
  constructor <;> intro h <;> omega

/-- C24 for `saturate16`. -/
theorem saturate16_correct (amp : BitVec 32) : (saturate16 amp).toInt = clamp (-32768) 32767 amp.toInt := by
  have b := bounds (amp.setWidth 16)
  have b' := bounds amp
  have hn : (amp.setWidth 16).toNat = amp.toNat % 65536 := BitVec.toNat_setWidth ..
  have hl := amp.isLt
  unfold saturate16 clamp
  simp only [eq_signExtend]
  by_cases h : -32768 ≤ amp.toInt ∧ amp.toInt ≤ 32767
  · rw [if_pos h, if_neg (by omega), if_neg (by omega)]; omega
  · rw [if_neg h]
    by_cases h2 : amp.toInt > 32767
    · rw [if_pos h2, if_neg (by omega), if_pos (by omega)]; rfl
    · rw [if_neg h2, if_pos (by omega)]; rfl

/-- C24 for `saturate15`. -/
theorem saturate15_correct (amp : BitVec 32) : (saturate15 amp).toInt = clamp (-16384) 16383 amp.toInt := by
  have b := bounds (amp.setWidth 16)
  have b' := bounds amp
  have hn : (amp.setWidth 16).toNat = amp.toNat % 65536 := BitVec.toNat_setWidth ..
  have hl := amp.isLt
  unfold saturate15 clamp
  by_cases h2 : amp.toInt > 16383
  · rw [if_pos h2, if_neg (by omega), if_pos (by omega)]; rfl
  · rw [if_neg h2]
    by_cases h3 : amp.toInt < -16384
    · rw [if_pos h3, if_pos h3]; rfl
    · rw [if_neg h3, if_neg h3, if_neg (by omega)]; omega

/-- C24 for `saturateu16`. -/
theorem saturateu16_correct (amp : BitVec 32) : ((saturateu16 amp).toNat : Int) = clamp 0 65535 amp.toInt := by
  have b' := bounds amp
  have hl := amp.isLt
  have hn : (amp.setWidth 16).toNat = amp.toNat % 65536 := BitVec.toNat_setWidth ..
  have he : ((amp.setWidth 16).zeroExtend 32).toNat = amp.toNat % 65536 := by
    rw [BitVec.toNat_setWidth, hn]; omega
  unfold saturateu16 clamp
  simp only [← BitVec.toNat_inj, he]
  by_cases h : amp.toNat = amp.toNat % 65536
  · rw [if_pos h, if_neg (by omega), if_neg (by omega), hn]; omega
  · rw [if_neg h]
    by_cases h2 : amp.toInt > 65535
    · rw [if_pos h2, if_neg (by omega), if_pos (by omega)]; rfl
    · rw [if_neg h2, if_pos (by omega)]; rfl

/-- C24 for `saturateu8`. -/
theorem saturateu8_correct (amp : BitVec 32) : ((saturateu8 amp).toNat : Int) = clamp 0 255 amp.toInt := by
  have b' := bounds amp
  have hl := amp.isLt
  have hn : (amp.setWidth 8).toNat = amp.toNat % 256 := BitVec.toNat_setWidth ..
  have he : ((amp.setWidth 8).zeroExtend 32).toNat = amp.toNat % 256 := by
    rw [BitVec.toNat_setWidth, hn]; omega
  unfold saturateu8 clamp
  simp only [← BitVec.toNat_inj, he]
  by_cases h : amp.toNat = amp.toNat % 256
  · rw [if_pos h, if_neg (by omega), if_neg (by omega), hn]; omega
  · rw [if_neg h]
    by_cases h2 : amp.toInt > 255
    · rw [if_pos h2, if_neg (by omega), if_pos (by omega)]; rfl
    · rw [if_neg h2, if_pos (by omega)]; rfl

example : saturate16 0x12345#32 = 32767#16 ∧ (saturate16 (BitVec.ofInt 32 (-7))).toInt = -7 ∧ saturateu8 (BitVec.ofInt 32 (-7)) = 0 := by decide

theorem ext_add (x y : BitVec 16) : (x.signExtend 32 + y.signExtend 32).toInt = x.toInt + y.toInt := by
  have e1 : (x.signExtend 32).toInt = x.toInt := BitVec.toInt_signExtend_of_le (by decide)
  have e2 : (y.signExtend 32).toInt = y.toInt := BitVec.toInt_signExtend_of_le (by decide)
  have b1 := bounds x
  have b2 := bounds y
  rw [BitVec.toInt_add, e1, e2]
  exact Int.bmod_eq_of_le (by omega) (by omega)

theorem ext_sub (x y : BitVec 16) : (x.signExtend 32 - y.signExtend 32).toInt = x.toInt - y.toInt := by
  have e1 : (x.signExtend 32).toInt = x.toInt := BitVec.toInt_signExtend_of_le (by decide)
  have e2 : (y.signExtend 32).toInt = y.toInt := BitVec.toInt_signExtend_of_le (by decide)
  have b1 := bounds x
  have b2 := bounds y
  rw [BitVec.toInt_sub, e1, e2]
  exact Int.bmod_eq_of_le (by omega) (by omega)

theorem ext_mul (x y : BitVec 16) : (x.signExtend 32 * y.signExtend 32).toInt = x.toInt * y.toInt ∧
    -1073709056 ≤ x.toInt * y.toInt ∧ x.toInt * y.toInt ≤ 1073741824 := by
  have e1 : (x.signExtend 32).toInt = x.toInt := BitVec.toInt_signExtend_of_le (by decide)
  have e2 : (y.signExtend 32).toInt = y.toInt := BitVec.toInt_signExtend_of_le (by decide)
  have b1 := bounds x
  have b2 := bounds y
  have h : -1073709056 ≤ x.toInt * y.toInt ∧ x.toInt * y.toInt ≤ 1073741824 := by
    generalize x.toInt = a at *
    generalize y.toInt = b at *
    have ha : -32768 ≤ a ∧ a ≤ 32767 := by omega
    have hb : -32768 ≤ b ∧ b ≤ 32767 := by omega
    rcases Int.le_total 0 a with h | h
    · have h1 := Int.mul_le_mul_of_nonneg_left hb.1 h
      have h2 := Int.mul_le_mul_of_nonneg_left hb.2 h
      omega
    · have h1 := Int.mul_le_mul_of_nonpos_left h hb.1
      have h2 := Int.mul_le_mul_of_nonpos_left h hb.2
      omega
  refine ⟨?_, h⟩
  rw [BitVec.toInt_mul, e1, e2]
  exact Int.bmod_eq_of_le (by omega) (by omega)

/-- C24 for `sat_add16`, plain C. -/
theorem sat_add16_correct (x y : BitVec 16) : (satAdd16 x y).toInt = clamp (-32768) 32767 (x.toInt + y.toInt) := by
  unfold satAdd16; rw [saturate16_correct, ext_add]

/-- C24 for `sat_sub16`, plain C. -/
theorem sat_sub16_correct (x y : BitVec 16) : (satSub16 x y).toInt = clamp (-32768) 32767 (x.toInt - y.toInt) := by
  unfold satSub16; rw [saturate16_correct, ext_sub]

/-- C24 for `sat_add16`, the assembler of x86. -/
theorem sat_add16_x86_correct (x y : BitVec 16) : (satAdd16X86 x y).toInt = clamp (-32768) 32767 (x.toInt + y.toInt) := by
  have b1 := bounds x
  have b2 := bounds y
  unfold satAdd16X86 x86Add clamp
  simp only
  by_cases h : x.toInt + y.toInt < -2 ^ (16 - 1) ∨ x.toInt + y.toInt ≥ 2 ^ (16 - 1)
  · rw [decide_eq_true h, if_neg (by decide)]
    rw [show (2 : Int) ^ (16 - 1) = 32768 from rfl] at h
    by_cases hc : x.toNat + y.toNat ≥ 2 ^ 16
    · rw [decide_eq_true hc, if_pos (by omega)]; rfl
    · rw [decide_eq_false hc, if_neg (by omega), if_pos (by omega)]; rfl
  · rw [decide_eq_false h, if_pos rfl]
    rw [show (2 : Int) ^ (16 - 1) = 32768 from rfl] at h
    rw [if_neg (by omega), if_neg (by omega), BitVec.toInt_add]
    exact Int.bmod_eq_of_le (by omega) (by omega)

/-- C24 for `sat_sub16`, the assembler of x86. -/
theorem sat_sub16_x86_correct (x y : BitVec 16) : (satSub16X86 x y).toInt = clamp (-32768) 32767 (x.toInt - y.toInt) := by
  have b1 := bounds x
  have b2 := bounds y
  unfold satSub16X86 x86Sub clamp
  simp only
  by_cases h : x.toInt - y.toInt < -2 ^ (16 - 1) ∨ x.toInt - y.toInt ≥ 2 ^ (16 - 1)
  · rw [decide_eq_true h, if_neg (by decide)]
    rw [show (2 : Int) ^ (16 - 1) = 32768 from rfl] at h
    by_cases hc : x.toNat < y.toNat
    · rw [decide_eq_true hc, if_neg (by omega), if_pos (by omega)]; rfl
    · rw [decide_eq_false hc, if_pos (by omega)]; rfl
  · rw [decide_eq_false h, if_pos rfl]
    rw [show (2 : Int) ^ (16 - 1) = 32768 from rfl] at h
    rw [if_neg (by omega), if_neg (by omega), BitVec.toInt_sub]
    exact Int.bmod_eq_of_le (by omega) (by omega)

/-- C24 for `sat_add32`, the assembler of x86. -/
theorem sat_add32_x86_correct (x y : BitVec 32) : (satAdd32X86 x y).toInt = clamp (-2147483648) 2147483647 (x.toInt + y.toInt) := by
  have b1 := bounds x
  have b2 := bounds y
  unfold satAdd32X86 x86Add clamp
  simp only
  by_cases h : x.toInt + y.toInt < -2 ^ (32 - 1) ∨ x.toInt + y.toInt ≥ 2 ^ (32 - 1)
  · rw [decide_eq_true h, if_neg (by decide)]
    rw [show (2 : Int) ^ (32 - 1) = 2147483648 from rfl] at h
    by_cases hc : x.toNat + y.toNat ≥ 2 ^ 32
    · rw [decide_eq_true hc, if_pos (by omega)]; rfl
    · rw [decide_eq_false hc, if_neg (by omega), if_pos (by omega)]; rfl
  · rw [decide_eq_false h, if_pos rfl]
    rw [show (2 : Int) ^ (32 - 1) = 2147483648 from rfl] at h
    rw [if_neg (by omega), if_neg (by omega), BitVec.toInt_add]
    exact Int.bmod_eq_of_le (by omega) (by omega)

/-- C24 for `sat_sub32`, the assembler of x86. -/
theorem sat_sub32_x86_correct (x y : BitVec 32) : (satSub32X86 x y).toInt = clamp (-2147483648) 2147483647 (x.toInt - y.toInt) := by
  have b1 := bounds x
  have b2 := bounds y
  unfold satSub32X86 x86Sub clamp
  simp only
  by_cases h : x.toInt - y.toInt < -2 ^ (32 - 1) ∨ x.toInt - y.toInt ≥ 2 ^ (32 - 1)
  · rw [decide_eq_true h, if_neg (by decide)]
    rw [show (2 : Int) ^ (32 - 1) = 2147483648 from rfl] at h
    by_cases hc : x.toNat < y.toNat
    · rw [decide_eq_true hc, if_neg (by omega), if_pos (by omega)]; rfl
    · rw [decide_eq_false hc, if_pos (by omega)]; rfl
  · rw [decide_eq_false h, if_pos rfl]
    rw [show (2 : Int) ^ (32 - 1) = 2147483648 from rfl] at h
    rw [if_neg (by omega), if_neg (by omega), BitVec.toInt_sub]
    exact Int.bmod_eq_of_le (by omega) (by omega)

theorem xor_neg {w : Nat} (x y : BitVec w) : (x ^^^ y).toInt < 0 ↔ ¬ (x.toInt < 0 ↔ y.toInt < 0) := by
  have h : ∀ z : BitVec w, z.toInt < 0 ↔ z.msb = true := fun z => by rw [BitVec.msb_eq_toInt]; simp
  rw [h, h, h, BitVec.msb_xor]
  cases x.msb <;> cases y.msb <;> simp

/-- C24 for `sat_add32`, plain C on a compiler which wraps. -/
theorem sat_add32_wrap_correct (x y : BitVec 32) : (satAdd32Wrap x y).toInt = clamp (-2147483648) 2147483647 (x.toInt + y.toInt) := by
  have b1 := bounds x
  have b2 := bounds y
  have b3 := bounds (x + y)
  have hs : (x + y).toNat = (x.toNat + y.toNat) % 2 ^ 32 := BitVec.toNat_add ..
  have l1 := x.isLt
  have l2 := y.isLt
  unfold satAdd32Wrap clamp
  simp only [show ∀ z : BitVec 32, z.toInt ≥ 0 ↔ ¬ z.toInt < 0 from fun z => by omega, xor_neg]
  by_cases hx : x.toInt < 0 <;> by_cases hy : y.toInt < 0 <;> by_cases hz : (x + y).toInt < 0 <;>
    simp only [hx, hy, hz, iff_self, iff_true, iff_false, not_true, not_false_iff, if_true, if_false]
  all_goals (repeat' split) <;> first | omega | (exfalso; omega) | (simp [BitVec.toInt_intMin, BitVec.toInt_intMax])

/-- C24 for `sat_sub32`, plain C on a compiler which wraps. -/
theorem sat_sub32_wrap_correct (x y : BitVec 32) : (satSub32Wrap x y).toInt = clamp (-2147483648) 2147483647 (x.toInt - y.toInt) := by
  have b1 := bounds x
  have b2 := bounds y
  have b3 := bounds (x - y)
  have hs : (x - y).toNat = (2 ^ 32 - y.toNat + x.toNat) % 2 ^ 32 := BitVec.toNat_sub ..
  have l1 := x.isLt
  have l2 := y.isLt
  unfold satSub32Wrap clamp
  simp only [xor_neg]
  by_cases hx : x.toInt < 0 <;> by_cases hy : y.toInt < 0 <;> by_cases hz : (x - y).toInt < 0 <;>
    simp only [hx, hy, hz, iff_self, iff_true, iff_false, not_true, not_false_iff, if_true, if_false]
  all_goals (repeat' split) <;> first | omega | (exfalso; omega) | (simp [BitVec.toInt_intMin, BitVec.toInt_intMax])

/-- In standard C the plain `sat_add32` is undefined in exactly the cases it is there for. -/
theorem sat_add32_undefined_iff (x y : BitVec 32) :
    satAdd32C x y = none ↔ clamp (-2147483648) 2147483647 (x.toInt + y.toInt) ≠ x.toInt + y.toInt := by
  unfold satAdd32C clamp
  repeat' split
  all_goals simp
  all_goals omega

/-- `sat_mul16` is the product of two Q15 fractions, rounded down and clamped. -/
theorem sat_mul16_correct (x y : BitVec 16) : (satMul16 x y).toInt = clamp (-32768) 32767 (x.toInt * y.toInt / 32768) := by
  obtain ⟨hm, h1, h2⟩ := ext_mul x y
  unfold satMul16
  simp only
  generalize x.signExtend 32 * y.signExtend 32 = z at *
  by_cases hz : z = 0x40000000#32
  · rw [if_pos hz, ← hm, hz]; decide
  · rw [if_neg hz, ← hm]
    have hz' : z.toInt ≠ 1073741824 := fun e => hz (BitVec.eq_of_toInt_eq (by rw [e]; rfl))
    have hsh : (z.sshiftRight 15).toInt = z.toInt / 32768 := by
      rw [BitVec.toInt_sshiftRight, Int.shiftRight_eq_div_pow]; rfl
    have hlt : -32767 ≤ z.toInt / 32768 ∧ z.toInt / 32768 ≤ 32767 := by omega
    have hn : ((z.sshiftRight 15).setWidth 16).toNat = (z.sshiftRight 15).toNat % 65536 := BitVec.toNat_setWidth ..
    have b := bounds (z.sshiftRight 15)
    have b' := bounds ((z.sshiftRight 15).setWidth 16)
    have hl := (z.sshiftRight 15).isLt
    rw [hsh] at b
    unfold clamp
    rw [if_neg (by omega), if_neg (by omega)]
    omega

/-- `sat_mul32_16` is the product of two Q15 fractions as Q31, clamped. -/
theorem sat_mul32_16_correct (x y : BitVec 16) :
    (satMul32_16 x y).toInt = clamp (-2147483648) 2147483647 (2 * (x.toInt * y.toInt)) := by
  obtain ⟨hm, h1, h2⟩ := ext_mul x y
  unfold satMul32_16
  simp only
  generalize x.signExtend 32 * y.signExtend 32 = z at *
  by_cases hz : z = 0x40000000#32
  · rw [if_pos hz, ← hm, hz]; decide
  · rw [if_neg hz, ← hm]
    have hz' : z.toInt ≠ 1073741824 := fun e => hz (BitVec.eq_of_toInt_eq (by rw [e]; rfl))
    have hn : (z <<< 1).toNat = (2 * z.toNat) % 2 ^ 32 := by
      rw [BitVec.toNat_shiftLeft, Nat.shiftLeft_eq]; congr 1; omega
    have b := bounds z
    have b' := bounds (z <<< 1)
    have hl := z.isLt
    unfold clamp
    rw [if_neg (by omega), if_neg (by omega)]
    omega

/-- Multiply and accumulate clamps the product, and then the sum. -/
theorem sat_mac32_16_correct (z : BitVec 32) (x y : BitVec 16) :
    (satMac32_16 z x y).toInt = clamp (-2147483648) 2147483647
      (z.toInt + clamp (-2147483648) 2147483647 (2 * (x.toInt * y.toInt))) := by
  unfold satMac32_16; rw [sat_add32_x86_correct, sat_mul32_16_correct]

theorem sat_msu32_16_correct (z : BitVec 32) (x y : BitVec 16) :
    (satMsu32_16 z x y).toInt = clamp (-2147483648) 2147483647
      (z.toInt - clamp (-2147483648) 2147483647 (2 * (x.toInt * y.toInt))) := by
  unfold satMsu32_16; rw [sat_sub32_x86_correct, sat_mul32_16_correct]

theorem sat_abs16_correct (x : BitVec 16) : (satAbs16 x).toInt = clamp (-32768) 32767 x.toInt.natAbs := by
  have b := bounds x
  unfold satAbs16 clamp
  by_cases h : x = BitVec.intMin 16
  · subst h; decide
  · have h' : x.toInt ≠ -32768 := fun e => h (BitVec.eq_of_toInt_eq (by rw [e]; decide))
    rw [if_neg h, if_neg (by omega), if_neg (by omega), BitVec.toInt_ofInt]
    exact Int.bmod_eq_of_le (by omega) (by omega)

theorem sat_abs32_correct (x : BitVec 32) : (satAbs32 x).toInt = clamp (-2147483648) 2147483647 x.toInt.natAbs := by
  have b := bounds x
  unfold satAbs32 clamp
  by_cases h : x = BitVec.intMin 32
  · subst h; decide
  · have h' : x.toInt ≠ -2147483648 := fun e => h (BitVec.eq_of_toInt_eq (by rw [e]; decide))
    rw [if_neg h, if_neg (by omega), if_neg (by omega), BitVec.toInt_ofInt]
    exact Int.bmod_eq_of_le (by omega) (by omega)

example : satAdd32X86 0x7FFFFFF0#32 0x20#32 = 0x7FFFFFFF#32 ∧ satSub16X86 0x8000#16 1#16 = 0x8000#16 ∧
    satMul16 0x8000#16 0x8000#16 = 32767#16 ∧ (satMul16 0x4000#16 0xFFFF#16).toInt = -1 ∧
    satAdd32C 0x7FFFFFF0#32 0x20#32 = none := by decide

end Saturated
