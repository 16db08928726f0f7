import Verif.Async.Spec
import Verif.Tac

namespace Async
open Spec

theorem ones_shl (t i : Nat) (hi : i < 16) : (0xFFFF#16 <<< t).getLsbD i = decide (t ≤ i) := by
  rw [show 0xFFFF#16 = BitVec.allOnes 16 from rfl, BitVec.getLsbD_shiftLeft, BitVec.getLsbD_allOnes]
  by_cases h : t ≤ i
  · have h1 : i - t < 16 := by omega
    have h2 : ¬ i < t := by omega
    bdec [hi, h, h1, h2]
  · have h1 : i < t := by omega
    bdec [hi, h, h1]

theorem ones_shr (d i : Nat) (hd : d ≤ 16) : (0xFFFF#16 >>> (16 - d)).getLsbD i = decide (i < d) := by
  rw [show 0xFFFF#16 = BitVec.allOnes 16 from rfl, BitVec.getLsbD_ushiftRight, BitVec.getLsbD_allOnes]
  congr 1
  apply propext
  omega

theorem ones_shr_toNat : ∀ d, d ≤ 16 → (0xFFFF#16 >>> (16 - d)).toNat = 2 ^ d - 1 := by decide

def bitInt (b : Bool) : Int := if b then 1 else 0

theorem bitInt_nonneg (b : Bool) : ¬ bitInt b < 0 := by cases b <;> decide

/-- The collecting register of the receiver. -/
theorem collect (F : BitVec 16) (k : Nat) (hk : k < 16) :
    ((F <<< (16 - k)) >>> 1) ||| (BitVec.ofInt 16 (bitInt (F.getLsbD k)) <<< 15) = F <<< (16 - (k + 1)) := by
  apply BitVec.eq_of_getLsbD_eq
  intro i hi
  have hb : (BitVec.ofInt 16 (bitInt (F.getLsbD k)) <<< 15).getLsbD i = (decide (i = 15) && F.getLsbD k) := by
    by_cases h : i = 15
    · subst h
      cases F.getLsbD k <;> decide
    · have : i < 15 := by omega
      simp [BitVec.getLsbD_shiftLeft, h, this]
  rw [BitVec.getLsbD_or, hb, BitVec.getLsbD_ushiftRight, BitVec.getLsbD_shiftLeft, BitVec.getLsbD_shiftLeft]
  by_cases h : i = 15
  · subst h
    have e : 15 - (16 - (k + 1)) = k := by omega
    have e2 : ¬ 15 < 16 - (k + 1) := by omega
    have e3 : ¬ 16 ≤ 1 + 15 - 1 := by omega
    have e4 : ¬ 1 + 15 < 16 := by omega
    bdec [e, e2, e4]
    rfl
  · have h1 : 1 + i < 16 := by omega
    by_cases h2 : i < 16 - (k + 1)
    · have h3 : 1 + i < 16 - k := by omega
      bdec [h2, h3, h]
    · have h3 : ¬ 1 + i < 16 - k := by omega
      have e : i - (16 - (k + 1)) = 1 + i - (16 - k) := by omega
      bdec [h, h1, h2, h3, hi, e]

/-- The character bits of a collected frame. -/
theorem uncollect (F : BitVec 16) (t : Nat) (ht : t ≤ 16) (i : Nat) :
    ((F <<< (16 - t)) >>> (16 - t)).getLsbD i = (F.getLsbD i && decide (i < t)) := by
  rw [BitVec.getLsbD_ushiftRight, BitVec.getLsbD_shiftLeft]
  by_cases h : i < t
  · have h1 : 16 - t + i < 16 := by omega
    simp [h, h1]
  · have h1 : ¬ 16 - t + i < 16 := by omega
    simp [h, h1]

theorem uncollect_parity (F : BitVec 16) (d : Nat) (hd : d ≤ 15) (i : Nat) :
    (((F <<< (16 - (d + 1))) &&& 0x7FFF#16) >>> (16 - (d + 1))).getLsbD i =
      (F.getLsbD i && decide (i < d)) := by
  have hm : ∀ j, (0x7FFF#16).getLsbD j = decide (j < 15) := by
    intro j
    rcases Nat.lt_or_ge j 16 with h | h
    · revert j; decide
    · rw [BitVec.getLsbD_of_ge _ _ h]; simp; omega
  rw [BitVec.getLsbD_ushiftRight, BitVec.getLsbD_and, hm, BitVec.getLsbD_shiftLeft]
  by_cases h : i < d
  · have h1 : 16 - (d + 1) + i < 16 := by omega
    have h2 : 16 - (d + 1) + i < 15 := by omega
    have h3 : ¬ 16 - (d + 1) + i < 16 - (d + 1) := by omega
    have e : 16 - (d + 1) + i - (16 - (d + 1)) = i := by omega
    bdec [h, h1, h2, h3, e]
  · have h2 : ¬ 16 - (d + 1) + i < 15 := by omega
    bdec [h, h2]

theorem parity_pos (F : BitVec 16) (d : Nat) (hd : d ≤ 15) :
    (((F <<< (16 - (d + 1))) >>> 15) &&& 1#16).toNat = (F.getLsbD d).toNat := by
  have : ((F <<< (16 - (d + 1))) >>> 15) &&& 1#16 = BitVec.ofNat 16 (F.getLsbD d).toNat := by
    apply BitVec.eq_of_getLsbD_eq
    intro i hi
    have h1 : (1#16).getLsbD i = decide (i = 0) := by revert i; decide
    have h2 : (BitVec.ofNat 16 (F.getLsbD d).toNat).getLsbD i = (F.getLsbD d && decide (i = 0)) := by
      cases F.getLsbD d
      · simp
      · simpa using h1
    rw [BitVec.getLsbD_and, h1, h2, BitVec.getLsbD_ushiftRight, BitVec.getLsbD_shiftLeft]
    by_cases h : i = 0
    · subst h
      have e : 15 - (16 - (d + 1)) = d := by omega
      have e2 : ¬ 15 < 16 - (d + 1) := by omega
      have e3 : 15 + 0 < 16 := by omega
      bdec [Nat.add_zero, e, e2]
      simp
    · simp [h]
  rw [this]
  cases F.getLsbD d <;> rfl

theorem parity8_le : ∀ x : BitVec 8, BitOps.parity8 x = 0 ∨ BitOps.parity8 x = 1 := by decide +kernel

theorem parityBit_le (p : Parity) (f : BitVec 16) : rxParityBit p f = 0 ∨ rxParityBit p f = 1 := by
  cases p <;> unfold rxParityBit
  · exact Or.inl rfl
  · exact parity8_le _
  · rcases parity8_le (f.setWidth 8) with h | h <;> rw [h] <;> decide
  · exact Or.inr rfl
  · exact Or.inl rfl

/-- The frame made for a character, bit by bit. -/
theorem txFrame_bits (s : Tx) (byte : Int) 
    (ht : s.totalDataBits = if s.parity ≠ .none then s.dataBits + 1 else s.dataBits)
    (h15 : s.totalDataBits ≤ 15) :
    ∃ F, txFrame s byte = some F ∧
      let c := BitVec.ofInt 16 byte &&& (0xFFFF#16 >>> (16 - s.dataBits))
      (∀ i, i < s.dataBits → F.getLsbD i = c.getLsbD i) ∧
      (s.parity ≠ .none → (F.getLsbD s.dataBits).toNat = rxParityBit s.parity c) ∧
      (∀ i, s.totalDataBits ≤ i → i < 16 → F.getLsbD i = true) := by
  have hd : s.dataBits ≤ 15 := by split at ht <;> omega
  have hdt : s.dataBits ≤ s.totalDataBits := by split at ht <;> omega
  unfold txFrame
  rw [if_neg (by omega)]
  refine ⟨_, rfl, ?_⟩
  simp only
  generalize hc : BitVec.ofInt 16 byte &&& (0xFFFF#16 >>> (16 - s.dataBits)) = c
  have hchi : ∀ i, s.dataBits ≤ i → c.getLsbD i = false := by
    intro i hi
    rw [← hc, BitVec.getLsbD_and, ones_shr _ _ (by omega)]
    simp; omega
  have key : ∀ (q : Nat), q = 0 ∨ q = 1 → ∀ i, i < 16 →
      (c ||| (BitVec.ofNat 16 q <<< s.dataBits)).getLsbD i =
        if i = s.dataBits then decide (q = 1) else c.getLsbD i := by
    intro q hq i hi
    have h1 : (BitVec.ofNat 16 q).getLsbD (i - s.dataBits) = (decide (i ≤ s.dataBits) && decide (q = 1)) := by
      rcases hq with rfl | rfl
      · simp
      · have : ∀ j, (1#16).getLsbD j = decide (j = 0) := by
          intro j
          rcases Nat.lt_or_ge j 16 with h | h
          · revert j; decide
          · rw [BitVec.getLsbD_of_ge _ _ h]; simp; omega
        rw [this]; simp; omega
    rw [BitVec.getLsbD_or, BitVec.getLsbD_shiftLeft, h1]
    by_cases h : i = s.dataBits
    · subst h
      have h2 : ¬ s.dataBits < s.dataBits := by omega
      have h3 : s.dataBits ≤ s.dataBits := Nat.le_refl _
      bdec [hchi s.dataBits (Nat.le_refl _), hi, h2, h3]
    · by_cases h2 : i < s.dataBits
      · simp [h, h2]
      · have h3 : ¬ i ≤ s.dataBits := by omega
        simp [h, h3]
  have hmatch : txParity s.parity s.dataBits c =
      c ||| (BitVec.ofNat 16 (rxParityBit s.parity c) <<< s.dataBits) := by
    cases s.parity <;> simp [rxParityBit, txParity]
  rw [hmatch]
  have hq := key _ (parityBit_le s.parity c)
  refine ⟨?_, ?_, ?_⟩
  · intro i hi
    rw [BitVec.getLsbD_or, hq i (by omega), ones_shl _ _ (by omega)]
    have h1 : ¬ i = s.dataBits := by omega
    have h2 : ¬ s.totalDataBits ≤ i := by omega
    simp [h1, h2]
  · intro hp
    rw [if_pos hp] at ht
    rw [BitVec.getLsbD_or, hq _ (by omega), ones_shl _ _ (by omega)]
    have h2 : ¬ s.totalDataBits ≤ s.dataBits := by omega
    rcases parityBit_le s.parity c with h | h <;> simp [h, h2]
  · intro i h1 h2
    rw [BitVec.getLsbD_or, ones_shl _ _ h2]
    simp [h1]

theorem char_value (byte : Int) (h0 : 0 ≤ byte) (d : Nat) (hd : d ≤ 16) :
    ((BitVec.ofInt 16 byte &&& (0xFFFF#16 >>> (16 - d))).toNat : Int) = byte % 2 ^ d := by
  obtain ⟨n, rfl⟩ := Int.eq_ofNat_of_zero_le h0
  rw [BitVec.ofInt_natCast, BitVec.toNat_and, ones_shr_toNat d hd, Nat.and_two_pow_sub_one_eq_mod,
    BitVec.toNat_ofNat, Nat.mod_mod_of_dvd _ (Nat.pow_dvd_pow 2 hd)]
  simp

end Async
