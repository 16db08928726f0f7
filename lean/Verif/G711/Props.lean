import Verif.G711.Spec
import Verif.BitOps.Props

/-! # C15-C17: G.711 -/

namespace G711
open Spec

/-! ## The segment search -/

theorem top_range {x : BitVec 32} {k : Nat} (h1 : 2 ^ k ≤ x.toNat) (h2 : x.toNat < 2 ^ (k + 1)) : BitOps.topBit x = k := by
  rcases BitOps.top_bit_correct x with ⟨h0, _⟩ | ⟨r, e, hr, ht⟩
  · rw [h0] at h1
    have : 0 < 2 ^ k := Nat.two_pow_pos k
    simp at h1
  · rw [e]
    have a1 : x.toNat.testBit r = true := hr
    have a2 : 2 ^ r ≤ x.toNat := Nat.ge_two_pow_of_testBit a1
    have a3 : x.toNat < 2 ^ (r + 1) := by
      apply Nat.lt_pow_two_of_testBit
      intro i hi
      exact ht i hi
    have b1 : r < k + 1 := (Nat.pow_lt_pow_iff_right (by omega)).1 (Nat.lt_of_le_of_lt a2 h2)
    have b2 : k < r + 1 := (Nat.pow_lt_pow_iff_right (by omega)).1 (Nat.lt_of_le_of_lt h1 a3)
    have : r = k := by omega
    rw [this]

theorem or_ff (m : Nat) (h : m < 2 ^ 32) : (BitVec.ofNat 32 m ||| 0xFF#32).toNat = m / 256 * 256 + 255 := by
  rw [BitVec.toNat_or, BitVec.toNat_ofNat, Nat.mod_eq_of_lt h]
  show m ||| 255 = _
  have h1 : m = 2 ^ 8 * (m / 256) + m % 256 := by omega
  have h2 : m / 256 * 256 + 255 = 2 ^ 8 * (m / 256) + 255 := by omega
  rw [h2]
  conv => lhs; rw [h1]
  rw [Nat.two_pow_add_eq_or_of_lt (by omega), Nat.two_pow_add_eq_or_of_lt (i := 8) (b := 255) (by omega), Nat.or_assoc]
  congr 1
  have : ∀ k : Fin 256, k.val ||| 255 = 255 := by decide +kernel
  exact this ⟨m % 256, by omega⟩

/-- The segment of a magnitude. -/
theorem seg_small {m : Nat} (h : m < 256) : BitOps.topBit (BitVec.ofNat 32 m ||| 0xFF#32) - 7 = 0 := by
  have := or_ff m (by omega)
  rw [top_range (k := 7) (by omega) (by omega)]; rfl

theorem seg_mid {m s : Nat} (h1 : 2 ^ (s + 8) ≤ m) (h2 : m < 2 ^ (s + 9)) (hs : s < 23) :
    BitOps.topBit (BitVec.ofNat 32 m ||| 0xFF#32) - 7 = (s : Int) + 1 := by
  have e := or_ff m (Nat.lt_of_lt_of_le h2 (Nat.pow_le_pow_right (by omega) (by omega)))
  have e1 : 2 ^ (s + 8) = 256 * 2 ^ s := by rw [Nat.pow_add]; omega
  have e2 : 2 ^ (s + 9) = 512 * 2 ^ s := by rw [Nat.pow_add]; omega
  rw [top_range (k := s + 8)]
  · omega
  · rw [e]; omega
  · rw [e, show s + 8 + 1 = s + 9 from rfl]; omega

theorem seg_high {m : Nat} (h1 : 32768 ≤ m) (h2 : m < 2 ^ 32) : BitOps.topBit (BitVec.ofNat 32 m ||| 0xFF#32) - 7 ≥ 8 := by
  have hlog : 15 ≤ m.log2 := (Nat.le_log2 (by omega)).2 (by omega)
  have hlog' : m.log2 < 32 := (Nat.log2_lt (by omega)).2 h2
  have hl1 := Nat.log2_self_le (n := m) (by omega)
  have hl2 := Nat.lt_log2_self (n := m)
  have := seg_mid (m := m) (s := m.log2 - 8) (by rw [show m.log2 - 8 + 8 = m.log2 by omega]; exact hl1)
  by_cases h31 : m.log2 = 31
  · have e := or_ff m h2
    have : BitOps.topBit (BitVec.ofNat 32 m ||| 0xFF#32) = 31 := by
      refine top_range (k := 31) ?_ ?_
      · rw [e]; rw [h31] at hl1; omega
      · rw [e]; omega
    omega
  · have := this (by rw [show m.log2 - 8 + 9 = m.log2 + 1 by omega]; exact hl2) (by omega)
    omega

theorem shift_and (m k : Nat) (h : m < 2 ^ 32) : (BitVec.ofNat 32 m >>> k) &&& 0xF#32 = BitVec.ofNat 32 (m / 2 ^ k % 16) := by
  apply BitVec.eq_of_toNat_eq
  rw [BitVec.toNat_and, BitVec.toNat_ushiftRight, BitVec.toNat_ofNat, BitVec.toNat_ofNat, Nat.mod_eq_of_lt h, Nat.shiftRight_eq_div_pow]
  have : m / 2 ^ k % 16 < 2 ^ 32 := by omega
  rw [BitVec.toNat_ofNat, Nat.mod_eq_of_lt this]
  exact Nat.and_two_pow_sub_one_eq_mod _ 4

theorem combine (s q : Nat) (hs : s < 8) (hq : q < 16) :
    (BitVec.ofInt 32 (s : Int) <<< 4) ||| BitVec.ofNat 32 q = BitVec.ofNat 32 (16 * s + q) := by
  have : ∀ (s : Fin 8) (q : Fin 16), (BitVec.ofInt 32 (s.val : Int) <<< 4) ||| BitVec.ofNat 32 q.val = BitVec.ofNat 32 (16 * s.val + q.val) := by
    decide +kernel
  exact this ⟨s, hs⟩ ⟨q, hq⟩

/-! ## u-law -/

/-- The code of a segment and a place in it. -/
def ucode (neg : Bool) (s q : Nat) : Byte := (BitVec.ofNat 32 (16 * s + q) ^^^ (if neg then 0x7F#32 else 0xFF#32)).setWidth 8

theorem ucode_facts (s q : Nat) (hs : s < 8) (hq : q < 16) :
    ulawToLinear (ucode false s q) = (((16 + q) * 2 ^ (s + 3) + 4 * 2 ^ s : Nat) : Int) - 132 ∧
    ulawToLinear (ucode true s q) = 132 - (((16 + q) * 2 ^ (s + 3) + 4 * 2 ^ s : Nat) : Int) ∧
    ulawStep (ucode false s q) = 8 * 2 ^ s ∧ ulawStep (ucode true s q) = 8 * 2 ^ s := by
  have : ∀ (s : Fin 8) (q : Fin 16),
    ulawToLinear (ucode false s q) = (((16 + q.val) * 2 ^ (s.val + 3) + 4 * 2 ^ s.val : Nat) : Int) - 132 ∧
    ulawToLinear (ucode true s q) = 132 - (((16 + q.val) * 2 ^ (s.val + 3) + 4 * 2 ^ s.val : Nat) : Int) ∧
    ulawStep (ucode false s q) = 8 * 2 ^ s.val ∧ ulawStep (ucode true s q) = 8 * 2 ^ s.val := by decide +kernel
  exact this ⟨s, hs⟩ ⟨q, hq⟩

/-- A sample which is not clipped is coded by the cell it is in. -/
theorem ulaw_cell (x : Int) (h : -32635 ≤ x) (h' : x ≤ 32635) :
    ∃ s q : Nat, s < 8 ∧ q < 16 ∧ linearToUlaw x = some (ucode (decide (x < 0)) s q) ∧
      (16 + q) * 2 ^ (s + 3) ≤ x.natAbs + 132 ∧ x.natAbs + 132 < (16 + q + 1) * 2 ^ (s + 3) := by
  obtain ⟨m, hm⟩ : ∃ m, m = x.natAbs + 132 := ⟨_, rfl⟩
  rw [← hm]
  have core : ∀ s : Nat, s < 8 → 2 ^ (s + 7) ≤ m → m < 2 ^ (s + 8) →
      BitOps.topBit (BitVec.ofNat 32 m ||| 0xFF#32) - 7 = (s : Int) → ∃ s q : Nat, s < 8 ∧ q < 16 ∧
        linearToUlaw x = some (ucode (decide (x < 0)) s q) ∧ (16 + q) * 2 ^ (s + 3) ≤ m ∧ m < (16 + q + 1) * 2 ^ (s + 3) := by
    intro s hs h1 h2 hseg
    have e1 : 2 ^ (s + 7) = 16 * 2 ^ (s + 3) := by rw [Nat.pow_add, Nat.pow_add]; omega
    have e2 : 2 ^ (s + 8) = 32 * 2 ^ (s + 3) := by rw [Nat.pow_add, Nat.pow_add]; omega
    have hp : 0 < 2 ^ (s + 3) := Nat.two_pow_pos _
    have d1 : 16 ≤ m / 2 ^ (s + 3) := (Nat.le_div_iff_mul_le hp).2 (by omega)
    have d2 : m / 2 ^ (s + 3) < 32 := (Nat.div_lt_iff_lt_mul hp).2 (by omega)
    refine ⟨s, m / 2 ^ (s + 3) - 16, hs, by omega, ?_, ?_, ?_⟩
    · have hq : m / 2 ^ (s + 3) % 16 = m / 2 ^ (s + 3) - 16 := by omega
      have hneg : ¬ (s : Int) ≥ 8 := by omega
      have ht : ((s : Int) + 3).toNat = s + 3 := by omega
      have h32 : m < 2 ^ 32 := by omega
      unfold linearToUlaw
      by_cases hx : x ≥ 0
      · rw [if_pos hx]
        have em : (0x84 + x : Int) = (m : Int) := by omega
        simp only [em]
        have hf : fits (m : Int) = true := by unfold fits; simp; omega
        simp only [hf, Bool.true_eq_false, if_false]
        rw [BitVec.ofInt_natCast, hseg, if_neg hneg, ht, shift_and m _ h32, combine s _ hs (by omega), hq]
        have : decide (x < 0) = false := by simpa using hx
        rw [this]; rfl
      · rw [if_neg hx]
        have em : (0x84 - x : Int) = (m : Int) := by omega
        simp only [em]
        have hf : fits (m : Int) = true := by unfold fits; simp; omega
        simp only [hf, Bool.true_eq_false, if_false]
        rw [BitVec.ofInt_natCast, hseg, if_neg hneg, ht, shift_and m _ h32, combine s _ hs (by omega), hq]
        have : decide (x < 0) = true := by simpa using hx
        rw [this]; rfl
    · rw [show 16 + (m / 2 ^ (s + 3) - 16) = m / 2 ^ (s + 3) by omega]; exact Nat.div_mul_le_self _ _
    · rw [show 16 + (m / 2 ^ (s + 3) - 16) + 1 = m / 2 ^ (s + 3) + 1 by omega]
      exact Nat.lt_mul_of_div_lt (Nat.lt_succ_self _) hp
  by_cases h256 : m < 256
  · exact core 0 (by omega) (by omega) (by omega) (seg_small h256)
  · have hl1 := Nat.log2_self_le (n := m) (by omega)
    have hl2 := Nat.lt_log2_self (n := m)
    have g1 : 8 ≤ m.log2 := (Nat.le_log2 (by omega)).2 (by omega)
    have g2 : m.log2 < 15 := (Nat.log2_lt (by omega)).2 (by omega)
    refine core (m.log2 - 7) (by omega) (by rw [show m.log2 - 7 + 7 = m.log2 by omega]; exact hl1)
      (by rw [show m.log2 - 7 + 8 = m.log2 + 1 by omega]; exact hl2) ?_
    rw [seg_mid (s := m.log2 - 8) (by rw [show m.log2 - 8 + 8 = m.log2 by omega]; exact hl1)
      (by rw [show m.log2 - 8 + 9 = m.log2 + 1 by omega]; exact hl2) (by omega)]
    omega

/-- C16, u-law: a sample comes back within half the cell width of its code. -/
theorem ulaw_error_bound (x : Int) (h : -32635 ≤ x) (h' : x ≤ 32635) :
    ∃ c, linearToUlaw x = some c ∧ 2 * (ulawToLinear c - x) ≤ ulawStep c ∧ 2 * (x - ulawToLinear c) ≤ ulawStep c := by
  obtain ⟨s, q, hs, hq, e, h1, h2⟩ := ulaw_cell x h h'
  obtain ⟨f1, f2, f3, f4⟩ := ucode_facts s q hs hq
  refine ⟨_, e, ?_⟩
  by_cases hx : x < 0
  · simp only [hx, decide_true]
    rw [f2, f4]
    clear e f1 f2 f3 f4
    interval_cases s <;> norm_num at h1 h2 ⊢ <;> omega
  · simp only [hx, decide_false]
    rw [f1, f3]
    clear e f1 f2 f3 f4
    interval_cases s <;> norm_num at h1 h2 ⊢ <;> omega

/-- Cells are in order. -/
theorem ucell_mono {s q s' q' m m' : Nat} (hq : q < 16) (hq' : q' < 16)
    (h1 : (16 + q) * 2 ^ (s + 3) ≤ m) (h2 : m' < (16 + q' + 1) * 2 ^ (s' + 3)) (h : m ≤ m') :
    (16 + q) * 2 ^ (s + 3) + 4 * 2 ^ s ≤ (16 + q') * 2 ^ (s' + 3) + 4 * 2 ^ s' := by
  have e : ∀ n : Nat, 2 ^ (n + 3) = 8 * 2 ^ n := fun n => by rw [Nat.pow_add]; omega
  rcases Nat.lt_trichotomy s s' with hs | hs | hs
  · have p1 : 2 ^ (s + 1) ≤ 2 ^ s' := Nat.pow_le_pow_right (by omega) hs
    rw [Nat.pow_succ] at p1
    rw [e, e]
    have a1 := Nat.mul_le_mul_right (8 * 2 ^ s) (show 16 + q ≤ 31 by omega)
    have a2 := Nat.mul_le_mul_right (8 * 2 ^ s') (show 16 ≤ 16 + q' by omega)
    omega
  · subst hs
    have hqq : q ≤ q' := Nat.le_of_not_lt fun hc => by
      have := Nat.mul_le_mul_right (2 ^ (s + 3)) (show 16 + q' + 1 ≤ 16 + q by omega)
      omega
    have := Nat.mul_le_mul_right (2 ^ (s + 3)) (show 16 + q ≤ 16 + q' by omega)
    omega
  · have p1 : 2 ^ (s' + 1) ≤ 2 ^ s := Nat.pow_le_pow_right (by omega) hs
    rw [Nat.pow_succ] at p1
    rw [e] at h1 h2
    have a1 := Nat.mul_le_mul_right (8 * 2 ^ s) (show 16 ≤ 16 + q by omega)
    have a2 := Nat.mul_le_mul_right (8 * 2 ^ s') (show 16 + q' + 1 ≤ 32 by omega)
    omega

theorem ulaw_clip (x : Int) (h : x < -32635 ∨ 32635 < x) (hd : -2147483515 ≤ x) (hd' : x ≤ 2147483515) :
    linearToUlaw x = some (if 0 < x then 0x80#8 else 0x00#8) := by
  unfold linearToUlaw
  by_cases hx : x ≥ 0
  · obtain ⟨m, hm⟩ : ∃ m : Nat, (0x84 + x : Int) = (m : Int) := ⟨(0x84 + x).toNat, by omega⟩
    rw [if_pos hx]
    simp only [hm]
    have hf : fits (m : Int) = true := by unfold fits; simp; omega
    simp only [hf, Bool.true_eq_false, if_false]
    rw [BitVec.ofInt_natCast, if_pos (seg_high (by omega) (by omega)), if_pos (show 0 < x by omega)]
    rfl
  · obtain ⟨m, hm⟩ : ∃ m : Nat, (0x84 - x : Int) = (m : Int) := ⟨(0x84 - x).toNat, by omega⟩
    rw [if_neg hx]
    simp only [hm]
    have hf : fits (m : Int) = true := by unfold fits; simp; omega
    simp only [hf, Bool.true_eq_false, if_false]
    rw [BitVec.ofInt_natCast, if_pos (seg_high (by omega) (by omega)), if_neg (show ¬ 0 < x by omega)]
    rfl

theorem ulaw_undefined (x : Int) (h : x < -2147483515 ∨ 2147483515 < x) : linearToUlaw x = none := by
  unfold linearToUlaw
  have : fits ((if x ≥ 0 then (0x84 + x, 0xFF#32) else (0x84 - x, 0x7F#32)).1) = false := by
    unfold fits; split <;> simp <;> omega
  exact if_pos this

/-- The largest and the smallest decoded values are those of the codes 0x80 and 0x00. -/
theorem ulaw_extremes (c : Byte) : ulawToLinear 0x00#8 ≤ ulawToLinear c ∧ ulawToLinear c ≤ ulawToLinear 0x80#8 := by
  have : ∀ c : Byte, ulawToLinear 0x00#8 ≤ ulawToLinear c ∧ ulawToLinear c ≤ ulawToLinear 0x80#8 := by decide +kernel
  exact this c

theorem ulaw_unclipped_mono (x y : Int) (hx : -32635 ≤ x) (hxy : x ≤ y) (hy : y ≤ 32635) (c d : Byte)
    (hc : linearToUlaw x = some c) (hd : linearToUlaw y = some d) : ulawToLinear c ≤ ulawToLinear d := by
  obtain ⟨s, q, hs, hq, e, h1, h2⟩ := ulaw_cell x hx (by omega)
  obtain ⟨s', q', hs', hq', e', h1', h2'⟩ := ulaw_cell y (by omega) hy
  obtain ⟨f1, f2, _, _⟩ := ucode_facts s q hs hq
  obtain ⟨g1, g2, _, _⟩ := ucode_facts s' q' hs' hq'
  rw [hc] at e; rw [hd] at e'
  cases e; cases e'
  have z : 132 ≤ (16 + q) * 2 ^ (s + 3) + 4 * 2 ^ s := by
    have := Nat.one_le_two_pow (n := s)
    rw [Nat.pow_add]; have := Nat.mul_le_mul (show 16 ≤ 16 + q by omega) (show 1 * 2 ^ 3 ≤ 2 ^ s * 2 ^ 3 by omega); omega
  have z' : 132 ≤ (16 + q') * 2 ^ (s' + 3) + 4 * 2 ^ s' := by
    have := Nat.one_le_two_pow (n := s')
    rw [Nat.pow_add]; have := Nat.mul_le_mul (show 16 ≤ 16 + q' by omega) (show 1 * 2 ^ 3 ≤ 2 ^ s' * 2 ^ 3 by omega); omega
  by_cases n1 : x < 0 <;> by_cases n2 : y < 0
  · have := ucell_mono hq' hq h1' h2 (by omega)
    simp only [n1, n2, decide_true]; rw [f2, g2]; omega
  · simp only [n1, n2, decide_true, decide_false]; rw [f2, g1]; omega
  · omega
  · have := ucell_mono hq hq' h1 h2' (by omega)
    simp only [n1, n2, decide_false]; rw [f1, g1]; omega

theorem ulaw_range {x : Int} {c : Byte} (h : linearToUlaw x = some c) : -2147483515 ≤ x ∧ x ≤ 2147483515 := by
  by_cases hh : x < -2147483515 ∨ 2147483515 < x
  · rw [ulaw_undefined x hh] at h; simp at h
  · omega

/-- C16, u-law: a louder sample never comes back softer. -/
theorem ulaw_monotone (x y : Int) (hxy : x ≤ y) (c d : Byte)
    (hc : linearToUlaw x = some c) (hd : linearToUlaw y = some d) : ulawToLinear c ≤ ulawToLinear d := by
  have rx := ulaw_range hc
  have ry := ulaw_range hd
  by_cases h1 : x < -32635
  · rw [ulaw_clip x (Or.inl h1) rx.1 rx.2, if_neg (by omega)] at hc; cases hc
    exact (ulaw_extremes d).1
  by_cases h2 : 32635 < y
  · rw [ulaw_clip y (Or.inr h2) ry.1 ry.2, if_pos (by omega)] at hd; cases hd
    exact (ulaw_extremes c).2
  by_cases h3 : 32635 < x
  · omega
  · exact ulaw_unclipped_mono x y (by omega) hxy (by omega) c d hc hd

/-- C16, u-law: negating a sample negates what it comes back as. -/
theorem ulaw_symmetric (x : Int) (c d : Byte)
    (hc : linearToUlaw x = some c) (hd : linearToUlaw (-x) = some d) : ulawToLinear d = -ulawToLinear c := by
  have rx := ulaw_range hc
  have ry := ulaw_range hd
  by_cases h1 : x < -32635
  · rw [ulaw_clip x (Or.inl h1) rx.1 rx.2, if_neg (by omega)] at hc; cases hc
    rw [ulaw_clip (-x) (Or.inr (by omega)) ry.1 ry.2, if_pos (by omega)] at hd; cases hd
    decide
  by_cases h2 : 32635 < x
  · rw [ulaw_clip x (Or.inr h2) rx.1 rx.2, if_pos (by omega)] at hc; cases hc
    rw [ulaw_clip (-x) (Or.inl (by omega)) ry.1 ry.2, if_neg (by omega)] at hd; cases hd
    decide
  obtain ⟨s, q, hs, hq, e, g1, g2⟩ := ulaw_cell x (by omega) (by omega)
  obtain ⟨s', q', hs', hq', e', g1', g2'⟩ := ulaw_cell (-x) (by omega) (by omega)
  obtain ⟨f1, f2, _, _⟩ := ucode_facts s q hs hq
  obtain ⟨k1, k2, _, _⟩ := ucode_facts s' q' hs' hq'
  rw [hc] at e; rw [hd] at e'
  cases e; cases e'
  have m1 := ucell_mono hq hq' g1 g2' (by omega)
  have m2 := ucell_mono hq' hq g1' g2 (by omega)
  by_cases n1 : x < 0 <;> by_cases n2 : -x < 0
  · omega
  · simp only [n1, n2, decide_true, decide_false]; rw [f2, k1]; omega
  · simp only [n1, n2, decide_true, decide_false]; rw [f1, k2]; omega
  · simp only [n1, n2, decide_false]; rw [f1, k1]
    have x0 : x = 0 := by omega
    subst x0
    have z : ∀ s q, q < 16 → (16 + q) * 2 ^ (s + 3) ≤ (0 : Int).natAbs + 132 → (0 : Int).natAbs + 132 < (16 + q + 1) * 2 ^ (s + 3) →
        (16 + q) * 2 ^ (s + 3) + 4 * 2 ^ s = 132 := by
      intro s q hq a b
      have m1 := ucell_mono (s := s) (s' := 0) (q' := 0) (m := 132) (m' := 132) hq (by omega) a (by omega) (by omega)
      have m2 := ucell_mono (s := 0) (q := 0) (s' := s) (q' := q) (m := 132) (m' := 132) (by omega) hq (by omega) b (by omega)
      omega
    rw [z s q hq g1 g2, z s' q' hq' g1' g2']; rfl

/-! ## A-law -/

/-- The code of a segment and a place in it. -/
def acode (neg : Bool) (s q : Nat) : Byte := (BitVec.ofNat 32 (16 * s + q) ^^^ (if neg then 0x55#32 else 0xD5#32)).setWidth 8

/-- The least magnitude in a cell. -/
def alow (s q : Nat) : Nat := if s = 0 then q * 16 else (16 + q) * 2 ^ (s + 3)

/-- The width of a cell. -/
def awid (s : Nat) : Nat := 16 * 2 ^ (s - 1)

theorem acode_facts (s q : Nat) (hs : s < 8) (hq : q < 16) :
    alawToLinear (acode false s q) = ((alow s q + awid s / 2 : Nat) : Int) ∧
    alawToLinear (acode true s q) = - ((alow s q + awid s / 2 : Nat) : Int) ∧
    alawStep (acode false s q) = awid s ∧ alawStep (acode true s q) = awid s := by
  have : ∀ (s : Fin 8) (q : Fin 16),
    alawToLinear (acode false s q) = ((alow s q + awid s / 2 : Nat) : Int) ∧
    alawToLinear (acode true s q) = - ((alow s q + awid s / 2 : Nat) : Int) ∧
    alawStep (acode false s q) = awid s ∧ alawStep (acode true s q) = awid s := by decide +kernel
  exact this ⟨s, hs⟩ ⟨q, hq⟩

/-- How far from zero a sample is, for A-law. There is no zero level: −1 is as near as 0. -/
def amag (x : Int) : Nat := if 0 ≤ x then x.toNat else (-x - 1).toNat

theorem alaw_cell (x : Int) (h : -32768 ≤ x) (h' : x ≤ 32767) :
    ∃ s q : Nat, s < 8 ∧ q < 16 ∧ linearToAlaw x = some (acode (decide (x < 0)) s q) ∧
      alow s q ≤ amag x ∧ amag x < alow s q + awid s := by
  obtain ⟨m, hm⟩ : ∃ m, m = amag x := ⟨_, rfl⟩
  rw [← hm]
  have hm32 : m < 32768 := by rw [hm]; unfold amag; split <;> omega
  have core : ∀ s : Nat, s < 8 → m / 2 ^ (if s = 0 then 4 else s + 3) % 16 < 16 →
      BitOps.topBit (BitVec.ofNat 32 m ||| 0xFF#32) - 7 = (s : Int) →
        linearToAlaw x = some (acode (decide (x < 0)) s (m / 2 ^ (if s = 0 then 4 else s + 3) % 16)) := by
    intro s hs hq hseg
    have hneg : ¬ (s : Int) ≥ 8 := by omega
    have h32 : m < 2 ^ 32 := by omega
    have ht : (if (s : Int) ≠ 0 then ((s : Int) + 3).toNat else 4) = if s = 0 then 4 else s + 3 := by
      by_cases h0 : s = 0
      · subst h0; rfl
      · rw [if_neg h0, if_pos (by omega)]; omega
    unfold linearToAlaw
    by_cases hx : x ≥ 0
    · rw [if_pos hx, if_neg (by omega)]
      have em : x = (m : Int) := by rw [hm]; unfold amag; rw [if_pos hx]; omega
      have : decide (x < 0) = false := by simpa using hx
      rw [this]
      simp only [em]
      rw [BitVec.ofInt_natCast, hseg, if_neg hneg, ht, shift_and m _ h32, combine s _ hs hq]
      rfl
    · have hf : fits (-x) = true := by unfold fits; simp; omega
      rw [if_neg hx, if_neg (by simp [hf])]
      have em : -x - 1 = (m : Int) := by rw [hm]; unfold amag; rw [if_neg hx]; omega
      have : decide (x < 0) = true := by simpa using hx
      rw [this]
      simp only [em]
      rw [BitVec.ofInt_natCast, hseg, if_neg hneg, ht, shift_and m _ h32, combine s _ hs hq]
      rfl
  by_cases h256 : m < 256
  · refine ⟨0, _, by omega, ?_, core 0 (by omega) (by omega) (seg_small h256), ?_, ?_⟩
    · omega
    · simp [alow]; omega
    · simp [alow, awid]; omega
  · have hl1 := Nat.log2_self_le (n := m) (by omega)
    have hl2 := Nat.lt_log2_self (n := m)
    have g1 : 8 ≤ m.log2 := (Nat.le_log2 (by omega)).2 (by omega)
    have g2 : m.log2 < 15 := (Nat.log2_lt (by omega)).2 (by omega)
    obtain ⟨s, hs⟩ : ∃ s, m.log2 = s + 7 := ⟨m.log2 - 7, by omega⟩
    have hseg := seg_mid (s := s - 1) (m := m) (by rw [show s - 1 + 8 = m.log2 by omega]; exact hl1)
      (by rw [show s - 1 + 9 = m.log2 + 1 by omega]; exact hl2) (by omega)
    refine ⟨s, _, by omega, Nat.mod_lt _ (by omega), core s (by omega) (Nat.mod_lt _ (by omega)) (by rw [hseg]; omega), ?_⟩
    have hs0 : s ≠ 0 := by omega
    rw [hs] at hl1 hl2
    simp only [alow, awid, hs0, if_false]
    have : s < 8 := by omega
    clear core hseg hs
    interval_cases s <;> norm_num at hl1 hl2 ⊢ <;> omega

/-- C16, A-law: a sample comes back within half the cell width of its code. -/
theorem alaw_error_bound (x : Int) (h : -32768 ≤ x) (h' : x ≤ 32767) :
    ∃ c, linearToAlaw x = some c ∧ 2 * (alawToLinear c - x) ≤ alawStep c ∧ 2 * (x - alawToLinear c) ≤ alawStep c := by
  obtain ⟨s, q, hs, hq, e, h1, h2⟩ := alaw_cell x h h'
  obtain ⟨f1, f2, f3, f4⟩ := acode_facts s q hs hq
  refine ⟨_, e, ?_⟩
  have hw : 2 * (awid s / 2) = awid s := by unfold awid; omega
  unfold amag at h1 h2
  by_cases hx : x < 0
  · simp only [hx, decide_true]
    rw [f2, f4]
    rw [if_neg (by omega)] at h1 h2; omega
  · simp only [hx, decide_false]
    rw [f1, f3]
    rw [if_pos (by omega)] at h1 h2; omega

/-- Cells are in order. -/
theorem acell_mono {s q s' q' m m' : Nat} (hs : s < 8) (hq : q < 16) (hs' : s' < 8) (hq' : q' < 16)
    (h1 : alow s q ≤ m) (h2 : m' < alow s' q' + awid s') (h : m ≤ m') :
    alow s q + awid s / 2 ≤ alow s' q' + awid s' / 2 := by
  have lo : ∀ s q, q < 16 → s < 8 → (if s = 0 then 0 else 128 * 2 ^ s) ≤ alow s q ∧ alow s q + awid s ≤ 256 * 2 ^ s := by
    intro s q hq hs
    have : ∀ (s : Fin 8) (q : Fin 16), (if s.val = 0 then 0 else 128 * 2 ^ s.val) ≤ alow s q ∧ alow s q + awid s ≤ 256 * 2 ^ s.val := by
      decide +kernel
    exact this ⟨s, hs⟩ ⟨q, hq⟩
  have la := lo s q hq hs
  have lb := lo s' q' hq' hs'
  have w : ∀ s, 0 < awid s := fun s => by unfold awid; have := Nat.two_pow_pos (s - 1); omega
  have w1 := w s
  have w2 := w s'
  rcases Nat.lt_trichotomy s s' with hss | hss | hss
  · have p1 : 2 ^ (s + 1) ≤ 2 ^ s' := Nat.pow_le_pow_right (by omega) hss
    rw [Nat.pow_succ] at p1
    rw [if_neg (show ¬ s' = 0 by omega)] at lb
    omega
  · subst hss
    have al : ∀ q, alow s q = (if s = 0 then 0 else 128 * 2 ^ s) + q * awid s := by
      intro q
      unfold alow awid
      by_cases h0 : s = 0
      · subst h0; simp
      · rw [if_neg h0, if_neg h0, Nat.add_mul, show s + 3 = (s - 1) + 4 by omega, show 2 ^ s = 2 ^ (s - 1) * 2 by
          rw [← Nat.pow_succ]; congr 1; omega, Nat.pow_add, show (2 : Nat) ^ 4 = 16 by rfl, Nat.mul_comm (2 ^ (s - 1)) 16]
        omega
    have hqq : q ≤ q' := Nat.le_of_not_lt fun hc => by
      have := Nat.mul_le_mul_right (awid s) (show q' + 1 ≤ q by omega)
      rw [Nat.add_mul, Nat.one_mul] at this
      rw [al] at h1 h2
      omega
    have := Nat.mul_le_mul_right (awid s) hqq
    rw [al, al]
    omega
  · have p1 : 2 ^ (s' + 1) ≤ 2 ^ s := Nat.pow_le_pow_right (by omega) hss
    rw [Nat.pow_succ] at p1
    rw [if_neg (show ¬ s = 0 by omega)] at la
    omega

theorem alaw_clip (x : Int) (h : x < -32768 ∨ 32767 < x) (hd : -2147483647 ≤ x) (hd' : x ≤ 2147483647) :
    linearToAlaw x = some (if 0 < x then 0xAA#8 else 0x2A#8) := by
  unfold linearToAlaw
  by_cases hx : x ≥ 0
  · obtain ⟨m, hm⟩ : ∃ m : Nat, x = (m : Int) := ⟨x.toNat, by omega⟩
    rw [if_pos hx, if_neg (by omega), if_pos (show 0 < x by omega)]
    simp only [hm]
    rw [BitVec.ofInt_natCast, if_pos (seg_high (by omega) (by omega))]
    rfl
  · obtain ⟨m, hm⟩ : ∃ m : Nat, -x - 1 = (m : Int) := ⟨(-x - 1).toNat, by omega⟩
    have hf : fits (-x) = true := by unfold fits; simp; omega
    rw [if_neg hx, if_neg (by simp [hf]), if_neg (show ¬ 0 < x by omega)]
    simp only [hm]
    rw [BitVec.ofInt_natCast, if_pos (seg_high (by omega) (by omega))]
    rfl

/-- Only the least `int` cannot be encoded. -/
theorem alaw_undefined (x : Int) (h : x < -2147483647) : linearToAlaw x = none := by
  unfold linearToAlaw
  have : fits (-x) = false := by unfold fits; simp; omega
  exact if_pos ⟨by omega, this⟩

theorem alaw_extremes (c : Byte) : alawToLinear 0x2A#8 ≤ alawToLinear c ∧ alawToLinear c ≤ alawToLinear 0xAA#8 := by
  have : ∀ c : Byte, alawToLinear 0x2A#8 ≤ alawToLinear c ∧ alawToLinear c ≤ alawToLinear 0xAA#8 := by decide +kernel
  exact this c

theorem alaw_unclipped_mono (x y : Int) (hx : -32768 ≤ x) (hxy : x ≤ y) (hy : y ≤ 32767) (c d : Byte)
    (hc : linearToAlaw x = some c) (hd : linearToAlaw y = some d) : alawToLinear c ≤ alawToLinear d := by
  obtain ⟨s, q, hs, hq, e, h1, h2⟩ := alaw_cell x hx (by omega)
  obtain ⟨s', q', hs', hq', e', h1', h2'⟩ := alaw_cell y (by omega) hy
  obtain ⟨f1, f2, _, _⟩ := acode_facts s q hs hq
  obtain ⟨g1, g2, _, _⟩ := acode_facts s' q' hs' hq'
  rw [hc] at e; rw [hd] at e'
  cases e; cases e'
  by_cases n1 : x < 0 <;> by_cases n2 : y < 0
  · have := acell_mono hs' hq' hs hq h1' h2 (by unfold amag; rw [if_neg (by omega), if_neg (by omega)]; omega)
    simp only [n1, n2, decide_true]; rw [f2, g2]; omega
  · simp only [n1, n2, decide_true, decide_false]; rw [f2, g1]; omega
  · omega
  · have := acell_mono hs hq hs' hq' h1 h2' (by unfold amag; rw [if_pos (by omega), if_pos (by omega)]; omega)
    simp only [n1, n2, decide_false]; rw [f1, g1]; omega

/-- C16, A-law: a louder sample never comes back softer. The samples are `int`s. -/
theorem alaw_monotone (x y : Int) (hxy : x ≤ y) (hy : y ≤ 2147483647) (c d : Byte)
    (hc : linearToAlaw x = some c) (hd : linearToAlaw y = some d) : alawToLinear c ≤ alawToLinear d := by
  have rx : -2147483647 ≤ x := by
    by_cases h : x < -2147483647
    · rw [alaw_undefined x h] at hc; simp at hc
    · omega
  by_cases h1 : x < -32768
  · rw [alaw_clip x (Or.inl h1) rx (by omega), if_neg (by omega)] at hc; cases hc
    exact (alaw_extremes d).1
  by_cases h2 : 32767 < y
  · rw [alaw_clip y (Or.inr h2) (by omega) hy, if_pos (by omega)] at hd; cases hd
    exact (alaw_extremes c).2
  exact alaw_unclipped_mono x y (by omega) hxy (by omega) c d hc hd

/-- C16, A-law: the mirror image of a sample in −½ comes back as the negative. -/
theorem alaw_symmetric (x : Int) (hlo : -2147483647 ≤ x) (hhi : x ≤ 2147483646) (c d : Byte)
    (hc : linearToAlaw x = some c) (hd : linearToAlaw (-x - 1) = some d) : alawToLinear d = -alawToLinear c := by
  by_cases h1 : x < -32768
  · rw [alaw_clip x (Or.inl h1) hlo (by omega), if_neg (by omega)] at hc; cases hc
    rw [alaw_clip (-x - 1) (Or.inr (by omega)) (by omega) (by omega), if_pos (by omega)] at hd; cases hd
    decide
  by_cases h2 : 32767 < x
  · rw [alaw_clip x (Or.inr h2) hlo (by omega), if_pos (by omega)] at hc; cases hc
    rw [alaw_clip (-x - 1) (Or.inl (by omega)) (by omega) (by omega), if_neg (by omega)] at hd; cases hd
    decide
  obtain ⟨s, q, hs, hq, e, g1, g2⟩ := alaw_cell x (by omega) (by omega)
  obtain ⟨s', q', hs', hq', e', g1', g2'⟩ := alaw_cell (-x - 1) (by omega) (by omega)
  obtain ⟨f1, f2, _, _⟩ := acode_facts s q hs hq
  obtain ⟨k1, k2, _, _⟩ := acode_facts s' q' hs' hq'
  rw [hc] at e; rw [hd] at e'
  cases e; cases e'
  have hmag : amag (-x - 1) = amag x := by
    unfold amag
    by_cases n1 : 0 ≤ x
    · rw [if_pos n1, if_neg (by omega)]; omega
    · rw [if_neg n1, if_pos (by omega)]
  have m1 := acell_mono hs hq hs' hq' g1 g2' (by omega)
  have m2 := acell_mono hs' hq' hs hq g1' g2 (by omega)
  by_cases n1 : x < 0 <;> by_cases n2 : -x - 1 < 0
  · omega
  · simp only [n1, n2, decide_true, decide_false]; rw [f2, k1]; omega
  · simp only [n1, n2, decide_true, decide_false]; rw [f1, k2]; omega
  · omega

/-! ## C16, both laws: what is clipped, and where the code is undefined -/

/-- Every `int` except those within 132 of the ends has a u-law code. Beyond ±32635 it is the
code of the largest level; the error bound, order and symmetry cover the rest. -/
theorem ulaw_defined_iff (x : Int) : (∃ c, linearToUlaw x = some c) ↔ (-2147483515 ≤ x ∧ x ≤ 2147483515) := by
  constructor
  · rintro ⟨c, h⟩; exact ulaw_range h
  · intro h
    by_cases hc : x < -32635 ∨ 32635 < x
    · exact ⟨_, ulaw_clip x hc h.1 h.2⟩
    · obtain ⟨c, e, _⟩ := ulaw_error_bound x (by omega) (by omega); exact ⟨c, e⟩

theorem alaw_defined_iff (x : Int) (h : -2147483648 ≤ x) (h' : x ≤ 2147483647) :
    (∃ c, linearToAlaw x = some c) ↔ x ≠ -2147483648 := by
  constructor
  · rintro ⟨c, hc⟩ rfl
    rw [alaw_undefined _ (by omega)] at hc; simp at hc
  · intro hne
    by_cases hc : x < -32768 ∨ 32767 < x
    · exact ⟨_, alaw_clip x hc (by omega) (by omega)⟩
    · obtain ⟨c, e, _⟩ := alaw_error_bound x (by omega) (by omega); exact ⟨c, e⟩

example : linearToUlaw 1000 = some 0xCE#8 ∧ ulawToLinear 0xCE#8 = 988 ∧ linearToUlaw 40000 = some 0x80#8 ∧
    linearToAlaw (-1000) = some 0x7A#8 ∧ alawToLinear 0x7A#8 = -1008 ∧ linearToAlaw 2147483647 = some 0xAA#8 := by decide +kernel

/-! ## C15 -/

/-- C15: a u-law code comes back, except for the negative zero, which becomes the positive one. -/
theorem ulaw_code_round_trip (c : Byte) : linearToUlaw (ulawToLinear c) = some (if c = 0x7F#8 then 0xFF#8 else c) := by
  have : ∀ c : Byte, linearToUlaw (ulawToLinear c) = some (if c = 0x7F#8 then 0xFF#8 else c) := by decide +kernel
  exact this c

/-- C15: every A-law code comes back. -/
theorem alaw_code_round_trip (c : Byte) : linearToAlaw (alawToLinear c) = some c := by
  have : ∀ c : Byte, linearToAlaw (alawToLinear c) = some c := by decide +kernel
  exact this c

theorem mapM_map {α β : Type} (f : β → Option α) (g : α → β) (k : α → α) (h : ∀ a, f (g a) = some (k a)) :
    ∀ l : List α, (l.map g).mapM f = some (l.map k)
  | [] => rfl
  | a :: l => by
    rw [List.map_cons, List.mapM_cons, h, mapM_map f g k h l]; rfl

/-- C15: for buffers of any length in either mode, encoding what was decoded gives the same
octets, with any u-law negative zero replaced, and decoding that gives the same samples. -/
theorem g711_buffer_round_trip (mode : Mode) (data : List Byte) :
    encode mode (decode mode data) = some (data.map fun c => if mode = .ulaw ∧ c = 0x7F#8 then 0xFF#8 else c) ∧
    (encode mode (decode mode data)).map (decode mode) = some (decode mode data) := by
  cases mode
  · have e : encode .alaw (decode .alaw data) = some data := by
      have := mapM_map linearToAlaw alawToLinear id (fun c => alaw_code_round_trip c) data
      simpa [encode, decode] using this
    refine ⟨?_, ?_⟩
    · rw [e]; simp
    · rw [e]; rfl
  · have e : encode .ulaw (decode .ulaw data) = some (data.map fun c => if c = 0x7F#8 then 0xFF#8 else c) :=
      mapM_map linearToUlaw ulawToLinear _ ulaw_code_round_trip data
    refine ⟨?_, ?_⟩
    · rw [e]; simp
    · rw [e]
      simp only [Option.map_some, decode, List.map_map]
      congr 1
      apply List.map_congr_left
      intro c _
      simp only [Function.comp]
      split
      · next h => rw [h]; decide
      · rfl

example : encode .ulaw (decode .ulaw [0x7F#8, 0x12#8]) = some [0xFF#8, 0x12#8] := by decide +kernel

/-! ## C17 -/

/-- C17: a transcoded code is defined for every code, stands for a level within a third of the
two cell widths of the original, and keeps its sign bit. -/
theorem ulaw_to_alaw_close (c : Byte) : ∃ d, ulawToAlaw c = some d ∧
    3 * |alawToLinear d - ulawToLinear c| ≤ ulawStep c + alawStep d ∧ d.msb = c.msb := by
  have : ∀ c : Byte, (ulawToAlaw c).any (fun d =>
    decide (3 * (alawToLinear d - ulawToLinear c) ≤ ulawStep c + alawStep d ∧
      3 * (ulawToLinear c - alawToLinear d) ≤ ulawStep c + alawStep d ∧ d.msb = c.msb)) = true := by decide +kernel
  obtain ⟨d, hd, h⟩ := Option.any_eq_true _ _ |>.1 (this c)
  have h := of_decide_eq_true h
  refine ⟨d, hd, ?_, h.2.2⟩
  rcases abs_cases (alawToLinear d - ulawToLinear c) with ⟨e, _⟩ | ⟨e, _⟩ <;> rw [e] <;> omega

theorem alaw_to_ulaw_close (c : Byte) : ∃ d, alawToUlaw c = some d ∧
    3 * |ulawToLinear d - alawToLinear c| ≤ ulawStep d + alawStep c ∧ d.msb = c.msb := by
  have : ∀ c : Byte, (alawToUlaw c).any (fun d =>
    decide (3 * (ulawToLinear d - alawToLinear c) ≤ ulawStep d + alawStep c ∧
      3 * (alawToLinear c - ulawToLinear d) ≤ ulawStep d + alawStep c ∧ d.msb = c.msb)) = true := by decide +kernel
  obtain ⟨d, hd, h⟩ := Option.any_eq_true _ _ |>.1 (this c)
  have h := of_decide_eq_true h
  refine ⟨d, hd, ?_, h.2.2⟩
  rcases abs_cases (ulawToLinear d - alawToLinear c) with ⟨e, _⟩ | ⟨e, _⟩ <;> rw [e] <;> omega

/-- The u-law codes in the order of their levels, with the negative zero before the positive. -/
def uorder (k : Nat) : Byte := BitVec.ofNat 8 (if k < 128 then k else 383 - k)

/-- The A-law codes in the order of their levels. -/
def aorder (k : Nat) : Byte := BitVec.ofNat 8 (if k < 128 then 127 - k else k) ^^^ 0x55#8

theorem mono_of_step (f : Nat → Int) (n : Nat) (h : ∀ k, k < n → f k ≤ f (k + 1)) : ∀ i j, i ≤ j → j ≤ n → f i ≤ f j := by
  intro i j hij
  induction j, hij using Nat.le_induction with
  | base => intro _; exact le_refl _
  | succ j hij ih => intro hj; exact le_trans (ih (by omega)) (h j (by omega))

theorem uorder_onto (a : Byte) : ∃ k : Nat, k < 256 ∧ uorder k = a := by
  have : ∀ a : Byte, uorder (if a.toNat < 128 then a.toNat else 383 - a.toNat) = a := by decide +kernel
  exact ⟨_, by have := a.isLt; split <;> omega, this a⟩

theorem aorder_onto (a : Byte) : ∃ k : Nat, k < 256 ∧ aorder k = a := by
  have : ∀ a : Byte, aorder (if (a ^^^ 0x55#8).toNat < 128 then 127 - (a ^^^ 0x55#8).toNat else (a ^^^ 0x55#8).toNat) = a := by
    decide +kernel
  exact ⟨_, by have := (a ^^^ 0x55#8).isLt; split <;> omega, this a⟩

theorem ulaw_to_alaw_mono (a b : Byte) (h : ulawToLinear a ≤ ulawToLinear b) :
    (a = 0xFF#8 ∧ b = 0x7F#8) ∨ alawToLinear ((ulawToAlaw a).getD 0) ≤ alawToLinear ((ulawToAlaw b).getD 0) := by
  obtain ⟨i, hi, rfl⟩ := uorder_onto a
  obtain ⟨j, hj, rfl⟩ := uorder_onto b
  have step : ∀ k : Fin 255, alawToLinear ((ulawToAlaw (uorder k)).getD 0) ≤ alawToLinear ((ulawToAlaw (uorder (k.val + 1))).getD 0) ∧
      ulawToLinear (uorder k) + (if k.val = 127 then 0 else 1) ≤ ulawToLinear (uorder (k.val + 1)) := by decide +kernel
  have m1 := mono_of_step (fun k => alawToLinear ((ulawToAlaw (uorder k)).getD 0)) 255 (fun k hk => (step ⟨k, hk⟩).1)
  have m2 := mono_of_step (fun k => ulawToLinear (uorder k)) 255 (fun k hk => by have := (step ⟨k, hk⟩).2; simp only at this ⊢; split at this <;> omega)
  by_cases hij : i ≤ j
  · exact Or.inr (m1 i j hij (by omega))
  · left
    have s1 := (step ⟨j, by omega⟩).2
    simp only at s1
    by_cases hj7 : j = 127
    · by_cases hi8 : i = 128
      · subst hi8; subst hj7; decide
      · have a1 := m2 128 (i - 1) (by omega) (by omega)
        have a2 := (step ⟨i - 1, by omega⟩).2
        simp only [show i - 1 + 1 = i by omega, if_neg (show ¬ i - 1 = 127 by omega)] at a2
        subst hj7
        simp only [if_true] at s1
        norm_num at s1
        omega
    · rw [if_neg hj7] at s1
      have a1 := m2 (j + 1) i (by omega) (by omega)
      omega

theorem alaw_to_ulaw_mono (a b : Byte) (h : alawToLinear a ≤ alawToLinear b) :
    ulawToLinear ((alawToUlaw a).getD 0) ≤ ulawToLinear ((alawToUlaw b).getD 0) := by
  obtain ⟨i, hi, rfl⟩ := aorder_onto a
  obtain ⟨j, hj, rfl⟩ := aorder_onto b
  have step : ∀ k : Fin 255, ulawToLinear ((alawToUlaw (aorder k)).getD 0) ≤ ulawToLinear ((alawToUlaw (aorder (k.val + 1))).getD 0) ∧
      alawToLinear (aorder k) + 1 ≤ alawToLinear (aorder (k.val + 1)) := by decide +kernel
  have m1 := mono_of_step (fun k => ulawToLinear ((alawToUlaw (aorder k)).getD 0)) 255 (fun k hk => (step ⟨k, hk⟩).1)
  have m2 := mono_of_step (fun k => alawToLinear (aorder k)) 255 (fun k hk => by have := (step ⟨k, hk⟩).2; simp only at this ⊢; omega)
  by_cases hij : i ≤ j
  · exact m1 i j hij (by omega)
  · have s1 := (step ⟨j, by omega⟩).2
    have a1 := m2 (j + 1) i (by omega) (by omega)
    simp only at s1 a1
    omega

/-- C17: transcoding keeps the order of the levels. The two zeros of u-law, which are one level,
go to the two levels of A-law next to zero. -/
theorem transcode_monotone (a b x y : Byte) :
    (ulawToLinear a ≤ ulawToLinear b → ulawToAlaw a = some x → ulawToAlaw b = some y →
      (a = 0xFF#8 ∧ b = 0x7F#8) ∨ alawToLinear x ≤ alawToLinear y) ∧
    (alawToLinear a ≤ alawToLinear b → alawToUlaw a = some x → alawToUlaw b = some y →
      ulawToLinear x ≤ ulawToLinear y) := by
  constructor
  · intro h hx hy
    have := ulaw_to_alaw_mono a b h
    rw [hx, hy] at this; exact this
  · intro h hx hy
    have := alaw_to_ulaw_mono a b h
    rw [hx, hy] at this; exact this

/-- The levels of the u-law codes, plus 32768. -/
def ulevels : List Nat :=
  [644, 1668, 2692, 3716, 4740, 5764, 6788, 7812, 8836, 9860, 10884, 11908, 12932, 13956, 14980, 16004,
   16772, 17284, 17796, 18308, 18820, 19332, 19844, 20356, 20868, 21380, 21892, 22404, 22916, 23428, 23940, 24452,
   24836, 25092, 25348, 25604, 25860, 26116, 26372, 26628, 26884, 27140, 27396, 27652, 27908, 28164, 28420, 28676,
   28868, 28996, 29124, 29252, 29380, 29508, 29636, 29764, 29892, 30020, 30148, 30276, 30404, 30532, 30660, 30788,
   30884, 30948, 31012, 31076, 31140, 31204, 31268, 31332, 31396, 31460, 31524, 31588, 31652, 31716, 31780, 31844,
   31892, 31924, 31956, 31988, 32020, 32052, 32084, 32116, 32148, 32180, 32212, 32244, 32276, 32308, 32340, 32372,
   32396, 32412, 32428, 32444, 32460, 32476, 32492, 32508, 32524, 32540, 32556, 32572, 32588, 32604, 32620, 32636,
   32648, 32656, 32664, 32672, 32680, 32688, 32696, 32704, 32712, 32720, 32728, 32736, 32744, 32752, 32760, 32768,
   64892, 63868, 62844, 61820, 60796, 59772, 58748, 57724, 56700, 55676, 54652, 53628, 52604, 51580, 50556, 49532,
   48764, 48252, 47740, 47228, 46716, 46204, 45692, 45180, 44668, 44156, 43644, 43132, 42620, 42108, 41596, 41084,
   40700, 40444, 40188, 39932, 39676, 39420, 39164, 38908, 38652, 38396, 38140, 37884, 37628, 37372, 37116, 36860,
   36668, 36540, 36412, 36284, 36156, 36028, 35900, 35772, 35644, 35516, 35388, 35260, 35132, 35004, 34876, 34748,
   34652, 34588, 34524, 34460, 34396, 34332, 34268, 34204, 34140, 34076, 34012, 33948, 33884, 33820, 33756, 33692,
   33644, 33612, 33580, 33548, 33516, 33484, 33452, 33420, 33388, 33356, 33324, 33292, 33260, 33228, 33196, 33164,
   33140, 33124, 33108, 33092, 33076, 33060, 33044, 33028, 33012, 32996, 32980, 32964, 32948, 32932, 32916, 32900,
   32888, 32880, 32872, 32864, 32856, 32848, 32840, 32832, 32824, 32816, 32808, 32800, 32792, 32784, 32776, 32768]

/-- The levels of the A-law codes, plus 32768. -/
def alevels : List Nat :=
  [27264, 27520, 26752, 27008, 28288, 28544, 27776, 28032, 25216, 25472, 24704, 24960, 26240, 26496, 25728, 25984,
   30016, 30144, 29760, 29888, 30528, 30656, 30272, 30400, 28992, 29120, 28736, 28864, 29504, 29632, 29248, 29376,
   10752, 11776, 8704, 9728, 14848, 15872, 12800, 13824, 2560, 3584, 512, 1536, 6656, 7680, 4608, 5632,
   21760, 22272, 20736, 21248, 23808, 24320, 22784, 23296, 17664, 18176, 16640, 17152, 19712, 20224, 18688, 19200,
   32424, 32440, 32392, 32408, 32488, 32504, 32456, 32472, 32296, 32312, 32264, 32280, 32360, 32376, 32328, 32344,
   32680, 32696, 32648, 32664, 32744, 32760, 32712, 32728, 32552, 32568, 32520, 32536, 32616, 32632, 32584, 32600,
   31392, 31456, 31264, 31328, 31648, 31712, 31520, 31584, 30880, 30944, 30752, 30816, 31136, 31200, 31008, 31072,
   32080, 32112, 32016, 32048, 32208, 32240, 32144, 32176, 31824, 31856, 31760, 31792, 31952, 31984, 31888, 31920,
   38272, 38016, 38784, 38528, 37248, 36992, 37760, 37504, 40320, 40064, 40832, 40576, 39296, 39040, 39808, 39552,
   35520, 35392, 35776, 35648, 35008, 34880, 35264, 35136, 36544, 36416, 36800, 36672, 36032, 35904, 36288, 36160,
   54784, 53760, 56832, 55808, 50688, 49664, 52736, 51712, 62976, 61952, 65024, 64000, 58880, 57856, 60928, 59904,
   43776, 43264, 44800, 44288, 41728, 41216, 42752, 42240, 47872, 47360, 48896, 48384, 45824, 45312, 46848, 46336,
   33112, 33096, 33144, 33128, 33048, 33032, 33080, 33064, 33240, 33224, 33272, 33256, 33176, 33160, 33208, 33192,
   32856, 32840, 32888, 32872, 32792, 32776, 32824, 32808, 32984, 32968, 33016, 33000, 32920, 32904, 32952, 32936,
   34144, 34080, 34272, 34208, 33888, 33824, 34016, 33952, 34656, 34592, 34784, 34720, 34400, 34336, 34528, 34464,
   33456, 33424, 33520, 33488, 33328, 33296, 33392, 33360, 33712, 33680, 33776, 33744, 33584, 33552, 33648, 33616]

theorem ulevels_eq (c : Byte) : ∃ v : Nat, ulevels[c.toNat]? = some v ∧ ulawToLinear c = (v : Int) - 32768 := by
  have : ∀ c : Byte, (ulevels[c.toNat]?).any (fun (v : Nat) => decide (ulawToLinear c = (v : Int) - 32768)) = true := by decide +kernel
  obtain ⟨v, hv, h⟩ := Option.any_eq_true _ _ |>.1 (this c)
  exact ⟨v, hv, of_decide_eq_true h⟩

theorem alevels_eq (c : Byte) : ∃ v : Nat, alevels[c.toNat]? = some v ∧ alawToLinear c = (v : Int) - 32768 := by
  have : ∀ c : Byte, (alevels[c.toNat]?).any (fun (v : Nat) => decide (alawToLinear c = (v : Int) - 32768)) = true := by decide +kernel
  obtain ⟨v, hv, h⟩ := Option.any_eq_true _ _ |>.1 (this c)
  exact ⟨v, hv, of_decide_eq_true h⟩

/-- Nothing in the list is nearer to `x` than `y` is, by more than an eighth of `step`. -/
def nearest (x y step : Nat) (l : List Nat) : Bool :=
  l.all fun v => Nat.ble (Nat.mul 8 (Nat.add (Nat.sub x y) (Nat.sub y x))) (Nat.add step (Nat.mul 8 (Nat.add (Nat.sub x v) (Nat.sub v x))))

theorem nearest_spec {x y step v : Nat} {l : List Nat} (h : nearest x y step l = true) (hv : v ∈ l) :
    8 * |(y : Int) - x| ≤ step + 8 * |(v : Int) - x| := by
  have : 8 * (x - y + (y - x)) ≤ step + 8 * (x - v + (v - x)) := Nat.le_of_ble_eq_true (List.all_eq_true.1 h v hv)
  rcases abs_cases ((y : Int) - x) with ⟨e, _⟩ | ⟨e, _⟩ <;> rcases abs_cases ((v : Int) - x) with ⟨e', _⟩ | ⟨e', _⟩ <;>
    rw [e, e'] <;> omega

set_option maxRecDepth 4000 in
theorem ulaw_to_alaw_check : ∀ c : Byte, nearest (ulevels.getD c.toNat 0)
    (alevels.getD (ulawToAlawTable.getD c.toNat 0).toNat 0) (ulawStep c).toNat alevels = true := by decide +kernel

set_option maxRecDepth 4000 in
theorem alaw_to_ulaw_check : ∀ c : Byte, nearest (alevels.getD c.toNat 0)
    (ulevels.getD (alawToUlawTable.getD c.toNat 0).toNat 0) (alawStep c).toNat ulevels = true := by decide +kernel

/-- C17: no other A-law code is nearer to the level of a u-law code than the one it is changed to,
by more than an eighth of the u-law cell. -/
theorem ulaw_to_alaw_nearest (c d d' : Byte) (h : ulawToAlaw c = some d) :
    8 * |alawToLinear d - ulawToLinear c| ≤ ulawStep c + 8 * |alawToLinear d' - ulawToLinear c| := by
  obtain ⟨x, hx, ex⟩ := ulevels_eq c
  obtain ⟨y, hy, ey⟩ := alevels_eq d
  obtain ⟨v, hv, ev⟩ := alevels_eq d'
  have key := ulaw_to_alaw_check c
  have hd : ulawToAlawTable.getD c.toNat 0 = d := by
    unfold ulawToAlaw at h; rw [List.getD_eq_getElem?_getD, h]; rfl
  have hstep : 0 ≤ ulawStep c := by unfold ulawStep; positivity
  rw [hd, List.getD_eq_getElem?_getD, List.getD_eq_getElem?_getD, hx, hy] at key
  have := nearest_spec key (List.mem_of_getElem? hv)
  simp only [Option.getD_some, Int.toNat_of_nonneg hstep] at this
  rw [ex, ey, ev, show (y : Int) - 32768 - (x - 32768) = y - x by omega, show (v : Int) - 32768 - (x - 32768) = v - x by omega]
  exact this

/-- C17: the same the other way. -/
theorem alaw_to_ulaw_nearest (c d d' : Byte) (h : alawToUlaw c = some d) :
    8 * |ulawToLinear d - alawToLinear c| ≤ alawStep c + 8 * |ulawToLinear d' - alawToLinear c| := by
  obtain ⟨x, hx, ex⟩ := alevels_eq c
  obtain ⟨y, hy, ey⟩ := ulevels_eq d
  obtain ⟨v, hv, ev⟩ := ulevels_eq d'
  have key := alaw_to_ulaw_check c
  have hd : alawToUlawTable.getD c.toNat 0 = d := by
    unfold alawToUlaw at h; rw [List.getD_eq_getElem?_getD, h]; rfl
  have hstep : 0 ≤ alawStep c := by unfold alawStep; positivity
  rw [hd, List.getD_eq_getElem?_getD, List.getD_eq_getElem?_getD, hx, hy] at key
  have := nearest_spec key (List.mem_of_getElem? hv)
  simp only [Option.getD_some, Int.toNat_of_nonneg hstep] at this
  rw [ex, ey, ev, show (y : Int) - 32768 - (x - 32768) = y - x by omega, show (v : Int) - 32768 - (x - 32768) = v - x by omega]
  exact this

/-- C17: transcoding a buffer transcodes each octet of it. -/
theorem transcode_buffer (mode : Mode) (data : List Byte) : ∃ out, transcode mode data = some out ∧ out.length = data.length ∧
    ∀ i (h : i < data.length) (h' : i < out.length),
      (match mode with | .ulaw => ulawToAlaw data[i] | .alaw => alawToUlaw data[i]) = some out[i] := by
  have gen : ∀ (f : Byte → Option Byte), (∀ c, ∃ d, f c = some d) → ∀ l : List Byte, ∃ out, l.mapM f = some out ∧
      out.length = l.length ∧ ∀ i (h : i < l.length) (h' : i < out.length), f l[i] = some out[i] := by
    intro f hf l
    induction l with
    | nil => exact ⟨[], rfl, rfl, fun i h => by simp at h⟩
    | cons a l ih =>
      obtain ⟨d, hd⟩ := hf a
      obtain ⟨o, ho, hl, hi⟩ := ih
      refine ⟨d :: o, by rw [List.mapM_cons, hd, ho]; rfl, by simp [hl], ?_⟩
      intro i h h'
      cases i with
      | zero => exact hd
      | succ i => exact hi i (by simpa using h) (by simpa using h')
  cases mode
  · exact gen alawToUlaw (fun c => let ⟨d, h, _⟩ := alaw_to_ulaw_close c; ⟨d, h⟩) data
  · exact gen ulawToAlaw (fun c => let ⟨d, h, _⟩ := ulaw_to_alaw_close c; ⟨d, h⟩) data

example : transcode .ulaw [0xFF#8, 0x00#8, 0x7F#8] = some [0xD5#8, 0x2A#8, 0x55#8] := by decide +kernel

end G711
