import Verif.BitOps.Model
import Verif.BitOps.Spec
import Mathlib.Tactic.IntervalCases

/-! # C07: the bit operations compute what they are documented to compute -/

namespace BitOps
open Spec

/-! ## Reversal -/

theorem bit_reverse8_mul_correct (x : BitVec 8) : Reversed x (bitReverse8Mul x) := by
  revert x; unfold Reversed; decide +kernel

theorem bit_reverse8_shift_correct (x : BitVec 8) : Reversed x (bitReverse8Shift x) := by
  revert x; unfold Reversed; decide +kernel

example : bitReverse8Mul 0x31 = 0x8C ∧ bitReverse8Shift 0x31 = 0x8C := by decide

theorem bit_reverse16_correct (x : BitVec 16) : Reversed x (bitReverse16 x) := by
  intro i hi
  unfold bitReverse16
  interval_cases i <;> simp

theorem bit_reverse32_correct (x : BitVec 32) : Reversed x (bitReverse32 x) := by
  intro i hi
  unfold bitReverse32
  interval_cases i <;> simp

example : bitReverse16 0x1234 = 0x2C48 ∧ bitReverse32 0x12345678 = 0x1E6A2C48 := by decide

theorem bit_reverse_4bytes_correct (x : BitVec 32) : BytesReversed x (bitReverse4Bytes x) := by
  intro i hi
  unfold bitReverse4Bytes
  interval_cases i <;> simp

theorem bit_reverse_8bytes_correct (x : BitVec 64) : BytesReversed x (bitReverse8Bytes x) := by
  intro i hi
  unfold bitReverse8Bytes
  interval_cases i <;> simp

example : bitReverse4Bytes 0x01020304 = 0x8040C020 ∧
    bitReverse8Bytes 0x0102030405060708 = 0x8040C020A060E010 := by decide

theorem reversed_unique {n : Nat} {x y z : BitVec n} (h1 : Reversed x y) (h2 : Reversed x z) : y = z := by
  apply BitVec.eq_of_getLsbD_eq
  intro i hi
  rw [h1 i hi, h2 i hi]

/-- A byte taken out of a byte-reversed word. -/
theorem byte_of_reversed {n : Nat} {x y : BitVec n} (h : BytesReversed x y) {k : Nat}
    (hk : 8 * k + 8 ≤ n) {b : BitVec 8} (hb : ∀ i, i < 8 → x.getLsbD (8 * k + i) = b.getLsbD i) :
    Reversed b (y.extractLsb' (8 * k) 8) := by
  intro i hi
  rw [BitVec.getLsbD_extractLsb']
  simp only [hi, decide_true, Bool.true_and]
  rw [h _ (by omega), ← hb (8 - 1 - i) (by omega)]
  congr 1
  omega

/-- Find the byte a bit of a little-endian load comes from. -/
macro "load_bits" l:ident : tactic => `(tactic| (
  intro i hi
  unfold $l
  simp only [BitVec.getLsbD_append]
  repeat' split
  all_goals first | rfl | (exfalso; omega) | (congr 1; omega)))

theorem store32_reversed (b0 b1 b2 b3 : BitVec 8) :
    List.Forall₂ Reversed [b0, b1, b2, b3] (store32 (bitReverse4Bytes (load32 b0 b1 b2 b3))) := by
  have h := bit_reverse_4bytes_correct (load32 b0 b1 b2 b3)
  refine .cons ?_ (.cons ?_ (.cons ?_ (.cons ?_ .nil)))
  · exact byte_of_reversed h (k := 0) (by omega) (by load_bits load32)
  · exact byte_of_reversed h (k := 1) (by omega) (by load_bits load32)
  · exact byte_of_reversed h (k := 2) (by omega) (by load_bits load32)
  · exact byte_of_reversed h (k := 3) (by omega) (by load_bits load32)

theorem store64_reversed (b0 b1 b2 b3 b4 b5 b6 b7 : BitVec 8) :
    List.Forall₂ Reversed [b0, b1, b2, b3, b4, b5, b6, b7]
      (store64 (bitReverse8Bytes (load64 b0 b1 b2 b3 b4 b5 b6 b7))) := by
  have h := bit_reverse_8bytes_correct (load64 b0 b1 b2 b3 b4 b5 b6 b7)
  refine .cons ?_ (.cons ?_ (.cons ?_ (.cons ?_ (.cons ?_ (.cons ?_ (.cons ?_ (.cons ?_ .nil)))))))
  · exact byte_of_reversed h (k := 0) (by omega) (by load_bits load64)
  · exact byte_of_reversed h (k := 1) (by omega) (by load_bits load64)
  · exact byte_of_reversed h (k := 2) (by omega) (by load_bits load64)
  · exact byte_of_reversed h (k := 3) (by omega) (by load_bits load64)
  · exact byte_of_reversed h (k := 4) (by omega) (by load_bits load64)
  · exact byte_of_reversed h (k := 5) (by omega) (by load_bits load64)
  · exact byte_of_reversed h (k := 6) (by omega) (by load_bits load64)
  · exact byte_of_reversed h (k := 7) (by omega) (by load_bits load64)

theorem forall₂_append {α β : Type} {R : α → β → Prop} {a c : List α} {b d : List β}
    (h1 : List.Forall₂ R a b) (h2 : List.Forall₂ R c d) : List.Forall₂ R (a ++ c) (b ++ d) := by
  induction h1 with
  | nil => exact h2
  | cons h _ ih => exact .cons h ih

theorem forall₂_map {α β : Type} {R : α → β → Prop} {f : α → β} (hf : ∀ x, R x (f x)) (l : List α) :
    List.Forall₂ R l (l.map f) := by
  induction l with
  | nil => exact .nil
  | cons x l ih => exact .cons (hf x) ih

theorem bitReverseWords_correct (buf : List (BitVec 8)) :
    List.Forall₂ Reversed buf (bitReverseWords buf) := by
  fun_induction bitReverseWords buf with
  | case1 b0 b1 b2 b3 rest ih => exact forall₂_append (store32_reversed b0 b1 b2 b3) ih
  | case2 rest _ => exact forall₂_map bit_reverse8_mul_correct rest

/-- **C07 (buffers).** `bit_reverse` over a buffer of any length reverses each byte, in
place, and changes nothing else. -/
theorem bit_reverse_buffer_correct (buf : List (BitVec 8)) :
    List.Forall₂ Reversed buf (bitReverse buf) := by
  fun_induction bitReverse buf with
  | case1 b0 b1 b2 b3 b4 b5 b6 b7 rest ih =>
    exact forall₂_append (store64_reversed b0 b1 b2 b3 b4 b5 b6 b7) ih
  | case2 rest _ => exact bitReverseWords_correct rest

/-- The byte at a time version gives the same answer. -/
theorem bit_reverse_bytewise_correct (buf : List (BitVec 8)) :
    List.Forall₂ Reversed buf (bitReverseBytewise buf) :=
  forall₂_map bit_reverse8_shift_correct buf

/-- 8 + 4 + 1 bytes, so that all three loops run. -/
example : bitReverse [1, 2, 3, 4, 5, 6, 7, 8, 9, 10, 11, 12, 13] =
    [128, 64, 192, 32, 160, 96, 224, 16, 144, 80, 208, 48, 176] := by decide

/-! ## Highest and lowest bits -/

/-- One halving step. `r` is the bit we are looking for; `inMask` says whether the mask of
this step covers it. -/
theorem narrow_step (x m : BitVec 32) (w r : Nat) (sel : Nat) (d : Int)
    (hr : x.getLsbD r = true)
    (hx : ∀ j, x.getLsbD j = true → j / (2 * w) = r / (2 * w) ∧
      ((r / w) % 2 ≠ sel → j / w = r / w))
    (hm : ∀ j, j < 32 → (m.getLsbD j = true ↔ (j / w) % 2 = sel)) (res : Int) :
    ∃ x', narrow m d (x, res) = (x', res + if r / w % 2 = sel then d else 0) ∧
      x'.getLsbD r = true ∧ (∀ j, x'.getLsbD j = true → x.getLsbD j = true ∧ j / w = r / w) := by
  have hr32 : r < 32 := by
    rcases Nat.lt_or_ge r 32 with h | h
    · exact h
    · rw [BitVec.getLsbD_of_ge _ _ h] at hr; cases hr
  have half : ∀ j, j / (2 * w) = j / w / 2 := fun j => by rw [Nat.mul_comm, Nat.div_div_eq_div_mul]
  unfold narrow
  by_cases hb : (r / w) % 2 = sel
  · have hne : x &&& m ≠ 0 := by
      intro h0
      have : (x &&& m).getLsbD r = true := by
        rw [BitVec.getLsbD_and, hr, (hm r hr32).mpr hb]; rfl
      rw [h0] at this; simp at this
    simp only [if_pos hb]
    rw [if_pos hne]
    refine ⟨x &&& m, rfl, ?_, ?_⟩
    · rw [BitVec.getLsbD_and, hr, (hm r hr32).mpr hb]; rfl
    · intro j hj
      have hj32 : j < 32 := by
        rcases Nat.lt_or_ge j 32 with h | h
        · exact h
        · rw [BitVec.getLsbD_of_ge _ _ h] at hj; cases hj
      rw [BitVec.getLsbD_and, Bool.and_eq_true] at hj
      obtain ⟨h2, _⟩ := hx j hj.1
      have h3 := (hm j hj32).mp hj.2
      rw [half, half] at h2
      exact ⟨hj.1, by omega⟩
  · have h0 : x &&& m = 0 := by
      apply BitVec.eq_of_getLsbD_eq
      intro j hj
      rw [BitVec.getLsbD_and]
      cases hxj : x.getLsbD j with
      | false => simp
      | true =>
        cases hmj : m.getLsbD j with
        | false => simp
        | true =>
          have := (hm j hj).mp hmj
          rw [(hx j hxj).2 hb] at this
          exact absurd this hb
    simp only [if_neg hb]
    rw [if_neg (by rw [h0]; simp)]
    exact ⟨x, by simp, hr, fun j hj => ⟨hj, (hx j hj).2 hb⟩⟩

theorem exists_top {x : BitVec 32} (hx : x ≠ 0) :
    ∃ r, x.getLsbD r = true ∧ ∀ j, r < j → x.getLsbD j = false := by
  by_contra hc
  apply hx
  apply BitVec.eq_of_getLsbD_eq
  have : ∀ n, ∀ i, 32 - n ≤ i → x.getLsbD i = false := by
    intro n
    induction n with
    | zero => intro i hi; exact BitVec.getLsbD_of_ge _ _ (by omega)
    | succ n ih =>
      intro i hi
      rcases Nat.lt_or_ge i (32 - n) with h | h
      · cases hb : x.getLsbD i with
        | false => rfl
        | true => exact absurd ⟨i, hb, fun j hj => ih j (by omega)⟩ hc
      · exact ih i h
  intro i hi
  rw [this 32 i (by omega)]; simp

theorem exists_bottom {x : BitVec 32} (hx : x ≠ 0) :
    ∃ r, x.getLsbD r = true ∧ ∀ j, j < r → x.getLsbD j = false := by
  by_contra hc
  apply hx
  apply BitVec.eq_of_getLsbD_eq
  intro i _
  have : x.getLsbD i = false := by
    induction i using Nat.strongRecOn with
    | _ i ih =>
      cases hb : x.getLsbD i with
      | false => rfl
      | true =>
        refine absurd ⟨i, hb, fun j hj => ih j hj ?_⟩ hc
        have : i < 32 := by
          rcases Nat.lt_or_ge i 32 with h | h
          · exact h
          · rw [BitVec.getLsbD_of_ge _ _ h] at hb; cases hb
        omega
  rw [this]; simp

theorem mask16 : ∀ j, j < 32 → ((0xFFFF0000#32).getLsbD j = true ↔ (j / 16) % 2 = 1) := by decide
theorem mask8 : ∀ j, j < 32 → ((0xFF00FF00#32).getLsbD j = true ↔ (j / 8) % 2 = 1) := by decide
theorem mask4 : ∀ j, j < 32 → ((0xF0F0F0F0#32).getLsbD j = true ↔ (j / 4) % 2 = 1) := by decide
theorem mask2 : ∀ j, j < 32 → ((0xCCCCCCCC#32).getLsbD j = true ↔ (j / 2) % 2 = 1) := by decide
theorem mask1 : ∀ j, j < 32 → ((0xAAAAAAAA#32).getLsbD j = true ↔ (j / 1) % 2 = 1) := by decide

theorem lmask16 : ∀ j, j < 32 → ((0x0000FFFF#32).getLsbD j = true ↔ (j / 16) % 2 = 0) := by decide
theorem lmask8 : ∀ j, j < 32 → ((0x00FF00FF#32).getLsbD j = true ↔ (j / 8) % 2 = 0) := by decide
theorem lmask4 : ∀ j, j < 32 → ((0x0F0F0F0F#32).getLsbD j = true ↔ (j / 4) % 2 = 0) := by decide
theorem lmask2 : ∀ j, j < 32 → ((0x33333333#32).getLsbD j = true ↔ (j / 2) % 2 = 0) := by decide
theorem lmask1 : ∀ j, j < 32 → ((0x55555555#32).getLsbD j = true ↔ (j / 1) % 2 = 0) := by decide

theorem lt_of_bit {x : BitVec 32} {r : Nat} (hr : x.getLsbD r = true) : r < 32 := by
  rcases Nat.lt_or_ge r 32 with h | h
  · exact h
  · rw [BitVec.getLsbD_of_ge _ _ h] at hr; cases hr

theorem top_sum : ∀ r : Nat, r < 32 → (((((0 : Int) + if r / 16 % 2 = 1 then 16 else 0) +
    if r / 8 % 2 = 1 then 8 else 0) + if r / 4 % 2 = 1 then 4 else 0) +
    if r / 2 % 2 = 1 then 2 else 0) + (if r / 1 % 2 = 1 then 1 else 0) = r := by decide

theorem bottom_sum : ∀ r : Nat, r < 32 → (((((31 : Int) + if r / 16 % 2 = 0 then -16 else 0) +
    if r / 8 % 2 = 0 then -8 else 0) + if r / 4 % 2 = 0 then -4 else 0) +
    if r / 2 % 2 = 0 then -2 else 0) + (if r / 1 % 2 = 0 then -1 else 0) = r := by decide

theorem top_bit_correct (x : BitVec 32) : IsTop x (topBit x) := by
  unfold topBit
  by_cases h0 : x = 0
  · rw [if_pos h0]; exact Or.inl ⟨h0, rfl⟩
  rw [if_neg h0]
  right
  obtain ⟨r, hr, ht⟩ := exists_top h0
  have hr32 := lt_of_bit hr
  refine ⟨r, ?_, hr, ht⟩
  have hle : ∀ j, x.getLsbD j = true → j ≤ r := by
    intro j hj
    rcases Nat.lt_or_ge r j with h | h
    · rw [ht j h] at hj; cases hj
    · exact h
  obtain ⟨x1, e1, r1, h1⟩ := narrow_step x _ 16 r 1 16 hr
    (fun j hj => by have := hle j hj; omega) mask16 0
  obtain ⟨x2, e2, r2, h2⟩ := narrow_step x1 _ 8 r 1 8 r1
    (fun j hj => by have := hle j (h1 j hj).1; have := (h1 j hj).2; omega) mask8 _
  obtain ⟨x3, e3, r3, h3⟩ := narrow_step x2 _ 4 r 1 4 r2
    (fun j hj => by have := hle j (h1 j (h2 j hj).1).1; have := (h2 j hj).2; omega) mask4 _
  obtain ⟨x4, e4, r4, h4⟩ := narrow_step x3 _ 2 r 1 2 r3
    (fun j hj => by have := hle j (h1 j (h2 j (h3 j hj).1).1).1; have := (h3 j hj).2; omega) mask2 _
  obtain ⟨x5, e5, r5, h5⟩ := narrow_step x4 _ 1 r 1 1 r4
    (fun j hj => by have := hle j (h1 j (h2 j (h3 j (h4 j hj).1).1).1).1; have := (h4 j hj).2; omega) mask1 _
  rw [e1, e2, e3, e4, e5]
  exact top_sum r hr32

theorem bottom_bit_correct (x : BitVec 32) : IsBottom x (bottomBit x) := by
  unfold bottomBit
  by_cases h0 : x = 0
  · rw [if_pos h0]; exact Or.inl ⟨h0, rfl⟩
  rw [if_neg h0]
  right
  obtain ⟨r, hr, ht⟩ := exists_bottom h0
  have hr32 := lt_of_bit hr
  refine ⟨r, ?_, hr, ht⟩
  have hle : ∀ j, x.getLsbD j = true → r ≤ j ∧ j < 32 := by
    intro j hj
    refine ⟨?_, lt_of_bit hj⟩
    rcases Nat.lt_or_ge j r with h | h
    · rw [ht j h] at hj; cases hj
    · exact h
  obtain ⟨x1, e1, r1, h1⟩ := narrow_step x _ 16 r 0 (-16) hr
    (fun j hj => by have := hle j hj; omega) lmask16 31
  obtain ⟨x2, e2, r2, h2⟩ := narrow_step x1 _ 8 r 0 (-8) r1
    (fun j hj => by have := hle j (h1 j hj).1; have := (h1 j hj).2; omega) lmask8 _
  obtain ⟨x3, e3, r3, h3⟩ := narrow_step x2 _ 4 r 0 (-4) r2
    (fun j hj => by have := hle j (h1 j (h2 j hj).1).1; have := (h2 j hj).2; omega) lmask4 _
  obtain ⟨x4, e4, r4, h4⟩ := narrow_step x3 _ 2 r 0 (-2) r3
    (fun j hj => by have := hle j (h1 j (h2 j (h3 j hj).1).1).1; have := (h3 j hj).2; omega) lmask2 _
  obtain ⟨x5, e5, r5, h5⟩ := narrow_step x4 _ 1 r 0 (-1) r4
    (fun j hj => by have := hle j (h1 j (h2 j (h3 j (h4 j hj).1).1).1).1; have := (h4 j hj).2; omega) lmask1 _
  rw [e1, e2, e3, e4, e5]
  exact bottom_sum r hr32

example : topBit 0x00405100 = 22 ∧ bottomBit 0x00405100 = 8 ∧ topBit 0 = -1 := by decide

/-! ## Masks and isolated bits -/

theorem or_shift_bit {n : Nat} (x : BitVec n) (k i : Nat) :
    (x ||| (x >>> k)).getLsbD i = (x.getLsbD i || x.getLsbD (k + i)) := by simp

/-- After `x |= x >> k` for k = 1, 2, ..., w/2, each bit says if any of the w bits from there
up was set. -/
theorem smear_step {n : Nat} (x0 x : BitVec n) (w : Nat) 
    (h : ∀ i, x.getLsbD i = true ↔ ∃ j, i ≤ j ∧ j < i + w ∧ x0.getLsbD j = true) :
    ∀ i, (x ||| (x >>> w)).getLsbD i = true ↔ ∃ j, i ≤ j ∧ j < i + 2 * w ∧ x0.getLsbD j = true := by
  intro i
  rw [or_shift_bit, Bool.or_eq_true, h, h]
  constructor
  · rintro (⟨j, h1, h2, h3⟩ | ⟨j, h1, h2, h3⟩)
    · exact ⟨j, by omega, by omega, h3⟩
    · exact ⟨j, by omega, by omega, h3⟩
  · rintro ⟨j, h1, h2, h3⟩
    by_cases hj : j < i + w
    · exact Or.inl ⟨j, h1, hj, h3⟩
    · exact Or.inr ⟨j, by omega, by omega, h3⟩

theorem smear_done {n : Nat} (x0 x : BitVec n) (w : Nat) (hw : n ≤ w)
    (h : ∀ i, x.getLsbD i = true ↔ ∃ j, i ≤ j ∧ j < i + w ∧ x0.getLsbD j = true) : IsMask x0 x := by
  intro i
  rw [h]
  constructor
  · rintro ⟨j, h1, _, h3⟩; exact ⟨j, h1, h3⟩
  · rintro ⟨j, h1, h3⟩
    refine ⟨j, h1, ?_, h3⟩
    rcases Nat.lt_or_ge j n with h | h
    · omega
    · rw [BitVec.getLsbD_of_ge _ _ h] at h3; cases h3

theorem smear_start {n : Nat} (x : BitVec n) :
    ∀ i, x.getLsbD i = true ↔ ∃ j, i ≤ j ∧ j < i + 1 ∧ x.getLsbD j = true := by
  intro i
  constructor
  · intro h; exact ⟨i, by omega, by omega, h⟩
  · rintro ⟨j, h1, h2, h3⟩; have : j = i := by omega
    subst this; exact h3

theorem make_mask32_correct (x : BitVec 32) : IsMask x (makeMask32 x) :=
  smear_done x _ 32 (by omega)
    (smear_step x _ 16 (smear_step x _ 8 (smear_step x _ 4 (smear_step x _ 2 (smear_step x _ 1 (smear_start x))))))

theorem make_mask16_correct (x : BitVec 16) : IsMask x (makeMask16 x) :=
  smear_done x _ 16 (by omega)
    (smear_step x _ 8 (smear_step x _ 4 (smear_step x _ 2 (smear_step x _ 1 (smear_start x)))))

example : makeMask32 0x00405100 = 0x007FFFFF ∧ makeMask16 0x0510 = 0x07FF := by decide

/-- Of two bits of a number with a lowest set bit, exactly that one survives `x & -x`. -/
theorem least_significant_one32_correct (x : BitVec 32) :
    (x = 0 → leastSignificantOne32 x = 0) ∧
    ∀ k, x.getLsbD k = true → (∀ j, j < k → x.getLsbD j = false) →
      leastSignificantOne32 x = BitVec.twoPow 32 k := by
  constructor
  · rintro rfl; decide
  · intro k hk hlow
    have hk32 := lt_of_bit hk
    apply BitVec.eq_of_getLsbD_eq
    intro i hi
    unfold leastSignificantOne32
    rw [BitVec.getLsbD_and, BitVec.getLsbD_neg, BitVec.getLsbD_twoPow]
    rcases Nat.lt_trichotomy i k with h | h | h
    · rw [hlow i h]; simp; omega
    · subst h
      have : ¬ ∃ j, j < i ∧ x.getLsbD j = true := by
        rintro ⟨j, hj, hb⟩; rw [hlow j hj] at hb; cases hb
      simp [hk, hi, this]
    · have : ∃ j, j < i ∧ x.getLsbD j = true := ⟨k, h, hk⟩
      have hne : ¬ k = i := by omega
      simp only [this, decide_true, hne, decide_false, Bool.and_false]
      cases x.getLsbD i <;> simp [hi]

theorem most_significant_one32_shift_correct (x : BitVec 32) (hx : x ≠ 0) :
    ∃ k, x.getLsbD k = true ∧ (∀ j, k < j → x.getLsbD j = false) ∧
      mostSignificantOne32Shift x = some (BitVec.twoPow 32 k) := by
  rcases top_bit_correct x with ⟨h, _⟩ | ⟨k, hk, h1, h2⟩
  · exact absurd h hx
  · refine ⟨k, h1, h2, ?_⟩
    unfold mostSignificantOne32Shift
    rw [hk, if_neg (by omega)]
    simp [BitVec.twoPow]

/-- The x86 version shifts by -1 for 0, where the other version returns 0. -/
theorem most_significant_one32_zero :
    mostSignificantOne32Shift 0 = none ∧ mostSignificantOne32Mask 0 = 0 := by decide

theorem most_significant_one32_mask_correct (x : BitVec 32) :
    (x = 0 → mostSignificantOne32Mask x = 0) ∧
    ∀ k, x.getLsbD k = true → (∀ j, k < j → x.getLsbD j = false) →
      mostSignificantOne32Mask x = BitVec.twoPow 32 k := by
  constructor
  · rintro rfl; decide
  · intro k hk hhi
    have hk32 := lt_of_bit hk
    have hm := make_mask32_correct x
    have hbit : ∀ i, (makeMask32 x).getLsbD i = decide (i ≤ k) := by
      intro i
      by_cases hik : i ≤ k
      · rw [(hm i).mpr ⟨k, hik, hk⟩]; simp [hik]
      · cases hb : (makeMask32 x).getLsbD i with
        | false => simp [hik]
        | true =>
          obtain ⟨j, h1, h2⟩ := (hm i).mp hb
          rw [hhi j (by omega)] at h2; cases h2
    apply BitVec.eq_of_getLsbD_eq
    intro i hi
    unfold mostSignificantOne32Mask
    rw [BitVec.getLsbD_xor, BitVec.getLsbD_ushiftRight, hbit, hbit, BitVec.getLsbD_twoPow]
    rcases Nat.lt_trichotomy i k with h | h | h
    · have a1 : i ≤ k := by omega
      have a2 : 1 + i ≤ k := by omega
      have a3 : ¬ k = i := by omega
      simp [a1, a2, a3]
    · subst h
      have a2 : ¬ 1 + i ≤ i := by omega
      simp [hi, a2]
    · have a1 : ¬ i ≤ k := by omega
      have a2 : ¬ 1 + i ≤ k := by omega
      have a3 : ¬ k = i := by omega
      simp [a1, a2, a3]

example : leastSignificantOne32 0x00405100 = 0x100 ∧ mostSignificantOne32Mask 0x00405100 = 0x00400000
    ∧ mostSignificantOne32Shift 0x00405100 = some 0x00400000 := by decide

/-! ## Counting -/

def byte (x : BitVec 32) (k : Nat) : BitVec 8 := (x >>> (8 * k)).setWidth 8

theorem split4 (x : BitVec 32) :
    x.toNat = (byte x 0).toNat + 256 * (byte x 1).toNat + 65536 * (byte x 2).toNat +
      16777216 * (byte x 3).toNat := by
  simp only [byte, BitVec.toNat_setWidth, BitVec.toNat_ushiftRight, Nat.shiftRight_eq_div_pow]
  have := x.isLt
  omega

theorem byte_and_pair (x m : BitVec 32) (k : Nat) : byte (x &&& m) k = byte x k &&& byte m k := by
  apply BitVec.eq_of_getLsbD_eq
  intro i hi
  simp [byte, hi]

theorem byte_shift (x m : BitVec 32) (s k : Nat)
    (hm : ∀ i, i < 8 → (byte m k).getLsbD i = true → i + s < 8) :
    byte ((x >>> s) &&& m) k = (byte x k >>> s) &&& byte m k := by
  apply BitVec.eq_of_getLsbD_eq
  intro i hi
  have := hm i hi
  rw [byte_and_pair, BitVec.getLsbD_and, BitVec.getLsbD_and]
  cases hb : (byte m k).getLsbD i with
  | false => simp
  | true =>
    have h2 := this hb
    have h3 : s + i < 8 := by omega
    have : s + (8 * k + i) = 8 * k + (s + i) := by omega
    simp [byte, hi, h3, this]

/-- Bytewise subtraction, when no byte borrows. -/
theorem byte_sub (x y : BitVec 32) (h : ∀ k, k < 4 → (byte y k).toNat ≤ (byte x k).toNat) :
    ∀ k, k < 4 → byte (x - y) k = byte x k - byte y k := by
  have hx := split4 x
  have hy := split4 y
  have h0 := h 0 (by omega); have h1 := h 1 (by omega)
  have h2 := h 2 (by omega); have h3 := h 3 (by omega)
  have hxl := x.isLt
  have hyl := y.isLt
  have l0 := (byte x 0).isLt; have l1 := (byte x 1).isLt
  have l2 := (byte x 2).isLt; have l3 := (byte x 3).isLt
  intro k hk
  apply BitVec.eq_of_toNat_eq
  have hs : (byte (x - y) k).toNat = (x.toNat - y.toNat) / 2 ^ (8 * k) % 256 := by
    simp only [byte, BitVec.toNat_setWidth, BitVec.toNat_ushiftRight, Nat.shiftRight_eq_div_pow,
      BitVec.toNat_sub]
    congr 2
    omega
  rw [hs, BitVec.toNat_sub]
  have : k = 0 ∨ k = 1 ∨ k = 2 ∨ k = 3 := by omega
  rcases this with rfl | rfl | rfl | rfl <;> simp only [Nat.reduceMul, Nat.reducePow] <;> omega

/-- Bytewise addition, when no byte carries. -/
theorem byte_add (x y : BitVec 32) (h : ∀ k, k < 4 → (byte x k).toNat + (byte y k).toNat < 256) :
    ∀ k, k < 4 → byte (x + y) k = byte x k + byte y k := by
  have hx := split4 x
  have hy := split4 y
  have h0 := h 0 (by omega); have h1 := h 1 (by omega)
  have h2 := h 2 (by omega); have h3 := h 3 (by omega)
  have hxl := x.isLt
  have hyl := y.isLt
  intro k hk
  apply BitVec.eq_of_toNat_eq
  have hs : (byte (x + y) k).toNat = (x.toNat + y.toNat) / 2 ^ (8 * k) % 256 := by
    simp only [byte, BitVec.toNat_setWidth, BitVec.toNat_ushiftRight, Nat.shiftRight_eq_div_pow,
      BitVec.toNat_add]
    congr 2
    omega
  rw [hs, BitVec.toNat_add]
  have : k = 0 ∨ k = 1 ∨ k = 2 ∨ k = 3 := by omega
  rcases this with rfl | rfl | rfl | rfl <;> simp only [Nat.reduceMul, Nat.reducePow] <;> omega

theorem lane_facts : ∀ b : BitVec 8,
    ((b >>> 1) &&& 0x55#8).toNat ≤ b.toNat ∧
    (let c := b - ((b >>> 1) &&& 0x55#8)
     (c &&& 0x33#8).toNat + ((c >>> 2) &&& 0x33#8).toNat < 256 ∧
     (let d := (c &&& 0x33#8) + ((c >>> 2) &&& 0x33#8)
      d.toNat % 16 ≤ 4 ∧ d.toNat / 16 ≤ 4 ∧ d.toNat % 16 + d.toNat / 16 = ones b)) := by
  unfold ones; decide +kernel

theorem masks_byte : ∀ k, k < 4 → byte 0x55555555#32 k = 0x55#8 ∧ byte 0x33333333#32 k = 0x33#8 ∧
    byte 0x0F0F0F0F#32 k = 0x0F#8 := by decide

theorem ones_byte : ∀ b : BitVec 8, ones b ≤ 8 := by
  intro b; unfold ones
  exact Nat.le_trans List.countP_le_length (by simp)

theorem lane_arith (l0 h0 l1 h1 l2 h2 l3 h3 : Nat) (_ : l0 ≤ 4) (_ : h0 ≤ 4) (_ : l1 ≤ 4) (_ : h1 ≤ 4)
    (_ : l2 ≤ 4) (_ : h2 ≤ 4) (_ : l3 ≤ 4) (_ : h3 ≤ 4) :
    let t := (l0 + 16 * h0) + 256 * (l1 + 16 * h1) + 65536 * (l2 + 16 * h2) + 16777216 * (l3 + 16 * h3) +
      (h0 + 16 * (l1 + 16 * h1) + 4096 * (l2 + 16 * h2) + 1048576 * (l3 + 16 * h3))
    t / 2 ^ (8 * 0) % 256 % 2 ^ 4 = l0 + h0 ∧ t / 2 ^ (8 * 1) % 256 % 2 ^ 4 = l1 + h1 ∧
    t / 2 ^ (8 * 2) % 256 % 2 ^ 4 = l2 + h2 ∧ t / 2 ^ (8 * 3) % 256 % 2 ^ 4 = l3 + h3 := by
  intro t
  have e : t = (l0 + h0) + 16 * (h0 + l1) + 256 * ((l1 + h1) + 16 * (h1 + l2) + 256 * ((l2 + h2) +
    16 * (h2 + l3) + 256 * ((l3 + h3) + 16 * h3))) := by omega
  rw [e]
  clear_value t
  refine ⟨by omega, ?_, ?_, ?_⟩
  · rw [show ∀ a b : Nat, a < 256 → (a + 256 * b) / 2 ^ (8 * 1) = b by intros; omega]
    all_goals omega
  · rw [show ∀ a b c : Nat, a < 256 → b < 256 → (a + 256 * (b + 256 * c)) / 2 ^ (8 * 2) = c by
      intros; omega]
    all_goals omega
  · rw [show ∀ a b c d : Nat, a < 256 → b < 256 → c < 256 →
        (a + 256 * (b + 256 * (c + 256 * d))) / 2 ^ (8 * 3) = d by intros; omega]
    all_goals omega

theorem lanes_byte (x : BitVec 32) (k : Nat) (hk : k < 4) :
    (byte (oneBitsLanes x) k).toNat = ones (byte x k) := by
  have hf := fun k => lane_facts (byte x k)
  simp only [] at hf
  have e1 : ∀ k, k < 4 → byte ((x >>> 1) &&& 0x55555555#32) k = (byte x k >>> 1) &&& 0x55#8 := by
    intro k hk
    rw [byte_shift _ _ _ _ (by rw [(masks_byte k hk).1]; decide), (masks_byte k hk).1]
  have e2 : ∀ k, k < 4 → byte (x - ((x >>> 1) &&& 0x55555555#32)) k =
      byte x k - ((byte x k >>> 1) &&& 0x55#8) := by
    intro k hk
    rw [byte_sub _ _ (fun k hk => by rw [e1 k hk]; exact (hf k).1) k hk, e1 k hk]
  unfold oneBitsLanes
  simp only []
  generalize x - ((x >>> 1) &&& 0x55555555#32) = c at e2 ⊢
  have f1 : ∀ k, k < 4 → byte (c &&& 0x33333333#32) k = byte c k &&& 0x33#8 := by
    intro k hk
    rw [byte_and_pair, (masks_byte k hk).2.1]
  have f2 : ∀ k, k < 4 → byte ((c >>> 2) &&& 0x33333333#32) k = (byte c k >>> 2) &&& 0x33#8 := by
    intro k hk
    rw [byte_shift _ _ _ _ (by rw [(masks_byte k hk).2.1]; decide), (masks_byte k hk).2.1]
  have f3 : ∀ k, k < 4 → byte ((c &&& 0x33333333#32) + ((c >>> 2) &&& 0x33333333#32)) k =
      (byte c k &&& 0x33#8) + ((byte c k >>> 2) &&& 0x33#8) := by
    intro k hk
    rw [byte_add _ _ (fun k hk => by rw [f1 k hk, f2 k hk, e2 k hk]; exact (hf k).2.1) k hk,
      f1 k hk, f2 k hk]
  generalize (c &&& 0x33333333#32) + ((c >>> 2) &&& 0x33333333#32) = d at f3 ⊢
  have g : ∀ k, k < 4 → (byte d k).toNat % 16 ≤ 4 ∧ (byte d k).toNat / 16 ≤ 4 ∧
      (byte d k).toNat % 16 + (byte d k).toNat / 16 = ones (byte x k) := by
    intro k hk
    rw [f3 k hk, e2 k hk]
    exact (hf k).2.2
  rw [byte_and_pair, (masks_byte k hk).2.2, BitVec.toNat_and, show (0x0F#8).toNat = 2 ^ 4 - 1 from rfl,
    Nat.and_two_pow_sub_one_eq_mod, ← (g k hk).2.2]
  have hd := split4 d
  have hdl := d.isLt
  have hs : (byte (d + d >>> 4) k).toNat = (d.toNat + d.toNat / 16) / 2 ^ (8 * k) % 256 := by
    simp only [byte, BitVec.toNat_setWidth, BitVec.toNat_ushiftRight, Nat.shiftRight_eq_div_pow,
      BitVec.toNat_add]
    have := g 3 (by omega)
    congr 2
    omega
  have g0 := g 0 (by omega); have g1 := g 1 (by omega)
  have g2 := g 2 (by omega); have g3 := g 3 (by omega)
  have hq : d.toNat / 16 = (byte d 0).toNat / 16 + 16 * (byte d 1).toNat + 4096 * (byte d 2).toNat +
      1048576 * (byte d 3).toNat := by omega
  rw [hs, hq, hd]
  have : k = 0 ∨ k = 1 ∨ k = 2 ∨ k = 3 := by omega
  clear hs hq hd f3 f2 f1 e2 e1 hf
  have key := lane_arith ((byte d 0).toNat % 16) ((byte d 0).toNat / 16) ((byte d 1).toNat % 16)
    ((byte d 1).toNat / 16) ((byte d 2).toNat % 16) ((byte d 2).toNat / 16) ((byte d 3).toNat % 16)
    ((byte d 3).toNat / 16) (by omega) (by omega) (by omega) (by omega) (by omega) (by omega)
    (by omega) (by omega)
  have e0 := Nat.mod_add_div (byte d 0).toNat 16
  have e1 := Nat.mod_add_div (byte d 1).toNat 16
  have e2 := Nat.mod_add_div (byte d 2).toNat 16
  have e3 := Nat.mod_add_div (byte d 3).toNat 16
  simp only [e0, e1, e2, e3] at key
  rcases this with rfl | rfl | rfl | rfl
  · exact key.1
  · exact key.2.1
  · exact key.2.2.1
  · exact key.2.2.2

theorem ones_split (x : BitVec 32) :
    ones x = ones (byte x 0) + ones (byte x 1) + ones (byte x 2) + ones (byte x 3) := by
  have h : ∀ k, k < 4 → ones (byte x k) = (List.range 8).countP fun i => x.getLsbD (8 * k + i) := by
    intro k hk
    unfold ones
    apply List.countP_congr
    intro i hi
    simp [byte, List.mem_range.mp hi]
  rw [h 0 (by omega), h 1 (by omega), h 2 (by omega), h 3 (by omega)]
  unfold ones
  rw [show List.range 32 = List.range (8 + 8 + 8 + 8) from rfl]
  rw [List.range_add, List.range_add, List.range_add]
  simp only [List.countP_append, List.countP_map]
  simp [Function.comp_def]

theorem one_bits32_mul_correct (x : BitVec 32) : oneBits32Mul x = ones x := by
  have hs := split4 (oneBitsLanes x)
  rw [lanes_byte x 0 (by omega), lanes_byte x 1 (by omega), lanes_byte x 2 (by omega),
    lanes_byte x 3 (by omega)] at hs
  have h0 := ones_byte (byte x 0); have h1 := ones_byte (byte x 1)
  have h2 := ones_byte (byte x 2); have h3 := ones_byte (byte x 3)
  rw [ones_split]
  unfold oneBits32Mul
  rw [BitVec.toNat_ushiftRight, BitVec.toNat_mul, hs, Nat.shiftRight_eq_div_pow,
    show (0x01010101#32).toNat = 16843009 from rfl]
  generalize ones (byte x 0) = a at *
  generalize ones (byte x 1) = b at *
  generalize ones (byte x 2) = c at *
  generalize ones (byte x 3) = d at *
  rw [show (a + 256 * b + 65536 * c + 16777216 * d) * 16843009 = (a + 256 * (a + b) + 65536 * (a + b + c) +
    16777216 * (a + b + c + d)) + 2 ^ 32 * (b + 257 * c + 65793 * d) by omega,
    Nat.add_mul_mod_self_left, Nat.mod_eq_of_lt (by omega)]
  omega

theorem one_bits32_shift_correct (x : BitVec 32) : oneBits32Shift x = ones x := by
  have hs := split4 (oneBitsLanes x)
  rw [lanes_byte x 0 (by omega), lanes_byte x 1 (by omega), lanes_byte x 2 (by omega),
    lanes_byte x 3 (by omega)] at hs
  have h0 := ones_byte (byte x 0); have h1 := ones_byte (byte x 1)
  have h2 := ones_byte (byte x 2); have h3 := ones_byte (byte x 3)
  rw [ones_split]
  unfold oneBits32Shift
  simp only []
  rw [BitVec.toNat_and, show (0x0000003F#32).toNat = 2 ^ 6 - 1 from rfl,
    Nat.and_two_pow_sub_one_eq_mod]
  simp only [BitVec.toNat_add, BitVec.toNat_ushiftRight, hs, Nat.shiftRight_eq_div_pow]
  generalize ones (byte x 0) = a at *
  generalize ones (byte x 1) = b at *
  generalize ones (byte x 2) = c at *
  generalize ones (byte x 3) = d at *
  rw [show (a + 256 * b + 65536 * c + 16777216 * d) / 2 ^ 8 = b + 256 * c + 65536 * d by omega]
  rw [show (a + 256 * b + 65536 * c + 16777216 * d + (b + 256 * c + 65536 * d)) % 2 ^ 32 =
    (a + b) + 256 * (b + c) + 65536 * (c + d) + 16777216 * d by omega]
  rw [show (a + b + 256 * (b + c) + 65536 * (c + d) + 16777216 * d) / 2 ^ 16 = c + d + 256 * d by omega]
  omega

example : oneBits32Mul 0xF0F00301#32 = 11 ∧ oneBits32Shift 0xFFFFFFFF#32 = 32 := by decide

/-! ## Parity -/

theorem countP_xor {α} (p q : α → Bool) (l : List α) :
    (l.countP fun i => p i ^^ q i) % 2 = (l.countP p + l.countP q) % 2 := by
  induction l with
  | nil => rfl
  | cons a l ih =>
    simp only [List.countP_cons]
    cases p a <;> cases q a <;> simp <;> omega

theorem ones_xor {n : Nat} (x y : BitVec n) : ones (x ^^^ y) % 2 = (ones x + ones y) % 2 := by
  unfold ones
  rw [← countP_xor]
  simp

theorem parity8_correct (x : BitVec 8) : parity8 x = ones x % 2 := by
  revert x; unfold ones; decide +kernel

theorem ones_halves {n : Nat} (m : Nat) (x : BitVec n) (h : n = m + m) :
    ones x = ones (x.setWidth m) + ones ((x >>> m).setWidth m) := by
  subst h
  unfold ones
  rw [List.range_add, List.countP_append, List.countP_map]
  congr 1
  · apply List.countP_congr
    intro i hi; simp [List.mem_range.mp hi]
  · apply List.countP_congr
    intro i hi; simp [List.mem_range.mp hi]

theorem parity16_correct (x : BitVec 16) : parity16 x = ones x % 2 := by
  have h1 : parity16 x = parity8 (x.setWidth 8 ^^^ (x >>> 8).setWidth 8) := by
    have : ((x ^^^ x >>> 8) ^^^ ((x ^^^ x >>> 8) >>> 4)) &&& 15#16 =
        (((x.setWidth 8 ^^^ (x >>> 8).setWidth 8) ^^^
          ((x.setWidth 8 ^^^ (x >>> 8).setWidth 8) >>> 4)) &&& 0x0F#8).setWidth 16 := by
      apply BitVec.eq_of_getLsbD_eq
      intro i hi
      interval_cases i <;> simp
    unfold parity16 parity8
    simp only []
    rw [this, BitVec.toNat_setWidth, Nat.mod_eq_of_lt (by omega)]
  rw [h1, parity8_correct, ones_xor, ones_halves 8 x rfl]

theorem parity32_correct (x : BitVec 32) : parity32 x = ones x % 2 := by
  have h1 : parity32 x = parity16 (x.setWidth 16 ^^^ (x >>> 16).setWidth 16) := by
    have : (((x ^^^ x >>> 16) ^^^ (x ^^^ x >>> 16) >>> 8) ^^^
          (((x ^^^ x >>> 16) ^^^ (x ^^^ x >>> 16) >>> 8) >>> 4)) &&& 15#32 =
        ((((x.setWidth 16 ^^^ (x >>> 16).setWidth 16) ^^^
            ((x.setWidth 16 ^^^ (x >>> 16).setWidth 16) >>> 8)) ^^^
          (((x.setWidth 16 ^^^ (x >>> 16).setWidth 16) ^^^
            ((x.setWidth 16 ^^^ (x >>> 16).setWidth 16) >>> 8)) >>> 4)) &&& 0x0F#16).setWidth 32 := by
      apply BitVec.eq_of_getLsbD_eq
      intro i hi
      interval_cases i <;> simp
    unfold parity32 parity16
    simp only []
    rw [this, BitVec.toNat_setWidth, Nat.mod_eq_of_lt (by omega)]
  rw [h1, parity16_correct, ones_xor, ones_halves 16 x rfl]

example : parity8 0x31 = 1 ∧ parity16 0x3131 = 0 ∧ parity32 0x80000301#32 = 0 := by decide

end BitOps
