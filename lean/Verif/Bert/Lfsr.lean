import Verif.Bert.Model

/-!
# The shift registers of the tester, bit by bit
-/

namespace Bert

/-- A function is applied so many times. -/
def times {α : Type} (f : α → α) : Nat → α → α
  | 0, x => x
  | n + 1, x => times f n (f x)

theorem times_succ {α : Type} (f : α → α) (n : Nat) (x : α) : times f (n + 1) x = f (times f n x) := by
  induction n generalizing x with
  | zero => rfl
  | succ n ih => simp only [times] at ih ⊢; rw [← ih]

theorem times_add {α : Type} (f : α → α) (m n : Nat) (x : α) : times f (m + n) x = times f n (times f m x) := by
  induction m generalizing x with
  | zero => simp [times]
  | succ m ih => rw [show m + 1 + n = (m + n) + 1 by omega]; simp only [times]; exact ih _

/-- The register has no more than its stages. -/
def Fits (s2 : Nat) (r : Word) : Prop := ∀ i, s2 < i → r.getLsbD i = false

theorem one_getLsbD (i : Nat) : (1 : Word).getLsbD i = decide (i = 0) := by
  rw [show (1 : Word) = BitVec.ofNat 32 1 from rfl, BitVec.getLsbD_ofNat]
  cases i with
  | zero => rfl
  | succ i => simp [Nat.testBit_succ]

theorem and_one_getLsbD (x : Word) (i : Nat) : (x &&& 1).getLsbD i = (decide (i = 0) && x.getLsbD 0) := by
  rw [BitVec.getLsbD_and, one_getLsbD]
  by_cases h : i = 0 <;> simp [h]

theorem next_getLsbD {sh s2 : Nat} (h2 : s2 < 32) {r : Word} (hr : Fits s2 r) (i : Nat) :
    (next sh s2 r).getLsbD i = if i = s2 then (r.getLsbD 0 ^^ r.getLsbD sh) else r.getLsbD (i + 1) := by
  simp only [next, BitVec.getLsbD_or, BitVec.getLsbD_ushiftRight, BitVec.getLsbD_shiftLeft, and_one_getLsbD,
    BitVec.getLsbD_xor]
  by_cases h : i = s2
  · subst h
    have := hr (1 + i) (by omega)
    simp [h2, this]
  · simp only [h, if_false, Nat.add_comm 1 i, Nat.add_zero]
    by_cases hl : i < s2
    · simp [hl]
    · have : i - s2 ≠ 0 := by omega
      simp [this]

theorem rot_getLsbD {s2 : Nat} (h2 : s2 < 32) {r : Word} (hr : Fits s2 r) (i : Nat) :
    (rot s2 r).getLsbD i = if i = s2 then r.getLsbD 0 else r.getLsbD (i + 1) := by
  simp only [rot, BitVec.getLsbD_or, BitVec.getLsbD_ushiftRight, BitVec.getLsbD_shiftLeft, and_one_getLsbD]
  by_cases h : i = s2
  · subst h
    have := hr (1 + i) (by omega)
    simp [h2, this]
  · simp only [h, if_false, Nat.add_comm 1 i]
    by_cases hl : i < s2
    · simp [hl]
    · have : i - s2 ≠ 0 := by omega
      simp [this]

theorem fits_next {sh s2 : Nat} (h2 : s2 < 32) {r : Word} (hr : Fits s2 r) : Fits s2 (next sh s2 r) := by
  intro i hi
  rw [next_getLsbD h2 hr, if_neg (by omega)]
  exact hr _ (by omega)

theorem fits_times {sh s2 : Nat} (h2 : s2 < 32) {r : Word} (hr : Fits s2 r) (n : Nat) :
    Fits s2 (times (next sh s2) n r) := by
  induction n generalizing r with
  | zero => exact hr
  | succ n ih => exact ih (fits_next h2 hr)

theorem fits31 (r : Word) : Fits 31 r := fun i hi => BitVec.getLsbD_of_ge r i (by omega)

/-- Registers which fit are the same if their stages are. -/
theorem fits_ext {s2 : Nat} {x y : Word} (hx : Fits s2 x) (hy : Fits s2 y)
    (h : ∀ i, i ≤ s2 → x.getLsbD i = y.getLsbD i) : x = y := by
  apply BitVec.eq_of_getLsbD_eq
  intro i _
  by_cases hi : i ≤ s2
  · exact h i hi
  · rw [hx i (by omega), hy i (by omega)]

/-- The stages come out in their order. -/
theorem times_getLsbD {sh s2 : Nat} (h2 : s2 < 32) {r : Word} (hr : Fits s2 r) (n i : Nat) (h : n + i ≤ s2) :
    (times (next sh s2) n r).getLsbD i = r.getLsbD (n + i) := by
  induction n generalizing r with
  | zero => simp [times]
  | succ n ih =>
    simp only [times]
    rw [ih (fits_next h2 hr) (by omega), next_getLsbD h2 hr, if_neg (by omega)]
    congr 1; omega

/-- What the register was one step before. -/
def prev (sh s2 : Nat) (r : Word) : Word :=
  (((r <<< 1) ||| (((r >>> s2) ^^^ (r >>> (sh - 1))) &&& 1)).setWidth (s2 + 1)).setWidth 32

theorem prev_getLsbD {sh s2 : Nat} (h2 : s2 < 32) (r : Word) (i : Nat) :
    (prev sh s2 r).getLsbD i =
      (decide (i ≤ s2) && if i = 0 then (r.getLsbD s2 ^^ r.getLsbD (sh - 1)) else r.getLsbD (i - 1)) := by
  simp only [prev, BitVec.getLsbD_setWidth, BitVec.getLsbD_or, BitVec.getLsbD_shiftLeft, and_one_getLsbD,
    BitVec.getLsbD_xor, BitVec.getLsbD_ushiftRight]
  by_cases hi : i ≤ s2
  · have h1 : i < 32 := by omega
    have h3 : i < s2 + 1 := by omega
    by_cases h0 : i = 0
    · subst h0; simp
    · have : ¬ i < 1 := by omega
      simp [hi, h1, h3, h0, this]
  · have h3 : ¬ i < s2 + 1 := by omega
    simp [hi, h3]

theorem next_prev {sh s2 : Nat} (h1 : 0 < sh) (hs : sh ≤ s2) (h2 : s2 < 32) {r : Word} (hr : Fits s2 r) :
    Fits s2 (prev sh s2 r) ∧ next sh s2 (prev sh s2 r) = r := by
  have hf : Fits s2 (prev sh s2 r) := by
    intro i hi
    rw [prev_getLsbD h2]
    simp [show ¬ i ≤ s2 by omega]
  refine ⟨hf, fits_ext (fits_next h2 hf) hr ?_⟩
  intro i hi
  rw [next_getLsbD h2 hf]
  split
  · next h =>
    subst h
    rw [prev_getLsbD h2, prev_getLsbD h2]
    simp only [Nat.zero_le, decide_true, Bool.true_and, if_true, hs]
    rw [if_neg (show ¬ sh = 0 by omega)]
    cases r.getLsbD i <;> cases r.getLsbD (sh - 1) <;> rfl
  · next h =>
    rw [prev_getLsbD h2, if_neg (by omega)]
    simp [show i + 1 ≤ s2 by omega]

/-- Every register value has one which comes so many steps before. -/
theorem exists_times {sh s2 : Nat} (h1 : 0 < sh) (hs : sh ≤ s2) (h2 : s2 < 32) (n : Nat) {r : Word} (hr : Fits s2 r) :
    ∃ q, Fits s2 q ∧ times (next sh s2) n q = r := by
  induction n with
  | zero => exact ⟨r, hr, rfl⟩
  | succ n ih =>
    obtain ⟨q, hq, e⟩ := ih
    have := next_prev h1 hs h2 hq
    exact ⟨prev sh s2 q, this.1, by simp only [times]; rw [this.2]; exact e⟩

/-- How many steps a stage is from the tap. -/
def toTap (sh s2 i : Nat) : Nat := if sh ≤ i then i - sh else i + s2 + 1 - sh

/-- The last `k` bits have gone into the register at the tap, so that many stages agree. -/
def Agree (sh s2 k : Nat) (x y : Word) : Prop :=
  ∀ i, i ≤ s2 → s2 + 1 ≤ toTap sh s2 i + k → x.getLsbD i = y.getLsbD i

theorem agree_zero {sh s2 : Nat} (x y : Word) (hs : sh ≤ s2) : Agree sh s2 0 x y := by
  intro i hi h
  simp only [toTap] at h
  split at h <;> omega

theorem agree_eq {sh s2 k : Nat} (hk : s2 + 1 ≤ k) {x y : Word} (hx : Fits s2 x) (hy : Fits s2 y)
    (h : Agree sh s2 k x y) : x = y :=
  fits_ext hx hy fun i hi => h i hi (by omega)

theorem agree_refl (sh s2 k : Nat) (x : Word) : Agree sh s2 k x x := fun _ _ _ => rfl

theorem agree_next {sh s2 k : Nat} (h1 : 0 < sh) (hs : sh ≤ s2) (h2 : s2 < 32) {x y : Word} (hx : Fits s2 x)
    (hy : Fits s2 y) (h : Agree sh s2 k x y) (ht : x.getLsbD sh = y.getLsbD sh) :
    Agree sh s2 (k + 1) (next sh s2 x) (next sh s2 y) := by
  intro i hi ho
  rw [next_getLsbD h2 hx, next_getLsbD h2 hy]
  simp only [toTap] at ho
  split
  · next e =>
    rw [ht, h 0 (by omega)]
    simp only [toTap]
    rw [if_neg (by omega)]
    split at ho <;> omega
  · next e =>
    by_cases hi1 : i + 1 = sh
    · rw [hi1]; exact ht
    · apply h (i + 1) (by omega)
      simp only [toTap]
      split at ho <;> split <;> omega

/-- The mask of the tap. -/
theorem mask_getLsbD {sh : Nat} (h : sh < 32) (i : Nat) : ((1 : Word) <<< sh).getLsbD i = decide (i = sh) := by
  rw [BitVec.getLsbD_shiftLeft, one_getLsbD]
  by_cases hi : i = sh
  · subst hi; simp [h]
  · by_cases hl : i < sh
    · simp [hl, hi]
    · have : i - sh ≠ 0 := by omega
      simp [this, hi]

theorem fits_flip {sh s2 : Nat} (hs : sh ≤ s2) (h2 : s2 < 32) {x : Word} (hx : Fits s2 x) :
    Fits s2 (x ^^^ ((1 : Word) <<< sh)) := by
  intro i hi
  rw [BitVec.getLsbD_xor, mask_getLsbD (by omega), hx i hi]
  simp [show i ≠ sh by omega]

/-- A word of one bit. -/
def bit (b : Bool) : Word := if b then 1 else 0

theorem bit_getLsbD (b : Bool) (i : Nat) : (bit b).getLsbD i = (b && decide (i = 0)) := by
  cases b
  · simp [bit]
  · simp [bit, one_getLsbD]

theorem and_one_eq (x : Word) : x &&& 1 = bit (x.getLsbD 0) := by
  apply BitVec.eq_of_getLsbD_eq
  intro i _
  rw [and_one_getLsbD, bit_getLsbD, Bool.and_comm]

theorem shift_and_one_eq (x : Word) (n : Nat) : (x >>> n) &&& 1 = bit (x.getLsbD n) := by
  rw [and_one_eq, BitVec.getLsbD_ushiftRight]
  rfl

theorem bit_inj {a b : Bool} : bit a = bit b ↔ a = b := by
  cases a <;> cases b <;> decide

theorem bit_xor (a b : Bool) : bit a ^^^ bit b = bit (a ^^ b) := by
  cases a <;> cases b <;> decide

theorem bit_xor_one (a : Bool) : bit a ^^^ 1 = bit (!a) := by
  cases a <;> decide

theorem bit_ne_zero (a : Bool) : (bit a != 0) = a := by
  cases a <;> decide

theorem bit_and_one (a : Bool) : bit a &&& 1 = bit a := by
  cases a <;> decide

theorem bit_slt (a : Bool) : (bit a).slt 0 = false := by
  cases a <;> decide

theorem and_mask_ne_zero {sh : Nat} (h : sh < 32) (x : Word) :
    ((x &&& ((1 : Word) <<< sh)) != 0) = x.getLsbD sh := by
  cases hx : x.getLsbD sh
  · have : x &&& ((1 : Word) <<< sh) = 0 := by
      apply BitVec.eq_of_getLsbD_eq
      intro i _
      rw [BitVec.getLsbD_and, mask_getLsbD h]
      by_cases hi : i = sh
      · subst hi; simp [hx]
      · simp [hi]
    rw [this]; rfl
  · rw [bne_iff_ne]
    intro h0
    have := congrArg (·.getLsbD sh) h0
    simp only [BitVec.getLsbD_and, mask_getLsbD h, hx] at this
    simp at this

end Bert
