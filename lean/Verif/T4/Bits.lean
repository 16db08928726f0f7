import Verif.T4.Model

/-! # The bits which the encoder puts out -/

namespace T4

/-- The lowest `n` bits of a number, the lowest first. -/
def toBits : Nat → Nat → List Bool
  | 0, _ => []
  | n + 1, b => (b % 2 == 1) :: toBits n (b / 2)

@[simp] theorem toBits_length (n b : Nat) : (toBits n b).length = n := by
  induction n generalizing b with
  | zero => rfl
  | succ n ih => simp [toBits, ih]

theorem toBits_add (a b x : Nat) : toBits (a + b) x = toBits a x ++ toBits b (x / 2 ^ a) := by
  induction a generalizing x with
  | zero => simp [toBits]
  | succ a ih =>
    rw [Nat.add_right_comm, toBits, toBits, ih, List.cons_append, Nat.div_div_eq_div_mul, Nat.pow_succ', ]

theorem toBits_mod (n x m : Nat) (h : n ≤ m) : toBits n (x % 2 ^ m) = toBits n x := by
  induction n generalizing x m with
  | zero => rfl
  | succ n ih =>
    obtain ⟨m, rfl⟩ : ∃ k, m = k + 1 := ⟨m - 1, by omega⟩
    have h1 : x % 2 ^ (m + 1) % 2 = x % 2 := by
      rw [Nat.pow_succ']; exact Nat.mod_mul_right_mod x 2 (2 ^ m)
    have h2 : x % 2 ^ (m + 1) / 2 = x / 2 % 2 ^ m := by
      rw [Nat.pow_succ', Nat.mod_mul_right_div_self]
    rw [toBits, toBits, h1, h2, ih _ _ (by omega)]

theorem toBits_zero (n : Nat) : toBits n 0 = List.replicate n false := by
  induction n with
  | zero => rfl
  | succ n ih => simp [toBits, ih, List.replicate_succ]

theorem octetBits_ofNat (x : Nat) : octetBits (BitVec.ofNat 8 x) = toBits 8 x := by
  rw [← toBits_mod 8 x 8 (Nat.le_refl 8)]
  have h : octetBits (BitVec.ofNat 8 x) = octetBits (BitVec.ofNat 8 (x % 2 ^ 8)) := by
    congr 1; apply BitVec.eq_of_toNat_eq; simp
  rw [h]
  have : ∀ y, y < 256 → octetBits (BitVec.ofNat 8 y) = toBits 8 y := by decide +kernel
  exact this _ (Nat.mod_lt _ (by decide))

/-- Bits of octets. -/
def bitsOf (l : List Byte) : List Bool := l.flatMap octetBits

@[simp] theorem octetBits_length (b : Byte) : (octetBits b).length = 8 := by simp [octetBits]

@[simp] theorem bitsOf_length (l : List Byte) : (bitsOf l).length = 8 * l.length := by
  induction l with
  | nil => rfl
  | cons b t ih => simp only [bitsOf, List.flatMap_cons, List.length_append, octetBits_length, List.length_cons] at *; omega

@[simp] theorem bitsOf_append (a b : List Byte) : bitsOf (a ++ b) = bitsOf a ++ bitsOf b := by simp [bitsOf]

theorem octetBits_inj (a b : Byte) (h : octetBits a = octetBits b) : a = b := by
  apply BitVec.eq_of_getLsbD_eq
  intro i hi
  have := congrArg (fun l => l.getD i false) h
  simpa [octetBits, List.getD, hi] using this

theorem bitsOf_inj (a b : List Byte) (h : bitsOf a = bitsOf b) : a = b := by
  induction a generalizing b with
  | nil =>
    have := congrArg List.length h
    cases b with
    | nil => rfl
    | cons c t => simp only [bitsOf_length, List.length_cons, List.length_nil] at this; omega
  | cons x t ih =>
    cases b with
    | nil => have := congrArg List.length h; simp only [bitsOf_length, List.length_cons, List.length_nil] at this; omega
    | cons y u =>
      simp only [bitsOf, List.flatMap_cons] at h
      have := List.append_inj h (by simp)
      rw [octetBits_inj _ _ this.1, ih u this.2]

/-- All of the bits which have gone into the buffer. -/
def W.bits (w : W) : List Bool := bitsOf w.buf ++ toBits w.txBits w.tx

/-- Less than an octet is kept back. -/
structure WOk (w : W) : Prop where
  lt : w.txBits < 8
  tx : w.tx < 2 ^ w.txBits

theorem emit_spec (k x n : Nat) (l : List Byte) (hk : n ≤ k) (hx : x < 2 ^ n) :
    (emit k x n l).2.1 < 8 ∧ (emit k x n l).1 < 2 ^ (emit k x n l).2.1 ∧
      bitsOf (emit k x n l).2.2 ++ toBits (emit k x n l).2.1 (emit k x n l).1 = bitsOf l ++ toBits n x := by
  induction k generalizing x n l with
  | zero => obtain rfl : n = 0 := by omega
            exact ⟨by simp [emit], by simpa [emit] using hx, rfl⟩
  | succ k ih =>
    unfold emit
    split
    · next h =>
      have hx' : x / 2 ^ 8 < 2 ^ (n - 8) := by
        rw [Nat.div_lt_iff_lt_mul (by decide), ← Nat.pow_add]
        rwa [Nat.sub_add_cancel h]
      obtain ⟨h1, h2, h3⟩ := ih (x / 2 ^ 8) (n - 8) (l ++ [BitVec.ofNat 8 x]) (by omega) hx'
      refine ⟨h1, h2, ?_⟩
      rw [h3]
      have : n = 8 + (n - 8) := by omega
      conv => rhs; rw [this, toBits_add]
      simp [bitsOf, octetBits_ofNat]
    · next h => exact ⟨Nat.lt_of_not_le h, hx, rfl⟩

/-- `put_encoded_bits` adds the bits of a code. -/
theorem putBits_spec (w : W) (b n : Nat) (ok : WOk w) (hb : b < 2 ^ n) (hn : n ≤ 24 ∨ b = 0) :
    WOk (putBits w b n) ∧ (putBits w b n).bits = w.bits ++ toBits n b ∧ (putBits w b n).rowBits = w.rowBits + n := by
  have e : (w.tx ||| b * 2 ^ w.txBits) % 2 ^ 32 = w.tx + b * 2 ^ w.txBits := by
    have h1 : w.tx ||| b * 2 ^ w.txBits = w.tx + b * 2 ^ w.txBits := by
      have := Nat.two_pow_add_eq_or_of_lt ok.tx b
      rw [Nat.or_comm, Nat.mul_comm b, ← this, Nat.add_comm]
    rw [h1, Nat.mod_eq_of_lt]
    rcases hn with hn | rfl
    · have : w.tx + b * 2 ^ w.txBits < 2 ^ (n + w.txBits) := by
        rw [Nat.pow_add]
        have := Nat.mul_le_mul_right (2 ^ w.txBits) (show b + 1 ≤ 2 ^ n by omega)
        have := ok.tx
        rw [Nat.add_mul] at *
        omega
      exact Nat.lt_of_lt_of_le this (Nat.pow_le_pow_right (by decide) (by have := ok.lt; omega))
    · have := ok.tx
      have h2 : (2 : Nat) ^ w.txBits ≤ 2 ^ 32 := Nat.pow_le_pow_right (by decide) (by have := ok.lt; omega)
      omega
  have hlt : w.tx + b * 2 ^ w.txBits < 2 ^ (w.txBits + n) := by
    rw [Nat.add_comm w.txBits, Nat.pow_add]
    have := Nat.mul_le_mul_right (2 ^ w.txBits) (show b + 1 ≤ 2 ^ n by omega)
    have := ok.tx
    rw [Nat.add_mul] at *
    omega
  obtain ⟨h1, h2, h3⟩ := emit_spec (w.txBits + n) (w.tx + b * 2 ^ w.txBits) (w.txBits + n) w.buf (Nat.le_refl _) hlt
  refine ⟨⟨?_, ?_⟩, ?_, rfl⟩
  · simpa only [putBits, e] using h1
  · simpa only [putBits, e] using h2
  · simp only [W.bits, putBits, e]
    rw [h3, toBits_add, List.append_assoc]
    congr 2
    · rw [← toBits_mod w.txBits _ w.txBits (Nat.le_refl _), Nat.add_mul_mod_self_right, toBits_mod _ _ _ (Nat.le_refl _)]
    · rw [Nat.add_mul_div_right _ _ (Nat.two_pow_pos _), Nat.div_eq_of_lt ok.tx, Nat.zero_add]

/-- What a function puts out does not depend on what is in the buffer. -/
def Emits (f : W → Option W) (bits : List Bool) : Prop :=
  ∀ w, WOk w → ∃ w', f w = some w' ∧ WOk w' ∧ w'.bits = w.bits ++ bits ∧ w'.rowBits = w.rowBits + bits.length

theorem Emits.nil : Emits some [] := fun w ok => ⟨w, rfl, ok, by simp, by simp⟩

theorem Emits.bind {f g : W → Option W} {a b : List Bool} (hf : Emits f a) (hg : Emits g b) : Emits (fun w => (f w).bind g) (a ++ b) := by
  intro w ok
  obtain ⟨w1, e1, ok1, b1, r1⟩ := hf w ok
  obtain ⟨w2, e2, ok2, b2, r2⟩ := hg w1 ok1
  refine ⟨w2, by show (f w).bind g = _; rw [e1]; exact e2, ok2, by rw [b2, b1, List.append_assoc], ?_⟩
  rw [r2, r1, List.length_append]; omega

theorem Emits.congr {f g : W → Option W} {a : List Bool} (hf : Emits f a) (h : ∀ w, g w = f w) : Emits g a := by
  intro w ok
  rw [h]
  exact hf w ok

theorem emits_put (b n : Nat) (hb : b < 2 ^ n) (hn : n ≤ 24 ∨ b = 0) : Emits (fun w => some (putBits w b n)) (toBits n b) := by
  intro w ok
  obtain ⟨h1, h2, h3⟩ := putBits_spec w b n ok hb hn
  exact ⟨_, rfl, h1, h2, by rw [h3, toBits_length]⟩

end T4
