import Verif.T4.Bits

/-! # The code tables of the encoder and of the decoder agree, and no code can be taken for a part of an EOL -/

namespace T4

theorem val_toBits (n b : Nat) (h : b < 2 ^ n) : val (toBits n b) = b := by
  induction n generalizing b with
  | zero => simp only [toBits, val]; omega
  | succ n ih =>
    rw [toBits, val, ih (b / 2) (by rw [Nat.pow_succ] at h; omega)]
    rcases Nat.mod_two_eq_zero_or_one b with h | h <;> simp [h] <;> omega

theorem val_append (a b : List Bool) : val (a ++ b) = val a + 2 ^ a.length * val b := by
  induction a with
  | nil => simp [val]
  | cons x t ih =>
    rw [List.cons_append, val, val, ih, List.length_cons, Nat.pow_succ', Nat.mul_add, ← Nat.mul_assoc]
    omega

theorem val_lt (l : List Bool) : val l < 2 ^ l.length := by
  induction l with
  | nil => simp [val]
  | cons b t ih =>
    rw [val, List.length_cons, Nat.pow_succ]
    have : b.toNat ≤ 1 := Bool.toNat_le b
    omega

/-- The number of zeros at the start. -/
def lead : List Bool → Nat
  | [] => 0
  | true :: _ => 0
  | false :: t => lead t + 1

theorem lead_le (l : List Bool) : lead l ≤ l.length := by
  induction l with
  | nil => exact Nat.le_refl _
  | cons b t ih => cases b <;> simp [lead]; exact ih

theorem lead_append (a b : List Bool) : lead (a ++ b) = if lead a = a.length then a.length + lead b else lead a := by
  induction a with
  | nil => simp [lead]
  | cons x t ih =>
    cases x
    · rw [List.cons_append, lead, lead, ih]
      simp only [List.length_cons, Nat.add_right_cancel_iff]
      split <;> omega
    · simp [lead]

theorem lead_replicate (n : Nat) : lead (List.replicate n false) = n := by
  induction n with
  | zero => rfl
  | succ n ih => rw [List.replicate_succ, lead, ih]

/-- An EOL is eleven zeros and a one. -/
theorem val_eol (n : Nat) (l : List Bool) (h : n < l.length) : val (l.take (n + 1)) = 2 ^ n ↔ lead l = n := by
  induction n generalizing l with
  | zero =>
    cases l with
    | nil => simp at h
    | cons b t => cases b <;> simp [val, lead]
  | succ n ih =>
    cases l with
    | nil => simp at h
    | cons b t =>
      simp only [List.length_cons] at h
      have := ih t (by omega)
      rw [List.take_succ_cons, val, Nat.pow_succ]
      cases b
      · simp only [Bool.toNat_false, lead, Nat.add_right_cancel_iff]
        rw [← this]; omega
      · simp only [Bool.toNat_true, lead]
        have h2 := Nat.two_pow_pos n
        omega

/-- What may be seen from inside of a code: few zeros and a one, or up to three zeros. -/
def tailOk (d : List Bool) : Bool := (lead d ≤ 7 && lead d < d.length) || (lead d == d.length && d.length ≤ 3)

/-- A code has a one after no more than seven zeros, and what is left of it as it is taken is `tailOk`. -/
def codeOk (c : List Bool) : Bool := lead c ≤ 7 && lead c < c.length && (List.range c.length).all fun i => tailOk (c.drop i)

/-- The bits of a table entry. -/
def cb (e : Nat × Nat × Nat) : List Bool := toBits e.1 e.2.1

/-- An entry of the decoder's table for runs of a colour is the one for the `i`th entry of the encoder's. -/
def hits (isBlack : Bool) (i : Nat) (e : Nat × Nat × Nat) (d : Nat) : Bool :=
  width d == e.1 && param d == e.2.2 &&
    if i < 64 then st d == (if isBlack then .termB else .termW)
    else st d == .makeUp || st d == (if isBlack then .makeUpB else .makeUpW)

/-- The two tables of a colour. -/
def codesOf (isBlack : Bool) : List (Nat × Nat × Nat) := if isBlack then blackCodes else whiteCodes
def tableOf (isBlack : Bool) : List Nat := if isBlack then tableB else tableW
/-- The number of bits which are looked up. -/
def lookOf (isBlack : Bool) : Nat := if isBlack then 13 else 12

theorem codes_length (k : Bool) : (codesOf k).length = 104 := by cases k <;> decide +kernel

set_option maxRecDepth 100000 in
theorem codes_ok (k : Bool) : ∀ i, i < 104 → codeOk (cb ((codesOf k).getD i (0, 0, 0))) = true ∧
    ((codesOf k).getD i (0, 0, 0)).2.1 < 2 ^ ((codesOf k).getD i (0, 0, 0)).1 ∧ ((codesOf k).getD i (0, 0, 0)).1 ≤ lookOf k ∧
    ((codesOf k).getD i (0, 0, 0)).2.2 = (if i < 64 then i else 64 * (i - 63)) := by
  cases k <;> decide +kernel

/-- All of the values which begin with the code. -/
def hitAll (k : Bool) (i : Nat) : Bool :=
  let e := (codesOf k).getD i (0, 0, 0)
  (List.range (2 ^ (lookOf k - e.1))).all fun m => hits k i e (entry (tableOf k) (e.2.1 + 2 ^ e.1 * m))

set_option maxRecDepth 100000 in
theorem hit_all (k : Bool) : ∀ i, i < 104 → hitAll k i = true := by
  cases k <;> decide +kernel

/-- A code is found in the decoder's table, whatever follows it. -/
theorem lookup_code (k : Bool) (i : Nat) (hi : i < 104) (rest : List Bool) (hr : 12 ≤ rest.length) :
    hits k i ((codesOf k).getD i (0, 0, 0)) (entry (tableOf k) (val ((cb ((codesOf k).getD i (0, 0, 0)) ++ rest).take (lookOf k)))) = true := by
  obtain ⟨h1, h2, h3, _⟩ := codes_ok k i hi
  have h := hit_all k i hi
  unfold hitAll at h
  simp only [List.all_eq_true, List.mem_range] at h
  generalize (codesOf k).getD i (0, 0, 0) = e at *
  have hlen : (cb e).length = e.1 := by simp [cb]
  have hpos : 0 < e.1 := by
    unfold codeOk at h1
    simp only [Bool.and_eq_true, decide_eq_true_eq] at h1
    have := h1.1.2
    omega
  have : val ((cb e ++ rest).take (lookOf k)) = e.2.1 + 2 ^ e.1 * val (rest.take (lookOf k - e.1)) := by
    rw [List.take_append, hlen, List.take_of_length_le (by omega), val_append, hlen]
    unfold cb
    rw [val_toBits _ _ h2]
  rw [this]
  apply h
  have := val_lt (rest.take (lookOf k - e.1))
  have hl : (rest.take (lookOf k - e.1)).length = lookOf k - e.1 := by
    rw [List.length_take]
    have : lookOf k ≤ 13 := by cases k <;> decide
    omega
  rwa [hl] at this

def hits2d (i : Nat) (e : Nat × Nat × Nat) (d : Nat) : Bool :=
  width d == e.1 && (if i < 7 then st d == .vert && vparam d == 3 - (i : Int) else if i = 7 then st d == .horiz else st d == .pass)

theorem codes2d_ok : ∀ i, i < 9 → codeOk (cb (codes2d.getD i (0, 0, 0))) = true ∧ (codes2d.getD i (0, 0, 0)).2.1 < 2 ^ (codes2d.getD i (0, 0, 0)).1 ∧
    (codes2d.getD i (0, 0, 0)).1 ≤ 7 := by decide +kernel

theorem hit_all2d : ∀ i, i < 9 → ∀ m, m < 2 ^ (7 - (codes2d.getD i (0, 0, 0)).1) →
    hits2d i (codes2d.getD i (0, 0, 0)) (entry table2d ((codes2d.getD i (0, 0, 0)).2.1 + 2 ^ (codes2d.getD i (0, 0, 0)).1 * m)) = true := by decide +kernel

theorem lookup_code2d (i : Nat) (hi : i < 9) (rest : List Bool) (hr : 12 ≤ rest.length) :
    hits2d i (codes2d.getD i (0, 0, 0)) (entry table2d (val ((cb (codes2d.getD i (0, 0, 0)) ++ rest).take 7))) = true := by
  obtain ⟨h1, h2, h3⟩ := codes2d_ok i hi
  have h := hit_all2d i hi
  generalize codes2d.getD i (0, 0, 0) = e at *
  have hlen : (cb e).length = e.1 := by simp [cb]
  have : val ((cb e ++ rest).take 7) = e.2.1 + 2 ^ e.1 * val (rest.take (7 - e.1)) := by
    rw [List.take_append, hlen, List.take_of_length_le (by omega), val_append, hlen]
    unfold cb
    rw [val_toBits _ _ h2]
  rw [this]
  apply h
  have := val_lt (rest.take (7 - e.1))
  have hl : (rest.take (7 - e.1)).length = 7 - e.1 := by rw [List.length_take]; omega
  rwa [hl] at this

/-- Zeros are no code. -/
theorem zeros_null : width (entry table2d 0) = 1 ∧ width (entry tableW 0) = 1 ∧ st (entry tableW 0) = .null ∧
    (∀ b, b < 2 → width (entry tableB (4096 * b)) = 1 ∧ st (entry tableB (4096 * b)) = .null) := by decide +kernel

/-- What follows a code does not make an EOL with the zeros at its end. -/
def Good (r : List Bool) : Prop := 12 ≤ r.length ∧ lead r ≠ 8 ∧ lead r ≠ 9 ∧ lead r ≠ 10

theorem tail_no_eol {d r : List Bool} (hd : tailOk d = true) (hr : Good r) (hne : d ≠ []) : lead (d ++ r) ≠ 11 := by
  unfold tailOk at hd
  simp only [Bool.or_eq_true, Bool.and_eq_true, decide_eq_true_eq, beq_iff_eq] at hd
  have : 0 < d.length := List.length_pos_iff.mpr hne
  obtain ⟨_, h1, h2, h3⟩ := hr
  rw [lead_append]
  split <;> omega

theorem codeOk_lead {c : List Bool} (h : codeOk c = true) : lead c ≤ 7 ∧ lead c < c.length := by
  unfold codeOk at h
  simp only [Bool.and_eq_true, decide_eq_true_eq] at h
  exact ⟨h.1.1, h.1.2⟩

theorem good_append {c r : List Bool} (h : lead c ≤ 7 ∧ lead c < c.length) (hr : 12 ≤ r.length) : Good (c ++ r) := by
  refine ⟨by rw [List.length_append]; omega, ?_⟩
  rw [lead_append, if_neg (by omega)]
  omega

end T4
