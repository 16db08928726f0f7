import Verif.ContactId.Spec
import Mathlib.Algebra.BigOperators.Group.List.Basic

namespace ContactId

/-- The key for a digit. -/
def key (d : Nat) : Char := (['0', '1', '2', '3', '4', '5', '6', '7', '8', '9', 'D', '*', '#', 'A', 'B', 'C'][d]?).getD 'D'

/-- What a digit counts. -/
def val (d : Nat) : Nat := if d = 0 then 10 else d

theorem hex_digits : ∀ (w n : Nat), n < 16^w → hex w n = (digitsOf w n).map hexChar := by
  intro w
  induction w with
  | zero => intro n _; rfl
  | succ w ih =>
    intro n hn
    rw [hex, ih (n/16) (by rw [Nat.pow_succ] at hn; omega)]
    unfold digitsOf
    rw [List.range_succ, List.map_append, List.map_append]
    congr 1
    · simp only [List.map_map]
      apply List.map_congr_left
      intro i hi
      rw [List.mem_range] at hi
      simp only [Function.comp]
      rw [Nat.div_div_eq_div_mul, show w + 1 - 1 - i = (w - 1 - i) + 1 by omega, Nat.pow_succ, Nat.mul_comm 16]
    · simp

theorem digitsOf_lt (w n : Nat) : ∀ d ∈ digitsOf w n, d < 16 := by
  intro d hd
  simp only [digitsOf, List.mem_map] at hd
  obtain ⟨i, -, rfl⟩ := hd
  omega

theorem digitsOf_length (w n : Nat) : (digitsOf w n).length = w := by simp [digitsOf]

theorem digits_lt (r : Report) : ∀ d ∈ r.digits, d < 16 := by
  intro d hd
  simp only [Report.digits, List.mem_append] at hd
  rcases hd with ((((h | h) | h) | h) | h) | h <;> exact digitsOf_lt _ _ d h

theorem digits_length (r : Report) : r.digits.length = 15 := by
  simp [Report.digits, digitsOf_length]

theorem print_eq (r : Report) (h : r.Fits) : print r = some (r.digits.map hexChar) := by
  unfold print
  have := h.acct; have := h.mt; have := h.q; have := h.xyz; have := h.gg; have := h.ccc
  rw [if_pos ⟨by omega, by omega, by omega, by omega, by omega, by omega⟩]
  rw [hex_digits _ _ h.acct, hex_digits _ _ h.mt, hex_digits _ _ h.q, hex_digits _ _ h.xyz, hex_digits _ _ h.gg,
    hex_digits _ _ h.ccc]
  simp [Report.digits]

theorem digit_facts : ∀ d : Fin 16, d.val ≠ 10 →
    hexChar d.val ≠ 'A' ∧
    (hexChar d.val > '9' → ((remap[(hexChar d.val).toNat - 55 - 10]?).getD (hexChar d.val) = key d.val ∧
      (hexChar d.val).toNat - 55 = val d.val)) ∧
    (¬ hexChar d.val > '9' → (hexChar d.val = key d.val ∧
      (if (hexChar d.val).toNat - 48 = 0 then 10 else (hexChar d.val).toNat - 48) = val d.val)) := by decide +kernel

theorem unmap_key : ∀ d : Fin 16, unmap (key d.val) = hexChar d.val ∧ worth (hexChar d.val) = (val d.val : Int) ∧
    hexVal (hexChar d.val) = some d.val ∧ key d.val ∈ keys := by decide +kernel

theorem encLoop_eq : ∀ (l : List Nat) (sum : Nat), (∀ d ∈ l, d < 16) → 10 ∉ l →
    encLoop sum (l.map hexChar) = (l.map key, some (sum + (l.map val).sum)) := by
  intro l
  induction l with
  | nil => intro sum _ _; rfl
  | cons d l ih =>
    intro sum h1 h2
    simp only [List.mem_cons, not_or] at h2
    have hd := digit_facts ⟨d, h1 d (List.mem_cons_self ..)⟩ (fun e => h2.1 e.symm)
    have hl := fun x hx => h1 x (List.mem_cons_of_mem _ hx)
    simp only at hd
    rw [List.map_cons, encLoop, if_neg hd.1]
    by_cases h9 : hexChar d > '9'
    · rw [if_pos h9]
      simp only
      rw [ih _ hl h2.2, (hd.2.1 h9).1, (hd.2.1 h9).2]
      simp [Nat.add_assoc]
    · rw [if_neg h9]
      simp only
      rw [ih _ hl h2.2, (hd.2.2 h9).2]
      simp only [List.map_cons, List.sum_cons, Prod.mk.injEq, Nat.add_assoc, and_true]
      rw [(hd.2.2 h9).1]

theorem encLoop_refuses : ∀ (l : List Nat) (sum : Nat), (∀ d ∈ l, d < 16) → 10 ∈ l →
    (encLoop sum (l.map hexChar)).2 = none := by
  intro l
  induction l with
  | nil => intro sum _ h; simp at h
  | cons d l ih =>
    intro sum h1 h2
    rw [List.map_cons, encLoop]
    by_cases h10 : d = 10
    · subst h10; rw [if_pos (by decide)]
    · have hl := fun x hx => h1 x (List.mem_cons_of_mem _ hx)
      have h2 : 10 ∈ l := by
        rcases List.mem_cons.mp h2 with h | h
        · exact absurd h.symm h10
        · exact h
      rw [if_neg (digit_facts ⟨d, h1 d (List.mem_cons_self ..)⟩ h10).1]
      split
      · exact ih _ hl h2
      · exact ih _ hl h2

/-- The value of the check digit. -/
def checkVal (sum : Nat) : Nat := (sum + 15)/15*15 - sum

theorem checkVal_range (sum : Nat) : 1 ≤ checkVal sum ∧ checkVal sum ≤ 15 ∧ (sum + checkVal sum) % 15 = 0 := by
  unfold checkVal; omega

theorem checkDigit_facts : ∀ v : Fin 16, 1 ≤ v.val →
    (if v.val = 0 then 'C' else if v.val ≤ 9 then Char.ofNat (48 + v.val) else (remap[v.val - 10]?).getD 'C') = key v.val := by
  decide +kernel

theorem checkDigit_eq (sum : Nat) : checkDigit sum = key (checkVal sum) := by
  have h := checkVal_range sum
  exact checkDigit_facts ⟨checkVal sum, by omega⟩ h.1

theorem encodeMsg_eq (r : Report) (h : r.Sendable) :
    encodeMsg r = some (r.digits.map key ++ [key (checkVal (r.digits.map val).sum)], 16) := by
  unfold encodeMsg
  rw [print_eq r h.1, Option.map_some, encLoop_eq _ _ (digits_lt r) h.2]
  simp only [Nat.zero_add, checkDigit_eq, List.length_map, digits_length]
  rfl

theorem scan_hex : ∀ (w : Nat) (b : Bool) (acc n k : Nat) (rest : List Char), n < 16^w →
    scan b acc (w + k) ((digitsOf w n).map hexChar ++ rest) = scan (b || decide (0 < w)) (acc*16^w + n) k rest := by
  intro w
  induction w with
  | zero => intro b acc n k rest hn; simp at hn; subst hn; simp [digitsOf]
  | succ w ih =>
    intro b acc n k rest hn
    have hn' : n/16 < 16^w := by rw [Nat.pow_succ] at hn; omega
    rw [← hex_digits _ _ hn, hex, hex_digits _ _ hn', List.append_assoc,
      show w + 1 + k = w + (k + 1) by omega, ih _ _ _ _ _ hn', List.singleton_append, scan]
    rw [(unmap_key ⟨n % 16, by omega⟩).2.2.1]
    simp only
    rw [show (acc*16^w + n/16)*16 + n % 16 = acc*16^(w + 1) + n by
      rw [Nat.pow_succ, Nat.add_mul, Nat.mul_assoc]; omega]
    simp

theorem scan_field (w n : Nat) (hn : n < 16^w) (rest : List Char) :
    scan false 0 w ((digitsOf w n).map hexChar ++ rest) = some (n, rest) := by
  have h := scan_hex w false 0 n 0 rest hn
  rw [Nat.add_zero] at h
  rw [h, scan]
  simp

theorem sum_worth (l : List Nat) (h : ∀ d ∈ l, d < 16) :
    (((l.map key).map unmap).map worth).sum = (((l.map val).sum : Nat) : Int) := by
  induction l with
  | nil => rfl
  | cons d l ih =>
    have hd := unmap_key ⟨d, h d (List.mem_cons_self ..)⟩
    simp only at hd
    simp only [List.map_cons, List.sum_cons]
    rw [ih (fun x hx => h x (List.mem_cons_of_mem _ hx)), hd.1, hd.2.1]
    omega

theorem map_unmap (l : List Nat) (h : ∀ d ∈ l, d < 16) : (l.map key).map unmap = l.map hexChar := by
  rw [List.map_map]
  apply List.map_congr_left
  intro d hd
  exact (unmap_key ⟨d, h d hd⟩).1

theorem val_lt (v : Nat) (h : 1 ≤ v) : val v = v := by unfold val; rw [if_neg (by omega)]

theorem decode_encoded (r : Report) (h : r.Fits) :
    decodeMsg (r.digits.map key ++ [key (checkVal (r.digits.map val).sum)]) = some (some r) := by
  have hv := checkVal_range (r.digits.map val).sum
  generalize checkVal (r.digits.map val).sum = v at hv
  have hl : ∀ d ∈ r.digits ++ [v], d < 16 := by
    intro d hd
    rcases List.mem_append.mp hd with h | h
    · exact digits_lt r d h
    · simp only [List.mem_singleton] at h; omega
  rw [show r.digits.map key ++ [key v] = (r.digits ++ [v]).map key by simp]
  unfold decodeMsg
  rw [if_neg (by simp [digits_length])]
  simp only
  rw [sum_worth _ hl, List.map_append, List.map_singleton, List.sum_append, List.sum_singleton, val_lt v hv.1,
    if_neg (by omega), map_unmap _ hl]
  simp only [Report.digits, List.map_append, List.append_assoc, List.map_singleton]
  rw [scan_field _ _ h.acct, Option.bind_some, scan_field _ _ h.mt, Option.bind_some,
    scan_field _ _ h.q, Option.bind_some, scan_field _ _ h.xyz, Option.bind_some,
    scan_field _ _ h.gg, Option.bind_some, scan_field _ _ h.ccc]
  rfl

theorem keys_worth : ∀ a ∈ keys, 1 ≤ worth (unmap a) ∧ worth (unmap a) ≤ 15 ∧
    ∀ b ∈ keys, worth (unmap a) = worth (unmap b) → a = b ∨ (a = '0' ∧ b = 'D') ∨ (a = 'D' ∧ b = '0') := by
  decide +kernel

theorem sum_set (f : Char → Int) : ∀ (l : List Char) (i : Nat) (h : i < l.length) (c : Char),
    ((l.set i c).map f).sum = (l.map f).sum - f l[i] + f c := by
  intro l
  induction l with
  | nil => intro i h; simp at h
  | cons a l ih =>
    intro i h c
    cases i with
    | zero => simp; omega
    | succ i =>
      simp only [List.set_cons_succ, List.map_cons, List.sum_cons, List.getElem_cons_succ]
      rw [ih i (by simpa using h) c]
      omega

end ContactId
