import Verif.Qm.Basic
import Verif.Qm.Enc

/-!
# The decoder compares the code with the parts of the interval
-/

namespace Qm

/-! ## The change of units, as the decoder does it -/

/-- As `Iv.renorm`, with the start, for which the length goes up to 0x10000. -/
def Iv.grow : Nat → Bool → Iv → Iv
  | 0, _, i => i
  | n + 1, su, i => if i.a < 0x8000 ∨ su = true then Iv.grow n (if 2 * i.a = 0x10000 then false else su) (i.finer 1) else i

/-- So many rounds are enough. -/
def Enough (n : Nat) (su : Bool) (a : Nat) : Prop := 1 ≤ a ∧ if su = true then ∃ j, j ≤ 15 ∧ a = 2 ^ j ∧ 16 ≤ j + n else a ≤ 0x10000 ∧ 0x8000 ≤ a * 2 ^ n

theorem Enough.le {n : Nat} {su : Bool} {a : Nat} (h : Enough n su a) : a ≤ 0x10000 := by
  obtain ⟨_, h⟩ := h
  split at h
  · obtain ⟨j, j1, j2, _⟩ := h
    have := pow_bound j1
    omega
  · exact h.1

theorem Enough.next {n : Nat} {su : Bool} {a : Nat} (h : Enough (n + 1) su a) (hl : a < 0x8000 ∨ su = true) :
    Enough n (if 2 * a = 0x10000 then false else su) (2 * a) := by
  obtain ⟨h1, h⟩ := h
  refine ⟨by omega, ?_⟩
  cases su with
  | true =>
    simp only [if_true] at h
    obtain ⟨j, j1, j2, j3⟩ := h
    by_cases he : 2 * a = 0x10000
    · rw [if_pos he, if_neg (by decide), he]
      refine ⟨Nat.le_refl _, ?_⟩
      have := Nat.two_pow_pos n
      omega
    · rw [if_neg he, if_pos rfl]
      refine ⟨j + 1, ?_, by rw [j2, Nat.pow_succ]; omega, by omega⟩
      rcases Nat.lt_or_ge j 15 with hj | hj
      · omega
      · rw [show j = 15 by omega] at j2
        omega
  | false =>
    simp only [Bool.false_eq_true, if_false, or_false] at h hl
    rw [ite_self, if_neg (by decide)]
    refine ⟨by omega, ?_⟩
    rw [Nat.pow_succ] at h
    rw [Nat.mul_comm 2 a, Nat.mul_assoc, Nat.mul_comm 2]
    exact h.2

theorem Enough.zero {su : Bool} {a : Nat} (h : Enough 0 su a) : su = false ∧ 0x8000 ≤ a := by
  obtain ⟨_, h⟩ := h
  split at h
  · obtain ⟨j, j1, _, j3⟩ := h
    omega
  · rename_i hs
    exact ⟨by simpa using hs, by omega⟩

theorem Enough.more {n : Nat} {su : Bool} {a : Nat} (h : Enough n su a) (m : Nat) (hm : n ≤ m) : Enough m su a := by
  obtain ⟨h1, h⟩ := h
  refine ⟨h1, ?_⟩
  split
  · rename_i hs
    rw [if_pos hs] at h
    obtain ⟨j, j1, j2, j3⟩ := h
    exact ⟨j, j1, j2, by omega⟩
  · rename_i hs
    rw [if_neg hs] at h
    exact ⟨h.1, Nat.le_trans h.2 (Nat.mul_le_mul_left _ (pow_bound hm))⟩

theorem Iv.finer_a (i : Iv) : (i.finer 1).a = 2 * i.a := by simp [Iv.finer, Nat.mul_comm]

/-- More rounds make no difference. -/
theorem Iv.grow_more (n : Nat) {su : Bool} {i : Iv} (h : Enough n su i.a) (m : Nat) (hm : n ≤ m) : i.grow m su = i.grow n su := by
  induction n generalizing su i m with
  | zero =>
    obtain ⟨h1, h2⟩ := h.zero
    cases m with
    | zero => rfl
    | succ m => 
      show i.grow (m + 1) su = i
      rw [Iv.grow, h1]
      simp only [Bool.false_eq_true, or_false]
      rw [if_neg (by omega)]
  | succ n ih =>
    cases m with
    | zero => omega
    | succ m =>
      rw [Iv.grow, Iv.grow]
      by_cases hl : i.a < 0x8000 ∨ su = true
      · rw [if_pos hl, if_pos hl]
        refine ih ?_ m (by omega)
        rw [Iv.finer_a]
        exact h.next hl
      · rw [if_neg hl, if_neg hl]

theorem Iv.grow_renorm (n : Nat) (i : Iv) : i.grow n false = i.renorm n := by
  induction n generalizing i with
  | zero => rfl
  | succ n ih =>
    rw [Iv.grow, Iv.renorm]
    simp only [Bool.false_eq_true, or_false, ite_self]
    rw [ih]

theorem Iv.grow_start (st : Cx → St) : (⟨0, 1, 0, st⟩ : Iv).grow 17 true = Iv.start st := by
  simp [Iv.grow, Iv.finer, Iv.start]

theorem Iv.Has.finer {i : Iv} {B : List Nat} (h : i.Has B) : (i.finer 1).Has B := by
  obtain ⟨h1, h2⟩ := h
  simp only [Iv.Has, Iv.finer, Nat.pow_succ, Nat.pow_zero, Nat.one_mul]
  rw [← Nat.add_mul, Nat.mul_right_comm, Nat.mul_right_comm (i.low + i.a), ← Nat.mul_assoc]
  omega

/-! ## The number in the register -/

/-- The register of the decoder holds the distance from the start of the interval to the code, as far as the code is known. -/
def Num (d : Dec) (low t : Nat) (B tail : List Nat) : Prop :=
  (∃ k ct : Nat, d.ct = ct ∧ ct ≤ 16 ∧ t + ct = 8 * k ∧ k ≤ B.length ∧ d.c + low * 2 ^ 16 = val (B.take k) * 2 ^ (16 - ct) ∧ d.data = stuff (B.drop k) ++ tail) ∨
    (d.ct = -1 ∧ (d.c + low * 2 ^ 16) * 256 ^ B.length = val B * 2 ^ (t + 16) ∧ d.data = tail)

theorem val_take {B : List Nat} (h : ∀ b ∈ B, b < 256) (k : Nat) : val (B.take k) * 256 ^ (B.length - k) ≤ val B ∧
    val B < (val (B.take k) + 1) * 256 ^ (B.length - k) := by
  have e := val_append (B.take k) (B.drop k)
  rw [List.take_append_drop, List.length_drop] at e
  have l := val_lt (B.drop k) (fun b hb => h b (List.mem_of_mem_drop hb))
  rw [List.length_drop] at l
  rw [Nat.add_mul]
  omega

/-- The comparison which the decoder makes. -/
theorem Num.le {d : Dec} {low t : Nat} {B tail : List Nat} (h : Num d low t B tail) (hb : ∀ b ∈ B, b < 256) (m : Nat) :
    m * 2 ^ 16 ≤ d.c ↔ (low + m) * 256 ^ B.length ≤ val B * 2 ^ t := by
  rcases h with ⟨k, ct, _, hct, ht, hk, hc, _⟩ | ⟨_, hc, _⟩
  · obtain ⟨v1, v2⟩ := val_take hb k
    generalize val (B.take k) = p at *
    have e16 : (2 : Nat) ^ 16 = 2 ^ ct * 2 ^ (16 - ct) := by rw [← Nat.pow_add]; congr 1; omega
    have en : (256 : Nat) ^ B.length = 2 ^ ct * 256 ^ (B.length - k) * 2 ^ t := by
      rw [show (256 : Nat) ^ B.length = 256 ^ k * 256 ^ (B.length - k) by rw [← Nat.pow_add]; congr 1; omega,
        show (256 : Nat) ^ k = 2 ^ (t + ct) by rw [ht, Nat.pow_mul], Nat.pow_add]
      generalize (2 : Nat) ^ t = x
      generalize (2 : Nat) ^ ct = y
      rw [Nat.mul_comm x, Nat.mul_right_comm]
    have a1 : m * 2 ^ 16 ≤ d.c ↔ (low + m) * 2 ^ ct ≤ p := by
      have : m * 2 ^ 16 ≤ d.c ↔ (low + m) * 2 ^ 16 ≤ p * 2 ^ (16 - ct) := by rw [← hc]; omega
      rw [this, e16, ← Nat.mul_assoc]
      exact Nat.mul_le_mul_right_iff (Nat.two_pow_pos _)
    have a2 : (low + m) * 256 ^ B.length ≤ val B * 2 ^ t ↔ (low + m) * 2 ^ ct * 256 ^ (B.length - k) ≤ val B := by
      rw [en, ← Nat.mul_assoc, ← Nat.mul_assoc]
      exact Nat.mul_le_mul_right_iff (Nat.two_pow_pos _)
    rw [a1, a2]
    constructor
    · intro h
      exact Nat.le_trans (Nat.mul_le_mul_right _ h) v1
    · intro h
      have := Nat.lt_of_mul_lt_mul_right (Nat.lt_of_le_of_lt h v2)
      omega
  · have a1 : m * 2 ^ 16 ≤ d.c ↔ (m * 2 ^ 16 + low * 2 ^ 16) * 256 ^ B.length ≤ (d.c + low * 2 ^ 16) * 256 ^ B.length := by
      rw [Nat.mul_le_mul_right_iff (Nat.pow_pos (by decide))]
      omega
    rw [a1, hc, Nat.pow_add, ← Nat.mul_assoc, ← Nat.add_mul, Nat.mul_right_comm, Nat.mul_le_mul_right_iff (Nat.two_pow_pos _), Nat.add_comm m]

structure DecR (d : Dec) (i : Iv) (B tail : List Nat) : Prop where
  a : d.a = i.a
  st : d.st = i.st
  hi : i.a ≤ 0x10000
  has : i.Has B
  num : Num d i.low i.t B tail

theorem DecR.c_lt {d : Dec} {i : Iv} {B tail : List Nat} (h : DecR d i B tail) (hb : ∀ b ∈ B, b < 256) : d.c < i.a * 2 ^ 16 := by
  have h1 := h.num.le hb i.a
  have h2 := h.has.2
  omega

/-! ## The reading of the data -/

theorem or_add {c x n : Nat} (h1 : c % 2 ^ n = 0) (h2 : x < 2 ^ n) : c ||| x = c + x := by
  have := Nat.two_pow_add_eq_or_of_lt h2 (c / 2 ^ n)
  rw [Nat.mul_comm, Nat.div_mul_cancel (Nat.dvd_of_mod_eq_zero h1)] at this
  exact this.symm

/-- A byte goes into the register. -/
theorem Num.byte {d : Dec} {i : Iv} {B tail : List Nat} (hr : DecR d i B tail) (hb : ∀ b ∈ B, b < 256) {k ct : Nat} (hct : ct ≤ 8)
    (ht : i.t + ct = 8 * k) (hk : k < B.length) (hc : d.c + i.low * 2 ^ 16 = val (B.take k) * 2 ^ (16 - ct)) :
    ((ct : Int) + 8 = ((ct + 8 : Nat) : Int)) ∧ i.t + (ct + 8) = 8 * (k + 1) ∧
    u32 (d.c ||| B[k] * 2 ^ (8 - (ct : Int)).toNat) + i.low * 2 ^ 16 = val (B.take (k + 1)) * 2 ^ (16 - (ct + 8)) := by
  refine ⟨by omega, by omega, ?_⟩
  have hlt := hb B[k] (List.getElem_mem hk)
  rw [show (8 - (ct : Int)).toNat = 8 - ct by omega, show 16 - (ct + 8) = 8 - ct by omega]
  have ev : val (B.take (k + 1)) = 256 * val (B.take k) + B[k] := by
    rw [List.take_succ_eq_append_getElem hk, val_append_one]
  have e16 : (2 : Nat) ^ (16 - ct) = 256 * 2 ^ (8 - ct) := by
    rw [show 16 - ct = 8 + (8 - ct) by omega, Nat.pow_add]
  have em : i.low * 2 ^ 16 = i.low * 2 ^ ct * 2 ^ (16 - ct) := by
    rw [Nat.mul_assoc, ← Nat.pow_add]; congr 2; omega
  have hmod : d.c % 2 ^ (16 - ct) = 0 := by
    have : d.c = (val (B.take k) - i.low * 2 ^ ct) * 2 ^ (16 - ct) := by rw [Nat.sub_mul, ← hc, ← em]; omega
    rw [this]
    exact Nat.mul_mod_left _ _
  have hx : B[k] * 2 ^ (8 - ct) < 2 ^ (16 - ct) := by
    rw [e16]; exact Nat.mul_lt_mul_of_pos_right hlt (Nat.two_pow_pos _)
  rw [or_add hmod hx]
  have hsum : d.c + B[k] * 2 ^ (8 - ct) + i.low * 2 ^ 16 = val (B.take (k + 1)) * 2 ^ (8 - ct) := by
    rw [ev, Nat.add_mul, Nat.mul_comm 256, Nat.mul_assoc, ← e16]
    omega
  have hlt32 : d.c + B[k] * 2 ^ (8 - ct) < 2 ^ 32 := by
    have hn : Num { d with c := d.c + B[k] * 2 ^ (8 - ct), ct := ((ct + 8 : Nat) : Int), data := stuff (B.drop (k + 1)) ++ tail } i.low i.t B tail :=
      .inl ⟨k + 1, ct + 8, rfl, by omega, by omega, by omega, by rw [show 16 - (ct + 8) = 8 - ct by omega]; exact hsum, rfl⟩
    have h1 := hn.le hb i.a
    have h2 := hr.has.2
    have h3 := hr.hi
    dsimp only at h1
    omega
  rw [u32_eq hlt32]
  exact hsum

theorem stuff_drop {B : List Nat} {k : Nat} (hk : k < B.length) (tail : List Nat) :
    stuff (B.drop k) ++ tail = if B[k] = 0xFF then B[k] :: 0x00 :: (stuff (B.drop (k + 1)) ++ tail) else B[k] :: (stuff (B.drop (k + 1)) ++ tail) := by
  rw [List.drop_eq_getElem_cons hk, stuff]
  split <;> rfl

/-- What is read until there are more than 8 bits. -/
theorem fill_spec {B tail : List Nat} (hb : ∀ b ∈ B, b < 256) {m : Nat} {rest : List Nat} (htail : tail = 0xFF :: m :: rest) (hm : m ≠ 0)
    (j : Nat) {d : Dec} {i : Iv} (h : DecR d i B tail) (hj : d.ct ≤ 8 → d.ct ≥ 0 → 16 < 8 * j + d.ct) :
    ∃ d' : Dec, (fill d.a d.c d.st d.ct d.startup d.nopadding d.data = (d', .ok ()) ∨
        fill d.a d.c d.st d.ct d.startup d.nopadding d.data = (d', .marker) ∧ d.nopadding = true ∧ d'.nopadding = false) ∧
      DecR d' i B tail ∧ (d'.ct = -1 ∨ 8 < d'.ct ∧ d'.ct ≤ 16) ∧ d'.startup = d.startup ∧ (d.nopadding = false → d'.nopadding = false) := by
  induction j generalizing d with
  | zero =>
    have : ¬(d.ct ≤ 8 ∧ d.ct ≥ 0) := by omega
    refine ⟨d, .inl ?_, h, ?_, rfl, id⟩
    · rw [fill.eq_def, if_neg this]
    · rcases h.num with ⟨k, ct, e, h1, _⟩ | ⟨e, _⟩ <;> omega
  | succ j ih =>
    by_cases hl : d.ct ≤ 8 ∧ d.ct ≥ 0
    · rcases h.num with ⟨k, ct, e, h1, h2, h3, h4, h5⟩ | ⟨e, _⟩
      · rw [fill.eq_def, if_pos hl, h5]
        rcases Nat.lt_or_ge k B.length with hk | hk
        · obtain ⟨e1, e2, e3⟩ := Num.byte h hb (ct := ct) (by omega) h2 hk h4
          have hd : DecR { d with c := u32 (d.c ||| B[k] * 2 ^ (8 - (ct : Int)).toNat), ct := (ct : Int) + 8, data := stuff (B.drop (k + 1)) ++ tail } i B tail :=
            ⟨h.a, h.st, h.hi, h.has, .inl ⟨k + 1, ct + 8, e1, by omega, e2, by omega, e3, rfl⟩⟩
          obtain ⟨d', g1, g2, g3, g4, g5⟩ := ih hd (by dsimp only; omega)
          refine ⟨d', ?_, g2, g3, g4, g5⟩
          rw [stuff_drop hk, e]
          by_cases hff : B[k] = 0xFF
          · rw [if_pos hff]
            dsimp only
            rw [if_pos hff, if_pos rfl]
            rw [hff] at g1
            exact g1
          · rw [if_neg hff]
            dsimp only
            rw [if_neg hff]
            exact g1
        · rw [List.drop_eq_nil_of_le hk, htail]
          simp only [stuff, List.nil_append, if_true]
          rw [if_neg hm]
          have hcl : Num { d with ct := -1, data := 0xFF :: m :: rest } i.low i.t B tail := by
            refine .inr ⟨rfl, ?_, htail.symm⟩
            have hkk : k = B.length := by omega
            rw [List.take_of_length_le hk] at h4
            dsimp only
            rw [h4, Nat.mul_assoc]
            congr 1
            rw [show (256 : Nat) ^ B.length = 2 ^ (i.t + ct) by rw [h2, Nat.pow_mul, hkk], ← Nat.pow_add]
            congr 1
            omega
          rw [← htail] at hcl ⊢
          cases hn : d.nopadding with
          | true =>
            refine ⟨⟨d.a, d.c, d.st, -1, tail, d.startup, false⟩, .inr ⟨by rw [if_pos rfl], rfl, rfl⟩, ⟨h.a, h.st, h.hi, h.has, hcl⟩, .inl rfl, rfl, fun h => by cases h⟩
          | false =>
            refine ⟨⟨d.a, d.c, d.st, -1, tail, d.startup, false⟩, .inl (by rw [if_neg (by decide)]), ⟨h.a, h.st, h.hi, h.has, hcl⟩, .inl rfl, rfl, fun h => rfl⟩
      · omega
    · refine ⟨d, .inl ?_, h, ?_, rfl, id⟩
      · rw [fill.eq_def, if_neg hl]
      · rcases h.num with ⟨k, ct, e, h1, _⟩ | ⟨e, _⟩ <;> omega

/-- A shift of the registers. -/
theorem DecR.shift {d : Dec} {i : Iv} {B tail : List Nat} (hb : ∀ b ∈ B, b < 256) (h : DecR d i B tail) (hct : d.ct = -1 ∨ 8 < d.ct ∧ d.ct ≤ 16)
    (ha : 2 * i.a ≤ 0x10000) (su np : Bool) :
    DecR ⟨u32 (2 * d.a), u32 (2 * d.c), d.st, if d.ct ≥ 0 then d.ct - 1 else d.ct, d.data, su, np⟩ (i.finer 1) B tail := by
  have hc := h.c_lt hb
  have ea := h.a
  refine ⟨?_, h.st, by rw [Iv.finer_a]; exact ha, h.has.finer, ?_⟩
  · rw [u32_eq (by omega), Iv.finer_a, ea]
  · have e2 : u32 (2 * d.c) = 2 * d.c := u32_eq (by omega)
    unfold Num
    simp only [Iv.finer, e2, Nat.pow_one]
    rcases h.num with ⟨k, ct, e, h1, h2, h3, h4, h5⟩ | ⟨e, h2, h3⟩
    · refine .inl ⟨k, ct - 1, by rw [if_pos (by omega)]; omega, by omega, by omega, h3, ?_, h5⟩
      rw [show 16 - (ct - 1) = (16 - ct) + 1 by omega, Nat.pow_succ _ (16 - ct), ← Nat.mul_assoc (val _), ← h4]
      omega
    · refine .inr ⟨by rw [if_neg (by omega)]; exact e, ?_, h3⟩
      rw [show i.t + 1 + 16 = i.t + 16 + 1 by omega, Nat.pow_succ _ (i.t + 16), ← Nat.mul_assoc (val _), ← h2,
        show 2 * d.c + i.low * 2 * 2 ^ 16 = (d.c + i.low * 2 ^ 16) * 2 by omega, Nat.mul_right_comm]

theorem renormd_spec {B tail : List Nat} (hb : ∀ b ∈ B, b < 256) {m : Nat} {rest : List Nat} (htail : tail = 0xFF :: m :: rest) (hm : m ≠ 0)
    (n : Nat) {d : Dec} {i : Iv} (h : DecR d i B tail) (hn : Enough n d.startup i.a) :
    ∃ d' : Dec, ((renormd n d = (d', .ok ()) ∧ d'.startup = false ∧ DecR d' (i.grow n d.startup) B tail) ∨
        (renormd n d = (d', .marker) ∧ d.nopadding = true ∧ d'.nopadding = false ∧ ∃ i', DecR d' i' B tail ∧ Enough n d'.startup i'.a ∧
          i'.grow n d'.startup = i.grow n d.startup)) ∧ (d.nopadding = false → d'.nopadding = false) := by
  induction n generalizing d i with
  | zero => exact ⟨d, .inl ⟨rfl, hn.zero.1, h⟩, id⟩
  | succ n ih =>
    rw [renormd, Iv.grow, h.a]
    by_cases hl : i.a < 0x8000 ∨ d.startup = true
    · rw [if_pos hl, if_pos hl]
      obtain ⟨d', f1, f2, f3, f4, f5⟩ := fill_spec hb htail hm 3 h (by omega)
      rw [h.a] at f1
      have hnx := hn.next hl
      have ha : 2 * i.a ≤ 0x10000 := hnx.le
      have ea : u32 (2 * d'.a) = 2 * i.a := by rw [f2.a]; exact u32_eq (by omega)
      rcases f1 with f1 | ⟨f1, f6, f7⟩
      · rw [f1]
        dsimp only
        have hs := f2.shift hb f3 ha (if 2 * i.a = 0x10000 then false else d.startup) d'.nopadding
        obtain ⟨d2, g1, g2⟩ := ih hs (by dsimp only; rw [Iv.finer_a]; exact hnx)
        rw [f4, show (if u32 (2 * d'.a) = 0x10000 then false else d.startup) = (if 2 * i.a = 0x10000 then false else d.startup) by rw [ea]]
        refine ⟨d2, ?_, fun h => g2 (f5 h)⟩
        rcases g1 with g1 | ⟨g1, g3, g4, i', g5, g6, g7⟩
        · exact .inl g1
        · refine .inr ⟨g1, ?_, g4, i', g5, g6.more _ (by omega), ?_⟩
          · cases hd : d.nopadding with
            | true => rfl
            | false => rw [f5 hd] at g3; cases g3
          · rw [← g7]
            exact Iv.grow_more n g6 _ (by omega)
      · rw [f1]
        dsimp only
        refine ⟨d', .inr ⟨rfl, f6, f7, i, f2, ?_, ?_⟩, f5⟩
        · rw [f4]; exact hn
        · rw [f4, Iv.grow, if_pos hl]
    · rw [if_neg hl, if_neg hl]
      refine ⟨d, .inl ⟨rfl, ?_, h⟩, id⟩
      cases hs : d.startup with
      | true => exact absurd (.inr hs) hl
      | false => rfl

/-! ## The decision -/

theorem Num.sub {d : Dec} {low t : Nat} {B tail : List Nat} (h : Num d low t B tail) {m : Nat} (hm : m * 2 ^ 16 ≤ d.c) (a : Nat) (st : Cx → St) :
    Num { d with c := d.c - m * 2 ^ 16, a := a, st := st } (low + m) t B tail := by
  have e : d.c - m * 2 ^ 16 + (low + m) * 2 ^ 16 = d.c + low * 2 ^ 16 := by omega
  unfold Num
  dsimp only
  rw [e]
  exact h

theorem setSt_self (st : Cx → St) (cx : Cx) : setSt st cx (st cx) = st := by
  funext x
  unfold setSt
  split
  · rename_i h; rw [h]
  · rfl

/-- The decoder finds the decision of which the interval has the code. -/
theorem decision_spec {B tail : List Nat} (hb : ∀ b ∈ B, b < 256) {d : Dec} {i : Iv} (h : DecR d i B tail) (hok : i.Ok) (cx : Cx) (pix : Bool)
    (hp : (i.narrow cx pix).Has B) : ∃ d', decision d cx = (d', pix) ∧ DecR d' (i.narrow cx pix) B tail ∧ d'.startup = d.startup ∧
      d'.nopadding = d.nopadding := by
  obtain ⟨l1, l2⟩ := (hok.good cx).lsz
  obtain ⟨_, _, _, p4⟩ := part_facts (hok.good cx) hok.lo hok.hi pix
  have hlo := hok.lo
  have hhi := hok.hi
  have hc := h.c_lt hb
  have hle := h.num.le hb (i.a - lsz (i.st cx))
  have est : d.st = i.st := h.st
  have esub : sub32 d.a (lsz (i.st cx)) = i.a - lsz (i.st cx) := by rw [h.a]; exact sub32_eq (by omega) (by omega)
  have hdiv : d.c / 2 ^ 16 ≥ i.a - lsz (i.st cx) ↔ (i.a - lsz (i.st cx)) * 2 ^ 16 ≤ d.c := Nat.le_div_iff_mul_le (by decide)
  have hlow : ∀ st, (i.a - lsz (i.st cx)) * 2 ^ 16 ≤ d.c → Num { d with c := d.c - (i.a - lsz (i.st cx)) * 2 ^ 16, a := lsz (i.st cx), st := st }
      (i.low + (i.a - lsz (i.st cx))) i.t B tail := fun st hm => h.num.sub hm _ _
  have hsub : (i.a - lsz (i.st cx)) * 2 ^ 16 ≤ d.c → sub32 d.c (u32 ((i.a - lsz (i.st cx)) * 2 ^ 16)) = d.c - (i.a - lsz (i.st cx)) * 2 ^ 16 := by
    intro hm
    rw [u32_eq (by omega), sub32_eq hm (by omega)]
  have hnum := h.num
  unfold decision
  simp only [est, esub]
  unfold Iv.narrow at hp ⊢
  unfold part at hp p4 ⊢
  simp only at hp p4 ⊢
  generalize hq : lsz (i.st cx) = q at *
  generalize hmm : i.a - q = m at *
  have ha : i.a = m + q := by omega
  have has1 := hp.1
  have has2 := hp.2
  simp only at has1 has2
  by_cases hup : m * 2 ^ 16 ≤ d.c
  · rw [if_pos (hdiv.2 hup), hsub hup]
    have hup' := hle.1 hup
    by_cases hx : m < q
    · rw [if_pos hx]
      have hpx : pix = mps (i.st cx) := by
        rcases Classical.em (pix = mps (i.st cx)) with hpx | hpx
        · exact hpx
        · rw [if_neg hpx, if_pos hx] at has2
          simp only [Nat.add_zero] at has2
          omega
      subst hpx
      rw [if_pos rfl, if_neg (by omega), if_pos hx] at hp p4 ⊢
      exact ⟨_, rfl, ⟨rfl, rfl, p4, hp, hlow _ hup⟩, rfl, rfl⟩
    · rw [if_neg hx]
      have hpx : pix ≠ mps (i.st cx) := by
        intro hpx
        rw [if_pos hpx] at has2
        split at has2
        · simp only [Nat.add_zero] at has2; omega
        · simp only [Nat.add_zero] at has2; omega
      have hpx' : pix = !mps (i.st cx) := by
        cases pix <;> cases hm : mps (i.st cx) <;> simp_all
      rw [if_neg hpx, if_neg hx] at hp p4 ⊢
      rw [hpx']
      exact ⟨_, rfl, ⟨rfl, rfl, p4, hp, hlow _ hup⟩, rfl, rfl⟩
  · rw [if_neg (fun hh => hup (hdiv.1 hh))]
    have hup' : ¬((i.low + m) * 256 ^ B.length ≤ val B * 2 ^ i.t) := fun hh => hup (hle.2 hh)
    by_cases h8 : m < 0x8000
    · rw [if_pos h8]
      by_cases hx : m < q
      · rw [if_pos hx]
        have hpx : pix ≠ mps (i.st cx) := by
          intro hpx
          rw [if_pos hpx, if_neg (by omega), if_pos hx] at has1
          exact hup' has1
        have hpx' : pix = !mps (i.st cx) := by
          cases pix <;> cases hm : mps (i.st cx) <;> simp_all
        rw [if_neg hpx, if_pos hx] at hp p4 ⊢
        rw [hpx']
        exact ⟨_, rfl, ⟨rfl, rfl, p4, hp, hnum⟩, rfl, rfl⟩
      · rw [if_neg hx]
        have hpx : pix = mps (i.st cx) := by
          rcases Classical.em (pix = mps (i.st cx)) with hpx | hpx
          · exact hpx
          · rw [if_neg hpx, if_neg hx] at has1
            exact absurd has1 hup'
        subst hpx
        rw [if_pos rfl, if_neg (by omega), if_neg hx] at hp p4 ⊢
        exact ⟨_, rfl, ⟨rfl, rfl, p4, hp, hnum⟩, rfl, rfl⟩
    · rw [if_neg h8]
      have hpx : pix = mps (i.st cx) := by
        rcases Classical.em (pix = mps (i.st cx)) with hpx | hpx
        · exact hpx
        · rw [if_neg hpx, if_neg (by omega)] at has1
          exact absurd has1 hup'
      subst hpx
      rw [if_pos rfl, if_pos (by omega)] at hp p4 ⊢
      simp only [setSt_self] at hp ⊢
      exact ⟨_, rfl, ⟨rfl, rfl, p4, hp, hnum⟩, rfl, rfl⟩

end Qm
