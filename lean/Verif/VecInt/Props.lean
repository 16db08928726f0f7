import Verif.VecInt.Model

/-!
# Vectors of 16-bit numbers: products, adaption, and extremes
-/

namespace VecInt
namespace Spec

/-- The sum of the first `n` values. -/
def total (f : Nat → Int) : Nat → Int
  | 0 => 0
  | n + 1 => total f n + f n

/-- A number without its sign. -/
def size (z : Int) : Int := if z < 0 then -z else z

/-- A number of 16 bits. -/
def In16 (z : Int) : Prop := -32768 ≤ z ∧ z ≤ 32767

end Spec

open Spec

theorem total_mono {f : Nat → Int} (h : ∀ k, 0 ≤ f k) (a : Nat) : ∀ b, total f a ≤ total f (a + b) := by
  intro b
  induction b with
  | zero => exact Int.le_refl _
  | succ b ih => have := h (a + b); have e : total f (a + (b + 1)) = total f (a + b) + f (a + b) := rfl; omega

theorem total_shift (f : Nat → Int) (a : Nat) : ∀ b, total (fun k => f (a + k)) b = total f (a + b) - total f a := by
  intro b
  induction b with
  | zero => simp [total]
  | succ b ih =>
    have e : total f (a + (b + 1)) = total f (a + b) + f (a + b) := rfl
    have e' : total (fun k => f (a + k)) (b + 1) = total (fun k => f (a + k)) b + f (a + b) := rfl
    omega

theorem total_congr {f g : Nat → Int} : ∀ n, (∀ k < n, f k = g k) → total f n = total g n := by
  intro n
  induction n with
  | zero => intro _; rfl
  | succ n ih => intro h; simp only [total]; rw [ih fun k hk => h k (by omega), h n (by omega)]

theorem size_total (f : Nat → Int) : ∀ n, size (total f n) ≤ total (fun k => size (f k)) n := by
  intro n
  induction n with
  | zero => simp [total, size]
  | succ n ih =>
    have e : total f (n + 1) = total f n + f n := rfl
    have e' : total (fun k => size (f k)) (n + 1) = total (fun k => size (f k)) n + size (f n) := rfl
    have q : size (total f n + f n) ≤ size (total f n) + size (f n) := by simp only [size]; split <;> split <;> split <;> omega
    rw [e, e']
    omega

theorem dotLoop_spec {x y : List Int} {px py : Nat} {f : Nat → Int} : ∀ (n i : Nat) (z : Int),
    (∀ k, i ≤ k → k < i + n → ∃ a b, x[px + k]? = some a ∧ y[py + k]? = some b ∧ a*b = f k) →
    size z + (total (fun k => size (f k)) (i + n) - total (fun k => size (f k)) i) ≤ 2147483647 →
    dotLoop x y px py n i z = some (z + (total f (i + n) - total f i)) := by
  intro n
  induction n with
  | zero => intro i z _ _; simp [dotLoop]
  | succ n ih =>
    intro i z h hb
    obtain ⟨a, b, ha, hb', e⟩ := h i (by omega) (by omega)
    have hm := total_mono (f := fun k => size (f k)) (by intro k; simp only [size]; split <;> omega) (i + 1) n
    rw [show i + (n + 1) = i + 1 + n by omega] at hb ⊢
    have hs : total (fun k => size (f k)) (i + 1) = total (fun k => size (f k)) i + size (f i) := rfl
    have ht : total f (i + 1) = total f i + f i := rfl
    have q : size (z + f i) ≤ size z + size (f i) := by simp only [size]; split <;> split <;> split <;> omega
    have q0 : size (z + f i) ≤ 2147483647 := by omega
    have q1 : size (f i) ≤ 2147483647 := by have : 0 ≤ size z := by (simp only [size]; split <;> omega)
                                            omega
    simp only [dotLoop]
    rw [ha, hb', Option.bind_some, Option.bind_some, e, if_pos, ih (i + 1) (z + f i) ?_ (by omega), ht]
    · congr 1; omega
    · intro k h1 h2; exact h k (by omega) (by omega)
    · simp only [fits, size] at *
      constructor
      · simp only [decide_eq_true_eq]; split at q1 <;> omega
      · simp only [decide_eq_true_eq]; split at q0 <;> omega

theorem at_ {l : List Int} {i : Nat} (h : i < l.length) : l[i]? = some (l.getD i 0) := by
  simp [List.getElem?_eq_getElem h]

/-- The circular product is the sum of the products of the numbers of the one vector, from `pos` on and round, and those of the
other. -/
theorem circular_dot (x y : List Int) (n pos : Nat) (hx : x.length = n) (hy : y.length = n) (hp : pos ≤ n)
    (hb : total (fun i => size (x.getD ((pos + i) % n) 0 * y.getD i 0)) n ≤ 2147483647) :
    circularDot x y n pos = some (total (fun i => x.getD ((pos + i) % n) 0 * y.getD i 0) n) := by
  generalize hf : (fun i => x.getD ((pos + i) % n) 0 * y.getD i 0) = f
  have hf' : ∀ i, f i = x.getD ((pos + i) % n) 0 * y.getD i 0 := by intro i; rw [← hf]
  have hb : total (fun i => size (f i)) n ≤ 2147483647 := by rw [← hf]; exact hb
  have hz : ∀ k, 0 ≤ size (f k) := by intro k; simp only [size]; split <;> omega
  have m1 := total_mono (f := fun k => size (f k)) hz (n - pos) pos
  have m0 := total_mono (f := fun k => size (f k)) hz 0 (n - pos)
  rw [show n - pos + pos = n by omega] at m1
  rw [Nat.zero_add] at m0
  have t0 : total (fun k => size (f k)) 0 = 0 := rfl
  have s0 : size 0 = 0 := rfl
  have d1 : dot x pos y 0 (n - pos) = some (total f (n - pos)) := by
    unfold dot
    rw [dotLoop_spec (f := f) (n - pos) 0 0 ?_ (by rw [Nat.zero_add]; omega)]
    · simp [total]
    · intro k _ hk
      refine ⟨_, _, at_ (by omega), at_ (by omega), ?_⟩
      rw [hf', Nat.mod_eq_of_lt (by omega), Nat.zero_add]
  have sh := total_shift (fun k => size (f k)) (n - pos) pos
  rw [show n - pos + pos = n by omega] at sh
  have sf := total_shift f (n - pos) pos
  rw [show n - pos + pos = n by omega] at sf
  have d2 : dot x 0 y (n - pos) pos = some (total f n - total f (n - pos)) := by
    unfold dot
    rw [dotLoop_spec (f := fun k => f (n - pos + k)) pos 0 0 ?_ ?_]
    · rw [Nat.zero_add, sf]; simp [total]
    · intro k _ hk
      refine ⟨_, _, at_ (by omega), at_ (by omega), ?_⟩
      rw [hf', show pos + (n - pos + k) = k + n by omega, Nat.add_mod_right, Nat.mod_eq_of_lt (by omega), Nat.zero_add]
    · rw [Nat.zero_add]
      have z0 : total (fun k => size (f (n - pos + k))) 0 = 0 := rfl
      omega
  have hs := size_total f n
  unfold circularDot
  rw [d1, d2, Option.bind_some, Option.bind_some, if_pos]
  · congr 1; omega
  · have : size (total f n) ≤ 2147483647 := by omega
    simp only [fits, size, decide_eq_true_eq] at *
    split at this <;> omega

/-- Three numbers from the second on and round. -/
example : circularDot [1, 2, 3] [10, 20, 30] 3 1 = some (2*10 + 3*20 + 1*30) ∧
    total (fun i => size ([1, 2, 3].getD ((1 + i) % 3) 0 * [10, 20, 30].getD i 0)) 3 ≤ 2147483647 := by decide

/-- The sum may not be in 32 bits for only two numbers. -/
example : circularDot [-32768, -32768] [-32768, -32768] 2 0 = none := by decide

theorem lmsLoop_spec (x : List Int) (px py : Nat) (error : Int) : ∀ (n i : Nat) (y : List Int), px + i + n ≤ x.length →
    py + i + n ≤ y.length → ∃ r, lmsLoop x px py error n i y = some r ∧ r.length = y.length ∧
      (∀ k, i ≤ k → k < i + n → r.getD (py + k) 0 = i16 (y.getD (py + k) 0 + i16 (x.getD (px + k) 0 * error/32768))) ∧
      (∀ j, j < py + i ∨ py + i + n ≤ j → r.getD j 0 = y.getD j 0) := by
  intro n
  induction n with
  | zero => intro i y _ _; exact ⟨y, rfl, rfl, by intros; omega, by intros; rfl⟩
  | succ n ih =>
    intro i y h1 h2
    generalize hv : i16 (y.getD (py + i) 0 + i16 (x.getD (px + i) 0 * error/32768)) = v
    obtain ⟨r, e, hl, ha, hb⟩ := ih (i + 1) (y.set (py + i) v) (by omega) (by rw [List.length_set]; omega)
    refine ⟨r, ?_, by rw [hl, List.length_set], ?_, ?_⟩
    · simp only [lmsLoop]
      rw [at_ (by omega), at_ (by omega), Option.bind_some, Option.bind_some, hv, e]
    · intro k k1 k2
      by_cases c : k = i
      · subst c
        rw [hb _ (by omega), hv]
        simp [List.getD_eq_getElem?_getD, List.getElem?_set]
        rw [if_pos (by omega)]; rfl
      · rw [ha k (by omega) (by omega)]
        congr 2
        simp only [List.getD_eq_getElem?_getD]
        rw [List.getElem?_set_ne (by omega)]
    · intro j hj
      rw [hb j (by omega)]
      simp only [List.getD_eq_getElem?_getD]
      rw [List.getElem?_set_ne (by omega)]

theorem i16_spec (a b : Int) : In16 (i16 (a + i16 b)) ∧ (i16 (a + i16 b) - (a + b)) % 65536 = 0 := by
  unfold i16 In16; omega

/-- Each number of the second vector is changed by that of the first, from `pos` on and round, times the error, as far as 16 bits
hold the result. -/
theorem circular_lms (x y : List Int) (n pos : Nat) (error : Int) (hx : x.length = n) (hy : y.length = n) (hp : pos ≤ n) :
    ∃ r, circularLms x y n pos error = some r ∧ r.length = n ∧ ∀ i < n, In16 (r.getD i 0) ∧
      (r.getD i 0 - (y.getD i 0 + x.getD ((pos + i) % n) 0 * error/32768)) % 65536 = 0 ∧
      (In16 (y.getD i 0 + x.getD ((pos + i) % n) 0 * error/32768) →
        r.getD i 0 = y.getD i 0 + x.getD ((pos + i) % n) 0 * error/32768) := by
  obtain ⟨r, e, hl, ha, hb⟩ := lmsLoop_spec x pos 0 error (n - pos) 0 y (by omega) (by omega)
  obtain ⟨s, e', hl', ha', hb'⟩ := lmsLoop_spec x 0 (n - pos) error pos 0 r (by omega) (by omega)
  refine ⟨s, by unfold circularLms lms; rw [e, Option.bind_some, e'], by omega, ?_⟩
  intro i hi
  have hv : s.getD i 0 = i16 (y.getD i 0 + i16 (x.getD ((pos + i) % n) 0 * error/32768)) := by
    by_cases c : i < n - pos
    · rw [hb' i (by omega)]
      have := ha i (by omega) (by omega)
      rw [Nat.zero_add] at this
      rw [this, Nat.mod_eq_of_lt (by omega)]
    · have := ha' (i - (n - pos)) (by omega) (by omega)
      rw [show n - pos + (i - (n - pos)) = i by omega, hb i (by omega), Nat.zero_add] at this
      rw [this, show pos + i = i - (n - pos) + n by omega, Nat.add_mod_right, Nat.mod_eq_of_lt (by omega)]
  obtain ⟨p, q⟩ := i16_spec (y.getD i 0) (x.getD ((pos + i) % n) 0 * error/32768)
  rw [hv]
  refine ⟨p, q, fun h => ?_⟩
  unfold In16 at *
  omega

/-- The greatest error and number: 16 bits do not hold their product. -/
example : circularLms [100, -32768, 3] [10, 20, 30] 3 1 (-32768) = some [-32758, 17, -70] := by decide

theorem minMaxLoop_spec : ∀ (x : List Int) (M m : Int),
    let p := minMaxLoop x M m
    (M ≤ p.1 ∧ ∀ a ∈ x, a ≤ p.1) ∧ (p.2 ≤ m ∧ ∀ a ∈ x, p.2 ≤ a) ∧ (p.1 = M ∨ p.1 ∈ x) ∧ (p.2 = m ∨ p.2 ∈ x) := by
  intro x
  induction x with
  | nil => intro M m; simp [minMaxLoop]
  | cons a x ih =>
    intro M m
    obtain ⟨⟨h1, h2⟩, ⟨h3, h4⟩, h5, h6⟩ := ih (if a > M then a else M) (if a < m then a else m)
    have e0 : minMaxLoop (a :: x) M m = minMaxLoop x (if a > M then a else M) (if a < m then a else m) := rfl
    rw [e0]
    generalize minMaxLoop x (if a > M then a else M) (if a < m then a else m) = p at *
    simp only at *
    refine ⟨⟨by split at h1 <;> omega, ?_⟩, ⟨by split at h3 <;> omega, ?_⟩, ?_, ?_⟩
    · intro b hb
      cases List.mem_cons.1 hb with
      | inl e => subst e; split at h1 <;> omega
      | inr e => exact h2 b e
    · intro b hb
      cases List.mem_cons.1 hb with
      | inl e => subst e; split at h3 <;> omega
      | inr e => exact h4 b e
    · cases h5 with
      | inl e =>
        by_cases c : a > M
        · rw [if_pos c] at e; exact Or.inr (by rw [e]; simp)
        · rw [if_neg c] at e; exact Or.inl e
      | inr e => exact Or.inr (List.mem_cons_of_mem _ e)
    · cases h6 with
      | inl e =>
        by_cases c : a < m
        · rw [if_pos c] at e; exact Or.inr (by rw [e]; simp)
        · rw [if_neg c] at e; exact Or.inl e
      | inr e => exact Or.inr (List.mem_cons_of_mem _ e)

/-- The greatest and the least number are stored, and the greatest size is returned. -/
theorem extremes (x : List Int) (hne : x ≠ []) (h : ∀ a ∈ x, In16 a) :
    ∃ size' M m, minMax x = (size', M, m) ∧ (M ∈ x ∧ ∀ a ∈ x, a ≤ M) ∧ (m ∈ x ∧ ∀ a ∈ x, m ≤ a) ∧
      (∃ a ∈ x, size a = size') ∧ ∀ a ∈ x, size a ≤ size' := by
  obtain ⟨⟨h1, h2⟩, ⟨h3, h4⟩, h5, h6⟩ := minMaxLoop_spec x (-32768) 32767
  generalize hp : minMaxLoop x (-32768) 32767 = p at *
  obtain ⟨M, m⟩ := p
  simp only at *
  obtain ⟨a, ha⟩ := List.exists_mem_of_ne_nil x hne
  have hM : M ∈ x := by
    cases h5 with
    | inl e => have := h2 a ha; have := (h a ha).1; rw [show M = a by omega]; exact ha
    | inr e => exact e
  have hm : m ∈ x := by
    cases h6 with
    | inl e => have := h4 a ha; have := (h a ha).2; rw [show m = a by omega]; exact ha
    | inr e => exact e
  have hmM := h2 m hm
  refine ⟨_, M, m, by unfold minMax; rw [hp], ⟨hM, h2⟩, ⟨hm, h4⟩, ?_, ?_⟩
  · simp only
    by_cases c : (if m < 0 then -m else m) > M
    · rw [if_pos c]; exact ⟨m, hm, rfl⟩
    · rw [if_neg c]; refine ⟨M, hM, ?_⟩; unfold size; split at c <;> split <;> omega
  · intro b hb
    have := h2 b hb
    have := h4 b hb
    unfold size
    simp only
    split <;> split <;> split <;> omega

example : minMax [5, -32768, 7] = (32768, 7, -32768) ∧ minMax [5, 3] = (5, 5, 3) ∧ minMax [-5, -3] = (5, -3, -5) := by decide

end VecInt
