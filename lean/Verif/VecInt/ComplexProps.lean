import Verif.VecInt.Complex
import Verif.VecInt.Props

/-!
# Vectors of complex 16-bit numbers: products and adaption
-/

namespace VecInt
namespace Spec

/-- A number of a vector. -/
def nth (l : List Cx) (i : Nat) : Cx := l.getD i ⟨0, 0⟩

/-- The product of two complex numbers. -/
def mul (a b : Cx) : Cx := ⟨a.re*b.re - a.im*b.im, a.re*b.im + a.im*b.re⟩

/-- The conjugate of a complex number. -/
def conj (a : Cx) : Cx := ⟨a.re, -a.im⟩

end Spec

open Spec

theorem size_add (a b : Int) : size (a + b) ≤ size a + size b := by
  simp only [size]; split <;> split <;> split <;> omega

theorem size_nonneg (a : Int) : 0 ≤ size a := by simp only [size]; split <;> omega

theorem fits_of {z : Int} (h : size z ≤ 2147483647) : fits z = true := by
  simp only [fits, size, decide_eq_true_eq] at *
  split at h <;> omega

theorem cat_ {l : List Cx} {i : Nat} (h : i < l.length) : l[i]? = some (nth l i) := by
  simp [nth, List.getElem?_eq_getElem h]

theorem cdotLoop_spec {x y : List Cx} {px py : Nat} {f : Nat → Cx} : ∀ (n i : Nat) (z : Cx),
    (∀ k, i ≤ k → k < i + n → ∃ a b, x[px + k]? = some a ∧ y[py + k]? = some b ∧ mul a b = f k) →
    size z.re + (total (fun k => size (f k).re) (i + n) - total (fun k => size (f k).re) i) ≤ 2147483647 →
    size z.im + (total (fun k => size (f k).im) (i + n) - total (fun k => size (f k).im) i) ≤ 2147483647 →
    cdotLoop x y px py n i z = some ⟨z.re + (total (fun k => (f k).re) (i + n) - total (fun k => (f k).re) i),
      z.im + (total (fun k => (f k).im) (i + n) - total (fun k => (f k).im) i)⟩ := by
  intro n
  induction n with
  | zero => intro i z _ _ _; simp [cdotLoop]
  | succ n ih =>
    intro i z h hr hi
    obtain ⟨a, b, ha, hb, e⟩ := h i (by omega) (by omega)
    have er : a.re*b.re - a.im*b.im = (f i).re := by rw [← e]; rfl
    have ei : a.re*b.im + a.im*b.re = (f i).im := by rw [← e]; rfl
    have mr := total_mono (f := fun k => size (f k).re) (fun k => size_nonneg _) (i + 1) n
    have mi := total_mono (f := fun k => size (f k).im) (fun k => size_nonneg _) (i + 1) n
    rw [show i + (n + 1) = i + 1 + n by omega] at hr hi ⊢
    have sr : total (fun k => size (f k).re) (i + 1) = total (fun k => size (f k).re) i + size (f i).re := rfl
    have si : total (fun k => size (f k).im) (i + 1) = total (fun k => size (f k).im) i + size (f i).im := rfl
    have tr : total (fun k => (f k).re) (i + 1) = total (fun k => (f k).re) i + (f i).re := rfl
    have ti : total (fun k => (f k).im) (i + 1) = total (fun k => (f k).im) i + (f i).im := rfl
    have qr := size_add z.re (f i).re
    have qi := size_add z.im (f i).im
    have zr := size_nonneg z.re
    have zi := size_nonneg z.im
    simp only [cdotLoop]
    rw [ha, hb, Option.bind_some, Option.bind_some, er, ei,
      if_pos ⟨⟨fits_of (by omega), fits_of (by omega)⟩, fits_of (by omega), fits_of (by omega)⟩,
      ih (i + 1) _ (fun k h1 h2 => h k (by omega) (by omega)) (by simp only; omega) (by simp only; omega), tr, ti]
    simp only
    congr 2 <;> omega

/-- The circular product is the sum of the complex products of the numbers of the one vector, from `pos` on and round, and those of
the other. -/
theorem circular_cdot (x y : List Cx) (n pos : Nat) (hx : x.length = n) (hy : y.length = n) (hp : pos ≤ n)
    (hr : total (fun i => size (mul (nth x ((pos + i) % n)) (nth y i)).re) n ≤ 2147483647)
    (hi : total (fun i => size (mul (nth x ((pos + i) % n)) (nth y i)).im) n ≤ 2147483647) :
    circularCdot x y n pos = some ⟨total (fun i => (mul (nth x ((pos + i) % n)) (nth y i)).re) n,
      total (fun i => (mul (nth x ((pos + i) % n)) (nth y i)).im) n⟩ := by
  generalize hf : (fun i => mul (nth x ((pos + i) % n)) (nth y i)) = f
  have hf' : ∀ i, mul (nth x ((pos + i) % n)) (nth y i) = f i := by intro i; rw [← hf]
  simp only [hf'] at hr hi ⊢
  have en : n - pos + pos = n := by omega
  have mr := total_mono (f := fun k => size (f k).re) (fun k => size_nonneg _) (n - pos) pos
  have mi := total_mono (f := fun k => size (f k).im) (fun k => size_nonneg _) (n - pos) pos
  have mr0 := total_mono (f := fun k => size (f k).re) (fun k => size_nonneg _) 0 (n - pos)
  have mi0 := total_mono (f := fun k => size (f k).im) (fun k => size_nonneg _) 0 (n - pos)
  have shr := total_shift (fun k => size (f k).re) (n - pos) pos
  have shi := total_shift (fun k => size (f k).im) (n - pos) pos
  have sfr := total_shift (fun k => (f k).re) (n - pos) pos
  have sfi := total_shift (fun k => (f k).im) (n - pos) pos
  rw [en] at mr mi shr shi sfr sfi
  rw [Nat.zero_add] at mr0 mi0
  have t0 : ∀ g : Nat → Int, total g 0 = 0 := fun _ => rfl
  rw [t0] at mr0 mi0
  have s0 : size 0 = 0 := rfl
  have d1 : cdot x pos y 0 (n - pos) = some ⟨total (fun k => (f k).re) (n - pos), total (fun k => (f k).im) (n - pos)⟩ := by
    unfold cdot
    rw [cdotLoop_spec (f := f) (n - pos) 0 ⟨0, 0⟩ ?_ (by rw [Nat.zero_add, t0]; simp only; omega) (by rw [Nat.zero_add, t0]; simp only; omega)]
    · simp [t0]
    · intro k _ hk
      refine ⟨_, _, cat_ (by omega), cat_ (by omega), ?_⟩
      rw [← hf', Nat.mod_eq_of_lt (by omega), Nat.zero_add]
  have d2 : cdot x 0 y (n - pos) pos = some ⟨total (fun k => (f k).re) n - total (fun k => (f k).re) (n - pos),
      total (fun k => (f k).im) n - total (fun k => (f k).im) (n - pos)⟩ := by
    unfold cdot
    rw [cdotLoop_spec (f := fun k => f (n - pos + k)) pos 0 ⟨0, 0⟩ ?_ (by rw [Nat.zero_add, t0, shr]; simp only; omega)
      (by rw [Nat.zero_add, t0, shi]; simp only; omega)]
    · rw [Nat.zero_add, sfr, sfi]; simp [t0]
    · intro k _ hk
      refine ⟨_, _, cat_ (by omega), cat_ (by omega), ?_⟩
      rw [← hf', show pos + (n - pos + k) = k + n by omega, Nat.add_mod_right, Nat.mod_eq_of_lt (by omega), Nat.zero_add]
  have zr := size_total (fun k => (f k).re) n
  have zi := size_total (fun k => (f k).im) n
  have ar : total (fun k => (f k).re) (n - pos) + (total (fun k => (f k).re) n - total (fun k => (f k).re) (n - pos)) =
    total (fun k => (f k).re) n := by omega
  have ai : total (fun k => (f k).im) (n - pos) + (total (fun k => (f k).im) n - total (fun k => (f k).im) (n - pos)) =
    total (fun k => (f k).im) n := by omega
  unfold circularCdot
  rw [d1, d2, Option.bind_some, Option.bind_some]
  simp only
  rw [ar, ai, if_pos ⟨fits_of (by omega), fits_of (by omega)⟩]

/-- Two numbers from the second on and round: (3+4i)(5+6i) + (1+2i)(7+8i). -/
example : circularCdot [⟨1, 2⟩, ⟨3, 4⟩] [⟨5, 6⟩, ⟨7, 8⟩] 2 1 = some ⟨-18, 60⟩ := by decide

theorem clmsLoop_spec (x : List Cx) (px py : Nat) (e : Cx)
    (hf : ∀ a ∈ x, fits (a.im*e.im + a.re*e.re) = true ∧ fits (a.re*e.im - a.im*e.re) = true) : ∀ (n i : Nat) (y : List Cx),
    px + i + n ≤ x.length → py + i + n ≤ y.length → ∃ r, clmsLoop x px py e n i y = some r ∧ r.length = y.length ∧
      (∀ k, i ≤ k → k < i + n → nth r (py + k) =
        ⟨i16 ((nth y (py + k)).re + i16 (((nth x (px + k)).im*e.im + (nth x (px + k)).re*e.re)/4096)),
          i16 ((nth y (py + k)).im + i16 (((nth x (px + k)).re*e.im - (nth x (px + k)).im*e.re)/4096))⟩) ∧
      (∀ j, j < py + i ∨ py + i + n ≤ j → nth r j = nth y j) := by
  intro n
  induction n with
  | zero => intro i y _ _; exact ⟨y, rfl, rfl, by intros; omega, by intros; rfl⟩
  | succ n ih =>
    intro i y h1 h2
    generalize hv : (⟨i16 ((nth y (py + i)).re + i16 (((nth x (px + i)).im*e.im + (nth x (px + i)).re*e.re)/4096)),
          i16 ((nth y (py + i)).im + i16 (((nth x (px + i)).re*e.im - (nth x (px + i)).im*e.re)/4096))⟩ : Cx) = v
    obtain ⟨r, q, hl, ha, hb⟩ := ih (i + 1) (y.set (py + i) v) (by omega) (by rw [List.length_set]; omega)
    have hm : nth x (px + i) ∈ x := List.mem_of_getElem? (cat_ (by omega))
    have hn : ∀ j, j ≠ py + i → nth (y.set (py + i) v) j = nth y j := by
      intro j hj
      simp only [nth, List.getD_eq_getElem?_getD]
      rw [List.getElem?_set_ne (by omega)]
    refine ⟨r, ?_, by rw [hl, List.length_set], ?_, ?_⟩
    · simp only [clmsLoop]
      rw [cat_ (by omega), cat_ (by omega), Option.bind_some, Option.bind_some, if_pos (hf _ hm), hv, q]
    · intro k k1 k2
      by_cases c : k = i
      · subst c
        rw [hb _ (by omega), hv]
        simp [nth, List.getD_eq_getElem?_getD, List.getElem?_set]
        rw [if_pos (by omega)]; rfl
      · rw [ha k (by omega) (by omega), hn _ (by omega)]
    · intro j hj
      rw [hb j (by omega), hn j (by omega)]

/-- A complex number of 16 bits. -/
def Spec.CIn16 (a : Cx) : Prop := In16 a.re ∧ In16 a.im

theorem prod_le {a b : Int} (ha : In16 a) (hb : In16 b) : -1073741824 ≤ a*b ∧ a*b ≤ 1073741824 := by
  unfold In16 at *
  have h1 : 0 ≤ (32768 - a)*(32768 + b) := Int.mul_nonneg (by omega) (by omega)
  have h2 : 0 ≤ (32768 + a)*(32768 - b) := Int.mul_nonneg (by omega) (by omega)
  have h3 : 0 ≤ (32768 - a)*(32768 - b) := Int.mul_nonneg (by omega) (by omega)
  have h4 : 0 ≤ (32768 + a)*(32768 + b) := Int.mul_nonneg (by omega) (by omega)
  simp only [Int.sub_mul, Int.add_mul, Int.mul_sub, Int.mul_add] at h1 h2 h3 h4
  omega

/-- With an error whose parts are above -32768, the sums are in 32 bits. -/
theorem clms_fits {a e : Cx} (ha : CIn16 a) (he : CIn16 e) (hr : -32768 < e.re) :
    fits (a.im*e.im + a.re*e.re) = true ∧ fits (a.re*e.im - a.im*e.re) = true := by
  have p1 := prod_le ha.2 he.2
  have p3 := prod_le ha.1 he.2
  have h : ∀ b, In16 b → -1073709056 ≤ b*e.re ∧ b*e.re ≤ 1073709056 := by
    intro b hb
    obtain ⟨⟨e1, e2⟩, _⟩ := he
    unfold In16 at hb
    have h1 : 0 ≤ (32768 - b)*(32767 + e.re) := Int.mul_nonneg (by omega) (by omega)
    have h2 : 0 ≤ (32768 + b)*(32767 - e.re) := Int.mul_nonneg (by omega) (by omega)
    have h3 : 0 ≤ (32768 - b)*(32767 - e.re) := Int.mul_nonneg (by omega) (by omega)
    have h4 : 0 ≤ (32768 + b)*(32767 + e.re) := Int.mul_nonneg (by omega) (by omega)
    simp only [Int.sub_mul, Int.add_mul, Int.mul_sub, Int.mul_add] at h1 h2 h3 h4
    omega
  have p2 := h _ ha.1
  have p4 := h _ ha.2
  simp only [fits, decide_eq_true_eq]
  omega

/-- Each number of the second vector is changed by the conjugate of that of the first, from `pos` on and round, times the error, as
far as 16 bits hold the result: partial, as the real part of the error may not be -32768. -/
theorem circular_clms_partial (x y : List Cx) (n pos : Nat) (e : Cx) (hx : x.length = n) (hy : y.length = n) (hp : pos ≤ n)
    (h16 : ∀ a ∈ x, CIn16 a) (he : CIn16 e) (her : -32768 < e.re) :
    ∃ r, circularClms x y n pos e = some r ∧ r.length = n ∧ ∀ i < n, CIn16 (nth r i) ∧
      ((nth r i).re - ((nth y i).re + (mul (conj (nth x ((pos + i) % n))) e).re/4096)) % 65536 = 0 ∧
      ((nth r i).im - ((nth y i).im + (mul (conj (nth x ((pos + i) % n))) e).im/4096)) % 65536 = 0 := by
  have hf : ∀ a ∈ x, fits (a.im*e.im + a.re*e.re) = true ∧ fits (a.re*e.im - a.im*e.re) = true :=
    fun a ha => clms_fits (h16 a ha) he her
  obtain ⟨r, q, hl, ha, hb⟩ := clmsLoop_spec x pos 0 e hf (n - pos) 0 y (by omega) (by omega)
  obtain ⟨s, q', hl', ha', hb'⟩ := clmsLoop_spec x 0 (n - pos) e hf pos 0 r (by omega) (by omega)
  refine ⟨s, by unfold circularClms clms; rw [q, Option.bind_some, q'], by omega, ?_⟩
  intro i hi
  have hv : nth s i = ⟨i16 ((nth y i).re + i16 (((nth x ((pos + i) % n)).im*e.im + (nth x ((pos + i) % n)).re*e.re)/4096)),
      i16 ((nth y i).im + i16 (((nth x ((pos + i) % n)).re*e.im - (nth x ((pos + i) % n)).im*e.re)/4096))⟩ := by
    by_cases c : i < n - pos
    · rw [hb' i (by omega)]
      have := ha i (by omega) (by omega)
      rw [Nat.zero_add] at this
      rw [this, Nat.mod_eq_of_lt (by omega)]
    · have := ha' (i - (n - pos)) (by omega) (by omega)
      rw [show n - pos + (i - (n - pos)) = i by omega, hb i (by omega), Nat.zero_add] at this
      rw [this, show pos + i = i - (n - pos) + n by omega, Nat.add_mod_right, Nat.mod_eq_of_lt (by omega)]
  generalize nth x ((pos + i) % n) = a at *
  have er : (mul (conj a) e).re = a.im*e.im + a.re*e.re := by
    simp only [mul, conj, Int.neg_mul]; omega
  have ei : (mul (conj a) e).im = a.re*e.im - a.im*e.re := by
    simp only [mul, conj, Int.neg_mul]; omega
  rw [hv, er, ei]
  obtain ⟨p1, p2⟩ := i16_spec (nth y i).re ((a.im*e.im + a.re*e.re)/4096)
  obtain ⟨p3, p4⟩ := i16_spec (nth y i).im ((a.re*e.im - a.im*e.re)/4096)
  exact ⟨⟨p1, p3⟩, p2, p4⟩

example : circularClms [⟨4096, 0⟩, ⟨0, 4096⟩] [⟨10, 20⟩, ⟨30, 40⟩] 2 1 ⟨3, 5⟩ = some [⟨15, 17⟩, ⟨33, 45⟩] := by decide

/-- What is missing: with all parts at -32768 the sum is beyond 32 bits, which C leaves undefined. -/
theorem clms_overflow : CIn16 ⟨-32768, -32768⟩ ∧ circularClms [⟨-32768, -32768⟩] [⟨0, 0⟩] 1 0 ⟨-32768, -32768⟩ = none := by
  constructor
  · unfold CIn16 In16; decide
  · decide

end VecInt
