import Verif.G726.Safe
import Verif.G726.Spec
import Mathlib.Tactic.IntervalCases

/-!
# How close a code comes
-/

namespace G726

/-- `level` on numbers. -/
def lev (v : Nat) : Nat := (128 + v % 128)*2^(v/128)/128

theorem level_lev (v : Nat) : level (v : Int) = (lev v : Int) := by
  unfold level lev
  rw [if_neg (by omega)]
  push_cast
  rw [show ((v : Int)/128).toNat = v/128 by omega]

theorem lev_lower (v : Nat) : 2^(v/128) ≤ lev v := by
  unfold lev
  rw [Nat.le_div_iff_mul_le (by decide), Nat.mul_comm]
  exact Nat.mul_le_mul_right _ (by omega)

theorem lev_upper (v : Nat) : lev v < 2^(v/128 + 1) := by
  unfold lev
  rw [Nat.div_lt_iff_lt_mul (by decide), Nat.pow_succ, Nat.mul_assoc, Nat.mul_comm (2^(v/128))]
  exact Nat.mul_lt_mul_of_pos_right (by omega) (Nat.two_pow_pos _)

theorem lev_mono {u v : Nat} (h : u ≤ v) : lev u ≤ lev v := by
  by_cases he : u/128 = v/128
  · unfold lev
    rw [he]
    apply Nat.div_le_div_right
    exact Nat.mul_le_mul_right _ (by omega)
  · have h1 := lev_upper u
    have h2 := lev_lower v
    have h3 : 2^(u/128 + 1) ≤ 2^(v/128) := Nat.pow_le_pow_right (by decide) (by omega)
    omega

theorem level_mono {u v : Int} (h : u ≤ v) : level u ≤ level v := by
  by_cases h0 : u < 0
  · have : level u = 0 := if_pos h0
    rw [this]
    unfold level
    split
    · exact Int.le_refl 0
    · apply Int.ediv_nonneg
      · exact Int.mul_nonneg (by omega) (Int.le_of_lt (Int.pow_pos (by decide)))
      · decide
  · have e1 := level_lev u.toNat
    have e2 := level_lev v.toNat
    rw [show ((u.toNat : Nat) : Int) = u by omega] at e1
    rw [show ((v.toNat : Nat) : Int) = v by omega] at e2
    rw [e1, e2]
    exact_mod_cast lev_mono (by omega)

/-- The logarithm of a number. -/
def lg (n : Nat) : Nat := if n ≤ 1 then 0 else 128*n.log2 + (n*128/2^n.log2 - 128)

theorem lg_split {n : Nat} (h : 1 < n) : 128 ≤ n*128/2^n.log2 ∧ n*128/2^n.log2 < 256 := by
  have h1 := Nat.log2_self_le (n := n) (by omega)
  have h2 := Nat.lt_log2_self (n := n)
  constructor
  · rw [Nat.le_div_iff_mul_le (Nat.two_pow_pos _), Nat.mul_comm]
    exact Nat.mul_le_mul_right _ h1
  · rw [Nat.div_lt_iff_lt_mul (Nat.two_pow_pos _)]
    rw [Nat.pow_succ] at h2
    omega

theorem half_log {n : Nat} (h : 1 < n) : (n/2).log2 + 1 = n.log2 := by
  rw [Nat.log2_def n, if_pos (by omega)]

theorem logMag_eq (d : Int) (h : -32767 ≤ d) (h' : d ≤ 32767) : logMag d = some (lg d.natAbs : Int) := by
  unfold logMag
  have e : s16 d.natAbs = d.natAbs := s16_id _ (by omega) (by omega)
  simp only [e]
  have t1 := top_ge ((d.natAbs : Int)/2).toNat
  have t2 := top_lt ((d.natAbs : Int)/2).toNat 14 (by omega)
  rw [shr_ok _ _ (by omega) (by omega)]
  simp only [bind, Option.bind_some, pure, Option.some.injEq]
  rw [show ((d.natAbs : Int)/2).toNat = d.natAbs/2 by omega] at *
  generalize d.natAbs = n at *
  by_cases hn : n ≤ 1
  · have : n/2 = 0 := by omega
    rw [this]
    simp only [lg, if_pos hn, top]
    rcases (show n = 0 ∨ n = 1 by omega) with rfl | rfl <;> decide
  · have hl := half_log (n := n) (by omega)
    have hs := lg_split (n := n) (by omega)
    have ht : top (n/2) + 1 = (n.log2 : Int) := by
      unfold top
      rw [if_neg (by omega)]
      omega
    rw [ht]
    rw [Int.toNat_natCast]
    simp only [lg, if_neg hn]
    have e2 : ((n : Int)*128/2^n.log2) = ((n*128/2^n.log2 : Nat) : Int) := by push_cast; rfl
    rw [e2]
    have : n.log2 ≤ 14 := by omega
    rw [s16_id _ (by omega) (by omega)]
    push_cast [hs.1]
    omega

/-- What has a logarithm of `v` or more is not less than the level. -/
theorem lev_le {n v : Nat} (h : v ≤ lg n) (hv : 0 < v) : lev v ≤ n := by
  unfold lg at h
  split at h
  · omega
  · rename_i hn
    have hs := lg_split (n := n) (by omega)
    have h1 := Nat.log2_self_le (n := n) (by omega)
    by_cases he : v/128 = n.log2
    · unfold lev
      rw [he]
      have h2 : (128 + v % 128)*2^n.log2 ≤ (n*128/2^n.log2)*2^n.log2 := Nat.mul_le_mul_right _ (by omega)
      have h3 := Nat.div_mul_le_self (n*128) (2^n.log2)
      omega
    · have h2 := lev_upper v
      have h3 : 2^(v/128 + 1) ≤ 2^n.log2 := Nat.pow_le_pow_right (by decide) (by omega)
      omega

/-- What has a lower logarithm is not more. -/
theorem le_lev {n v : Nat} (h : lg n < v) : n ≤ lev v := by
  unfold lg at h
  split at h
  · have := lev_lower v
    have := Nat.two_pow_pos (v/128)
    omega
  · rename_i hn
    have hs := lg_split (n := n) (by omega)
    have h1 := Nat.lt_log2_self (n := n)
    by_cases he : v/128 = n.log2
    · unfold lev
      rw [he, Nat.le_div_iff_mul_le (by decide)]
      have h2 : (n*128/2^n.log2 + 1)*2^n.log2 ≤ (128 + v % 128)*2^n.log2 := Nat.mul_le_mul_right _ (by omega)
      have h3 := Nat.lt_mul_div_succ (n*128) (Nat.two_pow_pos n.log2)
      rw [Nat.mul_comm (2^n.log2)] at h3
      omega
    · have h2 := lev_lower v
      have h3 : 2^(n.log2 + 1) ≤ 2^(v/128) := Nat.pow_le_pow_right (by decide) (by omega)
      omega

theorem lg_mono {m n : Nat} (h : m ≤ n) : lg m ≤ lg n := by
  by_cases hc : lg m ≤ lg n
  · exact hc
  · exfalso
    have h2 := le_lev (n := n) (v := lg m) (by omega)
    unfold lg at hc
    split at hc
    · omega
    · rename_i hm
      have hs := lg_split (n := m) (by omega)
      split at hc
      · omega
      · rename_i hn
        have hs' := lg_split (n := n) (by omega)
        have h3 := Nat.log2_self_le (n := m) (by omega)
        have h4 := Nat.lt_log2_self (n := n)
        by_cases he : m.log2 = n.log2
        · rw [he] at hc hs
          have : m*128/2^n.log2 ≤ n*128/2^n.log2 := Nat.div_le_div_right (by omega)
          omega
        · have : 2^(n.log2 + 1) ≤ 2^m.log2 := Nat.pow_le_pow_right (by decide) (by omega)
          omega

/-! ## The search for a code -/

theorem search_below (x : Int) : ∀ (l : List Int) (j : Nat) (v : Int), j < search x l → l[j]? = some v → v ≤ x := by
  intro l
  induction l with
  | nil => intro j v h; simp [search] at h
  | cons t l ih =>
    intro j v h hv
    simp only [search] at h
    split at h
    · omega
    · rcases j with _ | j
      · simp at hv; omega
      · exact ih j v (by omega) (by simpa using hv)

theorem search_above (x : Int) : ∀ (l : List Int) (v : Int), l[search x l]? = some v → x < v := by
  intro l
  induction l with
  | nil => intro v h; simp at h
  | cons t l ih =>
    intro v h
    simp only [search] at h
    split at h
    · simp at h; omega
    · exact ih v (by simpa using h)

theorem search_mono {x y : Int} (h : x ≤ y) (l : List Int) : search x l ≤ search y l := by
  induction l with
  | nil => simp [search]
  | cons t l ih =>
    simp only [search]
    split
    · omega
    · rw [if_neg (by omega)]
      omega

/-- The place of a difference among the decision levels. -/
def place (t : Tab) (d y : Int) : Nat := search (lg d.natAbs - y/4) t.q

theorem place_le (t : Tab) (d y : Int) : place t d y ≤ t.q.length := search_le _ _

/-- The code for a place. -/
def codeAt (t : Tab) (neg : Bool) (k : Nat) : Nat :=
  if neg then 2*t.q.length + 1 - k else if k = 0 ∧ t.states % 2 = 1 then t.states else k

theorem quantize_eq (d y : Int) (t : Tab) (ht : t.Valid) (h : -32767 ≤ d) (h' : d ≤ 32767) (hy : 544 ≤ y ∧ y ≤ 5120) :
    quantize d y t = some (codeAt t (d < 0) (place t d y)) := by
  have e : ¬ s16 d.natAbs < 0 := by rw [s16_id _ (by omega) (by omega)]; omega
  have hl : lg d.natAbs ≤ 2047 := by
    unfold lg
    split
    · omega
    · rename_i hn
      have hs := lg_split (n := d.natAbs) (by omega)
      have : d.natAbs.log2 < 15 := (Nat.log2_lt (by omega)).mpr (by omega)
      omega
  have hq : (t.states - 1)/2 = t.q.length := by rcases ht with rfl | rfl | rfl | rfl <;> decide
  unfold quantize
  rw [if_neg e, logMag_eq d h h']
  rw [Option.bind_eq_bind, Option.bind_some]
  rw [s16_id (y/4) (by omega) (by omega), s16_id _ (by omega) (by omega), hq]
  simp only [List.take_length]
  unfold codeAt place
  by_cases hd : d < 0
  · rw [if_pos hd, if_pos (by simpa using hd), Nat.mul_comm]; rfl
  · simp only [hd, decide_false, if_false, Bool.false_eq_true]
    split <;> rfl

theorem reconstruct_eq (sign : Bool) (l y : Int) (h : -2048 ≤ l ∧ l ≤ 566) (hy : 544 ≤ y ∧ y ≤ 5120) :
    0 ≤ level (l + y/4) ∧ level (l + y/4) ≤ 23296 ∧
    reconstruct sign l y = some (if sign then level (l + y/4) - 32768 else level (l + y/4)) := by
  unfold reconstruct
  have e : s16 (l + y/4) = l + y/4 := s16_id _ (by omega) (by omega)
  simp only [e]
  generalize hv : l + y/4 = v
  have hv' : v ≤ 1846 := by omega
  have h0 : 0 ≤ level v := by
    have := level_mono (u := -1) (v := v)
    by_cases hn : v < 0
    · rw [level, if_pos hn]
    · exact this (by omega)
  have h1 : level v ≤ 23296 := by
    have := level_mono (u := v) (v := 1846) hv'
    have e2 : level 1846 = 23296 := by decide
    omega
  refine ⟨h0, h1, ?_⟩
  split
  · rename_i hn
    rw [level, if_pos hn]
    cases sign <;> rfl
  · rename_i hn
    rw [shr_ok _ _ (by omega) (by omega)]
    simp only [Option.map_some, bind, Option.bind_some, pure, Option.some.injEq]
    have e3 : (128 + v % 128)*128/2^(14 - v/128 % 16).toNat = level v := by
      rw [level, if_neg hn]
      have hk : v/128 < 15 := by omega
      have hk0 : 0 ≤ v/128 := by omega
      generalize v/128 = k at *
      generalize v % 128 = f
      interval_cases k <;> simp <;> omega
    rw [e3, s16_id (level v) (by omega) (by omega)]
    cases sign
    · rfl
    · simp only [if_true]
      exact s16_id _ (by omega) (by omega)

/-! ## Cells -/

/-- What holds of the tables. -/
theorem tables (t : Tab) (ht : t.Valid) : ∀ neg : Bool, ∀ k, k ≤ t.q.length →
    codeAt t neg k < 2^t.bits ∧ index t (codeAt t neg k) = k ∧ (0 < k → (codeAt t neg k < 2^(t.bits - 1) ↔ neg = false)) ∧
    decide (codeAt t neg k &&& t.sign ≠ 0) = !decide (codeAt t neg k < 2^(t.bits - 1)) ∧
    (neg = true → 2^(t.bits - 1) ≤ codeAt t neg k) := by
  rcases ht with rfl | rfl | rfl | rfl <;> decide

theorem tables' (t : Tab) (ht : t.Valid) : ∀ i, i < 2^t.bits → ∀ l ∈ t.dqln[i]?,
    (∀ lo ∈ t.q[index t i - 1]?, 0 < index t i → lo ≤ l ∧ -124 ≤ lo) ∧ (∀ hi ∈ t.q[index t i]?, l ≤ hi ∧ -124 ≤ hi) ∧
    (-2048 ≤ l ∧ l ≤ 566) ∧ (t.mask = 16384 ∧ l ≤ 425 ∨ t.mask = 32768) ∧
    (index t i = 0 → t.states % 2 = 1 → l = -2048) := by
  rcases ht with rfl | rfl | rfl | rfl <;> decide +kernel

theorem cell_in (t : Tab) (ht : t.Valid) (d y : Int) (hy : 544 ≤ y ∧ y ≤ 5120) :
    Cell t y (codeAt t (d < 0) (place t d y)) d := by
  obtain ⟨f1, f2, f3, -⟩ := tables t ht (d < 0) (place t d y) (place_le t d y)
  obtain ⟨l, hl, -⟩ := dqln_ok t ht _ f1
  obtain ⟨g1, g2, -⟩ := tables' t ht _ f1 l hl
  have hlow : ∀ lo, 0 < place t d y → t.q[place t d y - 1]? = some lo → level (lo + y/4) ≤ d.natAbs ∧ 0 < d.natAbs := by
    intro lo hk hlo
    rw [f2] at g1
    have hb := (g1 lo hlo hk).2
    have := search_below (lg d.natAbs - y/4) t.q (place t d y - 1) lo (by unfold place at *; omega) hlo
    have e := level_lev (lo + y/4).toNat
    rw [show (((lo + y/4).toNat : Nat) : Int) = lo + y/4 by omega] at e
    have h2 := lev_le (n := d.natAbs) (v := (lo + y/4).toNat) (by omega) (by omega)
    have h3 := lev_lower (lo + y/4).toNat
    have h4 := Nat.two_pow_pos ((lo + y/4).toNat/128)
    omega
  refine ⟨?_, ?_, ?_⟩
  · rw [f2]
    intro lo hk hlo
    exact (hlow lo hk hlo).1
  · rw [f2]
    intro hi hhi
    rw [f2] at g2
    have hb := (g2 hi hhi).2
    have := search_above (lg d.natAbs - y/4) t.q hi hhi
    have e := level_lev (hi + y/4).toNat
    rw [show (((hi + y/4).toNat : Nat) : Int) = hi + y/4 by omega] at e
    have h2 := le_lev (n := d.natAbs) (v := (hi + y/4).toNat) (by omega)
    omega
  · rw [f2]
    intro hk
    have hlt : place t d y - 1 < t.q.length := by have := place_le t d y; omega
    have hpos := (hlow _ hk (List.getElem?_eq_getElem hlt)).2
    have := f3 hk
    split
    · rename_i hc
      have := this.mp hc
      simp at this
      omega
    · rename_i hc
      by_cases hd : d < 0
      · exact hd
      · exact absurd (this.mpr (by simpa using hd)) hc

/-- The difference which a code stands for. -/
def value (t : Tab) (i : Nat) (l y : Int) : Int := if i < 2^(t.bits - 1) then level (l + y/4) else -level (l + y/4)

theorem cell_out (t : Tab) (ht : t.Valid) (i : Nat) (hi : i < 2^t.bits) (l y : Int) (hl : t.dqln[i]? = some l)
    (hy : 544 ≤ y ∧ y ≤ 5120) : Cell t y i (value t i l y) := by
  obtain ⟨g1, g2, g3, -⟩ := tables' t ht i hi l hl
  obtain ⟨n1, n2, -⟩ := reconstruct_eq true l y g3 hy
  have habs : ((value t i l y).natAbs : Int) = level (l + y/4) := by
    unfold value
    split <;> omega
  refine ⟨?_, ?_, ?_⟩
  · intro lo hk hlo
    rw [habs]
    exact level_mono (by have := (g1 lo hlo hk).1; omega)
  · intro h hh
    rw [habs]
    exact level_mono (by have := (g2 h hh).1; omega)
  · intro hk
    have hlen : index t i ≤ t.q.length := by
      have : ∀ i, i < 2^t.bits → index t i ≤ t.q.length := by rcases ht with rfl | rfl | rfl | rfl <;> decide
      exact this i hi
    have hlo := List.getElem?_eq_getElem (l := t.q) (i := index t i - 1) (by omega)
    have hb := g1 _ hlo hk
    generalize t.q[index t i - 1] = lo at *
    have hm := level_mono (u := lo + y/4) (v := l + y/4) (by omega)
    have e := level_lev (lo + y/4).toNat
    rw [show (((lo + y/4).toNat : Nat) : Int) = lo + y/4 by omega] at e
    have h3 := lev_lower (lo + y/4).toNat
    have h4 := Nat.two_pow_pos ((lo + y/4).toNat/128)
    unfold value
    split
    · omega
    · omega

/-- The signal which a code stands for. -/
theorem follow_eq (t : Tab) (ht : t.Valid) (s : Pred) (h : Ok s) (i : Nat) (hi : i < 2^t.bits) (s' : Pred)
    (se y sr : Int) (hf : follow t s i = some (s', se, y, sr)) :
    estimate s = some se ∧ y = stepSize s ∧ ∃ l, t.dqln[i]? = some l ∧ sr = s16 (se + value t i l y) := by
  obtain ⟨z, hz, -⟩ := predictorZero_ok s h
  obtain ⟨p, hp, -⟩ := predictorPole_ok s h
  obtain ⟨l, hl, hl'⟩ := dqln_ok t ht i hi
  have hy := stepSize_range s h
  obtain ⟨n1, n2, n3⟩ := reconstruct_eq (i &&& t.sign ≠ 0) l (stepSize s) hl' hy
  obtain ⟨-, -, -, g4, -⟩ := tables' t ht i hi l hl
  have hsgn : decide (i &&& t.sign ≠ 0) = !decide (i < 2^(t.bits - 1)) := by
    have : ∀ i, i < 2^t.bits → decide (i &&& t.sign ≠ 0) = !decide (i < 2^(t.bits - 1)) := by
      rcases ht with rfl | rfl | rfl | rfl <;> decide
    exact this i hi
  unfold follow at hf
  simp only [hz, hp, hl, n3, bind, Option.bind_some, pure] at hf
  simp only [Option.bind_eq_some_iff] at hf
  obtain ⟨w, -, f, -, u, -, e⟩ := hf
  simp only [Option.some.injEq, Prod.mk.injEq] at e
  obtain ⟨-, e1, e2, e3⟩ := e
  refine ⟨?_, e2.symm, l, hl, ?_⟩
  · rw [estimate, hz, Option.bind_some, hp, Option.map_some, e1]
  · rw [← e3, ← e2, ← e1]
    congr 1
    rw [hsgn]
    unfold value
    by_cases hc : i < 2^(t.bits - 1)
    · simp only [hc, decide_true, Bool.not_true, if_true]
      simp only [Bool.false_eq_true, if_false]
      rw [if_neg (by omega)]
    · simp only [hc, decide_false, Bool.not_false, if_true, if_false]
      rw [if_pos (by omega)]
      rcases g4 with ⟨g4, g5⟩ | g4
      · have := level_mono (u := l + stepSize s/4) (v := 1705) (by omega)
        have e : level 1705 = 10816 := by decide
        rw [g4]; omega
      · rw [g4]; omega

/-- A sample and what becomes of it. -/
theorem encoder_close (t : Tab) (ht : t.Valid) (s : Pred) (h : Ok s) (a : Int) (ha : -8192 ≤ a ∧ a ≤ 8191) :
    ∃ s' i se sr, encoder t s a = some (s', i) ∧ i < 2^t.bits ∧ follow t s i = some (s', se, stepSize s, sr) ∧ Ok s' ∧
      estimate s = some se ∧ Cell t (stepSize s) i (a - se) ∧ Cell t (stepSize s) i (sr - se) ∧
      (-31488 ≤ sr ∧ sr ≤ 31487) ∧ ∃ l, t.dqln[i]? = some l ∧ sr = se + value t i l (stepSize s) := by
  obtain ⟨s', se, y, sr, i, he, hi, hf, ho, hq⟩ := encoder_ok t ht s h a ha
  obtain ⟨f1, rfl, l, hl, hsr⟩ := follow_eq t ht s h i hi s' se y sr hf
  have hy := stepSize_range s h
  obtain ⟨s2, se2, y2, sr2, hf2, -, hse, -⟩ := follow_ok t ht s h i hi
  rw [hf] at hf2
  simp only [Option.some.injEq, Prod.mk.injEq] at hf2
  rw [← hf2.2.1] at hse
  rw [quantize_eq _ _ t ht (by omega) (by omega) hy, Option.some.injEq] at hq
  obtain ⟨f1', f2, f3, f4, f5⟩ := tables t ht (decide (a - se < 0)) (place t (a - se) (stepSize s)) (place_le ..)
  obtain ⟨g1, g2, g3, g4, g5⟩ := tables' t ht i hi l hl
  obtain ⟨n1, n2, -⟩ := reconstruct_eq true l (stepSize s) g3 hy
  have hc := cell_in t ht (a - se) (stepSize s) hy
  have ho' := cell_out t ht i hi l (stepSize s) hl hy
  rw [hq] at hc f2 f3 f5
  have hr : -31488 ≤ se + value t i l (stepSize s) ∧ se + value t i l (stepSize s) ≤ 31487 := by
    unfold value
    by_cases hn : a - se < 0
    · rw [if_neg (by have := f5 (by simpa using hn); omega)]
      omega
    · split
      · omega
      · rename_i hneg
        have hk : index t i = 0 := by
          by_cases h0 : index t i = 0
          · exact h0
          · rw [f2] at h0
            exact absurd ((f3 (by omega)).mpr (by simpa using hn)) hneg
        have hodd : t.states % 2 = 1 := by
          by_cases h1 : t.states % 2 = 1
          · exact h1
          · exfalso
            apply hneg
            rw [← hq, codeAt, if_neg (by simpa using hn), if_neg (by omega), ← f2, hk]
            exact Nat.two_pow_pos _
        rw [g5 hk hodd, level, if_pos (by omega)]
        omega
  rw [s16_id _ (by omega) (by omega)] at hsr
  refine ⟨s', i, se, sr, he, hi, hf, ho, f1, hc, ?_, by omega, l, hl, hsr⟩
  rw [hsr, show se + value t i l (stepSize s) - se = value t i l (stepSize s) by omega]
  exact ho'

/-! ## Order -/

theorem rank_codeAt (t : Tab) (ht : t.Valid) : ∀ k, k ≤ t.q.length → ∀ k', k' ≤ k →
    rank t (codeAt t false k') ≤ rank t (codeAt t false k) ∧ rank t (codeAt t true k) ≤ rank t (codeAt t true k') ∧
    rank t (codeAt t true k) ≤ rank t (codeAt t false k') ∧ rank t (codeAt t true k') ≤ rank t (codeAt t false k) := by
  rcases ht with rfl | rfl | rfl | rfl <;> decide +kernel

/-- Greater differences have higher codes. -/
theorem quantize_mono (t : Tab) (ht : t.Valid) (c d y : Int) (hc : -32767 ≤ c) (hd : d ≤ 32767) (h : c ≤ d)
    (hy : 544 ≤ y ∧ y ≤ 5120) (i j : Nat) (hi : quantize c y t = some i) (hj : quantize d y t = some j) :
    rank t i ≤ rank t j := by
  rw [quantize_eq _ _ t ht (by omega) (by omega) hy, Option.some.injEq] at hi hj
  rw [← hi, ← hj]
  have pc := place_le t c y
  have pd := place_le t d y
  by_cases h1 : c < 0
  · by_cases h2 : d < 0
    · simp only [h1, h2, decide_true]
      have : lg d.natAbs ≤ lg c.natAbs := lg_mono (by omega)
      exact (rank_codeAt t ht (place t c y) pc (place t d y) (search_mono (by omega) _)).2.1
    · simp only [h1, h2, decide_true, decide_false]
      by_cases hp : place t d y ≤ place t c y
      · exact (rank_codeAt t ht (place t c y) pc (place t d y) hp).2.2.1
      · exact (rank_codeAt t ht (place t d y) pd (place t c y) (by omega)).2.2.2
  · have h2 : ¬ d < 0 := by omega
    simp only [h1, h2, decide_false]
    have : lg c.natAbs ≤ lg d.natAbs := lg_mono (by omega)
    exact (rank_codeAt t ht (place t d y) pd (place t c y) (search_mono (by omega) _)).1

end G726
