import Verif.Power.Model

/-!
# Power meters stay in range and settle
-/

namespace Power

/-- A sample of 16 bits. -/
def Sample (a : Int) : Prop := -32768 ≤ a ∧ a ≤ 32767

theorem i32_ok (x : Int) (h : -2147483648 ≤ x) (h' : x ≤ 2147483647) : i32 x = some x := if_pos ⟨h, h'⟩

theorem sq_range (a : Int) (h : Sample a) : 0 ≤ a*a ∧ a*a ≤ 1073741824 := by
  unfold Sample at h
  refine ⟨?_, ?_⟩
  · rcases Int.le_total 0 a with h1 | h1
    · exact Int.mul_nonneg h1 h1
    · have := Int.mul_nonneg (Int.neg_nonneg.mpr h1) (Int.neg_nonneg.mpr h1)
      rw [Int.neg_mul_neg] at this; exact this
  · rcases Int.le_total 0 a with h1 | h1
    · have h2 : a*a ≤ 32768*32768 := Int.mul_le_mul (by omega) (by omega) h1 (by omega)
      omega
    · have h2 : (-a)*(-a) ≤ 32768*32768 := Int.mul_le_mul (by omega) (by omega) (by omega) (by omega)
      rw [Int.neg_mul_neg] at h2
      omega

theorem pow_pos' (k : Nat) : (0 : Int) < 2^k := Int.pow_pos (by decide)

/-- How a reading moves: towards the power, without going past it; and it moves at all as long as it is too high, or too
low by as much as the shift takes away. -/
theorem toward (d : Int) (k : Nat) : (0 ≤ d → 0 ≤ d/2^k ∧ d/2^k ≤ d) ∧ (d ≤ 0 → d ≤ d/2^k ∧ d/2^k ≤ 0) ∧
    (2^k ≤ d → 1 ≤ d/2^k) ∧ (d < 0 → d/2^k ≤ -1) := by
  have hp := pow_pos' k
  have h1 : (1 : Int) ≤ 2^k := hp
  refine ⟨fun h => ⟨Int.ediv_nonneg h (by omega), Int.ediv_le_self _ h⟩, fun h => ⟨?_, ?_⟩, fun h => ?_, fun h => ?_⟩
  · refine (Int.le_ediv_iff_mul_le hp).mpr ?_
    have : d*2^k ≤ d*1 := Int.mul_le_mul_of_nonpos_left h h1
    omega
  · rcases Int.lt_or_eq_of_le h with h | h
    · have := Int.ediv_neg_of_neg_of_pos h hp; omega
    · rw [h, Int.zero_ediv]; omega
  · exact (Int.le_ediv_iff_mul_le hp).mpr (by omega)
  · have := Int.ediv_neg_of_neg_of_pos h hp; omega

theorem update_ok (s : Meter) (a m : Int) (hk : s.shift < 32) (ha : Sample a) (h0 : 0 ≤ s.reading) (hm : s.reading ≤ m) (hm' : m ≤ 1073741824)
    (ham : a*a ≤ m) : s.update a = some { s with reading := s.reading + (a*a - s.reading)/2^s.shift } ∧
      0 ≤ s.reading + (a*a - s.reading)/2^s.shift ∧ s.reading + (a*a - s.reading)/2^s.shift ≤ m := by
  obtain ⟨q1, q2⟩ := sq_range a ha
  obtain ⟨t1, t2, -, -⟩ := toward (a*a - s.reading) s.shift
  have hr : 0 ≤ s.reading + (a*a - s.reading)/2^s.shift ∧ s.reading + (a*a - s.reading)/2^s.shift ≤ m := by
    rcases Int.le_total 0 (a*a - s.reading) with h | h
    · have := t1 h; omega
    · have := t2 h; omega
  refine ⟨?_, hr⟩
  unfold Meter.update
  rw [i32_ok (a*a) (by omega) (by omega)]
  simp only [Option.bind_eq_bind, Option.bind_some]
  rw [i32_ok (a*a - s.reading) (by omega) (by omega)]
  simp only [Option.bind_some]
  rw [if_pos hk, i32_ok _ (by omega) (by omega)]
  rfl

/-- C109: whatever the samples are, nothing overflows, and the reading is never negative and never above the power of the
loudest sample so far. -/
theorem meter_range (k : Nat) (hk : k < 32) (m : Int) (hm : m ≤ 1073741824) (h0 : 0 ≤ m) (l : List Int) (hl : ∀ a ∈ l, Sample a ∧ a*a ≤ m) :
    ∃ s x, (Meter.init k).rx l = some (s, x) ∧ s.shift = k ∧ 0 ≤ s.reading ∧ s.reading ≤ m := by
  have go : ∀ (l : List Int) (s : Meter), s.shift = k → 0 ≤ s.reading → s.reading ≤ m → (∀ a ∈ l, Sample a ∧ a*a ≤ m) →
      ∃ s' x, s.rx l = some (s', x) ∧ s'.shift = k ∧ 0 ≤ s'.reading ∧ s'.reading ≤ m := by
    intro l
    induction l with
    | nil => intro s h1 h2 h3 _; exact ⟨s, 0, rfl, h1, h2, h3⟩
    | cons a l ih =>
      intro s h1 h2 h3 h4
      obtain ⟨a1, a2⟩ := h4 a (List.mem_cons_self ..)
      obtain ⟨u1, u2, u3⟩ := update_ok s a m (by omega) a1 h2 h3 hm a2
      rw [Meter.rx, u1, Option.bind_some]
      exact ih _ h1 u2 u3 (fun x hx => h4 x (List.mem_cons_of_mem _ hx))
  exact go l (.init k) rfl (Int.le_refl _) h0 hl

example : (∀ a ∈ [1000, -3000, 32767, -32768, 5], Sample a ∧ a*a ≤ 1073741824) ∧
    (Meter.init 4).rx [1000, -3000, 32767, -32768, 5] = some (⟨4, 122405125⟩, 0) := by
  unfold Sample; decide +kernel

/-- C109: a steady signal, or a square wave, is read as its power, but for less than two to the shift below it, once there
were as many samples as the reading was off. -/
theorem meter_settles (s : Meter) (hk : s.shift < 32) (h0 : 0 ≤ s.reading) (hm : s.reading ≤ 1073741824) (p : Int)
    (l : List Int) (hl : ∀ a ∈ l, Sample a ∧ a*a = p) (hn : (s.reading - p).natAbs ≤ l.length) (hne : l ≠ []) :
    ∃ s' x, s.rx l = some (s', x) ∧ p - 2^s.shift < s'.reading ∧ s'.reading ≤ p := by
  have hp : 0 ≤ p ∧ p ≤ 1073741824 := by
    cases l with
    | nil => exact absurd rfl hne
    | cons a l =>
      obtain ⟨h1, h2⟩ := hl a (List.mem_cons_self ..)
      rw [← h2]; exact sq_range a h1
  clear hne
  induction l generalizing s with
  | nil =>
    refine ⟨s, 0, rfl, ?_, ?_⟩
    · have := pow_pos' s.shift
      simp at hn; omega
    · simp at hn; omega
  | cons a l ih =>
    obtain ⟨a1, a2⟩ := hl a (List.mem_cons_self ..)
    obtain ⟨u1, u2, u3⟩ := update_ok s a 1073741824 hk a1 h0 hm (Int.le_refl _) (by omega)
    rw [Meter.rx, u1, Option.bind_some]
    rw [a2] at u1 u2 u3 ⊢
    obtain ⟨t1, t2, t3, t4⟩ := toward (p - s.reading) s.shift
    by_cases hin : p - 2^s.shift < s.reading ∧ s.reading ≤ p
    · -- It stays where it is.
      have hz : (p - s.reading)/2^s.shift = 0 := Int.ediv_eq_zero_of_lt (by omega) (by omega)
      have stay : ∀ (l : List Int) (s' : Meter), s' = s → (∀ a ∈ l, Sample a ∧ a*a = p) → s'.rx l = some (s, 0) := by
        intro l
        induction l with
        | nil => intro s' hs _; rw [hs]; rfl
        | cons b l ih' =>
          intro s' hs hl
          subst hs
          obtain ⟨b1, b2⟩ := hl b (List.mem_cons_self ..)
          obtain ⟨v1, _, _⟩ := update_ok s' b 1073741824 hk b1 h0 hm (Int.le_refl _) (by omega)
          rw [Meter.rx, v1, b2, hz, Option.bind_some]
          exact ih' _ (by simp) (fun x hx => hl x (List.mem_cons_of_mem _ hx))
      rw [hz, stay l _ (by simp) (fun x hx => hl x (List.mem_cons_of_mem _ hx))]
      exact ⟨s, 0, rfl, hin.1, hin.2⟩
    · refine ih { s with reading := s.reading + (p - s.reading)/2^s.shift } hk u2 u3 (fun x hx => hl x (List.mem_cons_of_mem _ hx)) ?_
      rw [List.length_cons] at hn
      simp only
      generalize (p - s.reading)/2^s.shift = q at *
      rcases Int.lt_or_le (p - s.reading) 0 with h | h
      · have := t4 h; have := t2 (by omega); omega
      · have := t3 (by omega); have := t1 h; omega

example : (∀ a ∈ List.replicate 100 (10 : Int), Sample a ∧ a*a = 100) ∧ ((Meter.init 4).rx (List.replicate 100 10)) = some (⟨4, 85⟩, 0) := by
  unfold Sample; decide +kernel

/-! ## Surges -/

structure Surge.Ok (s : Surge) : Prop where
  short : s.short.shift = 4 ∧ 0 ≤ s.short.reading ∧ s.short.reading ≤ 1073741824
  medium : s.medium.shift = 7 ∧ 0 ≤ s.medium.reading ∧ s.medium.reading ≤ 1073741824
  surge : 0 ≤ s.surge ∧ s.surge ≤ 2047
  sag : 0 ≤ s.sag ∧ s.sag ≤ 2047

theorem times_ok (k x : Int) (hk : 0 ≤ k ∧ k ≤ 2047) (hx : 0 ≤ x ∧ x ≤ 1073741824) : i32 (k*(x/1024)) = some (k*(x/1024)) := by
  have h1 : 0 ≤ x/1024 ∧ x/1024 ≤ 1048576 := by omega
  have h2 : k*(x/1024) ≤ 2047*1048576 := Int.mul_le_mul hk.2 h1.2 h1.1 (by omega)
  have h3 := Int.mul_nonneg hk.1 h1.1
  exact i32_ok _ (by omega) (by omega)

theorem surge_step (s : Surge) (h : s.Ok) (a : Int) (ha : Sample a) : ∃ s' x, s.step a = some (s', x) ∧ s'.Ok ∧ s'.min = s.min ∧
    0 ≤ x ∧ x ≤ 1073741824 ∧ (x ≠ 0 → s'.present = true ∧ x = s'.short.reading) := by
  obtain ⟨⟨a1, a2, a3⟩, ⟨b1, b2, b3⟩, hs, hg⟩ := h
  obtain ⟨_, q2⟩ := sq_range a ha
  obtain ⟨u1, u2, u3⟩ := update_ok s.short a 1073741824 (by omega) ha a2 a3 (Int.le_refl _) q2
  obtain ⟨v1, v2, v3⟩ := update_ok s.medium a 1073741824 (by omega) ha b2 b3 (Int.le_refl _) q2
  unfold Surge.step
  rw [u1, v1]
  simp only [Option.bind_eq_bind, Option.bind_some]
  generalize s.short.reading + (a*a - s.short.reading)/2^s.short.shift = x at *
  generalize s.medium.reading + (a*a - s.medium.reading)/2^s.medium.shift = y at *
  have e1 := times_ok s.surge y hs ⟨v2, v3⟩
  have e2 := times_ok s.sag y hg ⟨v2, v3⟩
  rw [e1, e2]
  simp only [Option.bind_some]
  split
  · exact ⟨_, _, rfl, ⟨⟨a1, u2, u3⟩, ⟨b1, v2, v3⟩, hs, hg⟩, rfl, Int.le_refl _, by decide, fun h => absurd rfl h⟩
  · split
    · split
      · exact ⟨_, _, rfl, ⟨⟨a1, u2, u3⟩, ⟨b1, v2, v3⟩, hs, hg⟩, rfl, Int.le_refl _, by decide, fun h => absurd rfl h⟩
      · exact ⟨_, _, rfl, ⟨⟨a1, u2, u3⟩, ⟨b1, u2, u3⟩, hs, hg⟩, rfl, u2, u3, fun _ => ⟨rfl, rfl⟩⟩
    · rename_i hp
      split
      · exact ⟨_, _, rfl, ⟨⟨a1, u2, u3⟩, ⟨b1, u2, u3⟩, hs, hg⟩, rfl, Int.le_refl _, by decide, fun h => absurd rfl h⟩
      · exact ⟨_, _, rfl, ⟨⟨a1, u2, u3⟩, ⟨b1, v2, v3⟩, hs, hg⟩, rfl, u2, u3, fun _ => ⟨by simpa using hp, rfl⟩⟩

/-- C110: with a ratio below 2, which is 3 dB, nothing overflows in a surge detector whatever the samples are, and what it
returns is a power of up to 2 to the 30.  Missing: larger ratios (`surge_overflows`). -/
theorem surge_range_partial (surge sag min : Int) (hs : 0 ≤ surge ∧ surge ≤ 2047) (hg : 0 ≤ sag ∧ sag ≤ 2047)
    (hm : 0 ≤ min ∧ min ≤ 1073676289) (l : List Int) (hl : ∀ a ∈ l, Sample a) :
    ∃ s x, (Surge.init surge sag min).run l = some (s, x) ∧ x.length = l.length ∧ ∀ p ∈ x, 0 ≤ p ∧ p ≤ 1073741824 := by
  have go : ∀ (l : List Int) (s : Surge), s.Ok → (∀ a ∈ l, Sample a) →
      ∃ s' x, s.run l = some (s', x) ∧ x.length = l.length ∧ ∀ p ∈ x, 0 ≤ p ∧ p ≤ 1073741824 := by
    intro l
    induction l with
    | nil => intro s _ _; exact ⟨s, [], rfl, rfl, by simp⟩
    | cons a l ih =>
      intro s h hl
      obtain ⟨s1, x1, h1, h2, -, h3, h4, -⟩ := surge_step s h a (hl a (List.mem_cons_self ..))
      obtain ⟨s2, x2, k1, k2, k3⟩ := ih s1 h2 (fun x hx => hl x (List.mem_cons_of_mem _ hx))
      refine ⟨s2, x1 :: x2, ?_, by simp [k2], ?_⟩
      · rw [Surge.run, h1]
        simp only [Option.bind_some]
        rw [k1]; rfl
      · intro p hp
        rcases List.mem_cons.mp hp with rfl | hp
        · exact ⟨h3, h4⟩
        · exact k3 p hp
  refine go l _ ⟨⟨rfl, Int.le_refl _, by simp [Surge.init, Meter.init]⟩, ⟨rfl, ?_, ?_⟩, hs, hg⟩ hl
  · simp only [Surge.init]; omega
  · simp only [Surge.init]; omega

example : ((Surge.init 2000 500 1000).run [100, 1000, -1000, 0]).map (fun x => x.2) = some [0, 63085, 121642, 114039] := by decide +kernel

/-! ## What the full claims would need -/

/-- C109: the function which takes a block of samples returns 0, and not the reading. -/
theorem rx_returns_zero (s s' : Meter) (l : List Int) (x : Int) (h : s.rx l = some (s', x)) : x = 0 := by
  induction l generalizing s with
  | nil => rw [Meter.rx] at h; cases h; rfl
  | cons a l ih =>
    rw [Meter.rx, Option.bind_eq_some_iff] at h
    obtain ⟨s1, _, h⟩ := h
    exact ih s1 h

/-- A signal which grows slowly. -/
def ramp : Nat → Int → List Int
  | 0, _ => []
  | n + 1, a => a :: ramp n (if a + a/100 + 1 > 32767 then 32767 else a + a/100 + 1)

/-- C110: with a ratio of 6 dB and a level of -40 dBm0, a signal which grows slowly makes a surge detector overflow. -/
theorem surge_overflows : (∀ a ∈ ramp 600 160, Sample a) ∧ (Surge.init 4076 257 25994).run (ramp 600 160) = none := by
  unfold Sample; decide +kernel

end Power
