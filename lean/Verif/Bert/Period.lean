import Verif.Bert.Pattern
import Mathlib.Data.Nat.Prime.Basic
import Mathlib.Tactic.NormNum.Prime
import Mathlib.Data.Finset.Card
import Mathlib.Order.Interval.Finset.Nat

/-!
# The pseudo-random patterns are as long as they can be (C34)

The powers of the step of a shift register are computed as polynomials of that step.
-/

namespace Bert

theorem fits_zero (s2 : Nat) : Fits s2 0 := fun i _ => by simp

theorem fits_xor {s2 : Nat} {x y : Word} (hx : Fits s2 x) (hy : Fits s2 y) : Fits s2 (x ^^^ y) := by
  intro i hi
  rw [BitVec.getLsbD_xor, hx i hi, hy i hi]
  rfl

theorem next_xor {sh s2 : Nat} (h2 : s2 < 32) {x y : Word} (hx : Fits s2 x) (hy : Fits s2 y) :
    next sh s2 (x ^^^ y) = next sh s2 x ^^^ next sh s2 y := by
  apply BitVec.eq_of_getLsbD_eq
  intro i _
  rw [BitVec.getLsbD_xor, next_getLsbD h2 (fits_xor hx hy), next_getLsbD h2 hx, next_getLsbD h2 hy]
  split
  · simp only [BitVec.getLsbD_xor]
    cases x.getLsbD 0 <;> cases x.getLsbD sh <;> cases y.getLsbD 0 <;> cases y.getLsbD sh <;> rfl
  · rw [BitVec.getLsbD_xor]

theorem next_zero {sh s2 : Nat} (h2 : s2 < 32) : next sh s2 0 = 0 := by
  apply BitVec.eq_of_getLsbD_eq
  intro i _
  rw [next_getLsbD h2 (fits_zero s2)]
  simp

theorem times_zero {sh s2 : Nat} (h2 : s2 < 32) (n : Nat) : times (next sh s2) n 0 = 0 := by
  induction n with
  | zero => rfl
  | succ n ih => rw [times_succ, ih, next_zero h2]

/-- A polynomial of the step, with the lowest coefficient first, is applied to a register. -/
def act (sh s2 : Nat) : List Bool → Word → Word
  | [], _ => 0
  | b :: cs, s => (if b then s else 0) ^^^ act sh s2 cs (next sh s2 s)

theorem fits_if {s2 : Nat} {s : Word} (h : Fits s2 s) (b : Bool) : Fits s2 (if b then s else 0) := by
  cases b
  · exact fits_zero s2
  · exact h

section
variable {sh s2 : Nat} (h2 : s2 < 32)
include h2

theorem fits_act (cs : List Bool) {s : Word} (h : Fits s2 s) : Fits s2 (act sh s2 cs s) := by
  induction cs generalizing s with
  | nil => exact fits_zero s2
  | cons b cs ih => exact fits_xor (fits_if h b) (ih (fits_next h2 h))

/-- A polynomial of the step commutes with the step. -/
theorem act_next (cs : List Bool) {s : Word} (h : Fits s2 s) : act sh s2 cs (next sh s2 s) = next sh s2 (act sh s2 cs s) := by
  induction cs generalizing s with
  | nil => exact (next_zero h2).symm
  | cons b cs ih =>
    simp only [act]
    rw [next_xor h2 (fits_if h b) (fits_act h2 cs (fits_next h2 h)), ih (fits_next h2 h)]
    congr 1
    cases b
    · exact (next_zero h2).symm
    · rfl

omit h2 in
theorem act_append (as cs : List Bool) (s : Word) :
    act sh s2 (as ++ cs) s = act sh s2 as s ^^^ act sh s2 cs (times (next sh s2) as.length s) := by
  induction as generalizing s with
  | nil => simp [act, times]
  | cons b as ih =>
    simp only [List.cons_append, act, ih, List.length_cons, times]
    rw [BitVec.xor_assoc]

omit h2 in
theorem act_falses (k : Nat) (s : Word) : act sh s2 (List.replicate k false) s = 0 := by
  induction k generalizing s with
  | zero => rfl
  | succ k ih => rw [List.replicate_succ, act, ih]; simp

/-- The polynomials are added. -/
def add : List Bool → List Bool → List Bool := List.zipWith (fun x y => x ^^ y)

omit h2 in
theorem act_add (as cs : List Bool) (h : as.length = cs.length) (s : Word) :
    act sh s2 (add as cs) s = act sh s2 as s ^^^ act sh s2 cs s := by
  induction as generalizing cs s with
  | nil =>
    cases cs with
    | nil => simp [add, act]
    | cons c cs => simp at h
  | cons a as ih =>
    cases cs with
    | nil => simp at h
    | cons c cs =>
      simp only [add, List.zipWith_cons_cons, act] at ih ⊢
      rw [ih cs (by simpa using h)]
      have : (if (a ^^ c) = true then s else 0) = (if a then s else 0) ^^^ (if c then s else 0) := by
        cases a <;> cases c <;> simp
      rw [this]
      generalize (if a then s else 0) = x
      generalize (if c then s else 0) = y
      ac_rfl

/-- What the step is after as many times as there are stages: 1 + x^sh. -/
def low (sh s2 : Nat) : List Bool := true :: (List.replicate (sh - 1) false ++ true :: List.replicate (s2 - sh) false)

/-- The register after as many steps as it has stages. -/
theorem times_stages (hle : sh ≤ s2) {s : Word} (h : Fits s2 s) :
    times (next sh s2) (s2 + 1) s = s ^^^ times (next sh s2) sh s := by
  have hrec : ∀ n, (times (next sh s2) (n + (s2 + 1)) s).getLsbD 0 =
      ((times (next sh s2) n s).getLsbD 0 ^^ (times (next sh s2) (n + sh) s).getLsbD 0) := by
    intro n
    have hfn := fits_times h2 h (sh := sh) n
    rw [times_add _ n (s2 + 1), times_add _ n sh]
    rw [times_getLsbD h2 hfn sh 0 (by omega)]
    show (times (next sh s2) s2 (next sh s2 (times (next sh s2) n s))).getLsbD 0 = _
    rw [times_getLsbD h2 (fits_next h2 hfn) s2 0 (by omega), next_getLsbD h2 hfn]
    simp
  have hbit : ∀ m i, i ≤ s2 → (times (next sh s2) m s).getLsbD i = (times (next sh s2) (i + m) s).getLsbD 0 := by
    intro m i hi
    rw [Nat.add_comm i m, times_add, times_getLsbD h2 (fits_times h2 h m) i 0 (by omega), Nat.add_zero]
  apply fits_ext (fits_times h2 h _) (fits_xor h (fits_times h2 h _))
  intro i hi
  rw [BitVec.getLsbD_xor, hbit _ i hi, hbit _ i hi, hrec i, show s.getLsbD i = (times (next sh s2) i s).getLsbD 0 from hbit 0 i hi]

theorem act_low (h1 : 0 < sh) (hle : sh ≤ s2) {s : Word} (h : Fits s2 s) :
    act sh s2 (low sh s2) s = times (next sh s2) (s2 + 1) s := by
  rw [times_stages h2 hle h]
  simp only [low, act, act_append, act_falses, List.length_replicate, if_true]
  have : times (next sh s2) (sh - 1) (next sh s2 s) = times (next sh s2) sh s := by
    obtain ⟨k, rfl⟩ : ∃ k, sh = k + 1 := ⟨sh - 1, by omega⟩
    rfl
  rw [this]
  simp

omit h2 in
theorem low_length (h1 : 0 < sh) (hle : sh ≤ s2) : (low sh s2).length = s2 + 1 := by
  simp only [low, List.length_cons, List.length_append, List.length_replicate]
  omega

/-- A polynomial is multiplied by the step. -/
def xmul (sh s2 : Nat) (a : List Bool) : List Bool :=
  add (false :: a.dropLast) (if a.getLastD false then low sh s2 else List.replicate (s2 + 1) false)

omit h2 in
theorem xmul_length (h1 : 0 < sh) (hle : sh ≤ s2) {a : List Bool} (ha : a.length = s2 + 1) : (xmul sh s2 a).length = s2 + 1 := by
  have := low_length h1 hle
  simp only [xmul, add, List.length_zipWith, List.length_cons, List.length_dropLast]
  split
  · omega
  · rw [List.length_replicate]; omega

theorem act_xmul (h1 : 0 < sh) (hle : sh ≤ s2) {a : List Bool} (ha : a.length = s2 + 1) {s : Word} (h : Fits s2 s) :
    act sh s2 (xmul sh s2 a) s = act sh s2 a (next sh s2 s) := by
  have hne : a ≠ [] := by intro h; subst h; simp at ha
  have hlen := low_length h1 hle
  have hd : a = a.dropLast ++ [a.getLast hne] := (List.dropLast_concat_getLast hne).symm
  have hlast : a.getLastD false = a.getLast hne := by rw [List.getLastD_eq_getLast?, List.getLast?_eq_some_getLast hne]; rfl
  have hdl : a.dropLast.length = s2 := by rw [List.length_dropLast]; omega
  simp only [xmul]
  rw [act_add _ _ (by split <;> simp <;> omega), hlast]
  conv => rhs; rw [hd]
  rw [act_append, hdl]
  simp only [act]
  have e : times (next sh s2) s2 (next sh s2 s) = times (next sh s2) (s2 + 1) s := rfl
  rw [e]
  cases a.getLast hne
  · simp [act_falses]
  · simp [act_low h2 h1 hle h]

/-- The polynomials are multiplied. -/
def mul (sh s2 : Nat) (as cs : List Bool) : List Bool :=
  as.foldr (fun b acc => add (if b then cs else List.replicate (s2 + 1) false) (xmul sh s2 acc)) (List.replicate (s2 + 1) false)

omit h2 in
theorem mul_length (h1 : 0 < sh) (hle : sh ≤ s2) (as : List Bool) {cs : List Bool} (hc : cs.length = s2 + 1) :
    (mul sh s2 as cs).length = s2 + 1 := by
  induction as with
  | nil => simp [mul]
  | cons b as ih =>
    have := xmul_length h1 hle ih
    simp only [mul, List.foldr_cons, add, List.length_zipWith] at this ⊢
    rw [this]
    split <;> simp [hc]

theorem act_mul (h1 : 0 < sh) (hle : sh ≤ s2) (as : List Bool) {cs : List Bool} (hc : cs.length = s2 + 1) {s : Word} (h : Fits s2 s) :
    act sh s2 (mul sh s2 as cs) s = act sh s2 as (act sh s2 cs s) := by
  induction as generalizing s with
  | nil => simp [mul, act, act_falses]
  | cons b as ih =>
    have hm := mul_length h1 hle as hc
    have e : mul sh s2 (b :: as) cs = add (if b then cs else List.replicate (s2 + 1) false) (xmul sh s2 (mul sh s2 as cs)) := rfl
    rw [e, act_add _ _ (by rw [xmul_length h1 hle hm]; split <;> simp [hc]), act_xmul h2 h1 hle hm h, ih (fits_next h2 h)]
    simp only [act]
    rw [act_next h2 cs h]
    congr 1
    cases b
    · simp [act_falses]
    · rfl

/-- A power of the step. -/
def power (sh s2 : Nat) : Nat → Nat → List Bool
  | 0, _ => true :: List.replicate s2 false
  | f + 1, k =>
    let h := power sh s2 f (k / 2)
    let q := mul sh s2 h h
    if k % 2 = 1 then xmul sh s2 q else q

theorem act_power (h1 : 0 < sh) (hle : sh ≤ s2) (f k : Nat) (hk : k < 2 ^ f) :
    (power sh s2 f k).length = s2 + 1 ∧ ∀ s, Fits s2 s → act sh s2 (power sh s2 f k) s = times (next sh s2) k s := by
  induction f generalizing k with
  | zero =>
    have : k = 0 := by simpa using hk
    subst this
    refine ⟨by simp [power], fun s _ => ?_⟩
    simp [power, act, act_falses, times]
  | succ f ih =>
    obtain ⟨i1, i2⟩ := ih (k / 2) (by rw [Nat.pow_succ] at hk; omega)
    have hm := mul_length h1 hle (power sh s2 f (k / 2)) i1
    have hq : ∀ s, Fits s2 s → act sh s2 (mul sh s2 (power sh s2 f (k / 2)) (power sh s2 f (k / 2))) s =
        times (next sh s2) (k / 2 + k / 2) s := by
      intro s hs
      rw [act_mul h2 h1 hle _ i1 hs, i2 s hs, i2 _ (fits_times h2 hs _), times_add]
    simp only [power]
    split
    · next hodd =>
      refine ⟨xmul_length h1 hle hm, fun s hs => ?_⟩
      rw [act_xmul h2 h1 hle hm hs, hq _ (fits_next h2 hs)]
      show times (next sh s2) (k / 2 + k / 2 + 1) s = _
      congr 1; omega
    · refine ⟨hm, fun s hs => ?_⟩
      rw [hq s hs]
      congr 1; omega

end

/-- The register after `k` steps, computed. -/
theorem times_eq_power {sh s2 : Nat} (h2 : s2 < 32) (h1 : 0 < sh) (hle : sh ≤ s2) {k f : Nat} (hk : k < 2 ^ f) {s : Word} (hs : Fits s2 s) :
    times (next sh s2) k s = act sh s2 (power sh s2 f k) s := ((act_power h2 h1 hle f k hk).2 s hs).symm

/-! ## The period -/

theorem times_sub {α : Type} {f : α → α} {x : α} {a b : Nat} (ha : times f a x = x) (hb : times f b x = x) (h : b ≤ a) :
    times f (a - b) x = x := by
  have : times f (b + (a - b)) x = x := by rw [show b + (a - b) = a by omega]; exact ha
  rw [times_add, hb] at this
  exact this

theorem times_gcd {α : Type} {f : α → α} {x : α} (a b : Nat) (ha : times f a x = x) (hb : times f b x = x) :
    times f (Nat.gcd a b) x = x := by
  induction h : a + b using Nat.strongRecOn generalizing a b with
  | ind n ih =>
    subst h
    by_cases h0 : a = 0
    · subst h0; rw [Nat.gcd_zero_left]; exact hb
    · by_cases h0' : b = 0
      · subst h0'; rw [Nat.gcd_zero_right]; exact ha
      · by_cases hab : b ≤ a
        · have := ih (a - b + b) (by omega) (a - b) b (times_sub ha hb hab) hb rfl
          rwa [Nat.gcd_sub_self_left hab] at this
        · have := ih (a + (b - a)) (by omega) a (b - a) ha (times_sub hb ha (by omega)) rfl
          rwa [Nat.gcd_sub_self_right (by omega)] at this

theorem times_mul {α : Type} {f : α → α} {x : α} {a : Nat} (k : Nat) (ha : times f a x = x) : times f (a * k) x = x := by
  induction k with
  | zero => rfl
  | succ k ih => rw [Nat.mul_succ, times_add, ih, ha]

/-- If no quotient of a period by one of its primes is a period, no smaller number is. -/
theorem least_period {α : Type} {f : α → α} {x : α} {P : Nat} (hP : times f P x = x)
    (hq : ∀ q, q.Prime → q ∣ P → times f (P / q) x ≠ x) (d : Nat) (hd : 0 < d) (hlt : d < P) : times f d x ≠ x := by
  intro hdx
  have hg := times_gcd d P hdx hP
  have hgd : Nat.gcd d P ∣ P := Nat.gcd_dvd_right d P
  obtain ⟨h, hh⟩ := hgd
  have hgle : Nat.gcd d P ≤ d := Nat.le_of_dvd hd (Nat.gcd_dvd_left d P)
  generalize Nat.gcd d P = g at *
  have hne : h ≠ 1 := by rintro rfl; omega
  obtain ⟨q, hqp, k, rfl⟩ := Nat.exists_prime_and_dvd hne
  refine hq q hqp ⟨g * k, by rw [hh]; exact Nat.mul_left_comm g q k⟩ ?_
  have : P / q = g * k := by
    rw [hh, show g * (q * k) = q * (g * k) from Nat.mul_left_comm g q k]
    exact Nat.mul_div_cancel_left _ hqp.pos
  rw [this]
  exact times_mul k hg

/-- The period of the register of each pattern. -/
theorem order_of_register {p : Pattern} (hp : p.Random) :
    times (next (geometry p).sh (geometry p).s2) (2 ^ (stages p).1 - 1) (choice p).reg = (choice p).reg ∧
    ∀ d, 0 < d → d < 2 ^ (stages p).1 - 1 →
      times (next (geometry p).sh (geometry p).s2) d (choice p).reg ≠ (choice p).reg := by
  have key : ∀ (sh s2 : Nat) (r : Word) (P : Nat) (primes : List Nat), 0 < sh → sh ≤ s2 → s2 < 32 → r.toNat < 2 ^ (s2 + 1) →
      P < 2 ^ 24 → (∀ q, q.Prime → q ∣ P → q ∈ primes) → act sh s2 (power sh s2 24 P) r = r →
      (∀ q ∈ primes, act sh s2 (power sh s2 24 (P / q)) r ≠ r) →
      times (next sh s2) P r = r ∧ ∀ d, 0 < d → d < P → times (next sh s2) d r ≠ r := by
    intro sh s2 r P primes h1 hle h2 hr hP hpr hone hnot
    have hf : Fits s2 r := fits_of_lt hr
    have e : times (next sh s2) P r = r := by rw [times_eq_power h2 h1 hle hP hf]; exact hone
    refine ⟨e, least_period e (fun q hq hd => ?_)⟩
    rw [times_eq_power h2 h1 hle (f := 24) (Nat.lt_of_le_of_lt (Nat.div_le_self P q) hP) hf]
    exact hnot q (hpr q hq hd)
  refine random_cases hp (motive := fun p => times (next (geometry p).sh (geometry p).s2) (2 ^ (stages p).1 - 1) (choice p).reg = (choice p).reg ∧
    ∀ d, 0 < d → d < 2 ^ (stages p).1 - 1 →
      times (next (geometry p).sh (geometry p).s2) d (choice p).reg ≠ (choice p).reg) ?_ ?_ ?_ ?_ ?_
  · refine key 5 22 0x7FFFFF 8388607 [47, 178481] (by decide) (by decide) (by decide) (by decide) (by decide) ?_ (by decide +kernel) (by decide +kernel)
    intro q hq hd
    rw [show 8388607 = 47 * 178481 by norm_num, hq.dvd_mul, Nat.prime_dvd_prime_iff_eq hq (by norm_num), Nat.prime_dvd_prime_iff_eq hq (by norm_num)] at hd
    simpa using hd
  · refine key 3 19 0xFFFFF 1048575 [3, 5, 11, 31, 41] (by decide) (by decide) (by decide) (by decide) (by decide) ?_ (by decide +kernel) (by decide +kernel)
    intro q hq hd
    rw [show 1048575 = 3 * 5 * 5 * 11 * 31 * 41 by norm_num, hq.dvd_mul, hq.dvd_mul, hq.dvd_mul, hq.dvd_mul, hq.dvd_mul,
      Nat.prime_dvd_prime_iff_eq hq (by norm_num), Nat.prime_dvd_prime_iff_eq hq (by norm_num), Nat.prime_dvd_prime_iff_eq hq (by norm_num),
      Nat.prime_dvd_prime_iff_eq hq (by norm_num), Nat.prime_dvd_prime_iff_eq hq (by norm_num)] at hd
    simp only [List.mem_cons, List.not_mem_nil, or_false]
    tauto
  · refine key 1 14 0x7FFF 32767 [7, 31, 151] (by decide) (by decide) (by decide) (by decide) (by decide) ?_ (by decide +kernel) (by decide +kernel)
    intro q hq hd
    rw [show 32767 = 7 * 31 * 151 by norm_num, hq.dvd_mul, hq.dvd_mul, Nat.prime_dvd_prime_iff_eq hq (by norm_num),
      Nat.prime_dvd_prime_iff_eq hq (by norm_num), Nat.prime_dvd_prime_iff_eq hq (by norm_num)] at hd
    simp only [List.mem_cons, List.not_mem_nil, or_false]
    tauto
  · refine key 2 10 0x7FF 2047 [23, 89] (by decide) (by decide) (by decide) (by decide) (by decide) ?_ (by decide +kernel) (by decide +kernel)
    intro q hq hd
    rw [show 2047 = 23 * 89 by norm_num, hq.dvd_mul, Nat.prime_dvd_prime_iff_eq hq (by norm_num), Nat.prime_dvd_prime_iff_eq hq (by norm_num)] at hd
    simpa using hd
  · refine key 4 8 0x1FF 511 [7, 73] (by decide) (by decide) (by decide) (by decide) (by decide) ?_ (by decide +kernel) (by decide +kernel)
    intro q hq hd
    rw [show 511 = 7 * 73 by norm_num, hq.dvd_mul, Nat.prime_dvd_prime_iff_eq hq (by norm_num), Nat.prime_dvd_prime_iff_eq hq (by norm_num)] at hd
    simpa using hd

theorem geometry_stages {p : Pattern} (hp : p.Random) : (stages p).1 = (geometry p).s2 + 1 ∧ (geometry p).s2 < 32 ∧ (choice p).reg ≠ 0 ∧
    Fits (geometry p).s2 (choice p).reg :=
  ⟨random_cases hp (motive := fun p => (stages p).1 = (geometry p).s2 + 1) rfl rfl rfl rfl rfl,
   random_cases hp (motive := fun p => (geometry p).s2 < 32) (by decide) (by decide) (by decide) (by decide) (by decide),
   random_cases hp (motive := fun p => (choice p).reg ≠ 0) (by decide) (by decide) (by decide) (by decide) (by decide),
   random_cases hp (motive := fun p => Fits (geometry p).s2 (choice p).reg) (fits_of_lt (by decide)) (fits_of_lt (by decide))
      (fits_of_lt (by decide)) (fits_of_lt (by decide)) (fits_of_lt (by decide))⟩

/-- The stages of the register are the next bits. -/
theorem reg_stage {p : Pattern} (hp : p.Random) (n i : Nat) (hi : i < (stages p).1) :
    (times (next (geometry p).sh (geometry p).s2) n (choice p).reg).getLsbD i = regBit p (n + i) := by
  obtain ⟨g1, g2, _, g4⟩ := geometry_stages hp
  rw [regBit, times_add, times_getLsbD g2 (fits_times g2 g4 n) i 0 (by omega), Nat.add_zero]

/-- A pseudo-random sequence repeats after 2^N - 1 bits, where N is the number of its stages, and not before. -/
theorem random_period (p : Pattern) (hp : p.Random) (b : Nat → Bool) (hb : Follows (stages p) b) :
    (∀ n, b (n + (2 ^ (stages p).1 - 1)) = b n) ∧
    ∀ d, 0 < d → d < 2 ^ (stages p).1 - 1 → ∃ n, b (n + d) ≠ b n := by
  obtain ⟨s1, s2⟩ := stages_ok hp
  have e : ∀ n, b n = regBit p n := follows_unique s1 s2 hb (follows_regBit hp)
  obtain ⟨g1, g2, g3, g4⟩ := geometry_stages hp
  obtain ⟨o1, o2⟩ := order_of_register hp
  refine ⟨fun n => ?_, fun d hd hlt => ?_⟩
  · rw [e, e, regBit, Nat.add_comm, times_add, o1, regBit]
  · by_contra hall
    refine o2 d hd hlt (fits_ext (fits_times g2 g4 d) g4 (fun i hi => ?_))
    have h1 := reg_stage hp d i (by omega)
    have h2 := reg_stage hp 0 i (by omega)
    rw [Nat.zero_add] at h2
    rw [h1]
    refine Eq.trans ?_ h2.symm
    rw [← e, ← e, Nat.add_comm]
    by_contra hne
    exact hall ⟨i, hne⟩

theorem exists_word (w : Nat → Bool) (k : Nat) (hk : k ≤ 32) : ∃ v : Word, ∀ i, v.getLsbD i = (decide (i < k) && w i) := by
  induction k with
  | zero => exact ⟨0, fun i => by simp⟩
  | succ k ih =>
    obtain ⟨v, hv⟩ := ih (by omega)
    refine ⟨v ||| (bit (w k) <<< k), fun i => ?_⟩
    rw [BitVec.getLsbD_or, hv, BitVec.getLsbD_shiftLeft, bit_getLsbD]
    rcases Nat.lt_trichotomy i k with h | h | h
    · simp [h, show i < k + 1 by omega]
    · subst h
      simp [show i < 32 by omega]
    · simp [show ¬ i < k + 1 by omega, show ¬ i < k by omega, show i - k ≠ 0 by omega]

/-- In one period, every word of N bits which is not all zeros comes exactly once. -/
theorem random_words (p : Pattern) (hp : p.Random) (b : Nat → Bool) (hb : Follows (stages p) b) (w : Nat → Bool)
    (hw : ∃ i, i < (stages p).1 ∧ w i = true) :
    ∃ n, n < 2 ^ (stages p).1 - 1 ∧ (∀ i, i < (stages p).1 → b (n + i) = w i) ∧
      ∀ m, m < 2 ^ (stages p).1 - 1 → (∀ i, i < (stages p).1 → b (m + i) = w i) → m = n := by
  obtain ⟨s1, s2⟩ := stages_ok hp
  have e : ∀ n, b n = regBit p n := follows_unique s1 s2 hb (follows_regBit hp)
  obtain ⟨g1, g2, g3, g4⟩ := geometry_stages hp
  obtain ⟨o1, o2⟩ := order_of_register hp
  have hst := fun n i hi => reg_stage hp n i hi
  generalize hL : next (geometry p).sh (geometry p).s2 = L at *
  generalize hr : (choice p).reg = r at *
  generalize hN : (stages p).1 = N at *
  generalize hP : 2 ^ N - 1 = P at *
  have hfit : ∀ n, Fits (geometry p).s2 (times L n r) := fun n => by rw [← hL]; exact fits_times g2 g4 n
  -- the registers of one period are different
  have hinj : ∀ m n, m < P → n < P → times L m r = times L n r → m = n := by
    have half : ∀ m n, m < n → n < P → times L m r ≠ times L n r := by
      intro m n hmn hn h
      have h' : times L (P - m) (times L m r) = times L (P - m) (times L n r) := by rw [h]
      rw [← times_add, ← times_add, show m + (P - m) = P by omega, o1, show n + (P - m) = P + (n - m) by omega, times_add, o1] at h'
      exact o2 (n - m) (by omega) (by omega) h'.symm
    intro m n hm hn h
    rcases Nat.lt_trichotomy m n with hlt | heq | hgt
    · exact absurd h (half m n hlt hn)
    · exact heq
    · exact absurd h.symm (half n m hgt hm)
  -- and not zero
  have hnz : ∀ n, n < P → times L n r ≠ 0 := by
    intro n hn h
    have : times L (P - n) (times L n r) = r := by rw [← times_add, show n + (P - n) = P by omega, o1]
    rw [h, ← hL, times_zero g2] at this
    exact g3 this.symm
  have hNle : N ≤ 32 := by omega
  have hlt : ∀ n, (times L n r).toNat < 2 ^ N := by
    intro n
    apply Nat.lt_pow_two_of_testBit
    intro i hi
    exact hfit n i (by omega)
  let img := (Finset.range P).image (fun n => (times L n r).toNat)
  have hsub : img ⊆ Finset.Ico 1 (2 ^ N) := by
    intro x hx
    obtain ⟨n, hn, rfl⟩ := Finset.mem_image.1 hx
    have hn' := Finset.mem_range.1 hn
    refine Finset.mem_Ico.2 ⟨?_, hlt n⟩
    have : (times L n r).toNat ≠ 0 := fun h => hnz n hn' (BitVec.eq_of_toNat_eq (by rw [h]; rfl))
    omega
  have hcard : img.card = P := by
    rw [Finset.card_image_of_injOn, Finset.card_range]
    intro m hm n hn h
    exact hinj m n (by simpa using hm) (by simpa using hn) (BitVec.eq_of_toNat_eq h)
  have heq : img = Finset.Ico 1 (2 ^ N) := Finset.eq_of_subset_of_card_le hsub (by rw [hcard, Nat.card_Ico]; omega)
  -- the word as a number
  obtain ⟨v, hv⟩ := exists_word w N hNle
  have hvf : Fits (geometry p).s2 v := fun i hi => by rw [hv, decide_eq_false (by omega : ¬ i < N)]; rfl
  have hvlt : v.toNat < 2 ^ N := by
    apply Nat.lt_pow_two_of_testBit
    intro i hi
    exact hvf i (by omega)
  have hv0 : v.toNat ≠ 0 := by
    intro h
    obtain ⟨i, hi, hwi⟩ := hw
    have h0 : v = 0 := BitVec.eq_of_toNat_eq (by rw [h]; rfl)
    have := hv i
    rw [h0, hwi, decide_eq_true hi] at this
    simp at this
  have hmem : v.toNat ∈ img := by rw [heq]; exact Finset.mem_Ico.2 ⟨by omega, hvlt⟩
  obtain ⟨n, hn, hnv⟩ := Finset.mem_image.1 hmem
  have hnv' : times L n r = v := BitVec.eq_of_toNat_eq hnv
  refine ⟨n, Finset.mem_range.1 hn, fun i hi => ?_, fun m hm hmw => ?_⟩
  · rw [e, ← hst n i hi, hnv', hv, decide_eq_true hi]
    rfl
  · apply hinj m n hm (Finset.mem_range.1 hn)
    rw [hnv']
    refine fits_ext (hfit m) hvf (fun i hi => ?_)
    rw [hst m i (by omega), ← e, hmw i (by omega), hv, decide_eq_true (by omega : i < N)]
    rfl

theorem zeros_step (c : Settings) (n : Nat) (hl : c.limit = 0) :
    (advance (c.start .o151_20) (n + 1)).tx.zeros = limitCount 14 (advance (c.start .o151_20) n).tx.zeros (regBit .o151_20 n) := by
  have hu : ∀ n, Unlimited (c.start .o151_20) n := fun n => unlimited_of_zero hl n
  obtain ⟨h1, h2, h3⟩ := advance_reg c (p := .o151_20) (by simp [Pattern.Random]) n (hu n)
  rw [advance_step, getBit_random h1 (advance_not_ended (hu _)) h2, h3]
  rfl

/-- The pattern with limited runs repeats after as many bits as if the runs were not limited. -/
theorem limited_period (c : Settings) (hl : c.limit = 0) (n : Nat) :
    sent (c.start .o151_20) (n + (2 ^ 20 - 1)) = sent (c.start .o151_20) n := by
  have hp : Pattern.Random .o151_20 := by simp [Pattern.Random]
  have hu : ∀ n, Unlimited (c.start .o151_20) n := fun n => unlimited_of_zero hl n
  have hper : ∀ n, regBit .o151_20 (n + (2 ^ 20 - 1)) = regBit .o151_20 n := (random_period .o151_20 hp _ (follows_regBit hp)).1
  have hlast : regBit .o151_20 (2 ^ 20 - 2) = false := by
    show (times (next 3 19) (2 ^ 20 - 2) (0xFFFFF : Word)).getLsbD 0 = false
    rw [times_eq_power (by decide) (by decide) (by decide) (f := 20) (by decide) (fits_of_lt (by decide))]
    decide +kernel
  have hz : ∀ n, (advance (c.start .o151_20) (n + (2 ^ 20 - 1))).tx.zeros = (advance (c.start .o151_20) n).tx.zeros := by
    intro n
    induction n with
    | zero =>
      rw [show 0 + (2 ^ 20 - 1) = (2 ^ 20 - 2) + 1 by decide, zeros_step c _ hl, hlast]
      rfl
    | succ n ih =>
      rw [show n + 1 + (2 ^ 20 - 1) = n + (2 ^ 20 - 1) + 1 by omega, zeros_step c _ hl, zeros_step c _ hl, ih, hper]
  rw [sent_random c hp _ (hu _), sent_random c hp _ (hu _), hper, hz]

/-- The sequence of 2⁹-1 bits somewhere has a one and eight zeros. -/
example (b : Nat → Bool) (hb : Follows (stages .o153_9) b) : ∃ n, n < 511 ∧ ∀ i, i < 9 → b (n + i) = (i == 0) := by
  obtain ⟨n, h1, h2, _⟩ := random_words .o153_9 (by simp [Pattern.Random]) b hb (fun i => i == 0) ⟨0, by decide, rfl⟩
  exact ⟨n, h1, h2⟩

end Bert
