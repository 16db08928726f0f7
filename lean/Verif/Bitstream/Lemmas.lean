import Verif.Bitstream.Spec

namespace Bitstream
open Spec

def lo {n : Nat} (x : BitVec n) (w : Nat) : List Bool := (List.range w).map x.getLsbD

theorem lo_length {n : Nat} (x : BitVec n) (w : Nat) : (lo x w).length = w := by simp [lo]

theorem lo_congr {n m : Nat} (x : BitVec n) (y : BitVec m) (w : Nat)
    (h : ∀ i, i < w → x.getLsbD i = y.getLsbD i) : lo x w = lo y w := by
  apply List.map_congr_left
  intro i hi
  exact h i (List.mem_range.mp hi)

theorem lo_add {n : Nat} (x : BitVec n) (a b : Nat) : lo x (a + b) = lo x a ++ lo (x >>> a) b := by
  unfold lo
  rw [List.range_add, List.map_append, List.map_map]
  congr 1
  apply List.map_congr_left
  intro i _
  simp

theorem lo_inj {n : Nat} (x y : BitVec n) (w : Nat) (h : lo x w = lo y w) :
    ∀ i, i < w → x.getLsbD i = y.getLsbD i := by
  intro i hi
  have := congrArg (·[i]?) h
  simpa [lo, hi] using this

theorem mask_bit : ∀ b, b ≤ 30 → ∀ i, i < 32 → (mask b).getLsbD i = decide (i < b) := by
  decide +kernel

theorem masked_bit (v : BitVec 32) (b : Nat) (hb : b ≤ 30) (i : Nat) :
    (v &&& mask b).getLsbD i = (v.getLsbD i && decide (i < b)) := by
  rw [BitVec.getLsbD_and]
  rcases Nat.lt_or_ge i 32 with h | h
  · rw [mask_bit b hb i h]
  · rw [BitVec.getLsbD_of_ge _ _ h, Bool.false_and, Bool.false_and]

theorem ff_bit (x : BitVec 32) (i : Nat) (hi : i < 8) :
    ((x &&& 0xFF#32).setWidth 8).getLsbD i = x.getLsbD i := by
  have : (0xFF#32).getLsbD i = true := by
    revert i; decide
  simp only [BitVec.getLsbD_setWidth, BitVec.getLsbD_and, this, hi, decide_true, Bool.true_and,
    Bool.and_true]

theorem octetsBits_cons (l : Bool) (b : BitVec 8) (o : List (BitVec 8)) :
    octetsBits l (b :: o) = fieldBits l b 8 ++ octetsBits l o := rfl

theorem fieldBits_true {n : Nat} (x : BitVec n) (w : Nat) : fieldBits true x w = lo x w := rfl
theorem fieldBits_false {n : Nat} (x : BitVec n) (w : Nat) : fieldBits false x w = (lo x w).reverse := rfl

theorem drainLsb_spec (n : Nat) (x : BitVec 32) (r : Nat) (hn : r ≤ n) :
    ∃ x' o, drainLsb n x r = (x', r % 8, o) ∧
    octetsBits true o ++ lo x' (r % 8) = lo x r ∧
    ((∀ i, r ≤ i → x.getLsbD i = false) → ∀ i, r % 8 ≤ i → x'.getLsbD i = false) := by
  induction n generalizing x r with
  | zero =>
    have : r = 0 := by omega
    subst this
    exact ⟨x, [], rfl, rfl, fun h => h⟩
  | succ n ih =>
    unfold drainLsb
    by_cases h : r ≥ 8
    · obtain ⟨x', o, e, h1, h2⟩ := ih (x >>> 8) (r - 8) (by omega)
      rw [if_pos h, e]
      have hr : (r - 8) % 8 = r % 8 := by omega
      rw [hr] at h1 h2 ⊢
      refine ⟨x', _, rfl, ?_, ?_⟩
      · rw [octetsBits_cons, List.append_assoc, h1, fieldBits_true,
          lo_congr _ x 8 (fun i hi => ff_bit x i hi), ← lo_add]
        congr 1; omega
      · intro hx
        apply h2
        intro i hi
        rw [BitVec.getLsbD_ushiftRight]
        exact hx _ (by omega)
    · rw [if_neg h]
      have hr : r % 8 = r := by omega
      rw [hr]
      exact ⟨x, [], rfl, rfl, fun h => h⟩

theorem drainMsb_spec (n : Nat) (x : BitVec 32) (r : Nat) (hn : r ≤ n) :
    ∃ o, drainMsb n x r = (r % 8, o) ∧
    octetsBits false o ++ (lo x (r % 8)).reverse = (lo x r).reverse := by
  induction n generalizing r with
  | zero =>
    have : r = 0 := by omega
    subst this
    exact ⟨[], rfl, rfl⟩
  | succ n ih =>
    unfold drainMsb
    by_cases h : r ≥ 8
    · obtain ⟨o, e, h1⟩ := ih (r - 8) (by omega)
      rw [if_pos h, e]
      have hr : (r - 8) % 8 = r % 8 := by omega
      rw [hr] at h1 ⊢
      refine ⟨_, rfl, ?_⟩
      rw [octetsBits_cons, List.append_assoc, h1, fieldBits_false,
          lo_congr _ (x >>> (r - 8)) 8 (fun i hi => ff_bit _ i hi)]
      have := lo_add x (r - 8) 8
      rw [show r - 8 + 8 = r by omega] at this
      rw [this, List.reverse_append]
    · rw [if_neg h]
      have hr : r % 8 = r := by omega
      rw [hr]
      exact ⟨[], rfl, rfl⟩

/-- The bits waiting in the register. -/
def pend (s : State) : List Bool := fieldBits s.lsbFirst s.bitstream s.residue

/-- Between calls less than an octet waits, and an LSB first register is clear above it. -/
def Inv (s : State) : Prop :=
  s.residue < 8 ∧ (s.lsbFirst = true → ∀ i, s.residue ≤ i → s.bitstream.getLsbD i = false)

theorem init_inv (l : Bool) : Inv (init l) ∧ pend (init l) = [] := by
  refine ⟨⟨by simp [init], fun _ i _ => by simp [init]⟩, ?_⟩
  cases l <;> simp [pend, init, fieldBits]

theorem lo_or_shift (x v : BitVec 32) (r w : Nat) (hw : r + w ≤ 32)
    (hx : ∀ i, r ≤ i → x.getLsbD i = false) :
    lo (x ||| (v <<< r)) (r + w) = lo x r ++ lo v w := by
  rw [lo_add]
  congr 1
  · apply lo_congr
    intro i hi
    rw [BitVec.getLsbD_or, BitVec.getLsbD_shiftLeft]
    simp [hi]
  · apply lo_congr
    intro i hi
    rw [BitVec.getLsbD_ushiftRight, BitVec.getLsbD_or, BitVec.getLsbD_shiftLeft, hx _ (by omega)]
    have h1 : r + i < 32 := by omega
    simp [h1]

theorem lo_shift_or (x v : BitVec 32) (r w : Nat) (hw : r + w ≤ 32)
    (hv : ∀ i, w ≤ i → v.getLsbD i = false) :
    lo ((x <<< w) ||| v) (w + r) = lo v w ++ lo x r := by
  rw [lo_add]
  congr 1
  · apply lo_congr
    intro i hi
    rw [BitVec.getLsbD_or, BitVec.getLsbD_shiftLeft]
    simp [hi]
  · apply lo_congr
    intro i hi
    rw [BitVec.getLsbD_ushiftRight, BitVec.getLsbD_or, BitVec.getLsbD_shiftLeft, hv _ (by omega)]
    have h1 : w + i < 32 := by omega
    simp [h1]

theorem lo_masked (v : BitVec 32) (w : Nat) (hw : w ≤ 30) : lo (v &&& mask w) w = lo v w := by
  apply lo_congr
  intro i hi
  rw [masked_bit v w hw]; simp [hi]

theorem put_spec (s : State) (v : BitVec 32) (w : Nat) (hs : Inv s) (hw : w ≤ 25) :
    ∃ s' o, put s v w = some (s', o) ∧ Inv s' ∧ s'.lsbFirst = s.lsbFirst ∧
      octetsBits s.lsbFirst o ++ pend s' = pend s ++ fieldBits s.lsbFirst v w := by
  obtain ⟨x, r, l⟩ := s
  obtain ⟨hr, hx⟩ := hs
  simp only at hr hx
  unfold put
  rw [if_neg (by simp only; omega)]
  have hfit : r + w ≤ 32 := by omega
  cases l with
  | true =>
    simp only [if_true, hfit]
    obtain ⟨x', o, e, h1, h2⟩ := drainLsb_spec (r + w) (x ||| ((v &&& mask w) <<< r)) (r + w) (Nat.le_refl _)
    rw [e]
    refine ⟨_, _, rfl, ⟨?_, ?_⟩, rfl, ?_⟩
    · simp only; omega
    · intro _
      apply h2
      intro i hi
      rw [BitVec.getLsbD_or, BitVec.getLsbD_shiftLeft, hx rfl i (by omega), masked_bit v w (by omega)]
      have h1 : ¬ i - r < w := by omega
      simp [h1]
    · simp only [pend, fieldBits_true]
      rw [h1, lo_or_shift _ _ _ _ hfit (hx rfl), lo_masked v w (by omega)]
  | false =>
    simp only [Bool.false_eq_true, if_false, hfit, if_true]
    obtain ⟨o, e, h1⟩ := drainMsb_spec (r + w) ((x <<< w) ||| (v &&& mask w)) (r + w) (Nat.le_refl _)
    rw [e]
    refine ⟨_, _, rfl, ⟨?_, ?_⟩, rfl, ?_⟩
    · simp only; omega
    · intro h; cases h
    · simp only [pend, fieldBits_false]
      rw [h1, Nat.add_comm r w, lo_shift_or _ _ _ _ hfit, lo_masked v w (by omega), List.reverse_append]
      intro i hi
      rw [masked_bit v w (by omega)]
      have : ¬ i < w := by omega
      simp [this]

theorem lo_zero {n : Nat} (x : BitVec n) (w : Nat) (h : ∀ i, x.getLsbD i = false) :
    lo x w = List.replicate w false := by
  apply List.ext_getElem
  · simp [lo]
  · intro i h1 h2
    simp only [lo, List.getElem_map, List.getElem_range, List.getElem_replicate]
    exact h i

theorem flush_spec (s : State) (hs : Inv s) :
    ∃ s' o k, flush s = some (s', o) ∧ k < 8 ∧ s' = init s.lsbFirst ∧
      octetsBits s.lsbFirst o = pend s ++ List.replicate k false := by
  obtain ⟨x, r, l⟩ := s
  obtain ⟨hr, hx⟩ := hs
  simp only at hr hx
  by_cases h0 : r > 0
  · unfold flush emit
    simp only [h0, if_true]
    rw [if_neg (by omega)]
    have m : ∀ i, (x &&& mask r).getLsbD i = (x.getLsbD i && decide (i < r)) := masked_bit x r (by omega)
    cases l with
    | true =>
      refine ⟨_, _, 8 - r, rfl, by omega, rfl, ?_⟩
      simp only [octetsBits_cons, pend, fieldBits_true]
      show lo _ 8 ++ [] = _
      rw [List.append_nil]
      have := lo_add (BitVec.setWidth 8 (x &&& mask r)) r (8 - r)
      rw [show r + (8 - r) = 8 by omega] at this
      rw [this]
      congr 1
      · apply lo_congr
        intro i hi
        rw [BitVec.getLsbD_setWidth, m]
        have : i < 8 := by omega
        simp [this, hi]
      · apply lo_zero
        intro i
        rw [BitVec.getLsbD_ushiftRight, BitVec.getLsbD_setWidth, m]
        simp
    | false =>
      refine ⟨_, _, 8 - r, rfl, by omega, rfl, ?_⟩
      simp only [octetsBits_cons, pend, fieldBits_false]
      show (lo _ 8).reverse ++ [] = _
      rw [List.append_nil]
      have := lo_add (BitVec.setWidth 8 ((x &&& mask r) <<< (8 - r))) (8 - r) r
      rw [show (8 - r) + r = 8 by omega] at this
      rw [this, List.reverse_append]
      congr 1
      · congr 1
        apply lo_congr
        intro i hi
        rw [BitVec.getLsbD_ushiftRight, BitVec.getLsbD_setWidth, BitVec.getLsbD_shiftLeft, m]
        have : 8 - r + i < 8 := by omega
        have h2 : 8 - r + i < 32 := by omega
        simp [this, hi, h2]
      · rw [← List.reverse_replicate]
        congr 1
        have hz : lo (BitVec.setWidth 8 ((x &&& mask r) <<< (8 - r))) (8 - r) = lo (0#8) (8 - r) := by
          apply lo_congr
          intro i hi
          rw [BitVec.getLsbD_setWidth, BitVec.getLsbD_shiftLeft]
          simp [hi]
        rw [hz]
        apply lo_zero
        simp
  · have : r = 0 := by omega
    subst this
    refine ⟨_, [], 0, ?_, by omega, rfl, ?_⟩
    · unfold flush; simp [init]
    · cases l <;> simp [octetsBits, pend, fieldBits]

theorem fillLsb_spec (w : Nat) (hw : w ≤ 25) (c : List (BitVec 8)) (x : BitVec 32) (r : Nat)
    (hx : ∀ i, r ≤ i → x.getLsbD i = false) (hc : w ≤ r + 8 * c.length) :
    ∃ x' r' c', fillLsb w x r c = some (x', r', c') ∧ w ≤ r' ∧ (r' < w + 8 ∨ r' = r) ∧
      lo x' r' ++ octetsBits true c' = lo x r ++ octetsBits true c ∧
      (∀ i, r' ≤ i → x'.getLsbD i = false) := by
  induction c generalizing x r with
  | nil =>
    unfold fillLsb
    simp at hc
    rw [if_neg (by omega)]
    exact ⟨x, r, [], rfl, by omega, Or.inr rfl, rfl, hx⟩
  | cons b c ih =>
    unfold fillLsb
    by_cases h : r < w
    · rw [if_pos h]
      rw [if_neg (by omega)]
      obtain ⟨x', r', c', e, h1, h2, h3, h4⟩ := ih (x ||| (b.setWidth 32 <<< r)) (r + 8) (by
        intro i hi
        rw [BitVec.getLsbD_or, BitVec.getLsbD_shiftLeft, hx i (by omega), BitVec.getLsbD_setWidth,
          BitVec.getLsbD_of_ge b (i - r) (by omega)]
        simp) (by simp at hc; omega)
      refine ⟨x', r', c', e, h1, by omega, ?_, h4⟩
      rw [h3, lo_or_shift _ _ _ _ (by omega) hx, octetsBits_cons, List.append_assoc, fieldBits_true,
        lo_congr (b.setWidth 32) b 8]
      intro i hi
      rw [BitVec.getLsbD_setWidth]
      have : i < 32 := by omega
      simp [this]
    · rw [if_neg h]
      exact ⟨x, r, b :: c, rfl, by omega, Or.inr rfl, rfl, hx⟩

theorem fillMsb_spec (w : Nat) (hw : w ≤ 25) (c : List (BitVec 8)) (x : BitVec 32) (r : Nat)
    (hc : w ≤ r + 8 * c.length) :
    ∃ x' r' c', fillMsb w x r c = some (x', r', c') ∧ w ≤ r' ∧ (r' < w + 8 ∨ r' = r) ∧
      (lo x' r').reverse ++ octetsBits false c' = (lo x r).reverse ++ octetsBits false c := by
  induction c generalizing x r with
  | nil =>
    unfold fillMsb
    simp at hc
    rw [if_neg (by omega)]
    exact ⟨x, r, [], rfl, by omega, Or.inr rfl, rfl⟩
  | cons b c ih =>
    unfold fillMsb
    by_cases h : r < w
    · rw [if_pos h]
      obtain ⟨x', r', c', e, h1, h2, h3⟩ := ih ((x <<< 8) ||| b.setWidth 32) (r + 8) (by simp at hc; omega)
      refine ⟨x', r', c', e, h1, by omega, ?_⟩
      rw [h3, Nat.add_comm r 8, lo_shift_or _ _ _ _ (by omega), octetsBits_cons, List.reverse_append,
        List.append_assoc, fieldBits_false, lo_congr (b.setWidth 32) b 8]
      · intro i hi
        rw [BitVec.getLsbD_setWidth]
        have : i < 32 := by omega
        simp [this]
      · intro i hi
        rw [BitVec.getLsbD_setWidth, BitVec.getLsbD_of_ge b i (by omega)]
        simp
    · rw [if_neg h]
      exact ⟨x, r, b :: c, rfl, by omega, Or.inr rfl, rfl⟩

theorem get_spec (s : State) (c : List (BitVec 8)) (w : Nat) (hs : Inv s) (hw : w ≤ 25)
    (hc : w ≤ s.residue + 8 * c.length) :
    ∃ v s' c', get s c w = some (v, s', c') ∧ Inv s' ∧ s'.lsbFirst = s.lsbFirst ∧
      fieldBits s.lsbFirst v w ++ (pend s' ++ octetsBits s.lsbFirst c') =
        pend s ++ octetsBits s.lsbFirst c ∧
      ∀ i, w ≤ i → v.getLsbD i = false := by
  obtain ⟨x, r, l⟩ := s
  obtain ⟨hr, hx⟩ := hs
  simp only at hr hx hc
  unfold get
  rw [if_neg (by omega)]
  cases l with
  | true =>
    simp only [if_true]
    obtain ⟨x', r', c', e, h1, h2, h3, h4⟩ := fillLsb_spec w hw c x r (hx rfl) hc
    rw [e]
    refine ⟨_, _, _, rfl, ⟨?_, ?_⟩, rfl, ?_, ?_⟩
    · simp only; omega
    · intro _ i hi
      simp only at hi ⊢
      rw [BitVec.getLsbD_ushiftRight]
      exact h4 _ (by omega)
    · simp only [pend, fieldBits_true]
      rw [lo_masked _ _ (by omega), ← List.append_assoc, ← lo_add, ← h3]
      congr 2
      omega
    · intro i hi
      rw [masked_bit _ _ (by omega)]
      have : ¬ i < w := by omega
      simp [this]
  | false =>
    simp only [Bool.false_eq_true, if_false]
    obtain ⟨x', r', c', e, h1, h2, h3⟩ := fillMsb_spec w hw c x r hc
    rw [e]
    simp only [Option.bind_eq_bind, Option.bind_some]
    rw [if_neg (by omega)]
    refine ⟨_, _, _, rfl, ⟨?_, ?_⟩, rfl, ?_, ?_⟩
    · simp only; omega
    · intro h; cases h
    · simp only [pend, fieldBits_false]
      rw [lo_masked _ _ (by omega), ← List.append_assoc, ← List.reverse_append, ← lo_add, ← h3]
      congr 3
      omega
    · intro i hi
      rw [masked_bit _ _ (by omega)]
      have : ¬ i < w := by omega
      simp [this]

end Bitstream
