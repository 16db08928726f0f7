import Verif.Bert.Random

/-!
# The text pattern
-/

namespace Bert

theorem qbf_length : qbf.length = 153 := by decide +kernel

theorem qbf_ascii : ∀ c ∈ qbf, c.toNat < 128 ∧ c.toNat ≠ 0 := by decide +kernel

theorem qbfAt_getLsbD (i j : Nat) (h : 7 ≤ j) : (qbfAt i).getLsbD j = false := by
  simp only [qbfAt]
  by_cases hi : i < (qbf.map (fun c => BitVec.ofNat 32 c.toNat)).length
  · rw [List.getElem?_eq_getElem hi]
    simp only [Option.getD_some, List.getElem_map, BitVec.getLsbD_ofNat]
    have := (qbf_ascii _ (List.getElem_mem (by simpa using hi))).1
    rw [Nat.testBit_lt_two_pow (Nat.lt_of_lt_of_le this (by
      calc 128 = 2 ^ 7 := rfl
        _ ≤ 2 ^ j := Nat.pow_le_pow_right (by omega) h))]
    simp
  · rw [List.getElem?_eq_none (by omega)]
    simp

theorem qbfAt_zero_iff (i : Nat) : qbfAt i = 0 ↔ qbf.length ≤ i := by
  simp only [qbfAt]
  by_cases hi : i < (qbf.map (fun c => BitVec.ofNat 32 c.toNat)).length
  · rw [List.getElem?_eq_getElem hi]
    simp only [Option.getD_some, List.getElem_map]
    have := qbf_ascii _ (List.getElem_mem (by simpa using hi))
    rw [List.length_map] at hi
    constructor
    · intro h
      have := congrArg BitVec.toNat h
      rw [BitVec.toNat_ofNat, Nat.mod_eq_of_lt (by omega)] at this
      simp only [BitVec.ofNat_eq_ofNat, BitVec.toNat_ofNat] at this
      omega
    · intro h; omega
  · rw [List.getElem?_eq_none (by omega)]
    rw [List.length_map] at hi
    simp only [Option.getD_none, true_iff]
    omega

theorem qbfAt_first : qbfAt 0 = 0x56 := by decide +kernel

/-- The tester has taken the start of a character, and the list says which of its bits were inverted. -/
structure Mid (s : State) (pre : List Bool) : Prop where
  cls : s.patternClass = 2
  inv : s.invert = 0
  short : pre.length < 7
  left : (fetch s.tx).stepBit = 7 - pre.length
  reg : (fetch s.tx).reg = qbfAt s.rx.step >>> pre.length
  step : (fetch s.tx).step = s.rx.step + 1
  taken : s.rx.stepBit = pre.length
  small : ∀ i, 7 ≤ i → s.rx.reg.getLsbD i = false
  seen : ∀ i, i < 7 → 7 ≤ i + pre.length →
    s.rx.reg.getLsbD i = ((qbfAt s.rx.step).getLsbD (i + pre.length - 7) ^^ pre.getD (i + pre.length - 7) false)

theorem getBit_text {s : State} (h : s.patternClass = 2) (he : ¬ ended s) :
    getBit s = ({ s with tx := { fetch s.tx with
        reg := (fetch s.tx).reg >>> 1, stepBit := (fetch s.tx).stepBit - 1, bits := (fetch s.tx).bits + 1 } },
      bit ((fetch s.tx).reg.getLsbD 0)) := by
  unfold getBit
  rw [if_neg (show ¬ (s.limit ≠ 0 ∧ (s.tx.bits : Int) ≥ s.limit) from he)]
  simp only [h, and_one_eq]
  rfl

theorem fetch_bits (t : Tx) : (fetch t).bits = t.bits := by
  simp only [fetch]
  split
  · split <;> rfl
  · rfl

theorem turn_text {s : State} (h : s.patternClass = 2) (hi : s.invert = 0) (he : ¬ ended s) (e : Bool) :
    turn s e =
      let p := putText { s with
        tx := { fetch s.tx with
          reg := (fetch s.tx).reg >>> 1, stepBit := (fetch s.tx).stepBit - 1, bits := (fetch s.tx).bits + 1 },
        rx := { s.rx with bits := s.rx.bits + 1 } } (bit ((fetch s.tx).reg.getLsbD 0 ^^ e))
      ((regular p.1).1, p.2 ++ (regular p.1).2) := by
  have hc : ∀ (q : State) (w : Word), q.patternClass = 2 → putClass q w = putText q w := by
    intro q w hq
    simp only [putClass, hq, if_true]
    rfl
  have hx : ∀ (b : Bool), bit b ^^^ s.invert = bit b := by
    intro b
    rw [hi]
    exact BitVec.xor_zero
  simp only [turn, getBit_text h he, line_bit, putBit_bit, hx]
  rw [hc _ _ (by exact h)]

/-- A bit goes in as the seventh. -/
theorem push7_getLsbD (r : Word) (hr : ∀ i, 7 ≤ i → r.getLsbD i = false) (b : Bool) (i : Nat) :
    ((r >>> 1) ||| (bit b <<< 6)).getLsbD i = if i = 6 then b else r.getLsbD (i + 1) := by
  simp only [BitVec.getLsbD_or, BitVec.getLsbD_ushiftRight, BitVec.getLsbD_shiftLeft, bit_getLsbD]
  by_cases h : i = 6
  · subst h
    rw [hr (1 + 6) (by omega)]
    simp
  · rw [if_neg h, Nat.add_comm 1 i]
    by_cases h1 : i < 6
    · simp [h1]
    · have : i - 6 ≠ 0 := by omega
      simp [this]

seal qbfAt in
theorem text_turn {s : State} {pre : List Bool} (h : Mid s pre) (he : ¬ ended s) (e : Bool) (s' : State)
    (hs' : s' = (turn s e).1) :
    s'.results = ⟨s.results.totalBits + 1,
      s.results.badBits + (if pre.length = 6 ∧ (pre ++ [e]).any id then 1 else 0), s.results.resyncs⟩ ∧
    Mid s' (if pre.length = 6 then [] else pre ++ [e]) ∧
    s'.limit = s.limit ∧ s'.tx.bits = s.tx.bits + 1 ∧
    told reportSynced (turn s e).2 = 0 ∧ told reportUnsynced (turn s e).2 = 0 := by
  have hbit : (fetch s.tx).reg.getLsbD 0 = (qbfAt s.rx.step).getLsbD pre.length := by
    rw [h.reg, BitVec.getLsbD_ushiftRight]; rfl
  rw [turn_text h.cls h.inv he e] at hs' ⊢
  simp only at hs' ⊢
  rw [told_append, told_append, told_regular _ (by decide), told_regular _ (by decide)]
  obtain ⟨⟨rc, hrc⟩, _⟩ := regular_frame (putText { s with
        tx := { fetch s.tx with
          reg := (fetch s.tx).reg >>> 1, stepBit := (fetch s.tx).stepBit - 1, bits := (fetch s.tx).bits + 1 },
        rx := { s.rx with bits := s.rx.bits + 1 } } (bit ((fetch s.tx).reg.getLsbD 0 ^^ e))).1
  have hs'' := hs'.trans hrc
  clear hrc hs'
  have hshort := h.short
  -- the register of the tester
  generalize hreg : ((s.rx.reg >>> 1) ||| (bit ((fetch s.tx).reg.getLsbD 0 ^^ e) <<< 6)) = reg at hs''
  have hsmall : ∀ i, 7 ≤ i → reg.getLsbD i = false := by
    intro i hi
    rw [← hreg, push7_getLsbD _ h.small, if_neg (by omega)]
    exact h.small _ (by omega)
  have hseen : ∀ i, i < 7 → 7 ≤ i + (pre ++ [e]).length →
      reg.getLsbD i = ((qbfAt s.rx.step).getLsbD (i + (pre ++ [e]).length - 7) ^^
        (pre ++ [e]).getD (i + (pre ++ [e]).length - 7) false) := by
    intro i hi hh
    rw [← hreg, push7_getLsbD _ h.small]
    simp only [List.length_append, List.length_cons, List.length_nil] at hh ⊢
    split
    · next h6 =>
      subst h6
      rw [hbit]
      simp only [show 6 + (pre.length + (0 + 1)) - 7 = pre.length by omega]
      simp
    · next h6 =>
      rw [h.seen (i + 1) (by omega) (by omega)]
      simp only [show i + 1 + pre.length - 7 = i + (pre.length + (0 + 1)) - 7 by omega]
      simp only [List.getD_eq_getElem?_getD]
      rw [List.getElem?_append_left (by omega)]
  by_cases h6 : pre.length = 6
  · have hst : s.rx.stepBit + 1 = 7 := by rw [h.taken, h6]
    simp only [putText, hst, if_true, hreg] at hs''
    -- the comparison
    have hcmp : (reg = qbfAt s.rx.step) ↔ ¬ (pre ++ [e]).any id = true := by
      have hl : (pre ++ [e]).length = 7 := by simp [h6]
      constructor
      · intro heq hany
        simp only [List.any_eq_true, id_eq, exists_eq_right] at hany
        obtain ⟨i, hi, hv⟩ := List.mem_iff_getElem.1 hany
        have := hseen i (by omega) (by omega)
        simp only [hl, Nat.add_sub_cancel] at this
        rw [heq, List.getD_eq_getElem?_getD, List.getElem?_eq_getElem hi, hv] at this
        revert this
        cases (qbfAt s.rx.step).getLsbD i <;> decide
      · intro hany
        apply BitVec.eq_of_getLsbD_eq
        intro i hi
        by_cases hi7 : i < 7
        · have := hseen i hi7 (by omega)
          simp only [hl, Nat.add_sub_cancel] at this
          have hf : (pre ++ [e])[i]'(by omega) = false := by
            cases hv : (pre ++ [e])[i]'(by omega) with
            | false => rfl
            | true =>
              exact absurd (List.any_eq_true.2 ⟨true, List.mem_iff_getElem.2 ⟨i, by omega, hv⟩, rfl⟩) hany
          rw [this, List.getD_eq_getElem?_getD, List.getElem?_eq_getElem (by omega), hf]
          simp
        · rw [hsmall i (by omega), qbfAt_getLsbD _ i (by omega)]
    have hbad : (if reg ≠ qbfAt s.rx.step then 1 else 0) = (if pre.length = 6 ∧ (pre ++ [e]).any id then 1 else 0 : Nat) := by
      by_cases hr : reg = qbfAt s.rx.step
      · rw [if_neg (by simpa using hr), if_neg (fun hc => hcmp.1 hr hc.2)]
      · rw [if_pos hr, if_pos ⟨h6, Classical.byContradiction fun hc => hr (hcmp.2 hc)⟩]
    rw [hbad] at hs''
    have hsb : (fetch s.tx).stepBit - 1 = 0 := by rw [h.left, h6]
    have hstep := h.step
    subst hs''
    refine ⟨rfl, ?_, rfl, congrArg (· + 1) (fetch_bits s.tx), rfl, rfl⟩
    rw [if_pos h6]
    have hz := qbfAt_zero_iff (s.rx.step + 1)
    refine ⟨h.cls, h.inv, by simp, ?_, ?_, ?_, rfl, hsmall, ?_⟩
    · show (fetch { fetch s.tx with
          reg := (fetch s.tx).reg >>> 1, stepBit := (fetch s.tx).stepBit - 1, bits := (fetch s.tx).bits + 1 }).stepBit = 7 - 0
      rw [fetch, if_pos hsb, hstep]
      by_cases hq : qbfAt (s.rx.step + 1) = 0
      · rw [if_pos hq]
      · rw [if_neg hq]
    · show (fetch { fetch s.tx with
          reg := (fetch s.tx).reg >>> 1, stepBit := (fetch s.tx).stepBit - 1, bits := (fetch s.tx).bits + 1 }).reg =
        qbfAt (if qbfAt (s.rx.step + 1) = 0 then 0 else s.rx.step + 1) >>> 0
      rw [fetch, if_pos hsb, BitVec.ushiftRight_zero, hstep]
      by_cases hq : qbfAt (s.rx.step + 1) = 0
      · rw [if_pos hq, if_pos hq, qbfAt_first]
      · rw [if_neg hq, if_neg hq]
    · show (fetch { fetch s.tx with
          reg := (fetch s.tx).reg >>> 1, stepBit := (fetch s.tx).stepBit - 1, bits := (fetch s.tx).bits + 1 }).step =
        (if qbfAt (s.rx.step + 1) = 0 then 0 else s.rx.step + 1) + 1
      rw [fetch, if_pos hsb, hstep]
      by_cases hq : qbfAt (s.rx.step + 1) = 0
      · rw [if_pos hq, if_pos hq]
      · rw [if_neg hq, if_neg hq]
    · intro i hi hh
      simp only [List.length_nil] at hh
      omega
  · have hst : ¬ s.rx.stepBit + 1 = 7 := by rw [h.taken]; omega
    simp only [putText, hst, if_false, hreg] at hs''
    have hsb : ¬ (fetch s.tx).stepBit - 1 = 0 := by rw [h.left]; omega
    have hleft := h.left
    have hstep := h.step
    have hreg2 := h.reg
    have htaken := h.taken
    subst hs''
    refine ⟨?_, ?_, rfl, congrArg (· + 1) (fetch_bits s.tx), rfl, rfl⟩
    · rw [if_neg (by simp [h6])]; rfl
    · rw [if_neg h6]
      have hf : fetch { fetch s.tx with
          reg := (fetch s.tx).reg >>> 1, stepBit := (fetch s.tx).stepBit - 1, bits := (fetch s.tx).bits + 1 } =
          { fetch s.tx with
          reg := (fetch s.tx).reg >>> 1, stepBit := (fetch s.tx).stepBit - 1, bits := (fetch s.tx).bits + 1 } := by
        rw [fetch, if_neg hsb]
      refine ⟨h.cls, h.inv, ?_, ?_, ?_, ?_, ?_, hsmall, ?_⟩
      · simp only [List.length_append, List.length_cons, List.length_nil]; omega
      · show (fetch { fetch s.tx with
          reg := (fetch s.tx).reg >>> 1, stepBit := (fetch s.tx).stepBit - 1, bits := (fetch s.tx).bits + 1 }).stepBit = _
        rw [hf, List.length_append, List.length_cons, List.length_nil]
        show (fetch s.tx).stepBit - 1 = _
        omega
      · show (fetch { fetch s.tx with
          reg := (fetch s.tx).reg >>> 1, stepBit := (fetch s.tx).stepBit - 1, bits := (fetch s.tx).bits + 1 }).reg = _
        rw [hf, List.length_append, List.length_cons, List.length_nil]
        show (fetch s.tx).reg >>> 1 = qbfAt s.rx.step >>> _
        rw [hreg2]
        apply BitVec.eq_of_getLsbD_eq
        intro i _
        simp only [BitVec.getLsbD_ushiftRight]
        congr 1; omega
      · show (fetch { fetch s.tx with
          reg := (fetch s.tx).reg >>> 1, stepBit := (fetch s.tx).stepBit - 1, bits := (fetch s.tx).bits + 1 }).step = _
        rw [hf]; exact hstep
      · simp only [htaken, List.length_append, List.length_cons, List.length_nil]
      · exact hseen

theorem mid_start (c : Settings) : Mid (c.start .qbf) [] := by
  refine ⟨rfl, rfl, by simp, ?_, ?_, ?_, rfl, ?_, ?_⟩
  · show (fetch ⟨0, 0, 0, 0, 0⟩).stepBit = 7 - 0
    decide +kernel
  · show (fetch ⟨0, 0, 0, 0, 0⟩).reg = qbfAt 0 >>> 0
    decide +kernel
  · show (fetch ⟨0, 0, 0, 0, 0⟩).step = 0 + 1
    decide +kernel
  · intro i _
    show (0 : Word).getLsbD i = false
    simp
  · intro i hi hh
    simp only [List.length_nil] at hh
    omega

end Bert
