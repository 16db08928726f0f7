import Verif.Nego.Model

/-!
# Bits of frames under construction

How the bits read back from a frame after bits have been set in it, and after it has been pruned,
sent, received and padded.
-/

namespace Nego

theorem test_setBit (f : Frame) (b j : Nat) (hb : 0 < b) (hj : 0 < j) :
    test (setBit f b) j = (test f j || decide (b = j)) := by
  unfold test setBit upd
  by_cases ho : 3 + (j - 1)/8 = 3 + (b - 1)/8
  · rw [if_pos ho, ho, BitVec.getLsbD_or, BitVec.getLsbD_twoPow]
    congr 1
    have h8 : (b - 1)%8 < 8 := Nat.mod_lt _ (by omega)
    simp only [h8, decide_true, Bool.true_and]
    apply decide_eq_decide.mpr
    omega
  · rw [if_neg ho]
    have : ¬ b = j := fun h => ho (by rw [h])
    simp [this]

theorem test_setIf (c : Bool) (f : Frame) (b j : Nat) (hb : 0 < b) (hj : 0 < j) :
    test (setIf c b f) j = (test f j || (c && decide (b = j))) := by
  unfold setIf
  cases c <;> simp [test_setBit _ _ _ hb hj]

theorem test_setAll (c : Bool) (bs : List Nat) (f : Frame) (j : Nat) (hj : 0 < j)
    (hbs : ∀ b ∈ bs, 0 < b) :
    test (setAll c bs f) j = (test f j || (c && decide (j ∈ bs))) := by
  unfold setAll
  induction bs generalizing f with
  | nil => simp
  | cons b l ih =>
    rw [List.foldl_cons, ih _ (fun x hx => hbs x (List.mem_cons_of_mem _ hx)),
      test_setIf _ _ _ _ (hbs b List.mem_cons_self) hj]
    cases c
    · simp
    · by_cases h : b = j
      · subst h; simp
      · have h' : ¬ j = b := fun e => h e.symm
        simp [h, h']

theorem test_clrBit (f : Frame) (b j : Nat) (hb : 0 < b) (hj : 0 < j) :
    test (clrBit f b) j = (test f j && !decide (b = j)) := by
  unfold test clrBit upd
  have h8 : (b - 1)%8 < 8 := Nat.mod_lt _ (by omega)
  have h8' : (j - 1)%8 < 8 := Nat.mod_lt _ (by omega)
  by_cases ho : 3 + (j - 1)/8 = 3 + (b - 1)/8
  · rw [if_pos ho, ho, BitVec.getLsbD_and, BitVec.getLsbD_not, BitVec.getLsbD_twoPow]
    congr 1
    simp only [h8, h8', decide_true, Bool.true_and]
    congr 1
    apply decide_eq_decide.mpr
    omega
  · rw [if_neg ho]
    have : ¬ b = j := fun h => ho (by rw [h])
    simp [this]

theorem test_upd2 (f : Frame) (x : Byte) (j : Nat) : test (upd f 2 x) j = test f j := by
  unfold test upd
  rw [if_neg (by omega)]

theorem test_blank (k : Byte) (j : Nat) : test (blank k) j = false := by
  unfold test blank
  rw [if_neg (by omega), if_neg (by omega), if_neg (by omega)]
  simp

theorem test_orOctet (f : Frame) (i : Nat) (x : Byte) (j : Nat) :
    test (orOctet f i x) j =
      (test f j || (decide (3 + (j - 1)/8 = i) && x.getLsbD ((j - 1)%8))) := by
  unfold test orOctet upd
  by_cases h : 3 + (j - 1)/8 = i
  · rw [if_pos h, BitVec.getLsbD_or, h]; simp
  · rw [if_neg h]; simp [h]

theorem setIf_false (b : Nat) (f : Frame) : setIf false b f = f := rfl

/-! ## Pruning -/

/-- A bit which is not one of the extension bits. -/
def plain (j : Nat) : Prop := 0 < j ∧ (j%8 ≠ 0 ∨ j ≤ 16)

instance (j : Nat) : Decidable (plain j) := inferInstanceAs (Decidable (_ ∧ _))

theorem and_7F (x : Byte) (i : Nat) (hi : i < 7) :
    (x &&& 0x7F#8).getLsbD i = x.getLsbD i := by
  rw [BitVec.getLsbD_and]
  have : (0x7F#8).getLsbD i = true := by
    rcases i with _ | _ | _ | _ | _ | _ | _ | i <;> first | rfl | omega
  rw [this, Bool.and_true]

theorem or_80 (x : Byte) (i : Nat) (hi : i < 7) :
    (x ||| 0x80#8).getLsbD i = x.getLsbD i := by
  rw [BitVec.getLsbD_or]
  have : (0x80#8).getLsbD i = false := by
    rcases i with _ | _ | _ | _ | _ | _ | _ | i <;> first | rfl | omega
  rw [this, Bool.or_false]

theorem pruneFrom_above (g : Frame) (m k : Nat) (hk : 5 + m < k) :
    (pruneFrom g m).1 k = g k := by
  induction m generalizing g with
  | zero => rfl
  | succ m ih =>
    rw [pruneFrom]
    by_cases hc : upd g (6 + m) (g (6 + m) &&& 0x7F#8) (6 + m) ≠ 0#8
    · simp only [hc, if_true, ne_eq, not_false_eq_true]
      simp only [upd]; rw [if_neg (by omega)]
    · simp only [hc, if_false]
      rw [ih _ (by omega)]; simp only [upd]; rw [if_neg (by omega)]

/-- What the first loop of the pruning does. -/
theorem pruneFrom_spec (f : Frame) (n : Nat) :
    5 ≤ (pruneFrom f n).2 ∧ (pruneFrom f n).2 ≤ 5 + n ∧
    (∀ j, j < 6 → (pruneFrom f n).1 j = f j) ∧
    (∀ j, 6 ≤ j → j ≤ 5 + n → (pruneFrom f n).1 j &&& 0x7F#8 = f j &&& 0x7F#8) ∧
    (∀ j, (pruneFrom f n).2 < j → j ≤ 5 + n → f j &&& 0x7F#8 = 0#8) ∧
    (6 ≤ (pruneFrom f n).2 → (pruneFrom f n).1 (pruneFrom f n).2 ≠ 0#8 ∧
      (pruneFrom f n).1 (pruneFrom f n).2 &&& 0x80#8 = 0#8) := by
  induction n generalizing f with
  | zero =>
    refine ⟨by simp [pruneFrom], by simp [pruneFrom], fun j _ => rfl, fun j h1 h2 => by omega,
      fun j h1 h2 => by simp [pruneFrom] at h1; omega, fun h => by simp [pruneFrom] at h⟩
  | succ n ih =>
    rw [pruneFrom]
    have hmm : ∀ x : Byte, x &&& 0x7F#8 &&& 0x7F#8 = x &&& 0x7F#8 := by decide +kernel
    have hm8 : ∀ x : Byte, x &&& 0x7F#8 &&& 0x80#8 = 0#8 := by decide +kernel
    by_cases h : upd f (6 + n) (f (6 + n) &&& 0x7F#8) (6 + n) ≠ 0#8
    · simp only [if_pos h]
      refine ⟨by omega, by omega, fun j hj => ?_, fun j h1 h2 => ?_, fun j h1 h2 => by omega,
        fun _ => ⟨h, ?_⟩⟩
      · simp only [upd]; rw [if_neg (by omega)]
      · simp only [upd]
        by_cases hj : j = 6 + n
        · rw [if_pos hj, hmm, hj]
        · rw [if_neg hj]
      · simp only [upd, if_pos, hm8]
    · simp only [if_neg h]
      obtain ⟨a1, a2, a3, a4, a5, a6⟩ := ih (upd f (6 + n) (f (6 + n) &&& 0x7F#8))
      have h0 : f (6 + n) &&& 0x7F#8 = 0#8 := by
        simp only [upd, if_true, ne_eq, Decidable.not_not] at h; exact h
      have hfr : ∀ j, j ≠ 6 + n → upd f (6 + n) (f (6 + n) &&& 0x7F#8) j = f j := fun j hj => by
        simp only [upd]; rw [if_neg hj]
      refine ⟨a1, by omega, fun j hj => ?_, fun j h1 h2 => ?_, fun j h1 h2 => ?_, a6⟩
      · rw [a3 j hj, hfr j (by omega)]
      · by_cases hj : j = 6 + n
        · subst hj
          rw [h0]
          rw [pruneFrom_above _ _ _ (by omega)]
          simp only [upd, if_true]
          rfl
        · rw [a4 j h1 (by omega), hfr j hj]
      · by_cases hj : j = 6 + n
        · rw [hj, h0]
        · rw [← hfr j hj]; exact a5 j h1 (by omega)

/-- The octets of a pruned frame, received and padded. -/
structure Same (g f : Frame) : Prop where
  low : ∀ j, 2 ≤ j → j < 5 → g j = f j
  rest : ∀ j, 5 ≤ j → j < 22 → g j &&& 0x7F#8 = f j &&& 0x7F#8

theorem padded_octets (g : Frame) (len j : Nat) (hj : j < 22) :
    padded (octets g len) j = if j < len then g j else 0#8 := by
  unfold padded octets
  rw [if_pos hj, List.getD_eq_getElem?_getD]
  by_cases h : j < len
  · rw [if_pos h]; simp [h]
  · rw [if_neg h]; simp [Nat.le_of_not_lt h]

theorem same_dis (f : Frame) :
    Same (padded (octets (pruneDis f).1 (pruneDis f).2)) f ∧ 6 ≤ (pruneDis f).2 ∧
      (pruneDis f).2 ≤ 22 := by
  obtain ⟨a1, a2, a3, a4, a5, a6⟩ := pruneFrom_spec f 16
  have hp : pruneDis f = (extend (upd (pruneFrom f 16).1 (pruneFrom f 16).2
    ((pruneFrom f 16).1 (pruneFrom f 16).2 &&& 0x7F#8)) (pruneFrom f 16).2,
    (pruneFrom f 16).2 + 1) := rfl
  rw [hp]
  generalize (pruneFrom f 16).2 = i at *
  generalize (pruneFrom f 16).1 = g at *
  have hmm : ∀ x : Byte, x &&& 0x7F#8 &&& 0x7F#8 = x &&& 0x7F#8 := by decide +kernel
  have hom : ∀ x : Byte, (x ||| 0x80#8) &&& 0x7F#8 = x &&& 0x7F#8 := by decide +kernel
  refine ⟨⟨fun j h1 h2 => ?_, fun j h1 h2 => ?_⟩, by simp only; omega, by simp only; omega⟩
  · rw [padded_octets _ _ _ (by omega), if_pos (by omega)]
    simp only [extend, upd]
    rw [if_neg (by omega), if_neg (by omega), a3 j (by omega)]
  · rw [padded_octets _ _ _ h2]
    have hg : g j &&& 0x7F#8 = f j &&& 0x7F#8 := by
      by_cases h : j < 6
      · rw [a3 j h]
      · exact a4 j (by omega) (by omega)
    by_cases h : j < i + 1
    · rw [if_pos h]
      simp only [extend, upd]
      by_cases hi : j = i
      · subst hi
        rw [if_neg (by omega), if_pos rfl, hmm, hg]
      · rw [if_pos (by omega), if_neg hi, hom, hg]
    · rw [if_neg h, a5 j (by omega) (by omega)]; rfl

theorem same_dcs (f : Frame) :
    Same (padded (octets (pruneDcs f).1 (pruneDcs f).2)) f ∧ 6 ≤ (pruneDcs f).2 ∧
      (pruneDcs f).2 ≤ 22 := by
  obtain ⟨a1, a2, a3, a4, a5, a6⟩ := pruneFrom_spec f 16
  have hp : pruneDcs f = (extend (pruneFrom f 16).1 (pruneFrom f 16).2, (pruneFrom f 16).2 + 1) := rfl
  rw [hp]
  generalize (pruneFrom f 16).2 = i at *
  generalize (pruneFrom f 16).1 = g at *
  have hom : ∀ x : Byte, (x ||| 0x80#8) &&& 0x7F#8 = x &&& 0x7F#8 := by decide +kernel
  refine ⟨⟨fun j h1 h2 => ?_, fun j h1 h2 => ?_⟩, by simp only; omega, by simp only; omega⟩
  · rw [padded_octets _ _ _ (by omega), if_pos (by omega)]
    simp only [extend]
    rw [if_neg (by omega), a3 j (by omega)]
  · rw [padded_octets _ _ _ h2]
    have hg : g j &&& 0x7F#8 = f j &&& 0x7F#8 := by
      by_cases h : j < 6
      · rw [a3 j h]
      · exact a4 j (by omega) (by omega)
    by_cases h : j < i + 1
    · rw [if_pos h]
      simp only [extend]
      by_cases hi : j < i
      · rw [if_pos (by omega), hom, hg]
      · rw [if_neg (by omega), hg]
    · rw [if_neg h, a5 j (by omega) (by omega)]; rfl

theorem Same.test {g f : Frame} (h : Same g f) (j : Nat) (hj : plain j) (hj' : j ≤ 152) :
    Nego.test g j = Nego.test f j := by
  unfold Nego.test
  obtain ⟨h0, h1⟩ := hj
  by_cases h5 : 3 + (j - 1)/8 < 5
  · rw [h.low _ (by omega) h5]
  · have hr := h.rest (3 + (j - 1)/8) (by omega) (by omega)
    rw [← and_7F (g _) _ (by omega), hr, and_7F _ _ (by omega)]

end Nego
