import Verif.Nego.Dis

/-!
# The DCS, sent and received
-/

namespace Nego

theorem mask3C (x y : Byte) (h : ∀ i, 2 ≤ i → i < 6 → x.getLsbD i = y.getLsbD i) :
    x &&& 0x3C#8 = y &&& 0x3C#8 := by
  apply BitVec.eq_of_getLsbD_eq
  intro i hi
  rw [BitVec.getLsbD_and, BitVec.getLsbD_and]
  by_cases h2 : 2 ≤ i ∧ i < 6
  · rw [h i h2.1 h2.2]
  · have : (0x3C#8).getLsbD i = false := by
      rcases i with _ | _ | _ | _ | _ | _ | _ | _ | i <;> first | rfl | omega
    rw [this, Bool.and_false, Bool.and_false]

theorem mask3 (x : Byte) :
    (x &&& 3#8).toNat = (if x.getLsbD 0 then 1 else 0) + (if x.getLsbD 1 then 2 else 0) := by
  revert x; decide +kernel

theorem codeOf_mask (i : Nat) : codeOf i &&& 0x3C#8 = codeOf i := by
  rcases i with _ | _ | _ | _ | _ | _ | _ | _ | i <;> first | decide | simp [codeOf, fallbackTable]

theorem codeOf_bit (i k : Nat) (hk : k < 2 ∨ 6 ≤ k) : (codeOf i).getLsbD k = false := by
  rw [← codeOf_mask, BitVec.getLsbD_and]
  have : (0x3C#8).getLsbD k = false := by
    rcases hk with h | h
    · rcases k with _ | _ | k <;> first | rfl | omega
    · rcases k with _ | _ | _ | _ | _ | _ | _ | _ | k <;> first | omega | rfl | simp
  rw [this, Bool.and_false]

theorem findFallback_codeOf (i : Nat) (hi : i < 8) : findFallback (codeOf i) 0 fallbackTable = some i := by
  rcases i with _ | _ | _ | _ | _ | _ | _ | _ | i <;> first | decide | omega

theorem scan_bit (x : BitVec 3) (k : Nat) (hk : k < 4) : (x.zeroExtend 8 <<< 4).getLsbD k = false := by
  rw [BitVec.getLsbD_shiftLeft]; simp [hk]

/-- The frame `build_dcs` builds, with the bits of the optional frames sent before it. -/
def dcsFrame (c : Caps) (s : Sess) (m : Fmt) (sub sid : Bool) : Frame :=
  buildDcs c s m |> setIf sub 49 |> setIf sid 50

theorem compBits_pos (x : Comp) (t : Img) : ∀ b ∈ compBits x t, 0 < b := by
  cases x <;> cases t <;> decide

theorem widthBits_pos (z : Option Size) : ∀ b ∈ widthBits z, 0 < b := by
  rcases z with _ | z
  · decide
  · cases z <;> decide

theorem lengthBits_cases (z : Size → Bool) : lengthBits z = [20] ∨ lengthBits z = [19] ∨
    lengthBits z = [76] ∨ lengthBits z = [77] ∨ lengthBits z = [] := by
  unfold lengthBits
  cases z .unlimited <;> cases z .b4 <;> cases z .letter <;> cases z .legal <;> simp

theorem lengthBits_pos (z : Size → Bool) : ∀ b ∈ lengthBits z, 0 < b := by
  rcases lengthBits_cases z with h | h | h | h | h <;> rw [h] <;> simp

theorem resBits_pos (b : Bool) (r : Res) : ∀ x ∈ resBits b r, 0 < x := by
  cases b <;> cases r <;> decide

/-- A bit of the DCS, other than those of the modem and the scan time. -/
theorem dcs_bit (c : Caps) (s : Sess) (m : Fmt) (sub sid : Bool) (j : Nat) (hj : 0 < j)
    (hm : j ≤ 10 ∨ 15 ≤ j) (hs : j < 21 ∨ 24 ≤ j) :
    test (dcsFrame c s m sub sid) j =
      (decide (j = 10) || decide (j ∈ compBits m.comp m.type) || decide (j ∈ widthBits m.widthCode) ||
        decide (j ∈ lengthBits s.sizes) || decide (j ∈ resBits m.comp.isMulti m.res) ||
        (s.ecm && decide (j = 27)) ||
        (c.features .iafFlowControl && test s.far 121 && decide (j = 121)) ||
        (c.features .iafContinuousFlow && test s.far 123 && decide (j = 123)) ||
        (sub && decide (j = 49)) || (sid && decide (j = 50))) := by
  have hcode : (decide (3 + (j - 1)/8 = 4) && (codeOf s.fallback).getLsbD ((j - 1)%8)) = false := by
    by_cases h : 3 + (j - 1)/8 = 4
    · rw [codeOf_bit _ _ (by omega), Bool.and_false]
    · simp [h]
  have hscan : ∀ x : BitVec 3,
      (decide (3 + (j - 1)/8 = 5) && (x.zeroExtend 8 <<< 4).getLsbD ((j - 1)%8)) = false := by
    intro x
    by_cases h : 3 + (j - 1)/8 = 5
    · by_cases h4 : (j - 1)%8 < 4
      · rw [scan_bit _ _ h4, Bool.and_false]
      · have : (j - 1)%8 = 7 := by omega
        rw [this, BitVec.getLsbD_shiftLeft]; simp
    · simp [h]
  have h7 : ∀ f : Frame, ∀ b : Bool,
      test (if b then orOctet f 5 (7#8 <<< 4) else f) j = test f j := by
    intro f b
    cases b
    · rfl
    · have h := hscan 7#3
      have he : (7#8 <<< 4 : Byte) = ((7#3).zeroExtend 8 <<< 4 : Byte) := by decide
      simp only [if_true, test_orOctet, he, h, Bool.or_false]
  unfold dcsFrame buildDcs
  have e : ∀ a b : Nat, decide (a = b) = decide (b = a) := fun a b => by
    rw [decide_eq_decide]; exact eq_comm
  simp only [test_setIf _ _ _ _ (by omega : 0 < 49) hj, test_setIf _ _ _ _ (by omega : 0 < 50) hj,
    test_setIf _ _ _ _ (by omega : 0 < 123) hj, test_setIf _ _ _ _ (by omega : 0 < 121) hj,
    test_setIf _ _ _ _ (by omega : 0 < 27) hj, test_setIf _ _ _ _ (by omega : 0 < 10) hj,
    test_setAll _ _ _ _ hj (resBits_pos _ _), test_setAll _ _ _ _ hj (lengthBits_pos _),
    test_setAll _ _ _ _ hj (widthBits_pos _), test_setAll _ _ _ _ hj (compBits_pos _ _),
    h7, test_orOctet, hcode, hscan, test_blank, Bool.true_and, Bool.false_or, Bool.or_false,
    e 10, e 27, e 121, e 123, e 49, e 50]

/-- The field of the modem in the DCS. -/
theorem dcs_code (c : Caps) (s : Sess) (m : Fmt) (sub sid : Bool) :
    dcsFrame c s m sub sid 4 &&& 0x3C#8 = codeOf s.fallback := by
  rw [← codeOf_mask]
  apply mask3C
  intro i h2 h6
  have ht : ∀ f : Frame, (f 4).getLsbD i = test f (9 + i) := by
    intro f; unfold test
    rw [show 3 + (9 + i - 1)/8 = 4 by omega, show (9 + i - 1)%8 = i by omega]
  have hj : 0 < 9 + i := by omega
  have hscan : ∀ x : Byte, (decide (3 + (9 + i - 1)/8 = 5) && x.getLsbD ((9 + i - 1)%8)) = false := by
    intro x; simp; omega
  have h7 : ∀ f : Frame, ∀ b : Bool,
      test (if b then orOctet f 5 (7#8 <<< 4) else f) (9 + i) = test f (9 + i) := by
    intro f b
    cases b
    · rfl
    · simp only [if_true, test_orOctet, hscan, Bool.or_false]
  have n1 : 9 + i ∉ compBits m.comp m.type := by
    cases m.comp <;> cases m.type <;> simp [compBits, compBits.multi] <;> omega
  have n2 : 9 + i ∉ widthBits m.widthCode := by
    rcases m.widthCode with _ | z
    · simp [widthBits]
    · cases z <;> simp [widthBits] <;> omega
  have n3 : 9 + i ∉ lengthBits s.sizes := by
    rcases lengthBits_cases s.sizes with h | h | h | h | h <;> rw [h] <;> simp <;> omega
  have n4 : 9 + i ∉ resBits m.comp.isMulti m.res := by
    cases m.comp.isMulti <;> cases m.res <;> simp [resBits] <;> omega
  rw [ht]
  unfold dcsFrame buildDcs
  simp only [test_setIf _ _ _ _ (by omega : 0 < 49) hj, test_setIf _ _ _ _ (by omega : 0 < 50) hj,
    test_setIf _ _ _ _ (by omega : 0 < 123) hj, test_setIf _ _ _ _ (by omega : 0 < 121) hj,
    test_setIf _ _ _ _ (by omega : 0 < 27) hj, test_setIf _ _ _ _ (by omega : 0 < 10) hj,
    test_setAll _ _ _ _ hj (resBits_pos _ _), test_setAll _ _ _ _ hj (lengthBits_pos _),
    test_setAll _ _ _ _ hj (widthBits_pos _), test_setAll _ _ _ _ hj (compBits_pos _ _),
    h7, test_orOctet, hscan, test_blank, n1, n2, n3, n4]
  have e1 : ¬ 10 = 9 + i := by omega
  have e2 : ¬ 27 = 9 + i := by omega
  have e3 : ¬ 49 = 9 + i := by omega
  have e4 : ¬ 50 = 9 + i := by omega
  have e5 : ¬ 121 = 9 + i := by omega
  have e6 : ¬ 123 = 9 + i := by omega
  have e7 : 3 + (9 + i - 1)/8 = 4 := by omega
  have e8 : (9 + i - 1)%8 = i := by omega
  rw [e7, e8]
  simp [e1, e2, e3, e4, e5, e6]

/-- The DCS as it is received. -/
theorem dcs_same (c : Caps) (s : Sess) (m : Fmt) (sub sid : Bool) :
    Same (padded (dcsMessage c s m sub sid)) (dcsFrame c s m sub sid) ∧
    6 ≤ (dcsMessage c s m sub sid).length ∧ (dcsMessage c s m sub sid).length ≤ 22 := by
  obtain ⟨h1, h2, h3⟩ := same_dcs (dcsFrame c s m sub sid)
  have : (dcsMessage c s m sub sid).length = (pruneDcs (dcsFrame c s m sub sid)).2 := by
    simp [dcsMessage, octets, dcsFrame]
  exact ⟨h1, by omega, by omega⟩

/-! ## What a receiver makes of it -/

/-- Whether a receiver takes a bi-level page of a resolution: the two standard ones always. -/
def takes (bilevel : Res → Bool) (r : Res) : Prop := r = .r8Standard ∨ r = .r200_100 ∨ bilevel r = true

/-- The number of a width in `widths`. -/
def widthIndex : Option Size → Nat
  | some .w255 => 1
  | some .w303 => 2
  | _ => 0

theorem dcs_width (c : Caps) (s : Sess) (m : Fmt) (sub sid : Bool) :
    (padded (dcsMessage c s m sub sid) 5 &&& 3#8).toNat = widthIndex m.widthCode := by
  rw [mask3]
  have hs := (dcs_same c s m sub sid).1
  have t1 : (padded (dcsMessage c s m sub sid) 5).getLsbD 0 = test (padded (dcsMessage c s m sub sid)) 17 := rfl
  have t2 : (padded (dcsMessage c s m sub sid) 5).getLsbD 1 = test (padded (dcsMessage c s m sub sid)) 18 := rfl
  rw [t1, t2, hs.test 17 (by decide) (by omega), hs.test 18 (by decide) (by omega),
    dcs_bit _ _ _ _ _ _ (by omega) (by omega) (by omega),
    dcs_bit _ _ _ _ _ _ (by omega) (by omega) (by omega)]
  have n1 : ∀ j, j = 17 ∨ j = 18 → j ∉ compBits m.comp m.type := by
    intro j hj; rcases hj with rfl | rfl <;> cases m.comp <;> cases m.type <;> decide
  have n3 : ∀ j, j = 17 ∨ j = 18 → j ∉ lengthBits s.sizes := by
    intro j hj
    rcases lengthBits_cases s.sizes with h | h | h | h | h <;> rcases hj with rfl | rfl <;> simp [h]
  have n4 : ∀ j, j = 17 ∨ j = 18 → j ∉ resBits m.comp.isMulti m.res := by
    intro j hj; rcases hj with rfl | rfl <;> cases m.comp.isMulti <;> cases m.res <;> decide
  simp only [n1 17 (by simp), n1 18 (by simp), n3 17 (by simp), n3 18 (by simp), n4 17 (by simp),
    n4 18 (by simp)]
  rcases m.widthCode with _ | z
  · simp [widthBits, widthIndex]
  · cases z <;> simp [widthBits, widthIndex]

/-- What a receiver makes of the DCS, if it has what the DCS asks for. -/
theorem dcs_accepted (c b : Caps) (s : Sess) (m : Fmt) (sub sid : Bool)
    (hcomp : m.comp ∈ [Comp.t4_1d, .t4_2d, .t6, .t85, .t85_l0, .t42_t81, .t43])
    (hhave : b.comps m.comp = true)
    (hbi : m.comp.isMulti = false → m.res ≠ .r100 ∧ takes b.bilevel m.res)
    (hco : m.comp.isMulti = true → m.res ∈ colourRes ∧ b.colour m.res = true)
    (hw : (widthsOf m.res).getD (widthIndex m.widthCode) 0 = m.width)
    (hf : s.fallback < 8) :
    analyzeDcs b (dcsMessage c s m sub sid) = .ok ⟨s.ecm, m.comp, m.res, m.width, s.fallback⟩ := by
  obtain ⟨hs, hl1, hl2⟩ := dcs_same c s m sub sid
  unfold analyzeDcs
  rw [if_neg (by omega), if_neg (by unfold dcsStringEnd dcsStringSize; omega)]
  have h4 : padded (dcsMessage c s m sub sid) 4 &&& 0x3C#8 = codeOf s.fallback := by
    rw [hs.low 4 (by omega) (by omega)]; exact dcs_code c s m sub sid
  have tj : ∀ j, plain j → j ≤ 127 → (j ≤ 10 ∨ 15 ≤ j) → (j < 21 ∨ 24 ≤ j) →
      j ∉ ([10, 121, 123, 49, 50, 17, 18, 19, 20, 76, 77] : List Nat) →
      test (padded (dcsMessage c s m sub sid)) j =
      (decide (j ∈ compBits m.comp m.type) || decide (j ∈ resBits m.comp.isMulti m.res) ||
        (s.ecm && decide (j = 27))) := by
    intro j h1 h2 h3 h4 h5
    rw [hs.test j h1 (by omega), dcs_bit _ _ _ _ _ _ h1.1 h3 h4]
    have n2 : j ∉ widthBits m.widthCode := by
      intro h; apply h5
      rcases hz : m.widthCode with _ | z
      · rw [hz] at h; simp [widthBits] at h
      · rw [hz] at h; cases z <;> simp [widthBits] at h <;> simp [h]
    have n3 : j ∉ lengthBits s.sizes := by
      intro h; apply h5
      rcases lengthBits_cases s.sizes with hz | hz | hz | hz | hz <;> rw [hz] at h <;>
        simp at h <;> simp [h]
    simp only [List.mem_cons, List.not_mem_nil, or_false, not_or] at h5
    simp [n2, n3, h5]
  have rc : ∀ j, j ∈ ([79, 78, 31, 16, 68, 36, 116, 127] : List Nat) →
      test (padded (dcsMessage c s m sub sid)) j = decide (j ∈ compBits m.comp m.type) := by
    intro j hj
    have hn : j ∉ resBits m.comp.isMulti m.res := by
      simp only [List.mem_cons, List.not_mem_nil, or_false] at hj
      cases m.comp.isMulti <;> cases m.res <;> simp [resBits] <;> omega
    rw [tj j (by clear hn; revert hj j; decide) (by clear hn; revert hj j; decide) (by clear hn; revert hj j; decide)
      (by clear hn; revert hj j; decide) (by clear hn; revert hj j; decide)]
    have : ¬ j = 27 := by rintro rfl; revert hj; decide
    simp [hn, this]
  have rr : ∀ j, j ∈ ([111, 110, 43, 42, 15, 98, 106, 109, 105, 108, 44, 107, 41] : List Nat) →
      test (padded (dcsMessage c s m sub sid)) j = decide (j ∈ resBits m.comp.isMulti m.res) := by
    intro j hj
    have hn : j ∉ compBits m.comp m.type := by
      simp only [List.mem_cons, List.not_mem_nil, or_false] at hj
      cases m.comp <;> cases m.type <;> simp [compBits, compBits.multi] <;> omega
    rw [tj j (by clear hn; revert hj j; decide) (by clear hn; revert hj j; decide) (by clear hn; revert hj j; decide)
      (by clear hn; revert hj j; decide) (by clear hn; revert hj j; decide)]
    have : ¬ j = 27 := by rintro rfl; revert hj; decide
    simp [hn, this]
  have e27 : test (padded (dcsMessage c s m sub sid)) 27 = s.ecm := by
    rw [tj 27 (by decide) (by decide) (by decide) (by decide) (by decide)]
    have n1 : 27 ∉ compBits m.comp m.type := by cases m.comp <;> cases m.type <;> decide
    have n2 : 27 ∉ resBits m.comp.isMulti m.res := by
      cases m.comp.isMulti <;> cases m.res <;> decide
    simp [n1, n2]
  simp only [h4, dcs_width, e27]
  generalize padded (dcsMessage c s m sub sid) = F at *
  have hff := findFallback_codeOf s.fallback hf
  rw [hff]
  obtain ⟨type, comp, width, wc, res, sq⟩ := m
  simp only at hhave hbi hco hw rc rr hcomp ⊢
  have c79 := rc 79 (by decide)
  have c78 := rc 78 (by decide)
  have c31 := rc 31 (by decide)
  have c16 := rc 16 (by decide)
  have c68 := rc 68 (by decide)
  have c36 := rc 36 (by decide)
  have c116 := rc 116 (by decide)
  have c127 := rc 127 (by decide)
  have r111 := rr 111 (by decide)
  have r110 := rr 110 (by decide)
  have r43 := rr 43 (by decide)
  have r42 := rr 42 (by decide)
  have r15 := rr 15 (by decide)
  have r98 := rr 98 (by decide)
  have r106 := rr 106 (by decide)
  have r109 := rr 109 (by decide)
  have r105 := rr 105 (by decide)
  have r108 := rr 108 (by decide)
  have r44 := rr 44 (by decide)
  have r107 := rr 107 (by decide)
  have r41 := rr 41 (by decide)
  clear rc rr tj hs
  have hmul : (test F 68 || test F 36 || test F 116 || test F 127) = comp.isMulti := by
    rw [c68, c36, c116, c127]
    cases comp <;> cases type <;> simp [compBits, compBits.multi, Comp.isMulti]
  have hcompv : (if comp.isMulti then dcsColourComp b.comps F else dcsBilevelComp b.comps F) = some comp := by
    unfold dcsColourComp dcsBilevelComp
    rw [c68, c36, c79, c78, c31, c16]
    simp only [List.mem_cons, List.not_mem_nil, or_false] at hcomp
    rcases hcomp with rfl | rfl | rfl | rfl | rfl | rfl | rfl <;> cases type <;>
      simp [Comp.isMulti, compBits, compBits.multi, hhave]
  have hresv : (if comp.isMulti then dcsColourRes b.colour F else dcsBilevelRes b.bilevel F) = some res := by
    unfold dcsColourRes dcsBilevelRes
    rw [r111, r110, r43, r42, r15, r98, r106, r109, r105, r108, r44, r107, r41]
    cases hm : comp.isMulti
    · obtain ⟨h1, h2⟩ := hbi hm
      cases res <;> simp_all [takes, resBits, have?]
    · obtain ⟨h1, h2⟩ := hco hm
      cases res <;> simp_all [colourRes, resBits, have?]
  rw [hmul, hcompv, hresv]
  simp only [hw]

end Nego
