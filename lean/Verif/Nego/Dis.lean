import Verif.Nego.Bits
import Verif.Nego.Spec

/-!
# The bits of the frames this code builds
-/

namespace Nego

theorem bit_eq_test (d : List Byte) (n : Nat) (hn : n ≤ 152) (h0 : 0 < n) :
    Spec.bit d n = test (padded d) n := by
  unfold Spec.bit test padded
  rw [if_pos (by omega)]

theorem dis_test (c : Caps) (r : Bool) (j : Nat) (hj : plain j) (hj' : j ≤ 152) :
    Spec.bit (disMessage c r) j = test (setDis (buildDis c r) c r) j := by
  rw [bit_eq_test _ _ hj' hj.1]
  exact (same_dis _).1.test j hj hj'

theorem dis_length (c : Caps) (r : Bool) :
    6 ≤ (disMessage c r).length ∧ (disMessage c r).length ≤ 22 := by
  obtain ⟨_, h1, h2⟩ := same_dis (setDis (buildDis c r) c r)
  have : (disMessage c r).length = (pruneDis (setDis (buildDis c r) c r)).2 := by
    simp [disMessage, octets]
  omega

theorem test_setDis (c : Caps) (r : Bool) (f : Frame) (j : Nat) (hj : 0 < j) :
    test (setDis f c r) j =
      if j = 9 then c.txFile else if j = 10 then c.rxFile else test f j := by
  unfold setDis
  cases c.rxFile <;> cases c.txFile <;>
    simp only [if_true, if_false, Bool.false_eq_true, test_setBit _ _ _ (by omega : 0 < 9) hj,
      test_setBit _ _ _ (by omega : 0 < 10) hj, test_clrBit _ _ _ (by omega : 0 < 9) hj,
      test_clrBit _ _ _ (by omega : 0 < 10) hj, test_upd2] <;>
    by_cases h9 : j = 9 <;> by_cases h10 : j = 10 <;> simp_all [eq_comm] <;> omega

/-- The bits of the frame `t30_build_dis_or_dtc` builds. -/
theorem test_buildDis (c : Caps) (r : Bool) :
    let t := test (buildDis c r)
    t 11 = (c.modems .v29 || c.modems .v17) ∧ t 12 = (c.modems .v27ter || c.modems .v17) ∧
    t 13 = false ∧ t 14 = c.modems .v17 ∧
    t 15 = (c.bilevel .r8Fine || c.bilevel .r200) ∧ t 16 = c.comps .t4_2d ∧
    t 17 = (!c.sizes .w303 && c.sizes .w255) ∧ t 18 = c.sizes .w303 ∧
    t 19 = (!c.sizes .unlimited && c.sizes .b4) ∧ t 20 = c.sizes .unlimited ∧
    t 21 = c.minScan.getLsbD 0 ∧ t 22 = c.minScan.getLsbD 1 ∧ t 23 = c.minScan.getLsbD 2 ∧
    t 27 = c.ecm ∧ t 31 = (c.ecm && c.comps .t6) := by
  refine ⟨?_, ?_, ?_, ?_, ?_, ?_, ?_, ?_, ?_, ?_, ?_, ?_, ?_, ?_, ?_⟩ <;>
    simp [buildDis, test_setIf, test_setAll, test_blank, test_orOctet]

/-- The bits of the frame `t30_build_dis_or_dtc` builds, further on. -/
theorem test_buildDis' (c : Caps) (r : Bool) :
    let t := test (buildDis c r)
    let multi := c.ecm && (c.comps .colour || c.comps .gray)
    t 36 = (multi && c.comps .t43) ∧
    t 41 = (c.bilevel .r200_400 || c.bilevel .r8Superfine) ∧ t 42 = c.bilevel .r300 ∧
    t 43 = (c.bilevel .r16Superfine || c.bilevel .r400) ∧
    t 44 = (c.bilevel .r200_100 || c.bilevel .r200 || c.bilevel .r200_400 || c.bilevel .r300 ||
      c.bilevel .r300_600 || c.bilevel .r400 || c.bilevel .r400_800 || c.bilevel .r600 ||
      c.bilevel .r600_1200 || c.bilevel .r1200) ∧
    t 46 = false ∧
    t 68 = (multi && (c.comps .t42_t81 || c.comps .t43)) ∧
    t 69 = (multi && c.comps .colour || c.bilevel .r200 && c.colour .r200) ∧
    t 71 = (multi && c.comps .bits12) ∧
    t 76 = c.sizes .letter ∧ t 77 = c.sizes .legal ∧
    t 78 = (c.ecm && c.comps .t85) ∧ t 79 = (c.ecm && c.comps .t85 && c.comps .t85_l0) ∧
    t 97 = (c.bilevel .r400 && c.colour .r400 || c.bilevel .r300 && c.colour .r300) ∧
    t 98 = c.colour .r100 ∧ t 105 = c.bilevel .r600 ∧ t 106 = c.bilevel .r1200 ∧
    t 107 = c.bilevel .r300_600 ∧ t 108 = c.bilevel .r400_800 ∧ t 109 = c.bilevel .r600_1200 ∧
    t 110 = (c.bilevel .r600 && c.colour .r600) ∧ t 111 = (c.bilevel .r1200 && c.colour .r1200) := by
  refine ⟨?_, ?_, ?_, ?_, ?_, ?_, ?_, ?_, ?_, ?_, ?_, ?_, ?_, ?_, ?_, ?_, ?_, ?_, ?_, ?_, ?_, ?_⟩ <;>
    simp [buildDis, test_setIf, test_setAll, test_blank, test_orOctet, Bool.and_or_distrib_left]

/-! ## A received DIS -/

/-- What is kept of the capabilities after a DIS, by the bits of the DIS. -/
theorem analyzeDis_spec {c : Caps} {was : Bool} {d : List Byte} {s : Sess}
    (h : analyzeDis c was d = some s) :
    6 ≤ d.length ∧ s.far = padded d ∧ s.ecm = (c.ecm && Spec.bit d 27) ∧
    (∀ x, x ∈ [Comp.t4_1d, .t4_2d] → s.comps x = (c.comps x && Spec.comp d x)) ∧
    (∀ x, x ∈ [Comp.t6, .t85, .t85_l0, .t42_t81, .t43] →
      s.comps x = (c.comps x && c.ecm && Spec.comp d x)) ∧
    (s.ecm = true → s.comps .colour = (c.comps .colour && Spec.bit d 69)) ∧
    (∀ x, x ∈ [Comp.gray, .colourToGray, .grayToBilevel, .colourToBilevel, .rescaling] →
      s.comps x = c.comps x) ∧
    (∀ r, r ≠ .r100 → s.bilevel r = (c.bilevel r && Spec.bilevel d r)) ∧
    s.bilevel .r100 = c.bilevel .r100 ∧
    (∀ r, r ∈ colourRes → s.colour r = (c.colour r && Spec.colour d r)) ∧
    (∀ r, r ∉ colourRes → s.colour r = c.colour r) ∧
    (∀ z, s.sizes z = (c.sizes z && Spec.size d z)) ∧
    chooseModem c (padded d 4 &&& 0x3C#8) = some (s.permitted, s.fallback) := by
  unfold analyzeDis at h
  by_cases hl : d.length < 6
  · rw [if_pos hl] at h; cases h
  · rw [if_neg hl] at h
    cases hc : chooseModem c (padded d 4 &&& 0x3C#8) with
    | none => simp only [hc] at h; cases h
    | some pf =>
      obtain ⟨pm, fb⟩ := pf
      simp only [hc, Option.some.injEq] at h
      subst h
      refine ⟨by omega, rfl, ?_, ?_, ?_, ?_, ?_, ?_, ?_, ?_, ?_, ?_, rfl⟩
      · simp [bit_eq_test]
      · intro x hx
        simp only [List.mem_cons, List.not_mem_nil, or_false] at hx
        rcases hx with rfl | rfl <;>
          cases he : (c.ecm && test (padded d) 27) <;>
          simp [mutualComps, inter, oneOf, drop, Spec.comp, bit_eq_test]
      · intro x hx
        simp only [List.mem_cons, List.not_mem_nil, or_false] at hx
        rcases hx with rfl | rfl | rfl | rfl | rfl <;>
          cases he : c.ecm <;> cases he' : test (padded d) 27 <;>
          simp [mutualComps, inter, oneOf, drop, Spec.comp, bit_eq_test, he', Bool.and_assoc]
      · intro he
        simp only at he
        simp [mutualComps, drop, he, bit_eq_test]
      · intro x hx
        simp only [List.mem_cons, List.not_mem_nil, or_false] at hx
        rcases hx with rfl | rfl | rfl | rfl | rfl <;>
          cases he : (c.ecm && test (padded d) 27) <;>
          simp [mutualComps, inter, oneOf, drop]
      · intro r hr
        cases r <;> simp_all [mutualBilevel, drop, Spec.bilevel, bit_eq_test]
      · simp [mutualBilevel, drop]
      · intro r hr
        cases r <;> simp_all [mutualColour, drop, Spec.colour, bit_eq_test, colourRes] <;>
          grind
      · intro r hr
        cases r <;> simp_all [mutualColour, drop, colourRes]
      · intro z
        cases z <;> simp [mutualSizes, drop, Spec.size, bit_eq_test] <;> grind

end Nego
