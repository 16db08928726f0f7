import Verif.Nego.Choice

/-!
# Towards the properties: a call between two terminals
-/

namespace Nego

/-! ## Extension bits -/

theorem octets_getD (g : Frame) (len j : Nat) (hj : j < len) : (octets g len).getD j 0#8 = g j := by
  unfold octets
  rw [List.getD_eq_getElem?_getD]; simp [hj]

theorem ext_dis (f : Frame) : Spec.wellExtended (octets (pruneDis f).1 (pruneDis f).2) := by
  intro j h5 hj
  obtain ⟨a1, a2, a3, a4, a5, a6⟩ := pruneFrom_spec f 16
  have hp : pruneDis f = (extend (upd (pruneFrom f 16).1 (pruneFrom f 16).2
    ((pruneFrom f 16).1 (pruneFrom f 16).2 &&& 0x7F#8)) (pruneFrom f 16).2,
    (pruneFrom f 16).2 + 1) := rfl
  have hlen : (octets (pruneDis f).1 (pruneDis f).2).length = (pruneFrom f 16).2 + 1 := by
    rw [hp]; simp [octets]
  rw [hlen] at hj ⊢
  rw [hp, octets_getD _ _ _ hj]
  generalize (pruneFrom f 16).2 = i at *
  generalize (pruneFrom f 16).1 = g at *
  have h1 : ∀ x : Byte, (x ||| 0x80#8).getLsbD 7 = true := by decide +kernel
  have h2 : ∀ x : Byte, (x &&& 0x7F#8).getLsbD 7 = false := by decide +kernel
  simp only [extend, upd]
  by_cases h : j < i
  · rw [if_pos ⟨h5, h⟩, h1]; simp [h]
  · have : j = i := by omega
    subst this
    rw [if_neg (by omega), if_pos rfl, h2]; simp

theorem ext_dcs (f : Frame) (h24 : (f 5).getLsbD 7 = false) :
    Spec.wellExtended (octets (pruneDcs f).1 (pruneDcs f).2) := by
  intro j h5 hj
  obtain ⟨a1, a2, a3, a4, a5, a6⟩ := pruneFrom_spec f 16
  have hp : pruneDcs f = (extend (pruneFrom f 16).1 (pruneFrom f 16).2,
    (pruneFrom f 16).2 + 1) := rfl
  have hlen : (octets (pruneDcs f).1 (pruneDcs f).2).length = (pruneFrom f 16).2 + 1 := by
    rw [hp]; simp [octets]
  rw [hlen] at hj ⊢
  rw [hp, octets_getD _ _ _ hj]
  generalize (pruneFrom f 16).2 = i at *
  generalize (pruneFrom f 16).1 = g at *
  have h1 : ∀ x : Byte, (x ||| 0x80#8).getLsbD 7 = true := by decide +kernel
  have h2 : ∀ x : Byte, x &&& 0x80#8 = 0#8 → x.getLsbD 7 = false := by decide +kernel
  simp only [extend]
  by_cases h : j < i
  · rw [if_pos ⟨h5, h⟩, h1]; simp [h]
  · have : j = i := by omega
    subst this
    rw [if_neg (by omega)]
    by_cases h6 : 6 ≤ j
    · rw [h2 _ (a6 h6).2]; simp
    · have : j = 5 := by omega
      subst this
      rw [a3 5 (by omega), h24]; simp

theorem dcs_ext (c : Caps) (s : Sess) (m : Fmt) (sub sid : Bool) :
    Spec.wellExtended (dcsMessage c s m sub sid) := by
  have : dcsMessage c s m sub sid = octets (pruneDcs (dcsFrame c s m sub sid)).1
    (pruneDcs (dcsFrame c s m sub sid)).2 := rfl
  rw [this]
  apply ext_dcs
  have h : (dcsFrame c s m sub sid 5).getLsbD 7 = test (dcsFrame c s m sub sid) 24 := rfl
  rw [h, dcs_bit _ _ _ _ _ _ (by omega) (by omega) (by omega)]
  have n1 : 24 ∉ compBits m.comp m.type := by cases m.comp <;> cases m.type <;> decide
  have n2 : 24 ∉ widthBits m.widthCode := by
    rcases m.widthCode with _ | z
    · decide
    · cases z <;> decide
  have n3 : 24 ∉ lengthBits s.sizes := by
    rcases lengthBits_cases s.sizes with h | h | h | h | h <;> rw [h] <;> decide
  have n4 : 24 ∉ resBits m.comp.isMulti m.res := by
    cases m.comp.isMulti <;> cases m.res <;> decide
  simp [n1, n2, n3, n4]

/-! ## The DIS of a terminal like this one -/

theorem dis_bits (b : Caps) (r : Bool) :
    let t := Spec.bit (disMessage b r)
    t 10 = b.rxFile ∧ t 9 = b.txFile ∧
    t 11 = (b.modems .v29 || b.modems .v17) ∧ t 12 = (b.modems .v27ter || b.modems .v17) ∧
    t 13 = false ∧ t 14 = b.modems .v17 ∧
    t 15 = (b.bilevel .r8Fine || b.bilevel .r200) ∧ t 16 = b.comps .t4_2d ∧
    t 17 = (!b.sizes .w303 && b.sizes .w255) ∧ t 18 = b.sizes .w303 ∧
    t 19 = (!b.sizes .unlimited && b.sizes .b4) ∧ t 20 = b.sizes .unlimited ∧
    t 21 = b.minScan.getLsbD 0 ∧ t 22 = b.minScan.getLsbD 1 ∧ t 23 = b.minScan.getLsbD 2 ∧
    t 27 = b.ecm ∧ t 31 = (b.ecm && b.comps .t6) := by
  obtain ⟨h1, h2, h3, h4, h5, h6, h7, h8, h9, h10, h11, h12, h13, h14, h15⟩ := test_buildDis b r
  refine ⟨?_, ?_, ?_, ?_, ?_, ?_, ?_, ?_, ?_, ?_, ?_, ?_, ?_, ?_, ?_, ?_, ?_⟩ <;>
    rw [dis_test _ _ _ (by decide) (by decide), test_setDis _ _ _ _ (by decide)] <;>
    simp only [Nat.reduceEqDiff, if_true, if_false] <;> assumption

theorem dis_bits' (b : Caps) (r : Bool) :
    let t := Spec.bit (disMessage b r)
    let multi := b.ecm && (b.comps .colour || b.comps .gray)
    t 36 = (multi && b.comps .t43) ∧
    t 41 = (b.bilevel .r200_400 || b.bilevel .r8Superfine) ∧ t 42 = b.bilevel .r300 ∧
    t 43 = (b.bilevel .r16Superfine || b.bilevel .r400) ∧
    t 44 = (b.bilevel .r200_100 || b.bilevel .r200 || b.bilevel .r200_400 || b.bilevel .r300 ||
      b.bilevel .r300_600 || b.bilevel .r400 || b.bilevel .r400_800 || b.bilevel .r600 ||
      b.bilevel .r600_1200 || b.bilevel .r1200) ∧
    t 46 = false ∧
    t 68 = (multi && (b.comps .t42_t81 || b.comps .t43)) ∧
    t 69 = (multi && b.comps .colour || b.bilevel .r200 && b.colour .r200) ∧
    t 71 = (multi && b.comps .bits12) ∧
    t 76 = b.sizes .letter ∧ t 77 = b.sizes .legal ∧
    t 78 = (b.ecm && b.comps .t85) ∧ t 79 = (b.ecm && b.comps .t85 && b.comps .t85_l0) ∧
    t 97 = (b.bilevel .r400 && b.colour .r400 || b.bilevel .r300 && b.colour .r300) ∧
    t 98 = b.colour .r100 ∧ t 105 = b.bilevel .r600 ∧ t 106 = b.bilevel .r1200 ∧
    t 107 = b.bilevel .r300_600 ∧ t 108 = b.bilevel .r400_800 ∧ t 109 = b.bilevel .r600_1200 ∧
    t 110 = (b.bilevel .r600 && b.colour .r600) ∧ t 111 = (b.bilevel .r1200 && b.colour .r1200) := by
  obtain ⟨h1, h2, h3, h4, h5, h6, h7, h8, h9, h10, h11, h12, h13, h14, h15, h16, h17, h18, h19, h20, h21,
    h22⟩ := test_buildDis' b r
  refine ⟨?_, ?_, ?_, ?_, ?_, ?_, ?_, ?_, ?_, ?_, ?_, ?_, ?_, ?_, ?_, ?_, ?_, ?_, ?_, ?_, ?_, ?_⟩ <;>
    rw [dis_test _ _ _ (by decide) (by decide), test_setDis _ _ _ _ (by decide)] <;>
    simp only [Nat.reduceEqDiff, if_false] <;> assumption

/-! ## Offers -/

theorem offer_spec {c : Caps} {d : List Byte} {p : Page} {s : Sess} {m : Fmt}
    (h : offer c d p = some (s, m)) :
    analyzeDis c false d = some s ∧ c.txFile = true ∧ Spec.bit d 10 = true ∧
    Chosen s.comps s.sizes s.bilevel s.colour p m := by
  unfold offer at h
  cases ha : analyzeDis c false d with
  | none => simp only [ha] at h; cases h
  | some t =>
    simp only [ha] at h
    by_cases h1 : (!c.txFile) = true
    · rw [if_pos h1] at h; cases h
    rw [if_neg h1] at h
    by_cases h2 : (!test t.far 10) = true
    · rw [if_pos h2] at h; cases h
    rw [if_neg h2] at h
    cases hf : chooseFormat t.comps t.sizes t.bilevel t.colour p with
    | error e => simp only [hf] at h; cases h
    | ok f =>
      simp only [hf, Option.some.injEq, Prod.mk.injEq] at h
      obtain ⟨rfl, rfl⟩ := h
      refine ⟨rfl, by simpa using h1, ?_, chooseFormat_spec hf⟩
      rw [bit_eq_test _ _ (by omega) (by omega)]
      have : t.far = padded d := (analyzeDis_spec ha).2.1
      rw [← this]; simpa using h2

theorem session_start {c : Caps} {d : List Byte} {s : Sess} (h : analyzeDis c false d = some s) :
    s.fallback < 8 ∧ ∃ m, modemOf s.fallback = some m ∧ s.permitted m = true := by
  obtain ⟨_, _, _, _, _, _, _, _, _, _, _, _, hm⟩ := analyzeDis_spec h
  obtain ⟨h1, h2, _⟩ := chooseModem_spec hm
  exact ⟨h1, h2⟩

/-- The compression of an offer is a coding both ends have. -/
theorem offer_comp {c : Caps} {d : List Byte} {p : Page} {s : Sess} {m : Fmt}
    (h : offer c d p = some (s, m)) :
    m.comp ∈ [Comp.t4_1d, .t4_2d, .t6, .t85, .t85_l0, .t42_t81, .t43] ∧
    Spec.comp d m.comp = true ∧ (m.comp = .t4_1d ∨ c.comps m.comp = true) ∧
    (Spec.needsEcm m.comp = true → s.ecm = true) ∧
    (m.comp.isMulti = true ↔ m.type ≠ .bilevel) := by
  obtain ⟨ha, _, _, hch⟩ := offer_spec h
  obtain ⟨_, _, hecm, hc1, hc2, _⟩ := analyzeDis_spec ha
  have key : ∀ x, x ∈ [Comp.t4_1d, .t4_2d, .t6, .t85, .t85_l0, .t42_t81, .t43] →
      (x = .t4_1d ∨ s.comps x = true) →
      Spec.comp d x = true ∧ (x = .t4_1d ∨ c.comps x = true) ∧
      (Spec.needsEcm x = true → s.ecm = true) := by
    intro x hx hs
    by_cases h1 : x = .t4_1d
    · subst h1; exact ⟨rfl, Or.inl rfl, by simp [Spec.needsEcm]⟩
    have hs : s.comps x = true := hs.resolve_left h1
    by_cases h2 : x ∈ [Comp.t4_1d, .t4_2d]
    · rw [hc1 x h2, Bool.and_eq_true] at hs
      refine ⟨hs.2, Or.inr hs.1, ?_⟩
      simp only [List.mem_cons, List.not_mem_nil, or_false] at h2
      rcases h2 with rfl | rfl <;> simp [Spec.needsEcm]
    · have h3 : x ∈ [Comp.t6, .t85, .t85_l0, .t42_t81, .t43] := by
        simp only [List.mem_cons, List.not_mem_nil, or_false, not_or] at hx h2 ⊢
        grind
      rw [hc2 x h3, Bool.and_eq_true, Bool.and_eq_true] at hs
      refine ⟨hs.2, Or.inr hs.1.1, fun _ => ?_⟩
      rw [hecm, hs.1.2, Bool.true_and]
      simp only [List.mem_cons, List.not_mem_nil, or_false] at h3
      rcases h3 with rfl | rfl | rfl | rfl | rfl <;>
        simp only [Spec.comp, Bool.and_eq_true] at hs <;> simp [hs]
  rcases hch.kind with ⟨h1, h2⟩ | ⟨h1, h2, h3, h4, _⟩
  · obtain ⟨e1, e2⟩ := bilevelComp_spec s.comps
    rw [← h2] at e1 e2
    have e3 : m.comp ∈ [Comp.t4_1d, .t4_2d, .t6, .t85, .t85_l0, .t42_t81, .t43] := by
      simp only [List.mem_cons, List.not_mem_nil, or_false] at e1 ⊢
      grind
    obtain ⟨k1, k2, k3⟩ := key _ e3 e2
    refine ⟨e3, k1, k2, k3, ?_⟩
    simp only [List.mem_cons, List.not_mem_nil, or_false] at e1
    rcases e1 with e | e | e | e | e <;> simp [e, Comp.isMulti, h1]
  · have e3 : m.comp ∈ [Comp.t4_1d, .t4_2d, .t6, .t85, .t85_l0, .t42_t81, .t43] := by
      rcases h3 with e | e <;> simp [e]
    obtain ⟨k1, k2, k3⟩ := key _ e3 (Or.inr h4)
    refine ⟨e3, k1, k2, k3, ?_⟩
    rcases h3 with e | e <;> simp [e, Comp.isMulti, h1, h2]

/-- The resolution and the width of an offer whose page is not scaled. -/
theorem offer_fit {c : Caps} (hc : Set c) {d : List Byte} {p : Page} {s : Sess} {m : Fmt}
    (h : offer c d p = some (s, m))
    (hfit : p.type = .bilevel ∨ p.type = .colourBilevel ∨ c.comps .rescaling = false) :
    m.width = p.width ∧
    (∃ z, m.widthCode = some z ∧ c.sizes z = true ∧ Spec.size d z = true ∧
      (z = .w215 ∨ z = .w255 ∨ z = .w303)) ∧
    (widthsOf m.res).getD (widthIndex m.widthCode) 0 = m.width ∧
    m.res ≠ .r100 ∧ c.bilevel m.res = true ∧ Spec.bilevel d m.res = true ∧
    (m.type ≠ .bilevel → m.res ∈ colourRes ∧ c.colour m.res = true ∧ Spec.colour d m.res = true) := by
  obtain ⟨ha, _, _, hch⟩ := offer_spec h
  obtain ⟨_, _, _, _, _, _, hkeep, hbi, h100, hco, hco', hsz, _⟩ := analyzeDis_spec ha
  have hs := hc.sound
  rcases hch.fit with ⟨h1, h2, h3⟩ | ⟨h1, ⟨z, h2, h3, h4⟩, h5, h6, h7⟩
  · rw [hkeep .rescaling (by simp)] at h3
    rcases hfit with e | e | e
    · exact absurd e h1
    · exact absurd e h2
    · rw [e] at h3; cases h3
  · have hn : m.res ≠ .r100 := by
      intro e
      rw [e, h100, hs.no100] at h6; cases h6
    rw [hsz z, Bool.and_eq_true] at h3
    rw [hbi _ hn, Bool.and_eq_true] at h6
    refine ⟨h1, ⟨z, h2, h3.1, h3.2, h4⟩, h5, hn, h6.1, h6.2, fun ht => ?_⟩
    have h7 := h7 ht
    by_cases hcr : m.res ∈ colourRes
    · rw [hco _ hcr, Bool.and_eq_true] at h7
      exact ⟨hcr, h7.1, h7.2⟩
    · rw [hco' _ hcr] at h7
      exact absurd (hs.colour _ h7) hcr

/-! ## The bits of the DCS, by their number -/

theorem mem_lengthBits {z : Size → Bool} {j : Nat} (h : j ∈ lengthBits z) :
    (j = 20 ∧ z .unlimited = true) ∨ (j = 19 ∧ z .b4 = true) ∨ (j = 76 ∧ z .letter = true) ∨
    (j = 77 ∧ z .legal = true) := by
  unfold lengthBits at h
  cases h1 : z .unlimited <;> cases h2 : z .b4 <;> cases h3 : z .letter <;> cases h4 : z .legal <;>
    simp [h1, h2, h3, h4] at h ⊢ <;> omega

/-- The speed a DCS names is that of the entry of the table. -/
theorem dcs_speed (c : Caps) (s : Sess) (m : Fmt) (sub sid : Bool) (hf : s.fallback < 8)
    {mdm : Modem} (hm : modemOf s.fallback = some mdm) :
    Spec.speed (dcsMessage c s m sub sid) = some (mdm, rateOf s.fallback) := by
  have hs := (dcs_same c s m sub sid).1
  have hc : ∀ i, 2 ≤ i → i < 6 →
      Spec.bit (dcsMessage c s m sub sid) (9 + i) = (codeOf s.fallback).getLsbD i := by
    intro i h2 h6
    rw [bit_eq_test _ _ (by omega) (by omega), ← dcs_code c s m sub sid, BitVec.getLsbD_and]
    have : (0x3C#8).getLsbD i = true := by
      rcases i with _ | _ | _ | _ | _ | _ | i <;> first | rfl | omega
    rw [this, Bool.and_true, ← hs.low 4 (by omega) (by omega)]
    unfold test
    rw [show 3 + (9 + i - 1)/8 = 4 by omega, show (9 + i - 1)%8 = i by omega]
  have b11 := hc 2 (by omega) (by omega)
  have b12 := hc 3 (by omega) (by omega)
  have b13 := hc 4 (by omega) (by omega)
  have b14 := hc 5 (by omega) (by omega)
  unfold Spec.speed
  rw [b11, b12, b13, b14]
  clear b11 b12 b13 b14 hc
  generalize s.fallback = k at *
  rcases k with _ | _ | _ | _ | _ | _ | _ | _ | k
  all_goals first
    | omega
    | (simp only [modemOf, fallbackTable] at hm
       simp at hm
       subst hm
       rfl)

/-- The fixed part of a session which has stepped down. -/
theorem stepped {c : Caps} {d : List Byte} {s s' : Sess} {n : Nat} (h : analyzeDis c false d = some s)
    (hn : stepDown s n = some s') :
    s'.ecm = s.ecm ∧ s'.sizes = s.sizes ∧ s'.far = s.far ∧ s'.received = s.received ∧
    s'.fallback < 8 ∧ ∃ m, modemOf s'.fallback = some m ∧ Spec.modem d m = true ∧
      (c.modems m = true ∨ m = .v27ter ∨ c.modems .v17 = true) := by
  obtain ⟨e, _, h8, m, hm, hp⟩ := stepDown_spec hn (session_start h)
  obtain ⟨_, _, _, _, _, _, _, _, _, _, _, _, hcm⟩ := analyzeDis_spec h
  obtain ⟨_, _, h3⟩ := chooseModem_spec hcm
  obtain ⟨h4, h5⟩ := h3 m hp
  refine ⟨?_, ?_, ?_, ?_, h8, m, hm, h4, h5⟩ <;> rw [e]

/-- The entry of the table found for a DCS is that of the speed it names. -/
theorem findFallback_spec (d : List Byte) {i : Nat}
    (h : findFallback (padded d 4 &&& 0x3C#8) 0 fallbackTable = some i) :
    i < 8 ∧ ∃ m, modemOf i = some m ∧ Spec.speed d = some (m, rateOf i) := by
  unfold Spec.speed
  rw [bit_eq_test d 11 (by omega) (by omega), bit_eq_test d 12 (by omega) (by omega),
    bit_eq_test d 13 (by omega) (by omega), bit_eq_test d 14 (by omega) (by omega)]
  have e11 : test (padded d) 11 = (padded d 4).getLsbD 2 := rfl
  have e12 : test (padded d) 12 = (padded d 4).getLsbD 3 := rfl
  have e13 : test (padded d) 13 = (padded d 4).getLsbD 4 := rfl
  have e14 : test (padded d) 14 = (padded d 4).getLsbD 5 := rfl
  rw [e11, e12, e13, e14]
  clear e11 e12 e13 e14
  generalize padded d 4 = x at *
  have hc : ∀ x : Byte, ∀ j : Fin 9, findFallback (x &&& 0x3C#8) 0 fallbackTable = some j.val →
      j.val < 8 ∧ (modemOf j.val).isSome = true ∧ (match x.getLsbD 2, x.getLsbD 3, x.getLsbD 4, x.getLsbD 5 with
            | false, false, false, false => some (Modem.v27ter, 2400)
            | false, true, false, false => some (.v27ter, 4800)
            | true, false, false, false => some (.v29, 9600)
            | true, true, false, false => some (.v29, 7200)
            | false, false, false, true => some (.v17, 14400)
            | false, true, false, true => some (.v17, 12000)
            | true, false, false, true => some (.v17, 9600)
            | true, true, false, true => some (.v17, 7200)
            | _, _, _, _ => none) = (modemOf j.val).map (fun m => (m, rateOf j.val)) := by
    decide +kernel
  have hlt : i < 9 := by
    have : ∀ x : Byte, ((findFallback (x &&& 0x3C#8) 0 fallbackTable).getD 0) < 9 := by decide +kernel
    have := this x
    rw [h] at this
    simpa using this
  obtain ⟨h1, h2, h3⟩ := hc x ⟨i, hlt⟩ h
  refine ⟨h1, ?_⟩
  simp only at h2 h3
  cases hm : modemOf i with
  | none => rw [hm] at h2; cases h2
  | some m => rw [hm] at h3; exact ⟨m, rfl, h3⟩

/-! ## What a receiver takes from a DCS it has -/

theorem have?_spec {m : Res → Bool} {x r : Res} (h : have? m x = some r) : m r = true := by
  unfold have? at h
  split at h
  · injection h with h; subst h; assumption
  · cases h

theorem dcsColourRes_have {colour : Res → Bool} {f : Frame} {r : Res}
    (h : dcsColourRes colour f = some r) : colour r = true := by
  unfold dcsColourRes at h
  repeat' split at h
  all_goals first
    | exact have?_spec h
    | cases h

theorem dcsBilevelRes_have {bilevel : Res → Bool} {f : Frame} {r : Res}
    (h : dcsBilevelRes bilevel f = some r) :
    bilevel r = true ∨ r = .r8Standard ∨ r = .r200_100 := by
  unfold dcsBilevelRes at h
  repeat' split at h
  all_goals first
    | exact Or.inl (have?_spec h)
    | (injection h with h; subst h; simp)

theorem dcsColourComp_have {comps : Comp → Bool} {f : Frame} {x : Comp}
    (h : dcsColourComp comps f = some x) : comps x = true := by
  unfold dcsColourComp at h
  repeat' split at h
  all_goals first
    | (cases h; done)
    | (injection h with h; subst h; assumption)

theorem dcsBilevelComp_have {comps : Comp → Bool} {f : Frame} {x : Comp}
    (h : dcsBilevelComp comps f = some x) : comps x = true := by
  unfold dcsBilevelComp at h
  repeat' split at h
  all_goals first
    | (cases h; done)
    | (injection h with h; subst h; assumption)

/-! ## Terminals for examples -/

/-- A sender and a receiver, as the calls of the setters make them. -/
def sender (comps : List Comp) (bilevel colour : List Res) (modems : List Modem) : Caps :=
  setFiles (setModems (setColour (setBilevel (setComps (setEcm capsInit true) (oneOf comps))
    (oneOf bilevel)) (oneOf colour)) (oneOf modems)) true false

def receiver (comps : List Comp) (bilevel colour : List Res) (modems : List Modem) : Caps :=
  setFiles (setModems (setColour (setBilevel (setComps (setEcm capsInit true) (oneOf comps))
    (oneOf bilevel)) (oneOf colour)) (oneOf modems)) false true

theorem set_sender (comps bilevel colour modems) : Set (sender comps bilevel colour modems) :=
  .files _ _ (.modems _ (.colour _ (.bilevel _ (.comps _ (.ecm _ .init)))))

theorem set_receiver (comps bilevel colour modems) : Set (receiver comps bilevel colour modems) :=
  .files _ _ (.modems _ (.colour _ (.bilevel _ (.comps _ (.ecm _ .init)))))

/-- A bi-level page of 200 by 200, and a grey one. -/
def finePage : Page := ⟨.bilevel, 1728, some .r200⟩
def greyPage : Page := ⟨.gray8, 1728, some .r200⟩

/-- A sender and a receiver with much in common. -/
def exSender : Caps := sender [.t4_1d, .t4_2d, .t6, .t85, .t42_t81, .gray]
  [.r8Standard, .r8Fine, .r200, .r300] [.r200] [.v27ter, .v29, .v17]
def exReceiver : Caps := receiver [.t4_1d, .t4_2d, .t6, .t42_t81, .gray]
  [.r8Standard, .r8Fine, .r200] [.r200] [.v27ter, .v29]

theorem exReceiver_ok : exReceiver.comps .t4_1d = true ∧ Spec.pairs exReceiver ∧
    Spec.tellable exReceiver := by
  refine ⟨by decide +kernel, ?_, ?_, ?_, ?_, ?_⟩
  · intro x y h
    cases x <;> simp [Spec.twin] at h <;> subst h <;> decide +kernel
  all_goals decide +kernel

/-- The same pair without error correction, with a receiver whose printer needs 10 ms a row. -/
def slowSender : Caps := setEcm exSender false
def slowReceiver : Caps := (setMinScan exReceiver 10).getD exReceiver

theorem some_of_map {α β : Type} {o : Option α} {f : α → β} {y : β} (h : o.map f = some y) :
    ∃ x, o = some x ∧ f x = y := by
  simpa [Option.map_eq_some_iff] using h

end Nego
