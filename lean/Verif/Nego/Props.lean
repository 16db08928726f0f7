import Verif.Nego.Proofs

/-!
# Properties of the fax capability negotiation

`Set c` says that `c` are settings an application can give a terminal.  `disMessage b r` is the DIS a
terminal with settings `b` sends, `offer a d p = some (s, m)` says that a terminal with settings `a`, on
receiving the frame `d`, decides to send page `p` in format `m`, `stepDown s n = some s'` that it has
since stepped its speed down `n` times, and `dcsMessage a s' m …` is the DCS it then sends.
-/

namespace Nego

/-! ## A DIS says what a terminal has (C68) -/

/-- A DIS, and a DCS, has from 6 to 22 octets, and each octet says truly whether another follows. -/
theorem frames_are_well_formed (c : Caps) (r : Bool) (s : Sess) (m : Fmt) (sub sid : Bool) :
    (6 ≤ (disMessage c r).length ∧ (disMessage c r).length ≤ 22 ∧
      Spec.wellExtended (disMessage c r)) ∧
    (6 ≤ (dcsMessage c s m sub sid).length ∧ (dcsMessage c s m sub sid).length ≤ 22 ∧
      Spec.wellExtended (dcsMessage c s m sub sid)) :=
  ⟨⟨(dis_length c r).1, (dis_length c r).2, ext_dis _⟩,
    ⟨(dcs_same c s m sub sid).2.1, (dcs_same c s m sub sid).2.2, dcs_ext c s m sub sid⟩⟩

example : (disMessage exReceiver false).length = 13 := by decide +kernel

/-- What a terminal keeps after the DIS of another is what both have, for error correction, the bi-level
compressions, page sizes, and the resolutions with a bit of their own.  Two resolutions which share a bit
are kept if the other terminal has either. -/
theorem dis_says_what_a_terminal_has_partial (a b : Caps) (hb : Set b) (was r : Bool) (s : Sess)
    (h : analyzeDis a was (disMessage b r) = some s) :
    s.ecm = (a.ecm && b.ecm) ∧
    s.comps .t4_2d = (a.comps .t4_2d && b.comps .t4_2d) ∧
    (∀ x, x ∈ [Comp.t6, .t85] → s.comps x = (a.comps x && b.comps x && (a.ecm && b.ecm))) ∧
    s.comps .t85_l0 = (a.comps .t85_l0 && b.comps .t85_l0 && b.comps .t85 && (a.ecm && b.ecm)) ∧
    (∀ z, s.sizes z = (a.sizes z && b.sizes z)) ∧
    (∀ x, x ≠ .r8Standard → x ≠ .r200_100 →
      s.bilevel x = (a.bilevel x && (b.bilevel x ||
        match Spec.twin x with
        | some y => b.bilevel y
        | none => false)) ∨ (x = .r100 ∧ s.bilevel x = a.bilevel x)) ∧
    s.bilevel .r8Standard = a.bilevel .r8Standard ∧
    (b.bilevel .r200_100 = true → s.bilevel .r200_100 = a.bilevel .r200_100) ∧
    (∀ x, x ∈ [Res.r100, .r600, .r1200] → s.colour x = (a.colour x && b.colour x)) := by
  obtain ⟨_, _, hecm, hc1, hc2, _, _, hbi, h100, hco, _, hsz, _⟩ := analyzeDis_spec h
  have hs := hb.sound
  obtain ⟨t10, t9, t11, t12, t13, t14, t15, t16, t17, t18, t19, t20, _, _, _, t27, t31⟩ := dis_bits b r
  obtain ⟨t36, t41, t42, t43, t44, t46, t68, t69, t71, t76, t77, t78, t79, t97, t98, t105, t106, t107,
    t108, t109, t110, t111⟩ := dis_bits' b r
  refine ⟨?_, ?_, ?_, ?_, ?_, ?_, ?_, ?_, ?_⟩
  · rw [hecm, t27]
  · rw [hc1 _ (by simp)]; simp only [Spec.comp, t16]
  · intro x hx
    simp only [List.mem_cons, List.not_mem_nil, or_false] at hx
    rcases hx with rfl | rfl
    · rw [hc2 _ (by simp)]; simp only [Spec.comp, t27, t31]; grind
    · rw [hc2 _ (by simp)]; simp only [Spec.comp, t27, t78]; grind
  · rw [hc2 _ (by simp)]; simp only [Spec.comp, t27, t78, t79]; grind
  · intro z
    rw [hsz z]
    have e1 := hs.w215
    have e2 := hs.a4
    have e3 := hs.w255
    have e4 := hs.b4
    cases z <;> simp only [Spec.size, t17, t18, t19, t20, t76, t77] <;> grind
  · intro x h1 h2
    by_cases hx : x = .r100
    · exact Or.inr ⟨hx, by rw [hx, h100]⟩
    · refine Or.inl ?_
      rw [hbi x hx]
      cases x <;> simp only [Spec.bilevel, Spec.twin, t15, t41, t42, t43, t105, t106, t107, t108, t109] <;>
        grind
  · rw [hbi _ (by simp)]; simp [Spec.bilevel]
  · intro h2
    rw [hbi _ (by simp)]; simp [Spec.bilevel, t44, h2]
  · intro x hx
    have e := hs.both x
    simp only [List.mem_cons, List.not_mem_nil, or_false] at hx
    rcases hx with rfl | rfl | rfl
    · rw [hco _ (by simp [colourRes])]; simp only [Spec.colour, t98]
    · rw [hco _ (by simp [colourRes])]; simp only [Spec.colour, t105, t110]; grind
    · rw [hco _ (by simp [colourRes])]; simp only [Spec.colour, t106, t111]; grind

example : Set exReceiver ∧ ∃ s, analyzeDis exSender false (disMessage exReceiver false) = some s ∧
    s.comps .t6 = true ∧ s.comps .t85 = false :=
  ⟨set_receiver _ _ _ _, by
    obtain ⟨s, h1, h2⟩ := some_of_map (o := analyzeDis exSender false (disMessage exReceiver false))
      (f := fun s => (s.comps .t6, s.comps .t85)) (y := (true, false)) (by decide +kernel)
    simp only [Prod.mk.injEq] at h2
    exact ⟨s, h1, h2⟩⟩

/-! ## The DCS keeps to what any DIS offered (C69) -/

/-- Whatever DIS the far end sends, every bit of the DCS which asks for a compression, a resolution, a
width, a length, error correction, flow control or T.38 is for something the DIS offered; a compression
which needs error correction comes with it; and the modem is one of those offered, at every step down. -/
theorem dcs_keeps_to_the_dis_partial (a : Caps) (ha : Set a) (d : List Byte) (p : Page) (s : Sess)
    (m : Fmt) (h : offer a d p = some (s, m))
    (hfit : p.type = .bilevel ∨ p.type = .colourBilevel ∨ a.comps .rescaling = false)
    (n : Nat) (s' : Sess) (hn : stepDown s n = some s') (sub sid : Bool) :
    let dcs := dcsMessage a s' m sub sid
    (∀ j, j ∈ Spec.asking → Spec.bit dcs j = true → Spec.offers d j = true) ∧
    (∀ j, j ∈ Spec.ecmBits → Spec.bit dcs j = true → Spec.bit dcs 27 = true) ∧
    (Spec.bit dcs 27 = true → a.ecm = true) ∧
    (∃ modem rate, Spec.speed dcs = some (modem, rate) ∧ Spec.modem d modem = true) := by
  obtain ⟨hd, _, _, hch⟩ := offer_spec h
  obtain ⟨e1, e2, e3, _, e5, mdm, e6, e7, _⟩ := stepped hd hn
  obtain ⟨_, hfar, hecm, _, _, _, _, _, _, _, _, hsz, _⟩ := analyzeDis_spec hd
  obtain ⟨c1, c2, _, c4, c5⟩ := offer_comp h
  obtain ⟨_, ⟨z, w2, _, w4, _⟩, _, r1, _, r3, r4⟩ := offer_fit ha h hfit
  have hs := (dcs_same a s' m sub sid).1
  have hbit : ∀ j, j ∈ Spec.asking → Spec.bit (dcsMessage a s' m sub sid) j =
      test (dcsFrame a s' m sub sid) j := by
    intro j hj
    have h1 : plain j ∧ j ≤ 127 := by revert hj j; decide
    rw [bit_eq_test _ _ (by omega) h1.1.1, hs.test j h1.1 (by omega)]
  have hform : ∀ j, j ∈ Spec.asking → Spec.bit (dcsMessage a s' m sub sid) j = true →
      j ∈ compBits m.comp m.type ∨ j ∈ widthBits m.widthCode ∨ j ∈ lengthBits s.sizes ∨
      j ∈ resBits m.comp.isMulti m.res ∨ (s.ecm = true ∧ j = 27) ∨
      (test s.far 121 = true ∧ j = 121) ∨ (test s.far 123 = true ∧ j = 123) := by
    intro j hj hb
    have h1 : 0 < j ∧ (j ≤ 10 ∨ 15 ≤ j) ∧ (j < 21 ∨ 24 ≤ j) ∧ j ≠ 10 ∧ j ≠ 49 ∧ j ≠ 50 := by
      clear hb; revert hj j; decide
    rw [hbit j hj, dcs_bit _ _ _ _ _ _ h1.1 h1.2.1 h1.2.2.1, e1, e2, e3] at hb
    simp only [Bool.or_eq_true, Bool.and_eq_true, decide_eq_true_eq] at hb
    obtain ⟨_, _, _, q1, q2, q3⟩ := h1
    grind
  have h27 : Spec.bit (dcsMessage a s' m sub sid) 27 = s.ecm := by
    rw [hbit 27 (by decide), dcs_bit _ _ _ _ _ _ (by omega) (by omega) (by omega), e1]
    have n1 : 27 ∉ compBits m.comp m.type := by cases m.comp <;> cases m.type <;> decide
    have n2 : 27 ∉ widthBits m.widthCode := by
      rcases m.widthCode with _ | z
      · decide
      · cases z <;> decide
    have n3 : 27 ∉ lengthBits s'.sizes := by
      rcases lengthBits_cases s'.sizes with h | h | h | h | h <;> rw [h] <;> decide
    have n4 : 27 ∉ resBits m.comp.isMulti m.res := by
      cases m.comp.isMulti <;> cases m.res <;> decide
    simp [n1, n2, n3, n4]
  refine ⟨?_, ?_, ?_, ?_⟩
  · intro j hj hb
    have hof : Spec.bit d j = true → Spec.offers d j = true := fun h => by simp [Spec.offers, h]
    rcases hform j hj hb with q | q | q | q | ⟨q, rfl⟩ | ⟨q, rfl⟩ | ⟨q, rfl⟩
    · apply hof
      simp only [List.mem_cons, List.not_mem_nil, or_false] at c1
      rcases c1 with e | e | e | e | e | e | e <;> rw [e] at q c2 <;>
        simp only [compBits, List.mem_cons, List.not_mem_nil, or_false, Spec.comp, Bool.and_eq_true]
          at q c2
      · rw [q]; exact c2
      · rw [q]; exact c2.2
      · rw [q]; exact c2.2
      · rw [q]; exact c2.2
      · rcases q with q | q
        · rw [q]; exact c2.2
        · exfalso
          have : j = 69 ∨ j = 71 := by
            unfold compBits.multi at q; cases ht : m.type <;> rw [ht] at q <;> simp at q <;> omega
          rcases this with rfl | rfl <;> exact absurd hj (by decide)
      · rcases q with q | q
        · rw [q]; exact c2.2
        · exfalso
          have : j = 69 ∨ j = 71 := by
            unfold compBits.multi at q; cases ht : m.type <;> rw [ht] at q <;> simp at q <;> omega
          rcases this with rfl | rfl <;> exact absurd hj (by decide)
    · rw [w2] at q
      cases z <;> simp [widthBits] at q <;> subst q <;> simp [Spec.size] at w4 <;>
        simp [Spec.offers, w4]
    · rcases mem_lengthBits q with ⟨rfl, q'⟩ | ⟨rfl, q'⟩ | ⟨rfl, q'⟩ | ⟨rfl, q'⟩ <;>
        rw [hsz] at q' <;> simp [Spec.size] at q' <;> simp [Spec.offers, q']
    · apply hof
      cases hmu : m.comp.isMulti
      · rw [hmu] at q
        cases hr : m.res <;> rw [hr] at q r3 r1 <;> simp [resBits] at q r1 <;>
          simp [Spec.bilevel] at r3 <;> first
          | (rcases q with rfl | rfl <;> first | exact r3 | (exfalso; revert hj; decide))
          | (subst q; first | exact r3 | (exfalso; revert hj; decide))
      · rw [hmu] at q
        obtain ⟨k1, _, k3⟩ := r4 (c5.mp hmu)
        cases hr : m.res <;> rw [hr] at q r3 r1 k1 k3 <;> simp [colourRes] at k1 r1 <;>
          simp [resBits] at q <;> simp [Spec.colour] at k3 <;>
          rcases q with rfl | rfl | rfl <;>
          first | exact k3 | exact k3.1 | exact k3.2 | (exfalso; revert hj; decide)
    · apply hof
      rw [hecm, Bool.and_eq_true] at q; exact q.2
    · apply hof
      rw [bit_eq_test _ _ (by omega) (by omega), ← hfar]; exact q
    · apply hof
      rw [bit_eq_test _ _ (by omega) (by omega), ← hfar]; exact q
  · intro j hj hb
    rw [h27]
    apply c4
    have hj' : j ∈ Spec.asking := by clear hb; revert hj j; decide
    rcases hform j hj' hb with q | q | q | q | ⟨q, rfl⟩ | ⟨q, rfl⟩ | ⟨q, rfl⟩
    · simp only [List.mem_cons, List.not_mem_nil, or_false] at c1
      rcases c1 with e | e | e | e | e | e | e <;> rw [e] at q ⊢ <;>
        simp only [compBits, List.mem_cons, List.not_mem_nil, or_false, Spec.needsEcm] at q ⊢
      subst q; exact absurd hj (by decide)
    · rw [w2] at q
      cases z <;> simp [widthBits] at q <;> subst q <;> exact absurd hj (by decide)
    · rcases mem_lengthBits q with ⟨rfl, q⟩ | ⟨rfl, q⟩ | ⟨rfl, q⟩ | ⟨rfl, q⟩ <;>
        exact absurd hj (by decide)
    · exfalso
      simp only [Spec.ecmBits, List.mem_cons, List.not_mem_nil, or_false] at hj
      cases hmu : m.comp.isMulti <;> rw [hmu] at q <;> cases hr : m.res <;> rw [hr] at q <;>
        simp [resBits] at q <;> omega
    · exact absurd hj (by decide)
    · exact absurd hj (by decide)
    · exact absurd hj (by decide)
  · intro hb
    rw [h27, hecm, Bool.and_eq_true] at hb
    exact hb.1
  · exact ⟨mdm, _, dcs_speed a s' m sub sid e5 e6, e7⟩

/-- An offer of a bi-level page in T.6, and of a grey one in T.81, each with a step down. -/
example : Set exSender ∧ Set exReceiver ∧ exSender.comps .rescaling = false ∧
    (∃ s m s', offer exSender (disMessage exReceiver false) finePage = some (s, m) ∧
      m.comp = .t6 ∧ stepDown s 2 = some s') ∧
    (∃ s m s', offer exSender (disMessage exReceiver false) greyPage = some (s, m) ∧
      m.comp = .t42_t81 ∧ stepDown s 2 = some s') := by
  have key : ∀ p c, (offer exSender (disMessage exReceiver false) p).map
      (fun y => (y.2.comp, (stepDown y.1 2).isSome)) = some (c, true) →
      ∃ s m s', offer exSender (disMessage exReceiver false) p = some (s, m) ∧
        m.comp = c ∧ stepDown s 2 = some s' := by
    intro p c h
    obtain ⟨⟨s, m⟩, h1, h2⟩ := some_of_map h
    simp only [Prod.mk.injEq] at h2
    obtain ⟨s', h3⟩ := Option.isSome_iff_exists.mp h2.2
    exact ⟨s, m, s', h1, h2.1, h3⟩
  exact ⟨set_sender _ _ _ _, set_receiver _ _ _ _, by decide +kernel, key _ _ (by decide +kernel),
    key _ _ (by decide +kernel)⟩

/-! ## Both ends agree (C70) -/

/-- If a terminal decides to send a page, then the DCS it sends, at its first speed and after every step
down, is accepted by the terminal whose DIS it answers, and both then have the same compression,
resolution, width, speed and use of error correction.  The receiver must have one-dimensional coding and
both or neither of two resolutions which share a bit; for grey and colour pages its settings must be such
as the bits can tell, and the sender's page must not need to be rescaled. -/
theorem both_ends_agree_partial (a b : Caps) (ha : Set a) (hb : Set b) (r : Bool) (p : Page) (s : Sess)
    (m : Fmt) (h : offer a (disMessage b r) p = some (s, m))
    (h1d : b.comps .t4_1d = true) (hpairs : Spec.pairs b)
    (hcol : p.type ≠ .bilevel → Spec.tellable b)
    (hfit : p.type = .bilevel ∨ p.type = .colourBilevel ∨ a.comps .rescaling = false)
    (n : Nat) (s' : Sess) (hn : stepDown s n = some s') (sub sid : Bool) :
    analyzeDcs b (dcsMessage a s' m sub sid) =
      .ok ⟨a.ecm && b.ecm, m.comp, m.res, p.width, s'.fallback⟩ := by
  obtain ⟨hd, _, _, hch⟩ := offer_spec h
  obtain ⟨e1, e2, e3, _, e5, mdm, e6, e7, _⟩ := stepped hd hn
  obtain ⟨c1, c2, _, c4, c5⟩ := offer_comp h
  obtain ⟨_, _, hecm, _⟩ := analyzeDis_spec hd
  obtain ⟨w1, _, w3, r1, _, r3, r4⟩ := offer_fit ha h hfit
  have hs := hb.sound
  obtain ⟨t10, t9, t11, t12, t13, t14, t15, t16, t17, t18, t19, t20, _, _, _, t27, t31⟩ := dis_bits b r
  obtain ⟨t36, t41, t42, t43, t44, t46, t68, t69, t71, t76, t77, t78, t79, t97, t98, t105, t106, t107,
    t108, t109, t110, t111⟩ := dis_bits' b r
  have p1 := hpairs .r8Fine .r200 rfl
  have p2 := hpairs .r8Superfine .r200_400 rfl
  have p3 := hpairs .r16Superfine .r400 rfl
  have hmulti : m.comp.isMulti = true → Spec.tellable b := by
    intro hm
    apply hcol
    intro e
    rcases hch.kind with ⟨q, _⟩ | ⟨_, q, _⟩
    · exact c5.mp hm q
    · exact q e
  have key := dcs_accepted a b s' m sub sid c1 ?_ ?_ ?_ w3 e5
  · rw [key, e1, w1, hecm, t27]
  · simp only [List.mem_cons, List.not_mem_nil, or_false] at c1
    rcases c1 with e | e | e | e | e | e | e <;> rw [e] at c2 hmulti ⊢ <;>
      simp only [Spec.comp, Bool.and_eq_true, t16, t27, t31, t36, t68, t78, t79] at c2
    · exact h1d
    · exact c2
    · exact c2.2.2
    · exact c2.2.2
    · exact c2.2.2
    · rcases Bool.or_eq_true _ _ ▸ c2.2.2 with q | q
      · exact q
      · exact (hmulti rfl).t43 q
    · exact c2.2.2
  · intro _
    refine ⟨r1, ?_⟩
    unfold takes
    cases hr : m.res <;> rw [hr] at r3 <;>
      simp only [Spec.bilevel, t15, t41, t42, t43, t44, t105, t106, t107, t108, t109,
        Bool.or_eq_true] at r3 <;> simp <;> grind
  · intro hm
    obtain ⟨k1, _, k3⟩ := r4 (c5.mp hm)
    refine ⟨k1, ?_⟩
    obtain ⟨q1, q2, q3, _⟩ := hmulti hm
    have hsc := hs.both
    cases hr : m.res <;> rw [hr] at k1 k3 r1 <;> simp only [colourRes, List.mem_cons, List.not_mem_nil,
      or_false, reduceCtorEq, or_true] at k1 <;>
      simp only [Spec.colour, t15, t42, t43, t97, t98, t105, t106, t110, t111, Bool.or_eq_true,
        Bool.and_eq_true] at k3 <;> grind

/-- The offers of the example above are to a receiver which meets the conditions. -/
example : exReceiver.comps .t4_1d = true ∧ Spec.pairs exReceiver ∧ Spec.tellable exReceiver :=
  exReceiver_ok

/-- So are a new terminal's settings. -/
example : capsInit.comps .t4_1d = true ∧ Spec.pairs capsInit := by
  refine ⟨by decide, ?_⟩
  intro x y h
  cases x <;> simp [Spec.twin] at h <;> subst h <;> decide

/-- The page every terminal must be able to take is always sent, unless the receiver has only V.29 and
the sender does not. -/
theorem standard_page_always_sent (a b : Caps) (ha : Set a) (r : Bool)
    (htx : a.txFile = true) (hrx : b.rxFile = true) (hstd : a.bilevel .r8Standard = true)
    (hmod : a.modems .v29 = true ∨ b.modems .v29 = false ∨ b.modems .v27ter = true ∨
      b.modems .v17 = true) :
    ∃ s m, offer a (disMessage b r) ⟨.bilevel, 1728, some .r8Standard⟩ = some (s, m) ∧
      m.type = .bilevel ∧ m.width = 1728 ∧ m.res = .r8Standard := by
  obtain ⟨t10, t9, t11, t12, t13, t14, t15, t16, t17, t18, t19, t20, _, _, _, t27, t31⟩ := dis_bits b r
  have hl := (dis_length b r).1
  have hcode : ∃ pm i, chooseModem a (padded (disMessage b r) 4 &&& 0x3C#8) = some (pm, i) := by
    have hb : ∀ x y : Byte, (x.getLsbD 2 = y.getLsbD 2) → (x.getLsbD 3 = y.getLsbD 3) →
        (x.getLsbD 4 = y.getLsbD 4) → (x.getLsbD 5 = y.getLsbD 5) → x &&& 0x3C#8 = y &&& 0x3C#8 := by
      intro x y h2 h3 h4 h5
      apply mask3C
      intro i hi hi'
      rcases i with _ | _ | _ | _ | _ | _ | i <;> first | omega | assumption
    rw [bit_eq_test _ _ (by omega) (by omega)] at t11 t12 t13 t14
    have u : ∀ y : Byte, (y.getLsbD 2 = (b.modems .v29 || b.modems .v17)) →
        (y.getLsbD 3 = (b.modems .v27ter || b.modems .v17)) → y.getLsbD 4 = false →
        y.getLsbD 5 = b.modems .v17 → padded (disMessage b r) 4 &&& 0x3C#8 = y &&& 0x3C#8 := by
      intro y y2 y3 y4 y5
      exact hb _ _ (t11.trans y2.symm) (t12.trans y3.symm) (t13.trans y4.symm) (t14.trans y5.symm)
    have v : ∀ y : Byte, padded (disMessage b r) 4 &&& 0x3C#8 = y →
        (y = 0x2C#8 ∨ y = 0x0C#8 ∨ y = 0x08#8 ∨ y = 0#8 ∨ (y = 0x04#8 ∧ a.modems .v29 = true)) →
        ∃ pm i, chooseModem a (padded (disMessage b r) 4 &&& 0x3C#8) = some (pm, i) := by
      intro y hy hc
      rw [hy]
      rcases hc with rfl | rfl | rfl | rfl | ⟨rfl, q⟩
      · cases q1 : a.modems .v17 <;> cases q2 : a.modems .v29 <;> simp [chooseModem, q1, q2]
      · cases q1 : a.modems .v17 <;> cases q2 : a.modems .v29 <;> simp [chooseModem, q1, q2]
      · cases q1 : a.modems .v17 <;> cases q2 : a.modems .v29 <;> simp [chooseModem, q1, q2]
      · cases q1 : a.modems .v17 <;> cases q2 : a.modems .v29 <;> simp [chooseModem, q1, q2]
      · simp [chooseModem, q]
    clear hb
    cases q1 : b.modems .v29 <;> cases q2 : b.modems .v27ter <;> cases q3 : b.modems .v17 <;>
      rw [q1, q2, q3] at u <;> simp only [q1, q2, q3, or_false, or_true, Bool.true_eq_false,
        Bool.false_eq_true] at hmod
    · exact v _ (u 0#8 rfl rfl rfl rfl) (by simp)
    · exact v _ (u 0x2C#8 rfl rfl rfl rfl) (Or.inl rfl)
    · exact v _ (u 0x08#8 rfl rfl rfl rfl) (by simp)
    · exact v _ (u 0x2C#8 rfl rfl rfl rfl) (Or.inl rfl)
    · exact v _ (u 0x04#8 rfl rfl rfl rfl) (by simp [hmod])
    · exact v _ (u 0x2C#8 rfl rfl rfl rfl) (Or.inl rfl)
    · exact v _ (u 0x0C#8 rfl rfl rfl rfl) (by simp)
    · exact v _ (u 0x2C#8 rfl rfl rfl rfl) (Or.inl rfl)
  obtain ⟨pm, i, hcode⟩ := hcode
  have hex : ∃ s, analyzeDis a false (disMessage b r) = some s := by
    unfold analyzeDis
    rw [if_neg (by omega)]
    simp only [hcode]
    exact ⟨_, rfl⟩
  obtain ⟨s, hsv⟩ := hex
  obtain ⟨_, hfar, _, _, _, _, _, hbi, _, _, _, hsz, _⟩ := analyzeDis_spec hsv
  have hw : s.sizes .w215 = true := by
    rw [hsz, ha.sound.w215]; rfl
  have hr8 : s.bilevel .r8Standard = true := by
    rw [hbi _ (by simp), hstd]; rfl
  have h10 : test s.far 10 = true := by
    rw [hfar, ← bit_eq_test _ _ (by omega) (by omega), t10, hrx]
  have hfw : findWidth ⟨.bilevel, 1728, some .r8Standard⟩ widthTable =
      some (.w215, .r8Standard, some .r200_100) := by decide
  refine ⟨s, ⟨.bilevel, bilevelComp s.comps, 1728, some .w215, .r8Standard, 1⟩, ?_, rfl, rfl, rfl⟩
  unfold offer
  simp only [hsv, htx, h10]
  simp [chooseFormat, chooseType, hfw, hw, bilevelRes, hr8]

example : exSender.txFile = true ∧ exReceiver.rxFile = true ∧ exSender.bilevel .r8Standard = true ∧
    exSender.modems .v29 = true := by decide +kernel

/-! ## Speeds (C71) -/

/-- Whatever DIS the far end sends, each step down in speed is to a later entry of the table of eight,
with a modem the far end offered, at a rate no higher; after at most seven steps there is none left. -/
theorem steps_down_end (a : Caps) (d : List Byte) (p : Page) (s : Sess) (m : Fmt)
    (h : offer a d p = some (s, m)) (sub sid : Bool) :
    (∀ n s', stepDown s n = some s' → ∃ modem rate,
      Spec.speed (dcsMessage a s' m sub sid) = some (modem, rate) ∧ Spec.modem d modem = true ∧
      (a.modems modem = true ∨ modem = .v27ter ∨ a.modems .v17 = true) ∧
      ∀ s'', stepDown s' 1 = some s'' → ∃ modem' rate',
        Spec.speed (dcsMessage a s'' m sub sid) = some (modem', rate') ∧ rate' ≤ rate ∧
        (modem', rate') ≠ (modem, rate)) ∧
    (∀ n, 8 ≤ n → stepDown s n = none) := by
  obtain ⟨hd, _⟩ := offer_spec h
  refine ⟨?_, ?_⟩
  · intro n s' hn
    obtain ⟨e1, _, _, _, e5, mdm, e6, e7, e8⟩ := stepped hd hn
    refine ⟨mdm, _, dcs_speed a s' m sub sid e5 e6, e7, e8, ?_⟩
    intro s'' hs
    simp only [stepDown, Option.bind_eq_some_iff, Option.some.injEq] at hs
    obtain ⟨t, hs, rfl⟩ := hs
    obtain ⟨_, f2, f3, mdm', f4, _⟩ := stepFallback_spec hs
    refine ⟨mdm', _, dcs_speed a t m sub sid f3 f4, rate_mono _ _ (by omega) f3, ?_⟩
    intro e
    simp only [Prod.mk.injEq] at e
    have : ∀ j : Fin 8, ∀ i : Fin 8, i.val < j.val →
        ¬(modemOf j.val = modemOf i.val ∧ rateOf j.val = rateOf i.val) := by decide
    apply this ⟨t.fallback, f3⟩ ⟨s'.fallback, e5⟩ f2
    simp only
    rw [f4, e6, e.1]
    exact ⟨rfl, e.2⟩
  · intro n hn
    cases hx : stepDown s n with
    | none => rfl
    | some s' =>
      obtain ⟨_, h2, h3, _⟩ := stepDown_spec hx (session_start hd)
      omega

/-! ## Any DCS (C72) -/

/-- Whatever frame comes as a DCS, if it is of at most 25 octets then nothing is written outside the
arrays, and if it is accepted then the compression and the resolution are ones the receiver has, or the
two standard resolutions, the width is one of the three of that resolution, and the speed and the use of
error correction are those the frame names. -/
theorem any_dcs_is_safe_partial (b : Caps) (d : List Byte) :
    (d.length ≤ 25 → analyzeDcs b d ≠ .fault) ∧
    (∀ x, analyzeDcs b d = .ok x →
      b.comps x.comp = true ∧
      (b.bilevel x.res = true ∨ b.colour x.res = true ∨ x.res = .r8Standard ∨ x.res = .r200_100) ∧
      x.width ∈ Spec.widths x.res ∧ x.fallback < 8 ∧
      (∃ m, modemOf x.fallback = some m ∧ Spec.speed d = some (m, rateOf x.fallback)) ∧
      x.ecm = Spec.bit d 27) := by
  refine ⟨?_, ?_⟩
  · intro hl
    unfold analyzeDcs
    split
    · simp
    · rw [if_neg (by unfold dcsStringEnd dcsStringSize; omega)]
      simp only
      split
      · simp
      · split
        · simp
        · split <;> simp
  · intro x h
    unfold analyzeDcs at h
    by_cases h1 : d.length < 6
    · rw [if_pos h1] at h; cases h
    rw [if_neg h1] at h
    by_cases h2 : dcsStringEnd d.length > dcsStringSize
    · rw [if_pos h2] at h; cases h
    rw [if_neg h2] at h
    simp only at h
    generalize hmu : (test (padded d) 68 || test (padded d) 36 || test (padded d) 116 ||
      test (padded d) 127) = multi at h
    cases hc : (if multi = true then dcsColourComp b.comps (padded d) else
        dcsBilevelComp b.comps (padded d)) with
    | none => rw [hc] at h; cases h
    | some comp =>
      cases hr : (if multi = true then dcsColourRes b.colour (padded d) else
          dcsBilevelRes b.bilevel (padded d)) with
      | none => rw [hc, hr] at h; cases h
      | some res =>
        rw [hc, hr] at h
        simp only at h
        cases hf : findFallback (padded d 4 &&& 0x3C#8) 0 fallbackTable with
        | none => rw [hf] at h; cases h
        | some i =>
          rw [hf] at h
          simp only [DcsResult.ok.injEq] at h
          subst h
          refine ⟨?_, ?_, ?_, ?_, ?_, ?_⟩
          · simp only
            cases multi
            · rw [if_neg (by simp)] at hc; exact dcsBilevelComp_have hc
            · rw [if_pos rfl] at hc; exact dcsColourComp_have hc
          · simp only
            cases multi
            · rw [if_neg (by simp)] at hr
              rcases dcsBilevelRes_have hr with q | q | q
              · exact Or.inl q
              · exact Or.inr (Or.inr (Or.inl q))
              · exact Or.inr (Or.inr (Or.inr q))
            · rw [if_pos rfl] at hr; exact Or.inr (Or.inl (dcsColourRes_have hr))
          · simp only
            have : (padded d 5 &&& 3#8).toNat < 4 := by
              rw [mask3]; split <;> split <;> omega
            generalize (padded d 5 &&& 3#8).toNat = k at *
            cases res <;> rcases k with _ | _ | _ | _ | k <;> first | omega | decide
          · exact (findFallback_spec d hf).1
          · exact (findFallback_spec d hf).2
          · rw [bit_eq_test _ _ (by omega) (by omega)]

example : ∃ x, analyzeDcs exReceiver [0xFF#8, 0x13#8, 0x83#8, 0#8, 0x0E#8, 0x71#8] = .ok x ∧
    x.width = 2048 := ⟨⟨false, .t4_1d, .r8Standard, 2048, 5⟩, by decide +kernel⟩

/-! ## The time of a row (C73) -/

/-- Without error correction, each row is padded so that at the speed in use it lasts at least as long as
the DIS asks for at the resolution in use, unless the sender is set to an internet aware mode in which
there are no fill bits. -/
theorem rows_last_long_enough (a : Caps) (d : List Byte) (p : Page) (s : Sess) (m : Fmt)
    (h : offer a d p = some (s, m)) (hecm : a.ecm = false ∨ Spec.bit d 27 = false)
    (hfill : a.features .iafNoFillBits = false) (n : Nat) (s' : Sess)
    (hn : stepDown s n = some s') (sub sid : Bool) :
    ∃ modem rate, Spec.speed (dcsMessage a s' m sub sid) = some (modem, rate) ∧
      4000*minRowBits a s' m.res ≥ rate*Spec.rowQuarters d m.res.y := by
  obtain ⟨hd, _⟩ := offer_spec h
  obtain ⟨e1, _, e3, _, e5, mdm, e6, _⟩ := stepped hd hn
  obtain ⟨_, hfar, he, _⟩ := analyzeDis_spec hd
  refine ⟨mdm, _, dcs_speed a s' m sub sid e5 e6, ?_⟩
  have hne : s'.ecm = false := by
    rw [e1, he]; rcases hecm with q | q <;> simp [q]
  unfold minRowBits minScanCode
  rw [hfill, hne, e3, hfar]
  have hfield : ((padded d 5 >>> 4) &&& 7#8).toNat = Spec.scanField d := by
    have : ∀ x : Byte, ((x >>> 4) &&& 7#8).toNat = (if x.getLsbD 4 then 1 else 0) +
      (if x.getLsbD 5 then 2 else 0) + (if x.getLsbD 6 then 4 else 0) := by decide +kernel
    rw [this]
    unfold Spec.scanField
    rw [bit_eq_test d 21 (by omega) (by omega), bit_eq_test d 22 (by omega) (by omega),
      bit_eq_test d 23 (by omega) (by omega)]
    rfl
  have h8 : Spec.scanField d < 8 := by
    unfold Spec.scanField; split <;> split <;> split <;> omega
  rw [if_neg (by simp), if_neg (by simp)]
  simp only
  rw [hfield, ← bit_eq_test d 46 (by omega) (by omega)]
  unfold Spec.rowQuarters
  generalize Spec.scanField d = k at *
  generalize Spec.bit d 46 = half at *
  have key : ∀ f : Fin 8, ∀ k : Fin 8, ∀ half : Bool, ∀ y : YRes,
      4000*(rateOf f.val*minScanTimes.getD (match y with
        | .superfine => (if half = true then translateHalf else translateFine).getD k.val 0#3
        | .fine => translateFine.getD k.val 0#3
        | .standard => translateNormal.getD k.val 0#3
        | .other => 7#3).toNat 0/1000) ≥
      rateOf f.val*(match y with
        | .standard => 4*Spec.standardTime.getD k.val 0
        | .fine => if Spec.fineHalves.getD k.val false = true then
            4*Spec.standardTime.getD k.val 0/2 else 4*Spec.standardTime.getD k.val 0
        | .superfine => if half = true then (if Spec.fineHalves.getD k.val false = true then
            4*Spec.standardTime.getD k.val 0/2 else 4*Spec.standardTime.getD k.val 0)/2 else
            (if Spec.fineHalves.getD k.val false = true then
            4*Spec.standardTime.getD k.val 0/2 else 4*Spec.standardTime.getD k.val 0)
        | .other => 0) := by
    intro f k half y
    cases y <;> revert f k half <;> decide +kernel
  exact key ⟨_, e5⟩ ⟨k, h8⟩ half m.res.y

/-- Between two terminals like this one: if the receiver's application asks for `t` milliseconds a row,
then without error correction each row of up to superfine resolution lasts at least that. -/
theorem requested_row_time_is_kept (a b b' : Caps) (t : Int) (hset : setMinScan b' t = some b) (r : Bool)
    (p : Page) (s : Sess) (m : Fmt) (h : offer a (disMessage b r) p = some (s, m))
    (hecm : a.ecm = false ∨ b.ecm = false) (hfill : a.features .iafNoFillBits = false)
    (hy : m.res.y ≠ .other) (n : Nat) (s' : Sess) (hn : stepDown s n = some s') (sub sid : Bool) :
    ∃ modem rate, Spec.speed (dcsMessage a s' m sub sid) = some (modem, rate) ∧
      1000*(minRowBits a s' m.res : Int) ≥ rate*t := by
  obtain ⟨t10, t9, t11, t12, t13, t14, t15, t16, t17, t18, t19, t20, t21, t22, t23, t27, t31⟩ := dis_bits b r
  obtain ⟨_, _, _, _, _, t46, _⟩ := dis_bits' b r
  obtain ⟨modem, rate, h1, h2⟩ := rows_last_long_enough a _ p s m h (by rw [t27]; exact hecm) hfill n s' hn
    sub sid
  refine ⟨modem, rate, h1, ?_⟩
  have hq : 4*t ≤ (Spec.rowQuarters (disMessage b r) m.res.y : Int) := by
    have hms : (b.minScan = 7#3 ∧ t ≤ 0) ∨ (b.minScan = 1#3 ∧ t ≤ 5) ∨ (b.minScan = 2#3 ∧ t ≤ 10) ∨
        (b.minScan = 0#3 ∧ t ≤ 20) ∨ (b.minScan = 4#3 ∧ t ≤ 40) := by
      unfold setMinScan at hset
      repeat' split at hset
      all_goals first
        | (cases hset; done)
        | (injection hset with hset; subst hset; simp only; simp; omega)
    unfold Spec.rowQuarters Spec.scanField
    rw [t21, t22, t23, t46]
    clear h2 h1 t21 t22 t23 t46
    generalize m.res.y = y at *
    rcases hms with ⟨e, ht⟩ | ⟨e, ht⟩ | ⟨e, ht⟩ | ⟨e, ht⟩ | ⟨e, ht⟩ <;> rw [e] <;> cases y <;>
      first
      | exact absurd rfl hy
      | (refine Int.le_trans (Int.mul_le_mul_of_nonneg_left ht (by decide)) ?_; decide)
  generalize Spec.rowQuarters (disMessage b r) m.res.y = q at *
  have h3 : (rate : Int)*(4*t) ≤ rate*q := Int.mul_le_mul_of_nonneg_left hq (by omega)
  have h4 : (rate : Int)*q = ((rate*q : Nat) : Int) := by rw [Int.natCast_mul]
  generalize rate*q = x at *
  generalize minRowBits a s' m.res = k at *
  have h5 : (rate : Int)*(4*t) = 4*(rate*t) := by rw [Int.mul_left_comm]
  omega

/-- A row of 10 ms at 9600 bits a second: 96 bits. -/
example : setMinScan exReceiver 10 = some slowReceiver ∧ slowSender.ecm = false ∧
    slowSender.features .iafNoFillBits = false ∧
    ∃ s m, offer slowSender (disMessage slowReceiver false) finePage = some (s, m) ∧
      m.res.y ≠ .other ∧ minRowBits slowSender s m.res = 96 := by
  refine ⟨rfl, rfl, rfl, ?_⟩
  obtain ⟨⟨s, m⟩, h1, h2⟩ := some_of_map
    (o := offer slowSender (disMessage slowReceiver false) finePage)
    (f := fun y => (decide (y.2.res.y = .other), minRowBits slowSender y.1 y.2.res)) (y := (false, 96))
    (by decide +kernel)
  simp only [Prod.mk.injEq, decide_eq_false_iff_not] at h2
  exact ⟨s, m, h1, h2⟩

end Nego
