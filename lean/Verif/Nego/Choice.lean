import Verif.Nego.Dcs

/-!
# The settings of a terminal, the choice of a format and of a speed
-/

namespace Nego

/-! ## Settings -/

structure Sound (c : Caps) : Prop where
  colour : ∀ r, c.colour r = true → r ∈ colourRes
  both : ∀ r, c.colour r = true → r ≠ .r100 → c.bilevel r = true
  no100 : c.bilevel .r100 = false
  w215 : c.sizes .w215 = true
  a4 : c.sizes .a4 = true
  w255 : c.sizes .w303 = true → c.sizes .w255 = true
  b4 : c.sizes .unlimited = true → c.sizes .b4 = true
  noNone : c.comps .none = false
  noSub : c.comps .noSubsampling = false
  scan : c.minScan ∈ [7#3, 1#3, 2#3, 0#3, 4#3]

theorem Set.sound {c : Caps} (h : Set c) : Sound c := by
  induction h with
  | init =>
    refine ⟨?_, ?_, ?_, ?_, ?_, ?_, ?_, ?_, ?_, ?_⟩ <;> simp [capsInit, oneOf]
  | ecm on _ ih => exact ⟨ih.1, ih.2, ih.3, ih.4, ih.5, ih.6, ih.7, ih.8, ih.9, ih.10⟩
  | minScan time _ he ih =>
    unfold setMinScan at he
    repeat' split at he
    all_goals first
      | (cases he; done)
      | (injection he with he; subst he
         exact ⟨ih.1, ih.2, ih.3, ih.4, ih.5, ih.6, ih.7, ih.8, ih.9, by simp⟩)
  | modems m _ ih => exact ⟨ih.1, ih.2, ih.3, ih.4, ih.5, ih.6, ih.7, ih.8, ih.9, ih.10⟩
  | comps m _ ih =>
    refine ⟨ih.1, ih.2, ih.3, ih.4, ih.5, ih.6, ih.7, ?_, ?_, ih.10⟩ <;> simp [setComps, inter, oneOf]
  | bilevel m _ ih =>
    refine ⟨ih.1, ?_, ?_, ih.4, ih.5, ih.6, ih.7, ih.8, ih.9, ih.10⟩
    · intro r h1 h2
      have h1 : Caps.colour _ r = true := h1
      simp only [setBilevel, union, inter, Bool.or_eq_true, Bool.and_eq_true]
      exact Or.inr ⟨h1, by simpa using h2⟩
    · simp [setBilevel, union, inter, oneOf]
  | @colour c m _ ih =>
    refine ⟨?_, ?_, ?_, ih.4, ih.5, ih.6, ih.7, ih.8, ih.9, ih.10⟩
    · intro r h
      simp only [setColour, inter, oneOf, Bool.and_eq_true, decide_eq_true_eq] at h
      exact h.2
    · intro r h1 h2
      simp only [setColour, union, inter, Bool.or_eq_true, Bool.and_eq_true] at h1 ⊢
      exact Or.inr ⟨h1, by simpa using h2⟩
    · simp [setColour, union, inter, ih.no100]
  | sizes m _ ih =>
    refine ⟨ih.1, ih.2, ih.3, ?_, ?_, ?_, ?_, ih.8, ih.9, ih.10⟩ <;>
      cases h1 : m .unlimited <;> cases h2 : m .w303 <;>
      simp [setSizes, union, oneOf, h1, h2]
  | features m _ ih => exact ⟨ih.1, ih.2, ih.3, ih.4, ih.5, ih.6, ih.7, ih.8, ih.9, ih.10⟩
  | files tx rx _ ih => exact ⟨ih.1, ih.2, ih.3, ih.4, ih.5, ih.6, ih.7, ih.8, ih.9, ih.10⟩

/-! ## Formats -/

theorem findWidth_mem (p : Page) (l : List (Nat × Size × Res × Option Res)) {size res alt}
    (h : findWidth p l = some (size, res, alt)) :
    (p.width, size, res, alt) ∈ l ∧ p.res = some res := by
  induction l with
  | nil => cases h
  | cons e l ih =>
    obtain ⟨w, z, r, a⟩ := e
    rw [findWidth] at h
    by_cases h1 : p.width < w
    · rw [if_pos h1] at h; cases h
    · rw [if_neg h1] at h
      by_cases h2 : p.width = w ∧ p.res = some r
      · rw [if_pos h2] at h
        simp only [Option.some.injEq, Prod.mk.injEq] at h
        obtain ⟨rfl, rfl, rfl⟩ := h
        exact ⟨by rw [h2.1]; exact List.mem_cons_self, h2.2⟩
      · rw [if_neg h2] at h
        obtain ⟨h3, h4⟩ := ih h
        exact ⟨List.mem_cons_of_mem _ h3, h4⟩

/-- The widths of the sender's table are those the receiver works out. -/
theorem widthTable_ok : ∀ e ∈ widthTable,
    (e.2.1 = .w215 ∨ e.2.1 = .w255 ∨ e.2.1 = .w303) ∧
    (widthsOf e.2.2.1).getD (widthIndex (some e.2.1)) 0 = e.1 ∧
    (∀ a, e.2.2.2 = some a → (widthsOf a).getD (widthIndex (some e.2.1)) 0 = e.1) ∧
    (∀ x ∈ squashable e.2.2.1, (widthsOf x.1).getD (widthIndex (some e.2.1)) 0 = e.1) := by
  decide +kernel

/-- The choice of a bi-level resolution. -/
theorem bilevelRes_spec {bilevel : Res → Bool} {p : Page} {res : Res} {alt : Option Res} {r : Res}
    {q : Nat} (h : bilevelRes bilevel p res alt = some (r, q)) :
    bilevel r = true ∧ (r = res ∧ q = 1 ∨ alt = some r ∧ q = 1 ∨ (r, q) ∈ squashable res) := by
  unfold bilevelRes at h
  have hs : ∀ {x}, bilevelRes.squash bilevel p res = some x →
      bilevel x.1 = true ∧ x ∈ squashable res := by
    intro x hx
    unfold bilevelRes.squash at hx
    by_cases hp : p.type = .bilevel
    · rw [if_pos hp] at hx
      exact ⟨by simpa using List.find?_some hx, List.mem_of_find?_eq_some hx⟩
    · rw [if_neg hp] at hx; cases hx
  by_cases h1 : bilevel res = true
  · rw [if_pos h1] at h
    simp only [Option.some.injEq, Prod.mk.injEq] at h
    obtain ⟨rfl, rfl⟩ := h
    exact ⟨h1, Or.inl ⟨rfl, rfl⟩⟩
  · rw [if_neg h1] at h
    cases alt with
    | none => obtain ⟨h2, h3⟩ := hs h; exact ⟨h2, Or.inr (Or.inr h3)⟩
    | some a =>
      simp only at h
      by_cases h2 : bilevel a = true
      · rw [if_pos h2] at h
        simp only [Option.some.injEq, Prod.mk.injEq] at h
        obtain ⟨rfl, rfl⟩ := h
        exact ⟨h2, Or.inr (Or.inl ⟨rfl, rfl⟩)⟩
      · rw [if_neg h2] at h
        obtain ⟨h2, h3⟩ := hs h; exact ⟨h2, Or.inr (Or.inr h3)⟩

theorem bilevelComp_spec (comps : Comp → Bool) :
    bilevelComp comps ∈ [Comp.t4_1d, .t4_2d, .t6, .t85, .t85_l0] ∧
    (bilevelComp comps = .t4_1d ∨ comps (bilevelComp comps) = true) := by
  unfold bilevelComp
  cases h1 : comps .t85_l0 <;> cases h2 : comps .t85 <;> cases h3 : comps .t6 <;>
    cases h4 : comps .t4_2d <;> simp_all

/-- The choice of a format. -/
structure Chosen (comps : Comp → Bool) (sizes : Size → Bool) (bilevel colour : Res → Bool) (p : Page)
    (m : Fmt) : Prop where
  kind : (m.type = .bilevel ∧ m.comp = bilevelComp comps) ∨
    (m.type = p.type ∧ p.type ≠ .bilevel ∧ (m.comp = .t42_t81 ∨ m.comp = .t43) ∧
      comps m.comp = true ∧ (p.type.isColour = true → comps .colour = true) ∧
      (p.type.isGray = true → comps .gray = true))
  fit : (p.type ≠ .bilevel ∧ p.type ≠ .colourBilevel ∧ comps .rescaling = true) ∨
    (m.width = p.width ∧ (∃ z, m.widthCode = some z ∧ sizes z = true ∧
        (z = .w215 ∨ z = .w255 ∨ z = .w303)) ∧
      (widthsOf m.res).getD (widthIndex m.widthCode) 0 = m.width ∧
      bilevel m.res = true ∧ (m.type ≠ .bilevel → colour m.res = true))

theorem chooseFormat_spec {comps : Comp → Bool} {sizes : Size → Bool} {bilevel colour : Res → Bool}
    {p : Page} {m : Fmt} (h : chooseFormat comps sizes bilevel colour p = .ok m) :
    Chosen comps sizes bilevel colour p m := by
  unfold chooseFormat at h
  cases ht : chooseType comps colour p with
  | error e => simp only [ht] at h; cases h
  | ok tm =>
    obtain ⟨type, multi⟩ := tm
    simp only [ht] at h
    have kind : ∀ comp, comp = multi.getD (bilevelComp comps) →
        (type = .bilevel ∧ comp = bilevelComp comps) ∨
        (type = p.type ∧ p.type ≠ .bilevel ∧ (comp = .t42_t81 ∨ comp = .t43) ∧
          comps comp = true ∧ (p.type.isColour = true → comps .colour = true) ∧
          (p.type.isGray = true → comps .gray = true)) := by
      intro comp hcomp
      unfold chooseType at ht
      by_cases hb : p.type = .bilevel
      · rw [if_pos hb] at ht
        simp only [Except.ok.injEq, Prod.mk.injEq] at ht
        obtain ⟨rfl, rfl⟩ := ht
        exact Or.inl ⟨rfl, hcomp⟩
      · rw [if_neg hb] at ht
        by_cases hc : (allRes.any colour && (comps .t42_t81 || comps .t43) &&
          (p.type.isColour && comps .colour || p.type.isGray && comps .gray)) = true
        · rw [if_pos hc] at ht
          simp only [Except.ok.injEq, Prod.mk.injEq] at ht
          obtain ⟨rfl, rfl⟩ := ht
          refine Or.inr ⟨rfl, hb, ?_⟩
          simp only [Bool.and_eq_true, Bool.or_eq_true] at hc
          have hcg : (p.type.isColour = true → comps .colour = true) ∧
              (p.type.isGray = true → comps .gray = true) := by
            cases hpt : p.type <;> rw [hpt] at hc <;> simp [Img.isColour, Img.isGray] at hc ⊢ <;>
              exact hc.2
          by_cases h1 : p.type = .colourBilevel ∧ comps .t43 = true
          · rw [if_pos h1] at hcomp
            simp only [Option.getD_some] at hcomp
            subst hcomp
            exact ⟨Or.inr rfl, h1.2, hcg⟩
          · rw [if_neg h1] at hcomp
            by_cases h2 : comps .t42_t81 = true
            · rw [if_pos h2] at hcomp
              simp only [Option.getD_some] at hcomp
              subst hcomp
              exact ⟨Or.inl rfl, h2, hcg⟩
            · rw [if_neg h2] at hcomp
              simp only [Option.getD_some] at hcomp
              subst hcomp
              refine ⟨Or.inr rfl, ?_, hcg⟩
              rcases hc.1.2 with h | h
              · exact absurd h h2
              · exact h
        · rw [if_neg hc] at ht
          split at ht
          · cases ht
          · split at ht
            · cases ht
            · simp only [Except.ok.injEq, Prod.mk.injEq] at ht
              obtain ⟨rfl, rfl⟩ := ht
              exact Or.inl ⟨rfl, hcomp⟩
    have kind := kind _ rfl
    generalize multi.getD (bilevelComp comps) = comp at *
    have hrework : ∀ wc, chooseFormat.rework comps p comp type wc = .ok m →
        Chosen comps sizes bilevel colour p m := by
      intro wc hr
      unfold chooseFormat.rework at hr
      by_cases h1 : p.type = .bilevel ∨ p.type = .colourBilevel
      · rw [if_pos h1] at hr; cases hr
      · rw [if_neg h1] at hr
        by_cases h2 : (!comps .rescaling) = true
        · rw [if_pos h2] at hr; cases hr
        · rw [if_neg h2] at hr
          simp only [Except.ok.injEq] at hr
          subst hr
          exact ⟨kind, Or.inl ⟨fun h => h1 (Or.inl h), fun h => h1 (Or.inr h), by simpa using h2⟩⟩
    cases hf : findWidth p widthTable with
    | none => rw [hf] at h; exact hrework _ h
    | some e =>
      obtain ⟨size, res, alt⟩ := e
      simp only [hf] at h
      obtain ⟨hm, hpr⟩ := findWidth_mem p _ hf
      obtain ⟨hz, hw1, hw2, hw3⟩ := widthTable_ok _ hm
      simp only at hz hw1 hw2 hw3
      by_cases hsz : sizes size = true
      · rw [if_pos hsz] at h
        by_cases hb : type = .bilevel
        · rw [if_pos hb] at h
          cases hbr : bilevelRes bilevel p res alt with
          | none => 
            simp only [hbr] at h
            repeat' split at h
            all_goals cases h
          | some rq =>
            obtain ⟨r, q⟩ := rq
            simp only [hbr, Except.ok.injEq] at h
            subst h
            obtain ⟨h1, h2⟩ := bilevelRes_spec hbr
            refine ⟨kind, Or.inr ⟨rfl, ⟨size, rfl, hsz, hz⟩, ?_, h1, fun h => absurd hb h⟩⟩
            rcases h2 with ⟨rfl, _⟩ | ⟨h2, _⟩ | h2
            · exact hw1
            · exact hw2 _ h2
            · exact hw3 _ h2
        · rw [if_neg hb] at h
          by_cases hbc : (bilevel res && colour res) = true
          · rw [if_pos hbc] at h
            simp only [Except.ok.injEq] at h
            subst h
            simp only [Bool.and_eq_true] at hbc
            exact ⟨kind, Or.inr ⟨rfl, ⟨size, rfl, hsz, hz⟩, hw1, hbc.1, fun _ => hbc.2⟩⟩
          · rw [if_neg hbc] at h; cases h
      · rw [if_neg hsz] at h; exact hrework _ h

/-! ## Speeds -/

theorem nextPermitted_spec {permitted : Modem → Bool} {i k : Nat} {l : List (Nat × Modem × Byte)}
    (h : nextPermitted permitted i l = some k) :
    i ≤ k ∧ k < i + l.length ∧ ∃ e, l[k - i]? = some e ∧ permitted e.2.1 = true := by
  induction l generalizing i with
  | nil => cases h
  | cons e l ih =>
    obtain ⟨r, m, c⟩ := e
    rw [nextPermitted] at h
    by_cases hm : permitted m = true
    · rw [if_pos hm] at h
      injection h with h; subst h
      exact ⟨by omega, by simp, ⟨(r, m, c), by simp, hm⟩⟩
    · rw [if_neg hm] at h
      obtain ⟨h1, h2, e, h3, h4⟩ := ih h
      refine ⟨by omega, by simp only [List.length_cons]; omega, e, ?_, h4⟩
      rw [show k - i = (k - (i + 1)) + 1 by omega, List.getElem?_cons_succ]; exact h3

theorem stepFallback_spec {s s' : Sess} (h : stepFallback s = some s') :
    s' = { s with fallback := s'.fallback } ∧ s.fallback < s'.fallback ∧ s'.fallback < 8 ∧
    ∃ m, modemOf s'.fallback = some m ∧ s.permitted m = true := by
  unfold stepFallback at h
  simp only [Option.map_eq_some_iff] at h
  obtain ⟨k, h1, rfl⟩ := h
  obtain ⟨h2, h3, e, h4, h5⟩ := nextPermitted_spec h1
  have hl : (fallbackTable.drop (s.fallback + 1)).length = 8 - (s.fallback + 1) := by
    simp [fallbackTable]
  have h8 : k < 8 := by
    rw [hl] at h3; omega
  refine ⟨rfl, by simp only; omega, h8, e.2.1, ?_, h5⟩
  rw [List.getElem?_drop, show s.fallback + 1 + (k - (s.fallback + 1)) = k by omega] at h4
  simp [modemOf, h4]

theorem rate_mono (i j : Nat) (hij : i ≤ j) (hj : j < 8) : rateOf j ≤ rateOf i := by
  have : ∀ j : Fin 8, ∀ i : Fin 8, i.val ≤ j.val → rateOf j.val ≤ rateOf i.val := by decide
  exact this ⟨j, hj⟩ ⟨i, by omega⟩ hij

/-- What holds of a session at each step down. -/
theorem stepDown_spec {s s' : Sess} {n : Nat} (h : stepDown s n = some s')
    (h0 : s.fallback < 8 ∧ ∃ m, modemOf s.fallback = some m ∧ s.permitted m = true) :
    s' = { s with fallback := s'.fallback } ∧ s.fallback + n ≤ s'.fallback ∧ s'.fallback < 8 ∧
    ∃ m, modemOf s'.fallback = some m ∧ s.permitted m = true := by
  induction n generalizing s with
  | zero =>
    simp only [stepDown, Option.some.injEq] at h
    subst h
    exact ⟨rfl, by omega, h0.1, h0.2⟩
  | succ n ih =>
    simp only [stepDown, Option.bind_eq_some_iff] at h
    obtain ⟨t, h1, h2⟩ := h
    obtain ⟨e1, e2, e3, m, e4, e5⟩ := stepFallback_spec h1
    have hp : t.permitted = s.permitted := by rw [e1]
    obtain ⟨f1, f2, f3, f4⟩ := ih h2 ⟨e3, m, e4, by rw [hp]; exact e5⟩
    refine ⟨?_, by omega, f3, by rw [← hp]; exact f4⟩
    rw [f1, e1]

/-- The start of the stepping down, by the bits of the DIS. -/
theorem chooseModem_spec {c : Caps} {d : List Byte} {pm : Modem → Bool} {i : Nat}
    (h : chooseModem c (padded d 4 &&& 0x3C#8) = some (pm, i)) :
    i < 8 ∧ (∃ m, modemOf i = some m ∧ pm m = true) ∧
    ∀ m, pm m = true → Spec.modem d m = true ∧
      (c.modems m = true ∨ m = .v27ter ∨ c.modems .v17 = true) := by
  have hb : ∀ i, 2 ≤ i → i < 6 → (padded d 4 &&& 0x3C#8).getLsbD i = Spec.bit d (9 + i) := by
    intro i h2 h6
    rw [bit_eq_test _ _ (by omega) (by omega), BitVec.getLsbD_and]
    unfold test
    rw [show 3 + (9 + i - 1)/8 = 4 by omega, show (9 + i - 1)%8 = i by omega]
    have : (0x3C#8).getLsbD i = true := by
      rcases i with _ | _ | _ | _ | _ | _ | i <;> first | rfl | omega
    rw [this, Bool.and_true]
  have b11 := hb 2 (by omega) (by omega)
  have b12 := hb 3 (by omega) (by omega)
  have b13 := hb 4 (by omega) (by omega)
  have b14 := hb 5 (by omega) (by omega)
  clear hb
  generalize padded d 4 &&& 0x3C#8 = x at *
  unfold chooseModem at h
  by_cases h1 : x = 0x2C#8 ∧ c.modems .v17 = true
  · rw [if_pos h1] at h
    simp only [Option.some.injEq, Prod.mk.injEq] at h
    obtain ⟨rfl, rfl⟩ := h
    refine ⟨by omega, ⟨.v17, rfl, by decide⟩, fun m hm => ⟨?_, Or.inr (Or.inr h1.2)⟩⟩
    rw [h1.1] at b11 b12 b13 b14
    unfold Spec.modem
    rw [← b11, ← b12, ← b13, ← b14]
    cases m <;> rfl
  rw [if_neg h1] at h
  by_cases h2 : (x = 0x2C#8 ∨ x = 0x0C#8) ∧ c.modems .v29 = true
  · rw [if_pos h2] at h
    simp only [Option.some.injEq, Prod.mk.injEq] at h
    obtain ⟨rfl, rfl⟩ := h
    refine ⟨by omega, ⟨.v29, rfl, by decide⟩, fun m hm => ⟨?_, ?_⟩⟩
    · unfold Spec.modem
      rw [← b11, ← b12, ← b13, ← b14]
      rcases h2.1 with rfl | rfl <;> cases m <;> first | rfl | (revert hm; decide)
    · cases m
      · exact Or.inr (Or.inl rfl)
      · exact Or.inl h2.2
      · exact absurd hm (by decide)
  rw [if_neg h2] at h
  by_cases h3 : x = 0x2C#8 ∨ x = 0x0C#8 ∨ x = 0x08#8
  · rw [if_pos h3] at h
    simp only [Option.some.injEq, Prod.mk.injEq] at h
    obtain ⟨rfl, rfl⟩ := h
    refine ⟨by omega, ⟨.v27ter, rfl, by decide⟩, fun m hm => ⟨?_, ?_⟩⟩
    · unfold Spec.modem
      rw [← b11, ← b12, ← b13, ← b14]
      rcases h3 with rfl | rfl | rfl <;> cases m <;> first | rfl | (revert hm; decide)
    · cases m
      · exact Or.inr (Or.inl rfl)
      · exact absurd hm (by decide)
      · exact absurd hm (by decide)
  rw [if_neg h3] at h
  by_cases h4 : x = 0#8
  · rw [if_pos h4] at h
    simp only [Option.some.injEq, Prod.mk.injEq] at h
    obtain ⟨rfl, rfl⟩ := h
    refine ⟨by omega, ⟨.v27ter, rfl, by decide⟩, fun m hm => ⟨?_, ?_⟩⟩
    · unfold Spec.modem
      rw [← b11, ← b12, ← b13, ← b14, h4]
      cases m <;> first | rfl | (revert hm; decide)
    · cases m
      · exact Or.inr (Or.inl rfl)
      · exact absurd hm (by decide)
      · exact absurd hm (by decide)
  rw [if_neg h4] at h
  by_cases h5 : x = 0x04#8 ∧ c.modems .v29 = true
  · rw [if_pos h5] at h
    simp only [Option.some.injEq, Prod.mk.injEq] at h
    obtain ⟨rfl, rfl⟩ := h
    refine ⟨by omega, ⟨.v29, rfl, by decide⟩, fun m hm => ⟨?_, ?_⟩⟩
    · unfold Spec.modem
      rw [← b11, ← b12, ← b13, ← b14, h5.1]
      cases m <;> first | rfl | (revert hm; decide)
    · cases m
      · exact Or.inr (Or.inl rfl)
      · exact Or.inl h5.2
      · exact absurd hm (by decide)
  rw [if_neg h5] at h
  cases h

end Nego
