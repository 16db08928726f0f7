import Verif.Nego.Props

/-!
# Where the negotiation falls short

For each condition of the properties, or gap in them, a call between two terminals with settings their
applications can give them in which the unconditional property fails.
-/

namespace Nego

/-- The format a page is sent in, and what the receiver makes of the DCS. -/
def call (a b : Caps) (p : Page) : Option (Fmt × DcsResult) :=
  (offer a (disMessage b false) p).map fun y => (y.2, analyzeDcs b (dcsMessage a y.1 y.2 false false))

theorem call_spec {a b : Caps} {p : Page} {m : Fmt} {x : DcsResult} (h : call a b p = some (m, x)) :
    ∃ s, offer a (disMessage b false) p = some (s, m) ∧
      analyzeDcs b (dcsMessage a s m false false) = x := by
  unfold call at h
  simp only [Option.map_eq_some_iff, Prod.mk.injEq] at h
  obtain ⟨⟨s, m'⟩, h1, rfl, h2⟩ := h
  exact ⟨s, h1, h2⟩

/-- A call in which the page is offered, and the receiver then refuses the DCS, or takes it for something
else. -/
def Refused (a b : Caps) (p : Page) (m : Fmt) (x : DcsResult) : Prop :=
  Set a ∧ Set b ∧ ∃ s, offer a (disMessage b false) p = some (s, m) ∧
    analyzeDcs b (dcsMessage a s m false false) = x

theorem refused {comps bilevel colour modems comps' bilevel' colour' modems'} {p : Page} {m : Fmt}
    {x : DcsResult} (h : call (sender comps bilevel colour modems)
      (receiver comps' bilevel' colour' modems') p = some (m, x)) :
    Refused (sender comps bilevel colour modems) (receiver comps' bilevel' colour' modems') p m x :=
  ⟨set_sender _ _ _ _, set_receiver _ _ _ _, call_spec h⟩

/-- A receiver which has 200 by 200 but not the fine metric resolution says the same as one which has
both, is sent the metric one, and refuses it. -/
theorem unpaired_resolution_is_refused : ∃ a b p m, Refused a b p m .noRes ∧
    p.type = .bilevel ∧ b.comps .t4_1d = true ∧ b.bilevel .r200 = true ∧ b.bilevel .r8Fine = false ∧
    m.res = .r8Fine :=
  ⟨sender [.t4_1d] [.r8Standard, .r8Fine] [] [.v17], receiver [.t4_1d] [.r8Standard, .r200] [] [.v17],
    ⟨.bilevel, 1728, some .r8Fine⟩, ⟨.bilevel, .t4_1d, 1728, some .w215, .r8Fine, 1⟩,
    refused (by decide +kernel), by decide +kernel⟩

/-- A receiver without one-dimensional coding cannot say so, is sent it, and refuses it. -/
theorem two_dimensional_only_is_refused : ∃ a b p m, Refused a b p m .incompatible ∧
    b.comps .t4_1d = false ∧ b.comps .t6 = true ∧ m.comp = .t4_1d :=
  ⟨sender [.t4_1d, .t4_2d] [.r8Standard] [] [.v17], receiver [.t6] [.r8Standard] [] [.v17],
    ⟨.bilevel, 1728, some .r8Standard⟩, ⟨.bilevel, .t4_1d, 1728, some .w215, .r8Standard, 1⟩,
    refused (by decide +kernel), by decide +kernel⟩

/-- A receiver of colour pages with 300 by 300 for colour and 400 by 400 for bi-level pages only, is sent
a colour page with 400 by 400, and refuses it: one bit stands for both. -/
theorem shared_colour_bit_is_refused : ∃ a b p m, Refused a b p m .noRes ∧
    b.comps .t4_1d = true ∧ Spec.pairs b ∧ b.colour .r300 = true ∧ b.colour .r400 = false ∧
    m.res = .r400 :=
  ⟨sender [.t4_1d, .t42_t81, .colour] [.r8Standard] [.r400] [.v17],
    receiver [.t4_1d, .t42_t81, .colour] [.r8Standard, .r400, .r16Superfine] [.r300] [.v17],
    ⟨.colour8, 3456, some .r400⟩, ⟨.colour8, .t42_t81, 3456, some .w215, .r400, 1⟩,
    refused (by decide +kernel), by decide +kernel, by
      intro x y h
      cases x <;> simp [Spec.twin] at h <;> subst h <;> decide +kernel, by decide +kernel⟩

/-- A receiver of colour pages with 200 by 200 for bi-level pages only is sent a colour page with 200 by
200, and refuses it. -/
theorem bilevel_200_is_refused_in_colour : ∃ a b p m, Refused a b p m .noRes ∧
    b.comps .t4_1d = true ∧ b.bilevel .r200 = true ∧ b.colour .r200 = false ∧ m.res = .r200 :=
  ⟨sender [.t4_1d, .t42_t81, .colour] [.r8Standard] [.r200] [.v17],
    receiver [.t4_1d, .t42_t81, .colour] [.r8Standard, .r8Fine, .r200] [.r300] [.v17],
    ⟨.colour8, 1728, some .r200⟩, ⟨.colour8, .t42_t81, 1728, some .w215, .r200, 1⟩,
    refused (by decide +kernel), by decide +kernel⟩

/-- A receiver with T.43 only offers T.81 too, is sent it, and refuses it. -/
theorem t43_only_is_refused : ∃ a b p m, Refused a b p m .incompatible ∧
    b.comps .t43 = true ∧ b.comps .t42_t81 = false ∧ m.comp = .t42_t81 :=
  ⟨sender [.t4_1d, .t42_t81, .colour] [.r8Standard] [.r200] [.v17],
    receiver [.t4_1d, .t43, .colour] [.r8Standard, .r8Fine] [.r200] [.v17],
    ⟨.colour8, 1728, some .r200⟩, ⟨.colour8, .t42_t81, 1728, some .w215, .r200, 1⟩,
    refused (by decide +kernel), by decide +kernel⟩

/-- A receiver of grey pages only, with 200 by 200, offers full colour, is sent it, and accepts it. -/
theorem grey_receiver_is_sent_colour : ∃ a b p m w, Refused a b p m (.ok w) ∧
    b.comps .colour = false ∧ m.type = .colour8 ∧ Spec.bit (disMessage b false) 69 = true :=
  ⟨sender [.t4_1d, .t42_t81, .colour] [.r8Standard] [.r200] [.v17],
    receiver [.t4_1d, .t42_t81, .gray] [.r8Standard, .r8Fine] [.r200] [.v17],
    ⟨.colour8, 1728, some .r200⟩, ⟨.colour8, .t42_t81, 1728, some .w215, .r200, 1⟩,
    ⟨true, .t42_t81, .r200, 1728, 0⟩, refused (by decide +kernel), by decide +kernel⟩

/-- A page which is rescaled to 1728 pixels because the receiver's paper is narrower is announced with the
code of its own width, so that the receiver expects 2432. -/
theorem rescaled_page_has_two_widths : ∃ a b p m w, Refused a b p m (.ok w) ∧
    a.comps .rescaling = true ∧ b.sizes .w303 = false ∧ m.width = 1728 ∧ w.width = 2432 :=
  ⟨setSizes (sender [.t4_1d, .t42_t81, .gray, .rescaling] [.r8Standard] [.r200] [.v17])
      (oneOf [.w303]),
    receiver [.t4_1d, .t42_t81, .gray] [.r8Standard, .r8Fine] [.r200] [.v17],
    ⟨.gray8, 2432, some .r200⟩, ⟨.gray8, .t42_t81, 1728, some .w303, .r200, 1⟩,
    ⟨true, .t42_t81, .r200, 2432, 0⟩,
    ⟨.sizes _ (set_sender _ _ _ _), set_receiver _ _ _ _, call_spec (by decide +kernel)⟩,
    by decide +kernel⟩

/-- A page of twelve bits a sample is announced as such to a receiver which did not offer that. -/
theorem twelve_bits_are_sent_unasked : ∃ a b p s m, Set a ∧ Set b ∧
    offer a (disMessage b false) p = some (s, m) ∧
    Spec.bit (disMessage b false) 71 = false ∧ Spec.bit (dcsMessage a s m false false) 71 = true := by
  let a := sender [.t4_1d, .t42_t81, .gray] [.r8Standard] [.r200] [.v17]
  let b := receiver [.t4_1d, .t42_t81, .gray] [.r8Standard, .r8Fine] [.r200] [.v17]
  let p : Page := ⟨.gray12, 1728, some .r200⟩
  have h : (offer a (disMessage b false) p).map (fun y => Spec.bit (dcsMessage a y.1 y.2 false false) 71)
      = some true := by decide +kernel
  simp only [Option.map_eq_some_iff] at h
  obtain ⟨⟨s, m⟩, h1, h2⟩ := h
  exact ⟨a, b, p, s, m, set_sender _ _ _ _, set_receiver _ _ _ _, h1, by decide +kernel, h2⟩

/-- A sender whose application left only V.17 uses V.27ter all the same, with a receiver which has no
V.17. -/
theorem disabled_modem_is_used : ∃ a b p s m, Set a ∧ Set b ∧ a.modems .v27ter = false ∧
    offer a (disMessage b false) p = some (s, m) ∧
    Spec.speed (dcsMessage a s m false false) = some (.v27ter, 4800) := by
  let a := sender [.t4_1d] [.r8Standard] [] [.v17]
  let b := receiver [.t4_1d] [.r8Standard] [] [.v27ter]
  let p : Page := ⟨.bilevel, 1728, some .r8Standard⟩
  have h : (offer a (disMessage b false) p).map (fun y => Spec.speed (dcsMessage a y.1 y.2 false false))
      = some (some (.v27ter, 4800)) := by decide +kernel
  simp only [Option.map_eq_some_iff] at h
  obtain ⟨⟨s, m⟩, h1, h2⟩ := h
  exact ⟨a, b, p, s, m, set_sender _ _ _ _, set_receiver _ _ _ _, by decide +kernel, h1, h2⟩

/-- A receiver accepts a DCS for a modem its application took away. -/
theorem unoffered_modem_is_accepted : ∃ b d x, Set b ∧ b.modems .v17 = false ∧
    analyzeDcs b d = .ok x ∧ Spec.speed d = some (.v17, 14400) :=
  ⟨receiver [.t4_1d] [.r8Standard] [] [.v27ter], [0xFF#8, 0x13#8, 0x83#8, 0#8, 0x22#8, 0#8],
    ⟨false, .t4_1d, .r8Standard, 1728, 0⟩, set_receiver _ _ _ _, by decide +kernel⟩

/-- A page of 100 by 100, which is a resolution for grey and colour pages only, is never sent unless it
is rescaled, whatever both ends have. -/
theorem hundred_dpi_is_never_sent (a : Caps) (ha : Set a) (hscale : a.comps .rescaling = false)
    (d : List Byte) (p : Page) (hp : p.res = some .r100) : offer a d p = none := by
  cases h : offer a d p with
  | none => rfl
  | some y =>
    obtain ⟨s, m⟩ := y
    exfalso
    obtain ⟨hd, _, _, _⟩ := offer_spec h
    obtain ⟨_, _, _, _, _, _, hk, hbi, h100, _⟩ := analyzeDis_spec hd
    have hresc : s.comps .rescaling = false := by rw [hk _ (by simp), hscale]
    have hb100 : s.bilevel .r100 = false := by rw [h100, ha.sound.no100]
    have hf : chooseFormat s.comps s.sizes s.bilevel s.colour p = .ok m := by
      unfold offer at h
      rw [hd] at h
      simp only at h
      split at h
      · cases h
      · split at h
        · cases h
        · split at h
          · cases h
          · next e he => simp only [Option.some.injEq, Prod.mk.injEq] at h; rw [he, h.2]
    unfold chooseFormat at hf
    have hrw : ∀ comp type wc, chooseFormat.rework s.comps p comp type wc ≠ .ok m := by
      intro comp type wc
      unfold chooseFormat.rework
      split
      · simp
      · rw [if_pos (by simp [hresc])]; simp
    split at hf
    · cases hf
    · simp only at hf
      split at hf
      · next size res alt hw =>
        obtain ⟨q1, q2⟩ := findWidth_mem p _ hw
        rw [hp, Option.some.injEq] at q2
        subst q2
        have halt : alt = none := by
          have : ∀ e ∈ widthTable, e.2.2.1 = .r100 → e.2.2.2 = none := by decide
          exact this _ q1 rfl
        subst halt
        have hbr : bilevelRes s.bilevel p .r100 none = none := by
          unfold bilevelRes bilevelRes.squash
          simp [hb100, squashable]
        rw [hbr, hb100] at hf
        split at hf
        · split at hf
          · simp only at hf
            split at hf
            · cases hf
            · split at hf <;> cases hf
          · simp at hf
        · exact hrw _ _ _ hf
      · exact hrw _ _ _ hf

/-- A DCS of 26 octets or more is written beyond the end of the text kept for the application. -/
theorem long_dcs_overflows (b : Caps) (d : List Byte) (h : 26 ≤ d.length) : analyzeDcs b d = .fault := by
  unfold analyzeDcs
  rw [if_neg (by omega), if_pos (by unfold dcsStringEnd dcsStringSize; omega)]

end Nego
