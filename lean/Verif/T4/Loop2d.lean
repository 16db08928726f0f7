import Verif.T4.Row2d

/-! # A two dimensional row: what the encoder sends is taken by the decoder -/

namespace T4

theorem Same.of_rs {s u : Dec} {rx : List Bool} {n : Nat} (h : Same (s.rs rx n) u) : Same s u :=
  ⟨h.encoding, h.width, h.rowBuf, h.rowIs2d, h.ref, h.eols, h.stream, h.pixels, h.bad, h.rows⟩

theorem Same.to_rs {s u : Dec} (h : Same s u) (rx : List Bool) (n : Nat) : Same s (u.rs rx n) :=
  ⟨h.encoding, h.width, h.rowBuf, h.rowIs2d, h.ref, h.eols, h.stream, h.pixels, h.bad, h.rows⟩

theorem RefOk.same {Q : List Nat} {w : Nat} {s u : Dec} (h : RefOk Q w s) (hu : Same s u) (rx : List Bool) (n : Nat) : RefOk Q w (u.rs rx n) :=
  ⟨by show u.width = w; rw [hu.width]; exact h.width, fun j hj => by show _ + u.ref j = _; rw [hu.ref]; exact h.run j hj⟩

theorem DecAt.rs {Q : List Nat} {w : Nat} {s : Dec} {k a0 c : Nat} (h : DecAt Q w s k a0 c) (rx : List Bool) (n : Nat) : DecAt Q w (s.rs rx n) k a0 c :=
  ⟨h.b1, h.par, h.hi, h.zero, h.lo⟩

/-- From the given place in the row, the decoder takes `bits` and has then got the whole row. -/
def Takes (P Q : List Nat) (w k a0 c : Nat) (bits : List Bool) : Prop :=
  ∀ (s : Dec) (rest : List Bool), Mid P w s k a0 → Base s → s.rowIs2d = true → s.blackWhite = 0 → RefOk Q w s → DecAt Q w s k a0 c → s.rx = bits ++ rest → Good rest →
    ∃ u, Mid P w u P.length w ∧ Same s u ∧ u.blackWhite = 0 ∧ ∀ v, fin u = some v → Run s (v.rs rest 0)

/-- Bits which may follow a code. -/
def Starts (bits : List Bool) : Prop := lead bits ≤ 7 ∧ lead bits < bits.length

theorem Starts.append {a : List Bool} (h : Starts a) (b : List Bool) : Starts (a ++ b) := by
  unfold Starts at *
  rw [lead_append, if_neg (by omega), List.length_append]; omega

theorem starts_mcode {i : Nat} (hi : i < 9) : Starts (mcode i) := codeOk_lead (mcode_ok i hi)

theorem fin_short {s : Dec} (h : s.rowLen < s.width) : fin s = some s := if_neg (fun h2 => by have := h2.2.2; omega)

section
variable {row : List Byte} {px : Nat → Bool} {w : Nat} {P Q : List Nat}

theorem Runs.end_of (hR : Runs (black row) w P) {k : Nat} (hk : k < P.length) (h : P.getD k 0 = w) : k + 1 = P.length := by
  by_cases h2 : k + 1 = P.length
  · exact h2
  · have := hR.mono k (by omega)
    have h3 := hR.prev_le (P.length - (k + 1 + 1)) (k + 1 + 1) (by omega)
    rw [prev_succ] at h3
    omega

theorem Runs.not_end (hR : Runs (black row) w P) {k : Nat} (hk : k < P.length) (h : P.getD k 0 < w) : k + 1 < P.length := by
  by_cases h2 : k + 1 < P.length
  · exact h2
  · have h3 := hR.last
    rw [show P.length = k + 1 by omega, prev_succ] at h3
    omega

theorem vert_run (hR : Runs (black row) w P) (hQ : Runs px w Q) (hw : 0 < w) {k a0 c i : Nat} (hE : EncAt P k a0) (hc : Nx Q w k a0 c) (hi : i < 7)
    (hdiff : (i : Int) = (pos Q w c : Int) - P.getD k 0 + 3) {s : Dec} {rest : List Bool} (hm : Mid P w s k a0) (hb : Base s) (h2d : s.rowIs2d = true) (hbw : s.blackWhite = 0)
    (hr : RefOk Q w s) (hd : DecAt Q w s k a0 c) (hx : s.rx = mcode i ++ rest) (hg : Good rest) :
    ∃ u, Mid P w u (k + 1) (P.getD k 0) ∧ Same s u ∧ u.blackWhite = 0 ∧ (P.getD k 0 < w → ∀ c', DecAt Q w u (k + 1) (P.getD k 0) c') ∧ ∀ v, fin u = some v → Run s (v.rs rest 0) := by
  obtain ⟨e, hh, hst⟩ := step_mode h2d hbw (hm.lt hR hw hE.lt) (show i < 9 by omega) hx hb.skip hg
  unfold hits2d at hh
  simp only [Bool.and_eq_true, beq_iff_eq, if_pos hi] at hh
  obtain ⟨u, u', e1, e2, h1, h2, h3, h4⟩ := dec_vert hR hQ hw hE hc hm hr hd e hh.2.1 (by rw [hh.2.2]; omega)
  refine ⟨u, h1, h2, h3.trans hbw, h4, fun v hv => ?_⟩
  exact code_run (blind_code2d e) (keeps_code2d e) hx hb.skip hb.eols (mcode_ok i (by omega)) hg hst e1 (by rw [afterCode_fin, e2]; exact hv)

theorem takes_vert_end (hR : Runs (black row) w P) (hQ : Runs px w Q) (hw : 0 < w) {k a0 c i : Nat} (hE : EncAt P k a0) (hc : Nx Q w k a0 c) (hi : i < 7)
    (hdiff : (i : Int) = (pos Q w c : Int) - P.getD k 0 + 3) (hend : P.getD k 0 = w) : Takes P Q w k a0 c (mcode i) := by
  intro s rest hm hb h2d hbw hr hd hx hg
  obtain ⟨u, h1, h2, h3, _, h4⟩ := vert_run hR hQ hw hE hc hi hdiff hm hb h2d hbw hr hd hx hg
  rw [hR.end_of hE.lt hend, hend] at h1
  exact ⟨u, h1, h2, h3, h4⟩

theorem takes_vert (hR : Runs (black row) w P) (hQ : Runs px w Q) (hw : 0 < w) {k a0 c i : Nat} (hE : EncAt P k a0) (hc : Nx Q w k a0 c) (hi : i < 7)
    (hdiff : (i : Int) = (pos Q w c : Int) - P.getD k 0 + 3) (hlt : P.getD k 0 < w) {c' : Nat} {bits : List Bool} (hs : Starts bits) (ht : Takes P Q w (k + 1) (P.getD k 0) c' bits) :
    Takes P Q w k a0 c (mcode i ++ bits) := by
  intro s rest hm hb h2d hbw hr hd hx hg
  obtain ⟨u, h1, h2, h3, h4, h5⟩ := vert_run hR hQ hw hE hc hi hdiff hm hb h2d hbw hr hd (rest := bits ++ rest) (by rw [hx, List.append_assoc]) (good_append hs hg.1)
  have r := h5 u (fin_short (h1.lt hR hw (hR.not_end hE.lt hlt)))
  obtain ⟨u2, k1, k2, k3, k4⟩ := ht (u.rs (bits ++ rest) 0) rest (h1.rs _ _) (hb.same h2 _) (h2.rowIs2d.trans h2d) h3 (hr.same h2 _ _) ((h4 hlt c').rs _ _) rfl hg
  exact ⟨u2, k1, h2.trans k2.of_rs, k3, fun v hv => r.trans (k4 v hv)⟩

theorem takes_pass (hR : Runs (black row) w P) (hQ : Runs px w Q) (hw : 0 < w) {k a0 c : Nat} (hE : EncAt P k a0) (hc : Nx Q w k a0 c)
    (hb2 : pos Q w (c + 1) < P.getD k 0) (ha : a0 < pos Q w (c + 1)) {c' : Nat} (hc' : Nx Q w k (pos Q w (c + 1)) c') {bits : List Bool} (hs : Starts bits)
    (ht : Takes P Q w k (pos Q w (c + 1)) c' bits) : Takes P Q w k a0 c (mcode 8 ++ bits) := by
  intro s rest hm hb h2d hbw hr hd hx hg
  have hx2 : s.rx = mcode 8 ++ (bits ++ rest) := by rw [hx, List.append_assoc]
  have hg2 : Good (bits ++ rest) := good_append hs hg.1
  obtain ⟨e, hh, hst⟩ := step_mode h2d hbw (hm.lt hR hw hE.lt) (show 8 < 9 by omega) hx2 hb.skip hg2
  unfold hits2d at hh
  simp at hh
  obtain ⟨u, e1, e2, h1, h2, h3, h4⟩ := dec_pass hR hQ hw hE hc hm hr hd hb2 ha e hh.2
  have r := code_run (blind_code2d e) (keeps_code2d e) hx2 hb.skip hb.eols (mcode_ok 8 (by omega)) hg2 hst e1
    (by rw [afterCode_fin, e2]; exact fin_short (h1.lt hR hw hE.lt))
  obtain ⟨u2, k1, k2, k3, k4⟩ := ht (u.rs (bits ++ rest) 0) rest (h1.rs _ _) (hb.same h2 _) (h2.rowIs2d.trans h2d) (h3.trans hbw) (hr.same h2 _ _) ((h4 c' hc').rs _ _) rfl hg
  exact ⟨u2, k1, h2.trans k2.of_rs, k3, fun v hv => r.trans (k4 v hv)⟩

/-- The mode and the first run of horizontal mode. -/
theorem horiz_run (hR : Runs (black row) w P) (hQ : Runs px w Q) (hw : 0 < w) {k a0 c : Nat} (hE : EncAt P k a0) (hc : Nx Q w k a0 c) {mk : List Nat} {t : Nat}
    (hsp : SpanOf (P.getD k 0 - a0) mk t) {s : Dec} {rest : List Bool} (hm : Mid P w s k a0) (hb : Base s) (h2d : s.rowIs2d = true) (hbw : s.blackWhite = 0)
    (hr : RefOk Q w s) (hd : DecAt Q w s k a0 c) (hx : s.rx = mcode 7 ++ (spanBits (k % 2 == 1) mk t ++ rest)) (hg : Good rest) :
    ∃ u, Mid P w u (k + 1) (P.getD k 0) ∧ Same s u ∧ u.blackWhite = 1 ∧ u.inBlack = ((k + 1) % 2 == 1) ∧ u.b1 = pos Q w c ∧ u.bCursor = c ∧ Run s (u.rs rest 0) := by
  have haw := hE.lt_w hR hw
  have hsa : s.a0 = a0 := by rw [hm.a0]; omega
  have hg1 : Good (spanBits (k % 2 == 1) mk t ++ rest) := good_append (spanBits_lead _ hsp) hg.1
  obtain ⟨e, hh, hst⟩ := step_mode h2d hbw (hm.lt hR hw hE.lt) (show 7 < 9 by omega) hx hb.skip hg1
  unfold hits2d at hh
  simp at hh
  have e1 : code2d e s = some { s with b1 := pos Q w c, bCursor := c, inBlack := (k % 2 == 1), blackWhite := 2 } := by
    rw [code2d_eq hQ hc hr hd hsa hm.cursor]
    unfold mode2d
    rw [hh.2]
    simp only [hm.cursor]
    rcases Nat.mod_two_eq_zero_or_one k with hp | hp <;> simp [hp]
  have e2 : afterCode { s with b1 := pos Q w c, bCursor := c, inBlack := (k % 2 == 1), blackWhite := 2 } =
      some { s with b1 := pos Q w c, bCursor := c, inBlack := (k % 2 == 1), blackWhite := 2 } := by
    rw [afterCode_fin]
    have : clampA0 { s with b1 := pos Q w c, bCursor := c, inBlack := (k % 2 == 1), blackWhite := 2 } = { s with b1 := pos Q w c, bCursor := c, inBlack := (k % 2 == 1), blackWhite := 2 } := by
      refine if_neg ?_
      show ¬ s.a0 ≥ s.width
      rw [hsa, hm.width]; omega
    rw [this]
    exact fin_more (by show 2 ≠ 0; omega)
  have r1 := code_run (blind_code2d e) (keeps_code2d e) hx hb.skip hb.eols (mcode_ok 7 (by omega)) hg1 hst e1 e2
  generalize hs1 : ({ s with b1 := pos Q w c, bCursor := c, inBlack := (k % 2 == 1), blackWhite := 2 } : Dec) = s1 at *
  have m1 : Mid P w s1 k a0 := by rw [← hs1]; exact ⟨hm.width, hm.cur, hm.cursor, hm.len, hm.run, hm.le, hm.a0⟩
  have sm1 : Same s s1 := by rw [← hs1]; exact ⟨rfl, rfl, rfl, rfl, rfl, rfl, rfl, rfl, rfl, rfl⟩
  have hbw1 : s1.blackWhite = 2 := by rw [← hs1]
  have hin1 : s1.inBlack = (k % 2 == 1) := by rw [← hs1]
  have hle := hE.le_a1
  have r2 := (m1.rs (spanBits (k % 2 == 1) mk t ++ rest) 0).span hR hw hE.lt hle (hb.same sm1 _) (c := k % 2 == 1)
    ⟨fun h => by have h9 : s1.blackWhite = 0 := h.2; omega, hin1⟩ hsp (rest := rest) rfl hg
    (v := T4.spanned (s1.rs (spanBits (k % 2 == 1) mk t ++ rest) 0) (P.getD k 0 - a0)) (fin_more (by show s1.blackWhite - 1 ≠ 0; omega))
  refine ⟨_, (m1.rs (spanBits (k % 2 == 1) mk t ++ rest) 0).spanned hR hE.lt hle, (sm1.to_rs _ _).trans (spanned_same _ _), ?_, ?_, ?_, ?_, r1.trans r2⟩
  · show s1.blackWhite - 1 = 1; omega
  · show (!s1.inBlack) = _; rw [hin1, odd_succ]
  · show s1.b1 = _; rw [← hs1]
  · show s1.bCursor = _; rw [← hs1]

theorem takes_horiz_zero (hR : Runs (black row) w P) (hQ : Runs px w Q) (hw : 0 < w) {k a0 c : Nat} (hE : EncAt P k a0) (hc : Nx Q w k a0 c) {mk mk2 : List Nat} {t t2 : Nat}
    (hsp : SpanOf (P.getD k 0 - a0) mk t) (hsp2 : SpanOf 0 mk2 t2) (hend : P.getD k 0 = w) :
    Takes P Q w k a0 c (mcode 7 ++ (spanBits (k % 2 == 1) mk t ++ spanBits ((k + 1) % 2 == 1) mk2 t2)) := by
  intro s rest hm hb h2d hbw hr hd hx hg
  obtain ⟨u, h1, h2, h3, h4, h5, h6, r⟩ := horiz_run hR hQ hw hE hc hsp hm hb h2d hbw hr hd (rest := spanBits ((k + 1) % 2 == 1) mk2 t2 ++ rest) (by rw [hx]; simp)
    (good_append (spanBits_lead _ hsp2) hg.1)
  rw [hR.end_of hE.lt hend, hend] at h1
  refine ⟨{ u with inBlack := !((k + 1) % 2 == 1), blackWhite := u.blackWhite - 1 }, ⟨h1.width, h1.cur, h1.cursor, h1.len, h1.run, h1.le, h1.a0⟩,
    h2.trans ⟨rfl, rfl, rfl, rfl, rfl, rfl, rfl, rfl, rfl, rfl⟩, by show u.blackWhite - 1 = 0; omega, fun v hv => ?_⟩
  refine r.trans ?_
  have r2 := span_zero (s := u.rs (spanBits ((k + 1) % 2 == 1) mk2 t2 ++ rest) 0) (v := v.rs (spanBits ((k + 1) % 2 == 1) mk2 t2 ++ rest) 0) hsp2 (k := (k + 1) % 2 == 1) (rest := rest)
    ⟨fun h => by have h9 : u.blackWhite = 0 := h.2; omega, h4⟩ rfl rfl (hb.same h2 []).eols hg (by show u.a0 ≤ (u.width : Int) - 1; rw [h1.a0, h1.width]; omega)
    (by show ¬ u.rowLen < u.width; rw [h1.len, hR.last, h1.width]; omega) ?_
  · exact r2
  · have := hv
    unfold fin at this ⊢
    by_cases hcond : u.encoding = .t6 ∧ u.blackWhite - 1 = 0 ∧ u.rowLen ≥ u.width
    · rw [if_pos (by exact hcond)] at this
      rw [if_pos (by exact hcond)]
      have hbl : Blind endT6 := blind_endT6
      have := (hbl { u with inBlack := !((k + 1) % 2 == 1), blackWhite := u.blackWhite - 1 } (spanBits ((k + 1) % 2 == 1) mk2 t2 ++ rest) 0).trans (congrArg (Option.map _) this)
      exact this
    · rw [if_neg (by exact hcond)] at this
      rw [if_neg (by exact hcond), ← Option.some.inj this]; rfl

theorem horiz_run2 (hR : Runs (black row) w P) (hQ : Runs px w Q) (hw : 0 < w) {k a0 c : Nat} (hE : EncAt P k a0) (hc : Nx Q w k a0 c) {mk mk2 : List Nat} {t t2 : Nat}
    (hsp : SpanOf (P.getD k 0 - a0) mk t) (hk : k + 1 < P.length) (hsp2 : SpanOf (P.getD (k + 1) 0 - P.getD k 0) mk2 t2) {s : Dec} {rest : List Bool} (hm : Mid P w s k a0) (hb : Base s)
    (h2d : s.rowIs2d = true) (hbw : s.blackWhite = 0) (hr : RefOk Q w s) (hd : DecAt Q w s k a0 c)
    (hx : s.rx = mcode 7 ++ (spanBits (k % 2 == 1) mk t ++ (spanBits ((k + 1) % 2 == 1) mk2 t2 ++ rest))) (hg : Good rest) :
    ∃ u, Mid P w u (k + 2) (P.getD (k + 1) 0) ∧ Same s u ∧ u.blackWhite = 0 ∧ u.b1 = pos Q w c ∧ u.bCursor = c ∧ ∀ v, fin u = some v → Run s (v.rs rest 0) := by
  obtain ⟨u, h1, h2, h3, h4, h5, h6, r⟩ := horiz_run hR hQ hw hE hc hsp hm hb h2d hbw hr hd (rest := spanBits ((k + 1) % 2 == 1) mk2 t2 ++ rest) hx
    (good_append (spanBits_lead _ hsp2) hg.1)
  have hle := hR.mono k hk
  refine ⟨_, (h1.rs (spanBits ((k + 1) % 2 == 1) mk2 t2 ++ rest) 0).spanned hR hk (by omega), (h2.to_rs _ _).trans (spanned_same _ _), by show u.blackWhite - 1 = 0; omega, h5, h6,
    fun v hv => r.trans ?_⟩
  exact (h1.rs (spanBits ((k + 1) % 2 == 1) mk2 t2 ++ rest) 0).span hR hw hk (by omega) (hb.same h2 _) (c := (k + 1) % 2 == 1)
    ⟨fun h => by have h9 : u.blackWhite = 0 := h.2; omega, h4⟩ hsp2 rfl hg hv

theorem takes_horiz_end (hR : Runs (black row) w P) (hQ : Runs px w Q) (hw : 0 < w) {k a0 c : Nat} (hE : EncAt P k a0) (hc : Nx Q w k a0 c) {mk mk2 : List Nat} {t t2 : Nat}
    (hsp : SpanOf (P.getD k 0 - a0) mk t) (hk : k + 1 < P.length) (hsp2 : SpanOf (P.getD (k + 1) 0 - P.getD k 0) mk2 t2) (hend : P.getD (k + 1) 0 = w) :
    Takes P Q w k a0 c (mcode 7 ++ (spanBits (k % 2 == 1) mk t ++ spanBits ((k + 1) % 2 == 1) mk2 t2)) := by
  intro s rest hm hb h2d hbw hr hd hx hg
  obtain ⟨u, h1, h2, h3, _, _, h4⟩ := horiz_run2 hR hQ hw hE hc hsp hk hsp2 hm hb h2d hbw hr hd (rest := rest) (by rw [hx]; simp) hg
  rw [hR.end_of hk hend, hend] at h1
  exact ⟨u, h1, h2, h3, h4⟩

theorem takes_horiz (hR : Runs (black row) w P) (hQ : Runs px w Q) (hw : 0 < w) {k a0 c : Nat} (hE : EncAt P k a0) (hc : Nx Q w k a0 c) {mk mk2 : List Nat} {t t2 : Nat}
    (hsp : SpanOf (P.getD k 0 - a0) mk t) (hk : k + 1 < P.length) (hsp2 : SpanOf (P.getD (k + 1) 0 - P.getD k 0) mk2 t2) (hlt : P.getD (k + 1) 0 < w)
    {c' : Nat} {bits : List Bool} (hs : Starts bits) (ht : Takes P Q w (k + 2) (P.getD (k + 1) 0) c' bits) :
    Takes P Q w k a0 c (mcode 7 ++ (spanBits (k % 2 == 1) mk t ++ spanBits ((k + 1) % 2 == 1) mk2 t2) ++ bits) := by
  intro s rest hm hb h2d hbw hr hd hx hg
  obtain ⟨u, h1, h2, h3, h4, h5, h6⟩ := horiz_run2 hR hQ hw hE hc hsp hk hsp2 hm hb h2d hbw hr hd (rest := bits ++ rest) (by rw [hx]; simp) (good_append hs hg.1)
  have r := h6 u (fin_short (h1.lt hR hw (hR.not_end hk hlt)))
  have hmono := hR.mono k hk
  have hle := hE.le_a1
  have hda : DecAt Q w u (k + 2) (P.getD (k + 1) 0) c' := by
    refine ⟨by rw [h5, h4], by rw [h5, hc.par]; omega, by rw [h5]; exact hc.hi, fun h => absurd h (by omega), fun _ => ?_⟩
    rw [h5]
    rcases hc.lo with h7 | h7
    · by_cases h8 : c < 2
      · exact Or.inl h8
      · right; rw [show c - 2 = 0 by omega, pos_zero]; omega
    · right; omega
  obtain ⟨u2, k1, k2, k3, k4⟩ := ht (u.rs (bits ++ rest) 0) rest (h1.rs _ _) (hb.same h2 _) (h2.rowIs2d.trans h2d) h3 (hr.same h2 _ _) (hda.rs _ _) rfl hg
  exact ⟨u2, k1, h2.trans k2.of_rs, k3, fun v hv => r.trans (k4 v hv)⟩

end

end T4
