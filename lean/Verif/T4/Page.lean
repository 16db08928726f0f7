import Verif.T4.Enc2d

/-! # The decoder takes the marks between the rows -/

namespace T4

/-- An EOL, with the mark of the coding of the next row, src/t4_t6_encode.c:591-633. -/
def eolBits (e : Encoding) (oneD : Bool) : List Bool := List.replicate 11 false ++ true :: (if e = .t4_2d then [oneD] else [])

theorem eolBits_lead (e : Encoding) (m : Bool) (rest : List Bool) : lead (eolBits e m ++ rest) = 11 := by
  unfold eolBits
  rw [List.append_assoc, lead_append, if_pos (by rw [lead_replicate, List.length_replicate])]
  simp [lead]

theorem eolBits_length (e : Encoding) (m : Bool) : (eolBits e m).length = if e = .t4_2d then 13 else 12 := by
  unfold eolBits
  split <;> simp

theorem take_zero : ∀ (k : Nat) (l : List Bool), k ≤ lead l → val (l.take k) = 0 := by
  intro k
  induction k with
  | zero => intro l _; rfl
  | succ k ih =>
    intro l h
    cases l with
    | nil => rfl
    | cons b t =>
      cases b
      · rw [List.take_succ_cons, val, ih t (by rw [lead] at h; omega)]; rfl
      · rw [lead] at h; omega

theorem look13 (s : Dec) (h : 12 ≤ lead s.rx) : ∃ b, b < 2 ∧ s.look 13 = 4096 * b := by
  refine ⟨val ((s.rx.drop 12).take 1), ?_, ?_⟩
  · have := val_lt ((s.rx.drop 12).take 1)
    have h2 : ((s.rx.drop 12).take 1).length ≤ 1 := by rw [List.length_take]; omega
    have := Nat.pow_le_pow_right (show 0 < 2 by omega) h2
    omega
  · unfold Dec.look
    rw [show (13 : Nat) = 12 + 1 from rfl, List.take_add, val_append, take_zero 12 _ h]
    have := lead_le s.rx
    rw [List.length_take, Nat.min_eq_left (by omega)]; omega

/-- A row of a T.4 page has come in full, but has not been handed over. -/
structure Done (P : List Nat) (w : Nat) (e : Encoding) (rows : List (List Byte)) (s : Dec) : Prop where
  mid : Mid P w s P.length w
  pixels : s.pixels = 8
  buf : s.rowBuf.length = w / 8
  eols : s.eols = 0
  mode : s.rowIs2d = true → s.blackWhite = 0
  oneD : e = .t4_1d → s.rowIs2d = false
  enc : s.encoding = e
  t4 : e ≠ .t6
  bad : s.badRows = 0
  rows : s.rows = rows

/-- Between rows. -/
structure Gap (Q : List Nat) (w : Nat) (e : Encoding) (rows : List (List Byte)) (s : Dec) : Prop where
  fresh : Fresh Q w s
  eols : s.eols = 0
  enc : s.encoding = e
  bad : s.badRows = 0
  rows : s.rows = rows

theorem Done.rs {P : List Nat} {w : Nat} {e : Encoding} {rows : List (List Byte)} {s : Dec} (h : Done P w e rows s) (x : List Bool) : Done P w e rows (s.rs x 0) :=
  ⟨h.mid.rs x 0, h.pixels, h.buf, h.eols, h.mode, h.oneD, h.enc, h.t4, h.bad, h.rows⟩

theorem Fresh.rs {Q : List Nat} {w : Nat} {s : Dec} (h : Fresh Q w s) (x : List Bool) (n : Nat) : Fresh Q w (s.rs x n) :=
  ⟨h.width, h.ref, h.pad, h.cursors, h.b1, h.a0, h.run, h.len, h.inBlack, h.blackWhite, h.pixels, h.buf⟩

section
variable {row : List Byte} {px : Nat → Bool} {w : Nat} {P Q : List Nat} {e : Encoding} {rows : List (List Byte)}

/-- A zero of fill is taken. -/
theorem fill_one (hR : Runs px w P) {s : Dec} (h : Done P w e rows s) (hs : s.skip = 0) (hl : 12 ≤ lead s.rx) (h13 : 13 ≤ s.rx.length) :
    ∃ u, Done P w e rows u ∧ one s = some (u.rs (s.rx.drop 1) 0, false) := by
  obtain ⟨z1, z2, z3, z4⟩ := zeros_null
  rw [one_step (by rw [h.eols])]
  unfold step
  rw [if_neg (no_eol (by omega) (by omega)), if_neg (by omega)]
  have h7 : s.look 7 = 0 := take_zero 7 _ (by omega)
  by_cases h2 : s.rowIs2d = true ∧ s.blackWhite = 0
  · refine ⟨s, h, ?_⟩
    rw [if_pos h2, if_pos (by rw [h.mid.len, hR.last, h.mid.width]), h7, z1]
    unfold Dec.drop Dec.rs
    rw [hs]
  · refine ⟨{ s with blackWhite := 0 }, ⟨⟨h.mid.width, h.mid.cur, h.mid.cursor, h.mid.len, h.mid.run, h.mid.le, h.mid.a0⟩, h.pixels, h.buf, h.eols, fun _ => rfl, h.oneD, h.enc, h.t4, h.bad, h.rows⟩, ?_⟩
    rw [if_neg h2]
    have hw1 : width (entry1d s) = 1 ∧ st (entry1d s) = .null := by
      unfold entry1d
      split
      · obtain ⟨b, hb, eb⟩ := look13 s hl
        rw [eb]; exact z4 b hb
      · have : s.look 12 = 0 := take_zero 12 _ hl
        rw [this]; exact ⟨z2, z3⟩
    have hc : code1d (entry1d s) s = some { s with blackWhite := 0 } := by
      unfold code1d runCode
      rw [hw1.2]
    unfold takeCode
    rw [hc, hw1.1]
    simp only [Option.map_some, Option.bind_some]
    have h6 : ({ s with blackWhite := 0 } : Dec).drop 1 = Dec.rs { s with blackWhite := 0 } (s.rx.drop 1) 0 := by
      unfold Dec.drop Dec.rs
      rw [hs]
    rw [h6, afterCode_fin, clampA0_eq]
    have ha : min ({ s with blackWhite := 0 } : Dec).a0 (({ s with blackWhite := 0 } : Dec).width - 1) = s.a0 := by
      show min s.a0 ((s.width : Int) - 1) = s.a0
      rw [h.mid.a0, h.mid.width]; omega
    have ha2 : ({ Dec.rs { s with blackWhite := 0 } (s.rx.drop 1) 0 with
        a0 := min (Dec.rs { s with blackWhite := 0 } (s.rx.drop 1) 0).a0 ((Dec.rs { s with blackWhite := 0 } (s.rx.drop 1) 0).width - 1) } : Dec) =
        Dec.rs { s with blackWhite := 0 } (s.rx.drop 1) 0 := by
      have : min (Dec.rs { s with blackWhite := 0 } (s.rx.drop 1) 0).a0 ((Dec.rs { s with blackWhite := 0 } (s.rx.drop 1) 0).width - 1) = s.a0 := ha
      rw [this]; rfl
    rw [ha2]
    unfold fin
    rw [if_neg (fun hh => h.t4 (h.enc.symm.trans hh.1))]; rfl

theorem fill_run (hR : Runs px w P) (m : Bool) (rest : List Bool) (hrest : rest ≠ []) : ∀ n (s : Dec), Done P w e rows s → s.skip = 0 →
    s.rx = List.replicate n false ++ (eolBits e m ++ rest) → ∃ u, Done P w e rows u ∧ Run s (u.rs (eolBits e m ++ rest) 0) := by
  intro n
  induction n with
  | zero =>
    intro s h hs hx
    refine ⟨s, h, ?_⟩
    have : s.rs (eolBits e m ++ rest) 0 = s := by rw [← hs, show eolBits e m ++ rest = s.rx by rw [hx]; rfl]; rfl
    rw [this]; exact .refl _
  | succ n ih =>
    intro s h hs hx
    have h13 : 13 ≤ s.rx.length := by
      have := List.length_pos_iff.mpr hrest
      rw [hx, List.length_append, List.length_append, eolBits_length]
      simp only [List.length_replicate]
      split <;> omega
    obtain ⟨u, hu, e1⟩ := fill_one hR h hs (by
      rw [hx, lead_append, if_pos (by rw [lead_replicate, List.length_replicate]), eolBits_lead]
      simp only [List.length_replicate]; omega) h13
    have hd : s.rx.drop 1 = List.replicate n false ++ (eolBits e m ++ rest) := by rw [hx]; rfl
    obtain ⟨v, hv, r⟩ := ih (u.rs (s.rx.drop 1) 0) (hu.rs _) rfl hd
    exact ⟨v, hv, .head h13 e1 r⟩

/-- What an EOL does to the bits. -/
theorem eolEnd_eq (s : Dec) (m : Bool) (rest : List Bool) (he : s.encoding = e) (hx : s.rx = eolBits e m ++ rest) :
    eolEnd s = Dec.rs { s with rowIs2d := if e = .t4_2d then !m else s.rowIs2d, inBlack := false, blackWhite := 0, runLength := 0, rowLen := 0 } rest 0 := by
  unfold eolEnd
  by_cases h2 : e = .t4_2d
  · subst h2
    rw [he]
    simp only [if_true]
    unfold Dec.forceDrop Dec.rs
    rw [hx]
    rfl
  · rw [he]
    simp only [if_neg h2]
    have hd : s.rx.drop 12 = rest := by
      rw [hx]
      unfold eolBits
      rw [if_neg h2]; rfl
    unfold Dec.forceDrop Dec.rs
    rw [hd]
    simp only [he]

/-- The EOL after a row hands it over. -/
theorem eol_done (hR : Runs (black row) w P) (hrow : w = 8 * row.length) (hw : 0 < w) {s : Dec} (h : Done P w e rows s) (m : Bool) (rest : List Bool) (hrest : rest ≠ [])
    (hx : s.rx = eolBits e m ++ rest) :
    ∃ u, Gap P w e (rows ++ [row]) u ∧ u.rowIs2d = (if e = .t4_2d then !m else s.rowIs2d) ∧ Run s (u.rs rest 0) := by
  have h13 : 13 ≤ s.rx.length := by
    have := List.length_pos_iff.mpr hrest
    rw [hx, List.length_append, eolBits_length]
    split <;> omega
  have hmid : Mid P w { s with eols := 0 } P.length w := ⟨h.mid.width, h.mid.cur, h.mid.cursor, h.mid.len, h.mid.run, h.mid.le, h.mid.a0⟩
  obtain ⟨u, e1, hf, r1, r2, r3, r4, r5⟩ := putRow_done hR hrow hmid h.pixels h.buf
  have hrx : eolRow s = some (u, false) := by
    unfold eolRow
    rw [if_neg (by rw [h.mid.len, hR.last]; omega), if_neg (by rw [h.mid.run, hR.last]; omega)]
    simp only [Option.bind_some, e1]; rfl
  have hux := eolRow_rx hrx
  refine ⟨{ u with rowIs2d := if e = .t4_2d then !m else s.rowIs2d, inBlack := false, blackWhite := 0, runLength := 0, rowLen := 0 }, ⟨?_, r5, r3.trans h.enc, r2.trans h.bad, r1.trans ?_⟩, rfl, ?_⟩
  · exact ⟨hf.width, hf.ref, hf.pad, hf.cursors, hf.b1, hf.a0, hf.run, hf.len, hf.inBlack, hf.blackWhite, hf.pixels, hf.buf⟩
  · show s.rows ++ _ = _; rw [h.rows]
  · refine .head h13 ?_ (.refl _)
    rw [one_step (by rw [h.eols])]
    unfold step
    rw [if_pos (is_eol (by omega) (by rw [hx, eolBits_lead])), hrx]
    show some (eolEnd u, false) = _
    rw [eolEnd_eq u m rest (r3.trans h.enc) (hux.trans hx), show u.rowIs2d = s.rowIs2d from r4]

/-- A T.4 page which has not begun. -/
structure Wait (w : Nat) (e : Encoding) (s : Dec) : Prop where
  fresh : Fresh [w] w s
  eols : s.eols = -1
  enc : s.encoding = e
  t4 : e ≠ .t6
  bad : s.badRows = 0
  rows : s.rows = []

theorem eol_wait {s : Dec} (h : Wait w e s) (m : Bool) (rest : List Bool) (hrest : rest ≠ []) (hx : s.rx = eolBits e m ++ rest) :
    ∃ u, Gap [w] w e [] u ∧ u.rowIs2d = (if e = .t4_2d then !m else false) ∧ Run s (u.rs rest 0) := by
  have h13 : 13 ≤ s.rx.length := by
    have := List.length_pos_iff.mpr hrest
    rw [hx, List.length_append, eolBits_length]
    split <;> omega
  have hf := h.fresh
  refine ⟨{ s with eols := 0, rowIs2d := if e = .t4_2d then !m else false }, ⟨⟨hf.width, hf.ref, hf.pad, hf.cursors, hf.b1, hf.a0, hf.run, hf.len, hf.inBlack, hf.blackWhite, hf.pixels, hf.buf⟩,
    rfl, h.enc, h.bad, h.rows⟩, rfl, .head h13 ?_ (.refl _)⟩
  unfold one
  rw [if_pos (by rw [h.eols]; omega)]
  unfold stepWait
  rw [if_neg (fun hh => hh (is_eol (by omega) (by rw [hx, eolBits_lead]))), h.enc]
  have h6 := h.t4
  cases e with
  | t6 => exact absurd rfl h6
  | t4_1d => simp only [if_true]; unfold Dec.forceDrop Dec.rs; rw [hx]; rfl
  | t4_2d => simp only [if_true]; unfold Dec.forceDrop Dec.rs; rw [hx]; rfl

/-! ## A row -/

theorem Gap.mid (hw : 0 < w) {s : Dec} (h : Gap Q w e rows s) : Mid P w s 0 0 := by
  have hf := h.fresh
  exact ⟨hf.width, fun j hj => absurd hj (by omega), hf.cursors.1, by rw [hf.len]; rfl, by rw [hf.run]; rfl, Nat.le_refl _, by rw [hf.a0]; omega⟩

theorem Gap.rs {s : Dec} (h : Gap Q w e rows s) (x : List Bool) (n : Nat) : Gap Q w e rows (s.rs x n) := ⟨h.fresh.rs x n, h.eols, h.enc, h.bad, h.rows⟩

theorem Gap.base {s : Dec} (h : Gap Q w e rows s) (hs : s.skip = 0) (h6 : e = .t6 → s.rowIs2d = true) : Base s :=
  ⟨hs, by rw [h.eols], fun hh => h6 (h.enc.symm.trans hh)⟩

theorem Gap.decAt (hQ : Runs px w Q) {s : Dec} (h : Gap Q w e rows s) : DecAt Q w s 0 0 1 := by
  have hf := h.fresh
  have := List.length_pos_iff.mpr hQ.ne
  have hp : ((pos Q w 1 : Nat) : Int) = s.ref 0 := by
    have := (hf.refOk hQ).run 0 (by omega)
    rw [pos_zero] at this
    simp only [Nat.zero_add] at this
    rw [this]
  exact ⟨by rw [hf.b1, hf.cursors.2, hp], by rw [hf.cursors.2], by rw [hf.cursors.2]; omega, fun _ => hf.cursors.2, fun hh => absurd rfl hh⟩

/-- A row of one dimensional codes. -/
theorem row_1d (hR : Runs px w P) (hw : 0 < w) : ∃ bits, Emits (loop1d false 0 P) bits ∧ bits.length ≤ 6 * w + 10 ∧ Starts bits ∧
    ∀ (Q : List Nat) (e : Encoding) (rows : List (List Byte)) (s : Dec) (rest : List Bool), Gap Q w e rows s → e ≠ .t6 → s.rowIs2d = false → s.skip = 0 → s.rx = bits ++ rest → Good rest →
      ∃ u, Done P w e rows u ∧ Run s (u.rs rest 0) := by
  obtain ⟨bits, h1, hl, h2, h3⟩ := row1d hR hw P.length 0 (by omega)
  refine ⟨bits, h1, (by simp at hl; omega), h2 (List.length_pos_iff.mpr hR.ne), ?_⟩
  intro Q e rows s rest hg h6 hd hs hx hr
  obtain ⟨u, hm, hsame, hrun⟩ := h3 s rest (hg.mid hw) (hg.base hs (fun hh => absurd hh h6)) hd hg.fresh.inBlack hx hr
  have hf := hg.fresh
  exact ⟨u, ⟨hm, hsame.pixels.trans hf.pixels, by rw [hsame.rowBuf]; exact hf.buf, hsame.eols.trans hg.eols, fun hh => (by rw [hsame.rowIs2d, hd] at hh; cases hh),
    fun _ => hsame.rowIs2d.trans hd, hsame.encoding.trans hg.enc, h6, hsame.bad.trans hg.bad, hsame.rows.trans hg.rows⟩, hrun⟩

/-- A row of two dimensional codes, of a T.4 page. -/
theorem row_2d (hQ : Runs px w Q) (hw : 0 < w) {bits : List Bool} (hT : Takes P Q w 0 0 1 bits) (s : Dec) (rest : List Bool) (hg : Gap Q w e rows s) (h2 : e = .t4_2d)
    (hd : s.rowIs2d = true) (hs : s.skip = 0) (hx : s.rx = bits ++ rest) (hr : Good rest) : ∃ u, Done P w e rows u ∧ Run s (u.rs rest 0) := by
  have h6 : e ≠ .t6 := by rw [h2]; decide
  obtain ⟨u, hm, hsame, hb, hrun⟩ := hT s rest (hg.mid hw) (hg.base hs (fun hh => absurd hh h6)) hd hg.fresh.blackWhite (hg.fresh.refOk hQ) (hg.decAt hQ) hx hr
  have hf := hg.fresh
  refine ⟨u, ⟨hm, hsame.pixels.trans hf.pixels, by rw [hsame.rowBuf]; exact hf.buf, hsame.eols.trans hg.eols, fun _ => hb, fun hh => (by rw [h2] at hh; cases hh),
    hsame.encoding.trans hg.enc, h6, hsame.bad.trans hg.bad, hsame.rows.trans hg.rows⟩, hrun u ?_⟩
  exact if_neg (fun hh => h6 ((hsame.encoding.trans hg.enc).symm.trans hh.1))

/-- A row of a T.6 page. -/
theorem row_t6 (hR : Runs (black row) w P) (hrow : w = 8 * row.length) (hQ : Runs px w Q) (hw : 0 < w) {bits : List Bool} (hT : Takes P Q w 0 0 1 bits) (s : Dec)
    (rest : List Bool) (hg : Gap Q w .t6 rows s) (hd : s.rowIs2d = true) (hs : s.skip = 0) (hx : s.rx = bits ++ rest) (hr : Good rest) :
    ∃ u, Gap P w .t6 (rows ++ [row]) u ∧ u.rowIs2d = true ∧ Run s (u.rs rest 0) := by
  obtain ⟨u, hm, hsame, hb, hrun⟩ := hT s rest (hg.mid hw) (hg.base hs (fun _ => hd)) hd hg.fresh.blackWhite (hg.fresh.refOk hQ) (hg.decAt hQ) hx hr
  have hf := hg.fresh
  obtain ⟨v, e1, hv, r1, r2, r3, r4, r5⟩ := fin_t6 hR hrow hm (hsame.pixels.trans hf.pixels) (by rw [hsame.rowBuf]; exact hf.buf) (hsame.encoding.trans hg.enc) hb
  exact ⟨v, ⟨hv, r5.trans (hsame.eols.trans hg.eols), r3.trans (hsame.encoding.trans hg.enc), r2.trans (hsame.bad.trans hg.bad),
    by rw [r1, hsame.rows, hg.rows]⟩, r4.trans (hsame.rowIs2d.trans hd), hrun v e1⟩

/-! ## The end of the page -/

/-- Marks without rows between them. -/
structure Idle (e : Encoding) (k : Nat) (rows : List (List Byte)) (s : Dec) : Prop where
  len : s.rowLen = 0
  eols : s.eols = k
  enc : s.encoding = e
  bad : s.badRows = 0
  rows : s.rows = rows

theorem Gap.idle {s : Dec} (h : Gap Q w e rows s) : Idle e 0 rows s := ⟨h.fresh.len, h.eols, h.enc, h.bad, h.rows⟩

theorem Idle.rs {k : Nat} {s : Dec} (h : Idle e k rows s) (x : List Bool) (n : Nat) : Idle e k rows (s.rs x n) := ⟨h.len, h.eols, h.enc, h.bad, h.rows⟩

/-- The number of EOLs which end a page. -/
def ends (e : Encoding) : Nat := if e = .t6 then 2 else 5

theorem eol_idle {k : Nat} {s : Dec} (h : Idle e k rows s) (hk : k + 1 < ends e) (m : Bool) (rest : List Bool) (hrest : rest ≠ []) (hx : s.rx = eolBits e m ++ rest) :
    ∃ u, Idle e (k + 1) rows u ∧ Run s (u.rs rest 0) := by
  have h13 : 13 ≤ s.rx.length := by
    have := List.length_pos_iff.mpr hrest
    rw [hx, List.length_append, eolBits_length]
    split <;> omega
  refine ⟨{ s with eols := s.eols + 1, rowIs2d := if e = .t4_2d then !m else s.rowIs2d, inBlack := false, blackWhite := 0, runLength := 0, rowLen := 0 }, ⟨rfl, ?_, h.enc, h.bad, h.rows⟩,
    .head h13 ?_ (.refl _)⟩
  rotate_left
  · rw [one_step (by rw [h.eols]; omega)]
    unfold step
    rw [if_pos (is_eol (by omega) (by rw [hx, eolBits_lead]))]
    unfold eolRow
    rw [if_pos h.len, if_neg]
    · show some (eolEnd { s with eols := s.eols + 1 }, false) = _
      rw [eolEnd_eq { s with eols := s.eols + 1 } m rest h.enc hx]
    · unfold ends at hk
      rw [h.enc, h.eols]
      intro hh
      rcases hh with ⟨a, b⟩ | ⟨a, b⟩
      · rw [if_pos a] at hk; omega
      · rw [if_neg a] at hk; omega
  · show s.eols + 1 = _
    rw [h.eols]; rfl

theorem eol_last {k : Nat} {s : Dec} (h : Idle e k rows s) (hk : k + 1 = ends e) (m : Bool) (rest : List Bool) (hrest : rest ≠ []) (hx : s.rx = eolBits e m ++ rest) :
    ∃ t, L s = some (t, true) ∧ t.eols = 6 ∧ t.rows = rows ∧ t.badRows = 0 := by
  have h13 : 13 ≤ s.rx.length := by
    have := List.length_pos_iff.mpr hrest
    rw [hx, List.length_append, eolBits_length]
    split <;> omega
  refine ⟨{ s with eols := 6 }, L_end h13 ?_, rfl, h.rows, h.bad⟩
  rw [one_step (by rw [h.eols]; omega)]
  unfold step
  rw [if_pos (is_eol (by omega) (by rw [hx, eolBits_lead]))]
  unfold eolRow
  rw [if_pos h.len, if_pos]
  · rfl
  · unfold ends at hk
    rw [h.enc, h.eols]
    by_cases h6 : e = .t6
    · rw [if_pos h6] at hk; exact Or.inl ⟨h6, by omega⟩
    · rw [if_neg h6] at hk; exact Or.inr ⟨h6, by omega⟩

/-- Any number of EOLs. -/
def eolsBits (e : Encoding) (m : Bool) : Nat → List Bool
  | 0 => []
  | n + 1 => eolBits e m ++ eolsBits e m n

theorem eols_end (m : Bool) (rest : List Bool) (hrest : rest ≠ []) : ∀ n k (s : Dec), Idle e k rows s → k + n + 1 = ends e → s.rx = eolsBits e m (n + 1) ++ rest →
    ∃ t, L s = some (t, true) ∧ t.eols = 6 ∧ t.rows = rows ∧ t.badRows = 0 := by
  intro n
  induction n with
  | zero =>
    intro k s h hk hx
    exact eol_last h (by omega) m rest hrest (by rw [hx]; simp [eolsBits])
  | succ n ih =>
    intro k s h hk hx
    obtain ⟨u, hu, r⟩ := eol_idle h (by omega) m (eolsBits e m (n + 1) ++ rest) (by simp [hrest]) (by rw [hx, eolsBits, List.append_assoc])
    rw [r.L]
    exact ih (k + 1) _ (hu.rs _ 0) (by omega) rfl

end

end T4
