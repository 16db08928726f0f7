import Verif.T4.Row

/-! # The reference row, as the encoder and the decoder see it -/

namespace T4

/-- The position of the `c`th change of a row: the right edge, from the last one on. -/
def pos (Q : List Nat) (w c : Nat) : Nat := if c ≤ Q.length then prev Q c else w

section
variable {px : Nat → Bool} {w : Nat} {Q : List Nat}

theorem pos_zero : pos Q w 0 = 0 := by simp [pos, prev]

theorem pos_le_succ (h : Runs px w Q) (c : Nat) : pos Q w c ≤ pos Q w (c + 1) := by
  unfold pos
  by_cases h1 : c + 1 ≤ Q.length
  · rw [if_pos (by omega), if_pos h1, prev_succ]; exact h.le c (by omega)
  · rw [if_neg h1]
    split
    · exact h.prev_le (Q.length - c) c (by omega)
    · exact Nat.le_refl _

theorem pos_mono (h : Runs px w Q) {c d : Nat} (hcd : c ≤ d) : pos Q w c ≤ pos Q w d := by
  obtain ⟨n, rfl⟩ := Nat.le.dest hcd
  clear hcd
  induction n with
  | zero => exact Nat.le_refl _
  | succ n ih => have := pos_le_succ h (c + n); rw [← Nat.add_assoc]; omega

theorem pos_lt (h : Runs px w Q) {c : Nat} (h1 : 1 ≤ c) (hc : c < Q.length) : pos Q w c < pos Q w (c + 1) := by
  unfold pos
  rw [if_pos (by omega), if_pos (by omega), prev_succ]
  unfold prev
  rw [if_neg (by omega)]
  have := h.mono (c - 1) (by omega)
  rwa [show c - 1 + 1 = c by omega] at this

theorem pos_end (h : Runs px w Q) {c : Nat} (hc : Q.length ≤ c) : pos Q w c = w := by
  unfold pos
  split
  · rw [show c = Q.length by omega]; exact h.last
  · rfl

theorem pos_le (h : Runs px w Q) (c : Nat) : pos Q w c ≤ w := by
  have := pos_mono h (show c ≤ c + Q.length by omega)
  rwa [pos_end h (show Q.length ≤ c + Q.length by omega)] at this

theorem lt_of_pos (h : Runs px w Q) {c : Nat} (hc : pos Q w c < w) : c < Q.length := by
  by_cases h2 : c < Q.length
  · exact h2
  · rw [pos_end h (by omega)] at hc; omega

/-- The encoder's list of changes. -/
theorem stretch_get (h : Runs px w Q) (b : Nat) (hb : b ≤ Q.length + 2) : (stretch Q)[b]? = some (pos Q w (b + 1)) := by
  unfold stretch pos
  by_cases h1 : b < Q.length
  · rw [if_pos (by omega), List.getElem?_append_left h1, prev_succ]
    simp [List.getD, List.getElem?_eq_getElem h1]
  · rw [if_neg (by omega), List.getElem?_append_right (by omega), List.getElem?_replicate, if_pos (by omega)]
    have h2 := h.last
    unfold prev at h2
    have := List.length_pos_iff.mpr h.ne
    rw [if_neg (by omega)] at h2
    rw [← h2]
    simp [List.getD, List.getLastD_eq_getLast?, List.getLast?_eq_getElem?]

/-- The change in the reference row which is next to the right of `a0`, and of the opposite colour. `k` changes of the row itself have been coded. -/
structure Nx (Q : List Nat) (w k a0 c : Nat) : Prop where
  par : c % 2 = (k + 1) % 2
  one : 1 ≤ c
  hi : c ≤ Q.length + 1
  gt : a0 < pos Q w c ∨ (k = 0 ∧ a0 = 0 ∧ c = 1)
  lo : c ≤ 2 ∨ pos Q w (c - 2) ≤ a0
  start : k = 0 → a0 = 0 → c = 1

theorem back_ge {E : List Nat} {a0 b r : Nat} (h : E[b]? = some r) (hr : a0 ≥ r) : back E a0 b = some (b + 2) := by
  match b with
  | 0 => unfold back; rw [h]; simp only; rw [if_pos hr]
  | 1 => unfold back; rw [h]; simp only; rw [if_pos hr]
  | b + 2 => unfold back; rw [h]; simp only; rw [if_pos hr]

theorem back_spec (h : Runs px w Q) (a0 : Nat) : ∀ n b, b ≤ n → b ≤ Q.length + 2 → a0 < pos Q w (b + 1) →
    ∃ b', back (stretch Q) a0 b = some b' ∧ b' % 2 = b % 2 ∧ a0 < pos Q w (b' + 1) ∧ (b' < 2 ∨ pos Q w (b' - 1) ≤ a0) := by
  intro n
  induction n with
  | zero =>
    intro b hb _ ha
    have : b = 0 := by omega
    subst this
    refine ⟨0, ?_, rfl, ha, by omega⟩
    unfold back
    rw [stretch_get h 0 (by omega)]
    simp only
    rw [if_neg (by omega)]
  | succ n ih =>
    intro b hb hl ha
    match b, hb, hl, ha with
    | 0, hb, hl, ha => exact ih 0 (by omega) hl ha
    | 1, hb, hl, ha =>
      refine ⟨1, ?_, rfl, ha, by omega⟩
      unfold back
      rw [stretch_get h 1 (by omega)]
      simp only
      rw [if_neg (by omega)]
    | b + 2, hb, hl, ha =>
      unfold back
      rw [stretch_get h (b + 2) (by omega)]
      simp only
      rw [if_neg (by omega)]
      by_cases h2 : a0 < pos Q w (b + 1)
      · obtain ⟨b', e, h3, h4⟩ := ih b (by omega) (by omega) h2
        exact ⟨b', e, by omega, h4⟩
      · exact ⟨b + 2, back_ge (stretch_get h b (by omega)) (by omega), rfl, ha, Or.inr (by rw [show b + 2 - 1 = b + 1 by omega]; omega)⟩

theorem fwd_spec (h : Runs px w Q) (a0 : Nat) (hw : a0 < w) : ∀ n b, Q.length + 2 ≤ n + b → b ≤ Q.length + 1 → (b < 2 ∨ pos Q w (b - 1) ≤ a0) →
    ∃ b' c, fwd (stretch Q) Q.length a0 n b = some b' ∧ b' ≤ Q.length ∧ (stretch Q)[b']? = some (pos Q w c) ∧ (stretch Q)[b' + 1]? = some (pos Q w (c + 1)) ∧
      1 ≤ c ∧ c % 2 = (b + 1) % 2 ∧ a0 < pos Q w c ∧ (c ≤ 2 ∨ pos Q w (c - 2) ≤ a0) := by
  intro n
  induction n with
  | zero => intro b h1 h2; omega
  | succ n ih =>
    intro b h1 h2 h3
    have hpos := List.length_pos_iff.mpr h.ne
    unfold fwd
    by_cases hb : b < Q.length
    · rw [if_pos hb, stretch_get h b (by omega)]
      simp only
      by_cases ha : a0 < pos Q w (b + 1)
      · rw [if_pos ha]
        refine ⟨b, b + 1, rfl, by omega, stretch_get h b (by omega), stretch_get h (b + 1) (by omega), by omega, rfl, ha, ?_⟩
        rcases h3 with h3 | h3
        · left; omega
        · right; rwa [show b + 1 - 2 = b - 1 by omega]
      · rw [if_neg ha]
        obtain ⟨b', c, e, r1, r2, r3, r4, r5, r6⟩ := ih (b + 2) (by omega) (by omega) (Or.inr (by rw [show b + 2 - 1 = b + 1 by omega]; omega))
        exact ⟨b', c, e, r1, r2, r3, r4, by omega, r6⟩
    · rw [if_neg hb]
      refine ⟨Q.length - 1, b + 1, rfl, by omega, ?_, ?_, by omega, rfl, by rw [pos_end h (by omega)]; exact hw, ?_⟩
      · rw [stretch_get h _ (by omega), pos_end h (show Q.length ≤ b + 1 by omega), pos_end h (by omega)]
      · rw [stretch_get h _ (by omega), pos_end h (show Q.length ≤ b + 1 + 1 by omega), pos_end h (by omega)]
      · rcases h3 with h3 | h3
        · left; omega
        · right; rwa [show b + 1 - 2 = b - 1 by omega]

/-- The encoder finds the next change. -/
theorem hunt_spec (h : Runs px w Q) {a0 k b : Nat} (hw : a0 < w) (hb : b ≤ Q.length) (h0 : k = 0 → 0 < a0) :
    ∃ b' c, hunt (stretch Q) Q.length a0 (k % 2 == 1) b = some b' ∧ b' ≤ Q.length ∧ (stretch Q)[b']? = some (pos Q w c) ∧ (stretch Q)[b' + 1]? = some (pos Q w (c + 1)) ∧
      Nx Q w k a0 c := by
  have hpos := List.length_pos_iff.mpr h.ne
  have key : ∃ b1, (if (k % 2 == 1) = true then b / 2 * 2 + 1 else b / 2 * 2) = b1 ∧ b1 % 2 = k % 2 ∧ b1 ≤ Q.length + 1 := by
    refine ⟨_, rfl, ?_, ?_⟩
    · rcases Nat.mod_two_eq_zero_or_one k with hh | hh <;> simp [hh]
    · split <;> omega
  have hiOf : ∀ c, (c ≤ 2 ∨ pos Q w (c - 2) ≤ a0) → c ≤ Q.length + 1 := by
    intro c hc
    rcases hc with hc | hc
    · omega
    · have := lt_of_pos h (show pos Q w (c - 2) < w by omega); omega
  obtain ⟨b1, e1, p1, l1⟩ := key
  unfold hunt
  simp only [e1]
  rw [stretch_get h b1 (by omega)]
  simp only
  by_cases ha : a0 < pos Q w (b1 + 1)
  · rw [if_pos ha]
    obtain ⟨b', e, r1, r2, r3⟩ := back_spec h a0 b1 b1 (Nat.le_refl _) (by omega) ha
    have hlo : b' + 1 ≤ 2 ∨ pos Q w (b' + 1 - 2) ≤ a0 := by
      rcases r3 with r3 | r3
      · left; omega
      · right; rwa [show b' + 1 - 2 = b' - 1 by omega]
    have hhi := hiOf _ hlo
    exact ⟨b', b' + 1, e, by omega, stretch_get h _ (by omega), stretch_get h _ (by omega), ⟨by omega, by omega, hhi, Or.inl r2, hlo, fun hk h2 => by have := h0 hk; omega⟩⟩
  · rw [if_neg ha]
    obtain ⟨b', c, e, r1, r2, r3, r4, r5, r6, r7⟩ := fwd_spec h a0 hw (Q.length + 2) b1 (by omega) l1
      (by right; have := pos_mono h (show b1 - 1 ≤ b1 + 1 by omega); omega)
    exact ⟨b', c, e, r1, r2, r3, ⟨by omega, r4, hiOf _ r7, Or.inl r6, r7, fun hk h2 => by have := h0 hk; omega⟩⟩

/-! ## The decoder -/

/-- The decoder's runs of the reference row. -/
structure RefOk (Q : List Nat) (w : Nat) (s : Dec) : Prop where
  width : s.width = w
  run : ∀ j, j ≤ Q.length + 1 → pos Q w j + s.ref j = pos Q w (j + 1)

theorem Fresh.refOk (h : Runs px w Q) {s : Dec} (hf : Fresh Q w s) : RefOk Q w s where
  width := hf.width
  run := by
    intro j hj
    by_cases h1 : j < Q.length
    · rw [hf.ref j h1]
      have := h.le j h1
      unfold pos
      rw [if_pos (by omega), if_pos (by omega), prev_succ]; omega
    · have : s.ref j = 0 := by
        have h2 : j = Q.length ∨ j = Q.length + 1 := by omega
        rcases h2 with rfl | rfl
        · exact hf.pad.1
        · exact hf.pad.2
      rw [this, pos_end h (by omega), pos_end h (by omega), Nat.add_zero]

theorem RefOk.get (h : Runs px w Q) {s : Dec} (hs : RefOk Q w s) (j : Nat) (hj : j ≤ Q.length + 1) : s.getRef j = some (s.ref j) := by
  have := h.length_le
  refine if_pos ?_
  unfold Dec.space
  rw [hs.width]; omega

/-- Where the decoder is in the reference row. -/
structure DecAt (Q : List Nat) (w : Nat) (s : Dec) (k a0 c : Nat) : Prop where
  b1 : s.b1 = pos Q w s.bCursor
  par : s.bCursor % 2 = (k + 1) % 2
  hi : s.bCursor ≤ Q.length + 1
  zero : k = 0 → s.bCursor = c
  lo : k ≠ 0 → s.bCursor < 2 ∨ pos Q w (s.bCursor - 2) ≤ a0

theorem moveB_spec (h : Runs px w Q) {k a0 c : Nat} (hc : Nx Q w k a0 c) (hk : k ≠ 0) : ∀ n (s : Dec), RefOk Q w s → s.a0 = a0 → s.b1 = pos Q w s.bCursor → s.bCursor % 2 = c % 2 →
    s.bCursor ≤ c → c < s.bCursor + 2 * n → moveB n s = some { s with b1 := pos Q w c, bCursor := c } := by
  have hgt : a0 < pos Q w c := by
    rcases hc.gt with h1 | h1
    · exact h1
    · exact absurd h1.1 hk
  intro n
  induction n with
  | zero => intro s _ _ _ _ h1 h2; omega
  | succ n ih =>
    intro s hr ha hb hp hle hn
    unfold moveB
    by_cases he : s.bCursor = c
    · rw [if_neg (by rw [hb, ha, he]; omega)]
      have e1 : s.b1 = (pos Q w c : Int) := by rw [hb, he]
      rw [← e1, ← he]
    · have hle2 : s.bCursor + 2 ≤ c := by omega
      have hpos : pos Q w s.bCursor ≤ a0 := by
        rcases hc.lo with h1 | h1
        · rw [show s.bCursor = 0 by omega, pos_zero]; omega
        · have := pos_mono h (show s.bCursor ≤ c - 2 by omega); omega
      rw [if_pos (by rw [hb, ha]; omega)]
      have hhi := hc.hi
      rw [hr.get h _ (by omega), hr.get h _ (by omega)]
      simp only [Option.bind_some]
      have r1 := hr.run s.bCursor (by omega)
      have r2 := hr.run (s.bCursor + 1) (by omega)
      rw [ih]
      · exact ⟨hr.width, hr.run⟩
      · exact ha
      · show s.b1 + _ = (pos Q w (s.bCursor + 1 + 1) : Int)
        rw [hb]; omega
      · show (s.bCursor + 2) % 2 = _; omega
      · exact hle2
      · show c < s.bCursor + 2 + _; omega

theorem code2d_eq (h : Runs px w Q) {k a0 c : Nat} {s : Dec} (hc : Nx Q w k a0 c) (hr : RefOk Q w s) (hd : DecAt Q w s k a0 c) (ha : s.a0 = a0) (hk : s.aCursor = k) (e : Nat) :
    code2d e s = mode2d e { s with b1 := pos Q w c, bCursor := c } := by
  unfold code2d
  by_cases h0 : k = 0
  · rw [if_neg (by omega)]
    simp only [Option.bind_some]
    have e1 := hd.zero h0
    have e2 := hd.b1
    rw [e1] at e2
    rw [← e2, ← e1]
  · rw [if_pos (by omega), moveB_spec h hc h0 _ s hr ha hd.b1 (by rw [hd.par, hc.par])]
    · rfl
    · by_cases hle : s.bCursor ≤ c
      · exact hle
      · have h1 := hd.par
        have h2 := hc.par
        have h3 := hc.one
        have hgt : a0 < pos Q w c := by
          rcases hc.gt with h1 | h1
          · exact h1
          · exact absurd h1.1 h0
        rcases hd.lo h0 with h4 | h4
        · omega
        · have := pos_mono h (show c ≤ s.bCursor - 2 by omega); omega
    · have := hc.hi
      have := h.length_le
      unfold Dec.space
      rw [hr.width]; omega

end

end T4
