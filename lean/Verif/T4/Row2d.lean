import Verif.T4.Ref

/-! # The decoder takes a row of two dimensional codes -/

namespace T4

theorem mcode_ok (i : Nat) (hi : i < 9) : codeOk (mcode i) = true := (codes2d_ok i hi).1

theorem emits_mcode (i : Nat) (hi : i < 9) : ∀ w, WOk w → ∃ w', putEntry w codes2d i = some (w', (codes2d.getD i (0, 0, 0)).2.2) ∧ WOk w' ∧ w'.bits = w.bits ++ mcode i ∧ w'.rowBits = w.rowBits + (mcode i).length := by
  intro w ok
  obtain ⟨_, h2, h3⟩ := codes2d_ok i hi
  rw [putEntry_eq _ _ _ (by exact hi)]
  obtain ⟨w', e, r⟩ := emits_put _ _ h2 (Or.inl (by omega)) w ok
  refine ⟨w', ?_, r⟩
  rw [Option.some.inj e]

/-- A two dimensional code is looked up. -/
theorem step_mode {s : Dec} (h1 : s.rowIs2d = true) (h2 : s.blackWhite = 0) (h3 : s.rowLen < s.width) {i : Nat} (hi : i < 9) {rest : List Bool} (hx : s.rx = mcode i ++ rest) (hs : s.skip = 0)
    (hr : Good rest) : ∃ e, hits2d i (codes2d.getD i (0, 0, 0)) e = true ∧ (¬ s.look 12 = 0x800 → step s = takeCode (code2d e) (mcode i).length s) := by
  have hh := lookup_code2d i hi rest hr.1
  refine ⟨_, hh, fun hn => ?_⟩
  unfold step
  rw [if_neg hn, if_neg (by omega), if_pos ⟨h1, h2⟩, if_neg (by omega)]
  have e : s.look 7 = val ((mcode i ++ rest).take 7) := by unfold Dec.look; rw [hx]
  have hw : width (entry table2d (s.look 7)) = (mcode i).length := by
    rw [e]
    unfold hits2d at hh
    simp only [Bool.and_eq_true, beq_iff_eq] at hh
    rw [show mcode i = cb (codes2d.getD i (0, 0, 0)) from rfl, hh.1]; simp [cb]
  rw [hw, e]; rfl

section
variable {row : List Byte} {px : Nat → Bool} {w : Nat} {P Q : List Nat}

theorem Mid.lt (hR : Runs (black row) w P) (hw : 0 < w) {s : Dec} {k p : Nat} (h : Mid P w s k p) (hk : k < P.length) : s.rowLen < s.width := by
  have := hR.lt hw k hk
  rw [h.len, h.width]; omega

/-- What the encoder knows of its row. -/
structure EncAt (P : List Nat) (k a0 : Nat) : Prop where
  lt : k < P.length
  le : prev P k ≤ a0
  pos : a0 < P.getD k 0 ∨ (k = 0 ∧ a0 = 0)

theorem EncAt.lt_w (hR : Runs (black row) w P) (hw : 0 < w) {k a0 : Nat} (h : EncAt P k a0) : a0 < w := by
  have := hR.prev_le (P.length - (k + 1)) (k + 1) (by have := h.lt; omega)
  rw [prev_succ] at this
  rcases h.pos with h1 | h1 <;> omega

theorem EncAt.le_a1 {k a0 : Nat} (h : EncAt P k a0) : a0 ≤ P.getD k 0 := by
  rcases h.pos with h1 | h1 <;> omega

/-- The decoder takes a vertical mode. -/
theorem dec_vert (hR : Runs (black row) w P) (hQ : Runs px w Q) (hw : 0 < w) {k a0 c : Nat} (hE : EncAt P k a0) (hc : Nx Q w k a0 c) {s : Dec} (hm : Mid P w s k a0) (hr : RefOk Q w s)
    (hd : DecAt Q w s k a0 c) (e : Nat) (he : st e = .vert) (hv : vparam e = (P.getD k 0 : Int) - pos Q w c) :
    ∃ u u', code2d e s = some u' ∧ clampA0 u' = u ∧ Mid P w u (k + 1) (P.getD k 0) ∧ Same s u ∧ u.blackWhite = s.blackWhite ∧
      (P.getD k 0 < w → ∀ c', DecAt Q w u (k + 1) (P.getD k 0) c') := by
  have hk := hE.lt
  have ha1 := hE.le_a1
  have haw := hE.lt_w hR hw
  have hpl := hR.prev_le (P.length - (k + 1)) (k + 1) (by omega)
  rw [prev_succ] at hpl
  have hsa : s.a0 = a0 := by rw [hm.a0]; omega
  have hlen := hR.length_le
  rw [code2d_eq hQ hc hr hd hsa hm.cursor]
  unfold mode2d
  rw [he]
  simp only
  unfold vertical
  simp only [hv, hsa]
  have hb : (pos Q w c : Int) + ((P.getD k 0 : Int) - pos Q w c) = P.getD k 0 := by omega
  rw [hb]
  rw [if_neg (by
    intro ⟨h1, h2⟩
    rcases hE.pos with h3 | h3
    · omega
    · have := hc.start h3.1 h3.2
      omega)]
  rw [addRun_ok (by show 0 ≤ s.runLength + _; rw [hm.run]; have := hm.le; omega) (by show s.rowLen + (s.runLength + _) ≤ s.width; rw [hm.len, hm.run, hm.width]; omega)
    (by show s.aCursor < s.width + 4; rw [hm.cursor, hm.width]; omega)]
  simp only [Option.bind_some]
  have hle := hm.le
  have hrun : s.runLength + ((P.getD k 0 : Int) - a0) = (P.getD k 0 - prev P k : Nat) := by rw [hm.run]; omega
  have hone := hc.one
  have hhi := hc.hi
  -- The run is complete, whatever the next place in the reference row is.
  have mid : ∀ (b : Int) (bc : Nat), Mid P w ({ s with a0 := min (P.getD k 0 : Int) (s.width - 1), runLength := 0, b1 := b, bCursor := bc, cur := fun j => if j = s.aCursor then (s.runLength + ((P.getD k 0 : Int) - a0)).toNat else s.cur j, aCursor := s.aCursor + 1, rowLen := s.rowLen + (s.runLength + ((P.getD k 0 : Int) - a0)) } : Dec) (k + 1) (P.getD k 0) := by
    intro b bc
    refine ⟨hm.width, ?_, by simp only [hm.cursor], ?_, ?_, Nat.le_of_eq (prev_succ _ _), ?_⟩
    · intro j hj
      simp only
      by_cases ej : j = s.aCursor
      · rw [if_pos ej, hrun, ej, hm.cursor]; rfl
      · rw [if_neg ej]
        exact hm.cur j (by have := hm.cursor; omega)
    · simp only
      rw [hm.len, hrun, prev_succ]; omega
    · simp only
      rw [prev_succ]; omega
    · simp only
      rw [hm.width]
  unfold vertMove
  by_cases hv0 : (P.getD k 0 : Int) - pos Q w c ≥ 0
  · rw [if_pos hv0]
    have hg := hr.get hQ c (by omega)
    have hrr := hr.run c (by omega)
    refine ⟨_, _, (congrArg (fun o => Option.bind o _) hg), clampA0_eq _, mid _ _, ⟨rfl, rfl, rfl, rfl, rfl, rfl, rfl, rfl, rfl, rfl⟩, rfl, ?_⟩
    intro hlt c'
    have hcl := lt_of_pos hQ (show pos Q w c < w by omega)
    refine ⟨?_, ?_, ?_, fun h => absurd h (by omega), fun _ => Or.inr ?_⟩
    · show (pos Q w c : Int) + _ = (pos Q w (c + 1) : Int); omega
    · show (c + 1) % 2 = _; have := hc.par; omega
    · show c + 1 ≤ _; omega
    · show pos Q w (c + 1 - 2) ≤ _
      have := pos_mono hQ (show c + 1 - 2 ≤ c by omega); omega
  · rw [if_neg hv0, if_pos (by show c ≠ 0; omega)]
    have hg := hr.get hQ (c - 1) (by omega)
    have hrr := hr.run (c - 1) (by omega)
    rw [show c - 1 + 1 = c by omega] at hrr
    refine ⟨_, _, (congrArg (fun o => Option.bind o _) hg), clampA0_eq _, mid _ _, ⟨rfl, rfl, rfl, rfl, rfl, rfl, rfl, rfl, rfl, rfl⟩, rfl, ?_⟩
    intro hlt c'
    refine ⟨?_, ?_, ?_, fun h => absurd h (by omega), fun _ => ?_⟩
    · show (pos Q w c : Int) - (s.ref (c - 1) : Int) = (pos Q w (c - 1) : Int); omega
    · show (c - 1) % 2 = _; have := hc.par; omega
    · show c - 1 ≤ _; omega
    · show c - 1 < 2 ∨ pos Q w (c - 1 - 2) ≤ _
      rcases hc.lo with h1 | h1
      · left; omega
      · right
        have := pos_mono hQ (show c - 1 - 2 ≤ c - 2 by omega); omega

/-- The decoder takes a pass mode. -/
theorem dec_pass (hR : Runs (black row) w P) (hQ : Runs px w Q) (hw : 0 < w) {k a0 c : Nat} (hE : EncAt P k a0) (hc : Nx Q w k a0 c) {s : Dec} (hm : Mid P w s k a0) (hr : RefOk Q w s)
    (hd : DecAt Q w s k a0 c) (hb2 : pos Q w (c + 1) < P.getD k 0) (ha : a0 < pos Q w (c + 1)) (e : Nat) (he : st e = .pass) :
    ∃ u, code2d e s = some u ∧ clampA0 u = u ∧ Mid P w u k (pos Q w (c + 1)) ∧ Same s u ∧ u.blackWhite = s.blackWhite ∧
      ∀ c', Nx Q w k (pos Q w (c + 1)) c' → DecAt Q w u k (pos Q w (c + 1)) c' := by
  have hk := hE.lt
  have haw := hE.lt_w hR hw
  have hpl := hR.prev_le (P.length - (k + 1)) (k + 1) (by omega)
  rw [prev_succ] at hpl
  have hsa : s.a0 = a0 := by rw [hm.a0]; omega
  have hlt := lt_of_pos hQ (show pos Q w (c + 1) < w by omega)
  have r1 := hr.run c (by omega)
  have r2 := hr.run (c + 1) (by omega)
  have hle := hm.le
  refine ⟨{ s with b1 := pos Q w c + s.ref c + s.ref (c + 1), bCursor := c + 2, a0 := pos Q w c + s.ref c, runLength := s.runLength + (pos Q w c + s.ref c - s.a0) }, ?_, ?_, ?_,
    ⟨rfl, rfl, rfl, rfl, rfl, rfl, rfl, rfl, rfl, rfl⟩, rfl, ?_⟩
  · rw [code2d_eq hQ hc hr hd hsa hm.cursor]
    unfold mode2d
    rw [he]
    simp only
    unfold passMode
    have g1 : Dec.getRef { s with b1 := pos Q w c, bCursor := c } c = some (s.ref c) := hr.get hQ c (by omega)
    have g2 : Dec.getRef { s with b1 := pos Q w c, bCursor := c } (c + 1) = some (s.ref (c + 1)) := hr.get hQ (c + 1) (by omega)
    simp only [g1, g2, Option.bind_some]
  · unfold clampA0
    refine if_neg ?_
    show ¬ ((pos Q w c : Int) + s.ref c ≥ s.width)
    rw [hm.width]; omega
  · refine ⟨hm.width, hm.cur, hm.cursor, hm.len, ?_, by omega, ?_⟩
    · simp only
      rw [hm.run, hsa]; omega
    · simp only; omega
  · intro c' hc'
    refine ⟨?_, ?_, ?_, ?_, fun _ => Or.inr ?_⟩
    · show (pos Q w c : Int) + s.ref c + s.ref (c + 1) = (pos Q w (c + 1 + 1) : Int); omega
    · show (c + 2) % 2 = _; have := hc.par; omega
    · show c + 2 ≤ _; omega
    · intro h0
      show c + 2 = c'
      have h1 := hc.par
      have h2 := hc'.par
      have hgt := pos_lt hQ (show 1 ≤ c + 1 by omega) hlt
      have g2 : pos Q w (c + 1) < pos Q w c' := by
        rcases hc'.gt with h3 | h3
        · exact h3
        · omega
      by_cases h5 : c + 2 < c'
      · rcases hc'.lo with h6 | h6
        · omega
        · have := pos_mono hQ (show c + 1 + 1 ≤ c' - 2 by omega); omega
      · by_cases h7 : c' < c + 2
        · have := pos_mono hQ (show c' ≤ c + 1 by omega); omega
        · omega
    · show pos Q w (c + 2 - 2) ≤ _
      rw [show c + 2 - 2 = c by omega]; omega

end

end T4
