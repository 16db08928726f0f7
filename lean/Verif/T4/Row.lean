import Verif.T4.Consume
import Verif.T4.Pack

/-! # The decoder takes a row of one dimensional codes, and hands over a complete row -/

namespace T4

theorem Runs.lt {px : Nat → Bool} {w : Nat} {P : List Nat} (h : Runs px w P) (hw : 0 < w) (k : Nat) (hk : k < P.length) : prev P k < w := by
  have h1 := h.prev_le (P.length - (k + 1)) (k + 1) (by omega)
  rw [prev_succ] at h1
  by_cases h0 : k = 0
  · subst h0; exact hw
  · have := h.mono (k - 1) (by omega)
    unfold prev
    rw [if_neg h0]
    rw [show k - 1 + 1 = k by omega] at this
    omega

theorem Runs.ge {px : Nat → Bool} {w : Nat} {P : List Nat} (h : Runs px w P) : ∀ k, k < P.length → k ≤ P.getD k 0 := by
  intro k
  induction k with
  | zero => intro _; omega
  | succ k ih =>
    intro hk
    have := ih (by omega)
    have := h.mono k hk
    omega

theorem Runs.length_le {px : Nat → Bool} {w : Nat} {P : List Nat} (h : Runs px w P) : P.length ≤ w + 1 := by
  have := h.ge (P.length - 1)
  have h2 := h.last
  unfold prev at h2
  have := List.length_pos_iff.mpr h.ne
  rw [if_neg (by omega)] at h2
  omega

/-- `k` of the runs of the row have been taken, and then as many pixels that the position is `p`. -/
structure Mid (P : List Nat) (w : Nat) (s : Dec) (k p : Nat) : Prop where
  width : s.width = w
  cur : ∀ j, j < k → s.cur j = P.getD j 0 - prev P j
  cursor : s.aCursor = k
  len : s.rowLen = prev P k
  run : s.runLength = (p : Int) - prev P k
  le : prev P k ≤ p
  a0 : s.a0 = min (p : Int) (w - 1)

/-- What the codes of a row do not change. -/
structure Same (s u : Dec) : Prop where
  encoding : u.encoding = s.encoding
  width : u.width = s.width
  rowBuf : u.rowBuf = s.rowBuf
  rowIs2d : u.rowIs2d = s.rowIs2d
  ref : u.ref = s.ref
  eols : u.eols = s.eols
  stream : u.pixelStream = s.pixelStream
  pixels : u.pixels = s.pixels
  bad : u.badRows = s.badRows
  rows : u.rows = s.rows

theorem Same.refl (s : Dec) : Same s s := ⟨rfl, rfl, rfl, rfl, rfl, rfl, rfl, rfl, rfl, rfl⟩

theorem Same.trans {s t u : Dec} (h1 : Same s t) (h2 : Same t u) : Same s u :=
  ⟨h2.encoding.trans h1.encoding, h2.width.trans h1.width, h2.rowBuf.trans h1.rowBuf, h2.rowIs2d.trans h1.rowIs2d, h2.ref.trans h1.ref, h2.eols.trans h1.eols,
    h2.stream.trans h1.stream, h2.pixels.trans h1.pixels, h2.bad.trans h1.bad, h2.rows.trans h1.rows⟩

theorem spanned_same (s : Dec) (n : Nat) : Same s (spanned s n) := ⟨rfl, rfl, rfl, rfl, rfl, rfl, rfl, rfl, rfl, rfl⟩

/-- The rest of a run is taken. -/
theorem Mid.spanned {px : Nat → Bool} {P : List Nat} {w : Nat} (hR : Runs px w P) {s : Dec} {k p : Nat} (h : Mid P w s k p) (hk : k < P.length) (hp : p ≤ P.getD k 0) :
    Mid P w (spanned s (P.getD k 0 - p)) (k + 1) (P.getD k 0) := by
  have hle := h.le
  have hw := hR.prev_le (P.length - (k + 1)) (k + 1) (by omega)
  rw [prev_succ] at hw
  refine ⟨h.width, ?_, by simp only [T4.spanned, h.cursor], ?_, ?_, Nat.le_of_eq (prev_succ _ _), ?_⟩
  · intro j hj
    simp only [T4.spanned]
    by_cases e : j = s.aCursor
    · rw [if_pos e, h.run, e, h.cursor]; omega
    · rw [if_neg e]
      exact h.cur j (by have := h.cursor; omega)
  · simp only [T4.spanned]
    rw [h.len, h.run, prev_succ]; omega
  · simp only [T4.spanned]
    rw [prev_succ]; omega
  · simp only [T4.spanned]
    rw [h.a0, h.width]; omega

/-- The state in which a code may be taken. -/
structure Base (s : Dec) : Prop where
  skip : s.skip = 0
  eols : 0 ≤ s.eols
  t6 : s.encoding = .t6 → s.rowIs2d = true

theorem Base.same {s u : Dec} (h : Base s) (hu : Same s u) (rest : List Bool) : Base (u.rs rest 0) :=
  ⟨rfl, by show 0 ≤ u.eols; rw [hu.eols]; exact h.eols, fun e => hu.rowIs2d.trans (h.t6 (hu.encoding.symm.trans e))⟩

theorem Mid.rs {P : List Nat} {w : Nat} {s : Dec} {k p : Nat} (h : Mid P w s k p) (rest : List Bool) (n : Nat) : Mid P w (s.rs rest n) k p :=
  ⟨h.width, h.cur, h.cursor, h.len, h.run, h.le, h.a0⟩

/-- The rest of a run is taken, with its codes. -/
theorem Mid.span {px : Nat → Bool} {P : List Nat} {w : Nat} (hR : Runs px w P) (hw : 0 < w) {s v : Dec} {k p : Nat} (h : Mid P w s k p) (hk : k < P.length) (hp : p ≤ P.getD k 0) (hb : Base s)
    {c : Bool} (hi : In1d s c) {mk : List Nat} {t : Nat} (hsp : SpanOf (P.getD k 0 - p) mk t) {rest : List Bool} (hx : s.rx = spanBits c mk t ++ rest) (hr : Good rest)
    (hv : fin (T4.spanned s (P.getD k 0 - p)) = some v) : Run s (v.rs rest 0) := by
  have hle := h.le
  have hlt := hR.lt hw k hk
  have hpl := hR.prev_le (P.length - (k + 1)) (k + 1) (by omega)
  rw [prev_succ] at hpl
  have hlen := hR.length_le
  refine span_run hsp hi hb.t6 hx hb.skip hb.eols hr ?_ ?_ ?_ ?_ ?_ hv
  · rw [h.a0, h.width]; exact Int.min_le_right _ _
  · rw [h.run]; omega
  · rw [h.len, h.width]; omega
  · rw [h.len, h.run, h.width]; omega
  · rw [h.cursor, h.width]; omega

theorem odd_succ (k : Nat) : (!(k % 2 == 1)) = ((k + 1) % 2 == 1) := by
  rcases Nat.mod_two_eq_zero_or_one k with hh | hh <;> simp [hh, Nat.add_mod]

/-- A row of one dimensional codes. -/
theorem row1d {px : Nat → Bool} {P : List Nat} {w : Nat} (hR : Runs px w P) (hw : 0 < w) : ∀ n k, k + n = P.length →
    ∃ bits, Emits (loop1d (k % 2 == 1) (prev P k) (P.drop k)) bits ∧ bits.length + 6 * prev P k ≤ 6 * w + (if k = 0 then 10 else 0) ∧ (0 < n → lead bits ≤ 7 ∧ lead bits < bits.length) ∧
      ∀ (s : Dec) (rest : List Bool), Mid P w s k (prev P k) → Base s → s.rowIs2d = false → s.inBlack = (k % 2 == 1) → s.rx = bits ++ rest → Good rest →
        ∃ u, Mid P w u P.length w ∧ Same s u ∧ Run s (u.rs rest 0) := by
  intro n
  induction n with
  | zero =>
    intro k hk
    rw [List.drop_of_length_le (by omega)]
    refine ⟨[], Emits.nil, by have := hR.last; rw [← hk, Nat.add_zero] at this; rw [this]; simp, fun h => absurd h (by omega), ?_⟩
    intro s rest hm hb _ _ hx _
    refine ⟨s, ?_, Same.refl s, ?_⟩
    · have := hR.last
      rw [← hk, Nat.add_zero] at this ⊢
      rw [this] at hm; exact hm
    · have : s.rs rest 0 = s := by
        simp only [List.nil_append] at hx
        cases s
        have := hb.skip
        simp only [Dec.rs, Dec.mk.injEq] at *
        simp [hx, this]
      rw [this]; exact .refl s
  | succ n ih =>
    intro k hk
    obtain ⟨bits, hE, hlen, hl, hrun⟩ := ih (k + 1) (by omega)
    obtain ⟨mk, t, hsp, hE1⟩ := put1d_spec (k % 2 == 1) (P.getD k 0 - prev P k)
    have hle := hR.le k (by omega)
    have hlead := spanBits_lead (k % 2 == 1) hsp
    refine ⟨spanBits (k % 2 == 1) mk t ++ bits, ?_, ?_, ?_, ?_⟩
    · refine (hE1.bind hE).congr fun w => ?_
      have : P.drop k = P.getD k 0 :: P.drop (k + 1) := by
        rw [List.drop_eq_getElem_cons (by omega)]
        congr 1
        simp [List.getD, List.getElem?_eq_getElem (show k < P.length by omega)]
      rw [this, loop1d, if_neg (by omega), odd_succ, prev_succ]
      rfl
    · have h1 := spanBits_len (k % 2 == 1) hsp
      have h2 : k ≠ 0 → prev P k < P.getD k 0 := by
        intro h0
        obtain ⟨j, rfl⟩ : ∃ j, k = j + 1 := ⟨k - 1, by omega⟩
        rw [prev_succ]
        exact hR.mono j (by omega)
      rw [if_neg (by omega), prev_succ] at hlen
      rw [List.length_append]
      by_cases h0 : k = 0
      · rw [if_pos h0]
        split at h1 <;> omega
      · have := h2 h0
        rw [if_neg (by omega)] at h1
        rw [if_neg h0]; omega
    · intro _
      rw [lead_append, if_neg (by omega), List.length_append]; omega
    · intro s rest hm hb h1 hc hx hr
      have h6 : s.encoding ≠ .t6 := fun e => by rw [hb.t6 e] at h1; cases h1
      have hgood : Good (bits ++ rest) := by
        by_cases h0 : 0 < n
        · exact good_append (hl h0) hr.1
        · have : P.drop (k + 1) = [] := List.drop_of_length_le (by omega)
          rw [this] at hE
          obtain ⟨w', e, _, hb2, _⟩ := hE ⟨0, 0, 0, []⟩ ⟨by simp, by simp⟩
          rw [← Option.some.inj e] at hb2
          have : bits = [] := by simpa using hb2
          rw [this]; exact hr
      have hm2 := hm.spanned hR (by omega) hle
      have r1 := hm.span hR hw (by omega) hle hb (c := k % 2 == 1) ⟨fun h => by rw [h1] at h; simp at h, hc⟩ hsp (rest := bits ++ rest) (by rw [hx, List.append_assoc]) hgood
        (v := T4.spanned s (P.getD k 0 - prev P k)) (if_neg fun h => h6 h.1)
      have hs2 := spanned_same s (P.getD k 0 - prev P k)
      rw [← prev_succ P k] at hm2
      obtain ⟨u, hu1, hu2, hu3⟩ := hrun ((T4.spanned s (P.getD k 0 - prev P k)).rs (bits ++ rest) 0) rest (hm2.rs _ _) (hb.same hs2 _) h1
        (by show (!s.inBlack) = _; rw [hc, odd_succ]) rfl hr
      exact ⟨u, hu1, hs2.trans ⟨hu2.encoding, hu2.width, hu2.rowBuf, hu2.rowIs2d, hu2.ref, hu2.eols, hu2.stream, hu2.pixels, hu2.bad, hu2.rows⟩, r1.trans hu3⟩

/-! ## The row is handed over -/

/-- A row has been handed over, and none of the next has come. `Q` has the positions of the changes in it. -/
structure Fresh (Q : List Nat) (w : Nat) (s : Dec) : Prop where
  width : s.width = w
  ref : ∀ j, j < Q.length → s.ref j = Q.getD j 0 - prev Q j
  pad : s.ref Q.length = 0 ∧ s.ref (Q.length + 1) = 0
  cursors : s.aCursor = 0 ∧ s.bCursor = 1
  b1 : s.b1 = s.ref 0
  a0 : s.a0 = 0
  run : s.runLength = 0
  len : s.rowLen = 0
  inBlack : s.inBlack = false
  blackWhite : s.blackWhite = 0
  pixels : s.pixels = 8
  buf : s.rowBuf.length = w / 8

/-- A state between rows, but for what is set after the row has been handed over. -/
theorem putRow_done {row : List Byte} {P : List Nat} {w : Nat} (hR : Runs (black row) w P) (hrow : w = 8 * row.length) {s : Dec} (h : Mid P w s P.length w)
    (hpix : s.pixels = 8) (hbuf : s.rowBuf.length = w / 8) :
    ∃ u, putRow s = some u ∧ Fresh P w { u with inBlack := false, blackWhite := 0, runLength := 0, rowLen := 0 } ∧ u.rows = s.rows ++ [row] ∧ u.badRows = s.badRows ∧
      u.encoding = s.encoding ∧ u.rowIs2d = s.rowIs2d ∧ u.eols = s.eols := by
  obtain ⟨p, e1, e2, e3⟩ := pack_row hR hrow s.cur h.cur s.pixelStream s.rowBuf (by omega)
  have hlen := hR.length_le
  have hrl : s.runLength = 0 := by rw [h.run, hR.last]; omega
  have hpk : packRow s = some { s with pixelStream := p.stream, pixels := p.pixels, rowBuf := p.buf } := by
    unfold packRow
    rw [h.cursor, hpix, e1]; rfl
  have hput : putRow s = some (swapRow { s with pixelStream := p.stream, pixels := p.pixels, rowBuf := p.buf, cur := fun j => if j = s.aCursor + 1 then 0 else if j = s.aCursor then 0 else s.cur j }) := by
    unfold putRow
    rw [if_neg (fun h => h hrl)]
    simp only [Option.bind_some]
    rw [if_pos (by rw [h.len, hR.last, h.width]), hpk]
    simp only [Option.bind_some]
    have hc := h.cursor
    have hwd := h.width
    have s1 : ∀ (d : Dec) (i : Nat), d.width = w → i < w + 4 → d.setCur i 0 = some { d with cur := fun j => if j = i then 0 else d.cur j } := by
      intro d i hd hi
      exact if_pos (by unfold Dec.space; omega)
    rw [s1 _ _ (by exact hwd) (by omega)]
    simp only [Option.bind_some]
    rw [s1 _ _ (by exact hwd) (by omega)]
    rfl
  have hpos := List.length_pos_iff.mpr hR.ne
  refine ⟨_, hput, ⟨h.width, ?_, ?_, ⟨rfl, rfl⟩, rfl, rfl, rfl, rfl, rfl, rfl, e2, ?_⟩, ?_, rfl, rfl, rfl, rfl⟩
  · intro j hj
    simp only [swapRow, h.cursor]
    rw [if_neg (by omega), if_neg (by omega)]
    exact h.cur j hj
  · simp only [swapRow, h.cursor]
    exact ⟨by rw [if_neg (by omega), if_pos trivial], by rw [if_pos trivial]⟩
  · simp only [swapRow, e3]; omega
  · simp only [swapRow, e3]

/-- The end of a row of T.6. -/
theorem fin_t6 {row : List Byte} {P : List Nat} {w : Nat} (hR : Runs (black row) w P) (hrow : w = 8 * row.length) {s : Dec} (h : Mid P w s P.length w)
    (hpix : s.pixels = 8) (hbuf : s.rowBuf.length = w / 8) (h6 : s.encoding = .t6) (hbw : s.blackWhite = 0) :
    ∃ u, fin s = some u ∧ Fresh P w u ∧ u.rows = s.rows ++ [row] ∧ u.badRows = s.badRows ∧ u.encoding = s.encoding ∧ u.rowIs2d = s.rowIs2d ∧ u.eols = s.eols := by
  obtain ⟨u, e, hf, hr⟩ := putRow_done hR hrow h hpix hbuf
  refine ⟨_, ?_, hf, hr⟩
  unfold fin
  rw [if_pos ⟨h6, hbw, by rw [h.len, hR.last, h.width]⟩]
  unfold endT6
  rw [if_neg (by rw [h.run, hR.last]; omega)]
  simp only [Option.bind_some, e]

end T4
