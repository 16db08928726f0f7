import Verif.T4.Page

/-! # What the encoder sends for a page, and what the decoder makes of it -/

namespace T4

/-- What the bits of the rows to come depend on. -/
def core (s : Enc) : Enc := { s with w := ⟨0, 0, s.w.rowBits, []⟩, rows := [] }

theorem core_eq {s c : Enc} (h : core s = c) : s.encoding = c.encoding ∧ s.width = c.width ∧ s.minBits = c.minBits ∧ s.maxRows = c.maxRows ∧ s.rowsTo1d = c.rowsTo1d ∧
    s.rowIs2d = c.rowIs2d ∧ s.w.rowBits = c.w.rowBits ∧ s.ref = c.ref ∧ s.refSteps = c.refSteps := by
  subst h
  exact ⟨rfl, rfl, rfl, rfl, rfl, rfl, rfl, rfl, rfl⟩

theorem eq_core {s c : Enc} (h0 : core c = c) (h1 : s.encoding = c.encoding) (h2 : s.width = c.width) (h3 : s.minBits = c.minBits) (h4 : s.maxRows = c.maxRows) (h5 : s.rowsTo1d = c.rowsTo1d)
    (h6 : s.rowIs2d = c.rowIs2d) (h7 : s.w.rowBits = c.w.rowBits) (h8 : s.ref = c.ref) (h9 : s.refSteps = c.refSteps) : core s = c := by
  rw [← h0]
  unfold core
  rw [h1, h2, h3, h4, h5, h6, h7, h8, h9]

/-- The zeros before an EOL. -/
def fillOf (s : Enc) : Nat :=
  let length : Nat := if s.encoding = .t4_2d then 13 else 12
  if s.w.rowBits ≠ 0 ∧ s.encoding ≠ .t6 ∧ s.w.rowBits + length < s.minBits then (s.minBits - (s.w.rowBits + length)).toNat else 0

/-- The zeros before an EOL, with the EOL, are no more than the number of bits which there shall be in a row. -/
theorem fillOf_le {s : Enc} {w : Nat} (h0 : 0 ≤ s.w.rowBits) (h : s.minBits + 13 ≤ 8 * w) : fillOf s = 0 ∨ fillOf s + 25 ≤ 8 * w := by
  unfold fillOf
  simp only
  generalize hk : (if s.encoding = .t4_2d then 13 else 12 : Nat) = k
  have : 12 ≤ k := by rw [← hk]; split <;> omega
  split
  · right; omega
  · left; rfl

theorem fillOf_core (s : Enc) : fillOf (core s) = fillOf s := rfl

theorem toBits_eol : toBits 12 0x800 = List.replicate 11 false ++ [true] ∧ toBits 13 0x800 = List.replicate 11 false ++ [true, false] ∧
    toBits 13 0x1800 = List.replicate 11 false ++ [true, true] := by decide +kernel

theorem encodeEol_spec (s : Enc) (ok : WOk s.w) : ∃ x : W, encodeEol s = { s with w := x } ∧ WOk x ∧ x.rowBits = 0 ∧
    x.bits = s.w.bits ++ (List.replicate (fillOf s) false ++ eolBits s.encoding (!s.rowIs2d)) := by
  have hfill : ∃ y : W, WOk y ∧ y.bits = s.w.bits ++ List.replicate (fillOf s) false ∧
      y = (if s.w.rowBits ≠ 0 ∧ s.encoding ≠ .t6 ∧ s.w.rowBits + ((if s.encoding = .t4_2d then 13 else 12 : Nat) : Int) < s.minBits then
        putBits s.w 0 (s.minBits - (s.w.rowBits + ((if s.encoding = .t4_2d then 13 else 12 : Nat) : Int))).toNat else s.w) := by
    refine ⟨_, ?_, ?_, rfl⟩
    · generalize ((if s.encoding = .t4_2d then 13 else 12 : Nat) : Int) = k
      split
      · exact (putBits_spec s.w 0 _ ok (Nat.two_pow_pos _) (Or.inr rfl)).1
      · exact ok
    · unfold fillOf
      simp only
      generalize ((if s.encoding = .t4_2d then 13 else 12 : Nat) : Int) = k
      split
      · rw [(putBits_spec s.w 0 _ ok (Nat.two_pow_pos _) (Or.inr rfl)).2.1, toBits_zero]
      · simp
  obtain ⟨y, hy1, hy2, hy3⟩ := hfill
  have hlen : (match s.encoding with | .t4_2d => 13 | _ => 12 : Nat) = if s.encoding = .t4_2d then 13 else 12 := by cases s.encoding <;> rfl
  refine ⟨{ putBits y (match s.encoding with | .t4_2d => if s.rowIs2d then 0x0800 else 0x1800 | _ => 0x0800) (match s.encoding with | .t4_2d => 13 | _ => 12) with rowBits := 0 },
    ?_, ?_, rfl, ?_⟩
  · rw [hy3, ← hlen]
    unfold encodeEol
    cases s.encoding <;> rfl
  · have : WOk (putBits y (match s.encoding with | .t4_2d => if s.rowIs2d then 0x0800 else 0x1800 | _ => 0x0800) (match s.encoding with | .t4_2d => 13 | _ => 12)) := by
      cases s.encoding
      · exact (putBits_spec y 0x800 12 hy1 (by omega) (Or.inl (by omega))).1
      · cases s.rowIs2d
        · exact (putBits_spec y 0x1800 13 hy1 (by omega) (Or.inl (by omega))).1
        · exact (putBits_spec y 0x800 13 hy1 (by omega) (Or.inl (by omega))).1
      · exact (putBits_spec y 0x800 12 hy1 (by omega) (Or.inl (by omega))).1
    exact ⟨this.1, this.2⟩
  · rw [← List.append_assoc, ← hy2]
    show (putBits y _ _).bits = _
    obtain ⟨t1, t2, t3⟩ := toBits_eol
    cases s.encoding
    · exact (putBits_spec y 0x800 12 hy1 (by omega) (Or.inl (by omega))).2.1
    · cases s.rowIs2d
      · exact (putBits_spec y 0x1800 13 hy1 (by omega) (Or.inl (by omega))).2.1
      · exact (putBits_spec y 0x800 13 hy1 (by omega) (Or.inl (by omega))).2.1
    · exact (putBits_spec y 0x800 12 hy1 (by omega) (Or.inl (by omega))).2.1

/-- The bits of some EOLs. -/
theorem eols_spec : ∀ n (s : Enc), WOk s.w → s.w.rowBits = 0 → ∃ x : W, eols n s = { s with w := x } ∧ WOk x ∧ x.rowBits = 0 ∧
    x.bits = s.w.bits ++ eolsBits s.encoding (!s.rowIs2d) n := by
  intro n
  induction n with
  | zero => intro s ok h0; exact ⟨s.w, rfl, ok, h0, by simp [eolsBits]⟩
  | succ n ih =>
    intro s ok h0
    obtain ⟨x, e1, ok1, r1, b1⟩ := encodeEol_spec s ok
    obtain ⟨y, e2, ok2, r2, b2⟩ := ih { s with w := x } ok1 r1
    refine ⟨y, ?_, ok2, r2, ?_⟩
    · rw [eols, e1, e2]
    · have hf : fillOf s = 0 := by unfold fillOf; simp only; rw [if_neg (fun hh => hh.1 h0)]
      rw [b2, b1, hf, eolsBits]
      simp

/-- The ones at the very end. -/
theorem ones_end (x : W) (ok : WOk x) : ∃ j, j < 8 ∧ bitsOf (putBits x 0xFF 7).buf = x.bits ++ List.replicate j true := by
  obtain ⟨h1, h2⟩ := ok
  obtain ⟨tx, n, rb, buf⟩ := x
  simp only at h1 h2
  have hfin : ∀ n, n < 8 → n ≠ 0 → ∀ tx, tx < 2 ^ n → toBits 8 ((tx ||| 0xFF * 2 ^ n) % 2 ^ 32) = toBits n tx ++ List.replicate (8 - n) true := by decide +kernel
  by_cases h0 : n = 0
  · subst h0
    refine ⟨0, by omega, ?_⟩
    obtain rfl : tx = 0 := by omega
    simp [putBits, emit, W.bits, toBits]
  · refine ⟨8 - n, by omega, ?_⟩
    have hb : (putBits ⟨tx, n, rb, buf⟩ 0xFF 7).buf = buf ++ [BitVec.ofNat 8 ((tx ||| 0xFF * 2 ^ n) % 2 ^ 32)] := by
      unfold putBits
      simp only
      obtain ⟨k, hk⟩ : ∃ k, n + 7 = k + 2 := ⟨n + 5, by omega⟩
      rw [hk, emit, if_pos (by omega), emit, if_neg (by omega)]
    rw [hb, bitsOf_append, show bitsOf [BitVec.ofNat 8 ((tx ||| 0xFF * 2 ^ n) % 2 ^ 32)] = octetBits (BitVec.ofNat 8 ((tx ||| 0xFF * 2 ^ n) % 2 ^ 32)) by simp [bitsOf],
      octetBits_ofNat, hfin n h1 h0 tx h2]
    unfold W.bits
    rw [List.append_assoc]

/-- The bits which are sent from a state for rows, but for the ones at the very end. -/
inductive Plan : Enc → List (List Byte) → List Bool → Prop where
  | nil {c : Enc} {B : List Bool} : 0 ≤ c.w.rowBits → 8 ≤ B.length → B.length ≤ 16 * c.width + 9 →
      (∀ s, core s = c → WOk s.w → (finalise s).w.rowBits = -1 ∧ ∃ j, j < 8 ∧ bitsOf (finalise s).w.buf = s.w.bits ++ B ++ List.replicate j true) → Plan c [] B
  | cons {c c' : Enc} {row : List Byte} {t : List (List Byte)} {b B : List Bool} : 0 ≤ c.w.rowBits → b.length ≤ 16 * c.width + 16 →
      (∀ s, core s = c → WOk s.w → ∃ s', encodeRow s row = some s' ∧ core s' = c' ∧ WOk s'.w ∧ s'.w.bits = s.w.bits ++ b) → Plan c' t B → c'.width = c.width → Plan c (row :: t) (b ++ B)

theorem eolsBits_length (e : Encoding) (m : Bool) (n : Nat) : (eolsBits e m n).length = n * (if e = .t4_2d then 13 else 12) := by
  induction n with
  | zero => simp [eolsBits]
  | succ n ih => rw [eolsBits, List.length_append, ih, eolBits_length, Nat.succ_mul, Nat.add_comm]

theorem finalise_of (s t : Enc) (h : (if s.encoding = .t6 then eols 2 s else eols 6 { s with rowIs2d := false }) = t) :
    finalise s = { t with w := { putBits t.w 0xFF 7 with rowBits := -1 } } := by
  subst h
  unfold finalise
  cases s.encoding <;> rfl

theorem finalise_t6 (s : Enc) (ok : WOk s.w) (h6 : s.encoding = .t6) : (finalise s).w.rowBits = -1 ∧
    ∃ j, j < 8 ∧ bitsOf (finalise s).w.buf = s.w.bits ++ eolsBits .t6 (!s.rowIs2d) 2 ++ List.replicate j true := by
  obtain ⟨x, e1, ok1, r1, b1⟩ := encodeEol_spec s ok
  obtain ⟨y, e2, ok2, r2, b2⟩ := eols_spec 1 { s with w := x } ok1 r1
  have e : eols 2 s = { s with w := y } := by rw [eols, e1, e2]
  have hb : y.bits = s.w.bits ++ eolsBits .t6 (!s.rowIs2d) 2 := by
    have hf : fillOf s = 0 := by unfold fillOf; simp only; rw [if_neg (fun hh => hh.2.1 h6)]
    rw [b2, b1, hf]
    simp only [h6, eolsBits, List.replicate_zero, List.nil_append, List.append_assoc]
  rw [finalise_of s { s with w := y } (by rw [if_pos h6, e]), ← hb]
  exact ⟨rfl, ones_end y ok2⟩

theorem finalise_t4 (s : Enc) (ok : WOk s.w) (h6 : s.encoding ≠ .t6) : (finalise s).w.rowBits = -1 ∧
    ∃ j, j < 8 ∧ bitsOf (finalise s).w.buf = s.w.bits ++ (List.replicate (fillOf s) false ++ eolsBits s.encoding true 6) ++ List.replicate j true := by
  obtain ⟨x, e1, ok1, r1, b1⟩ := encodeEol_spec { s with rowIs2d := false } ok
  obtain ⟨y, e2, ok2, r2, b2⟩ := eols_spec 5 { s with rowIs2d := false, w := x } ok1 r1
  have e : eols 6 { s with rowIs2d := false } = { s with rowIs2d := false, w := y } := by rw [eols, e1, e2]
  have hb : y.bits = s.w.bits ++ (List.replicate (fillOf s) false ++ eolsBits s.encoding true 6) := by
    rw [b2, b1]
    show (s.w.bits ++ (List.replicate (fillOf s) false ++ eolBits s.encoding true)) ++ eolsBits s.encoding true 5 = _
    rw [show eolsBits s.encoding true 6 = eolBits s.encoding true ++ eolsBits s.encoding true 5 from rfl]
    simp only [List.append_assoc]
  rw [finalise_of s { s with rowIs2d := false, w := y } (by rw [if_neg h6, e]), ← hb]
  exact ⟨rfl, ones_end y ok2⟩

/-- What comes next begins with a code or with an EOL. -/
def Head (B : List Bool) : Prop := 12 ≤ B.length ∧ lead B < B.length ∧ lead B ≠ 8 ∧ lead B ≠ 9 ∧ lead B ≠ 10

theorem Head.good {B : List Bool} (h : Head B) (t : List Bool) : Good (B ++ t) := by
  obtain ⟨h1, h2, h3⟩ := h
  refine ⟨by rw [List.length_append]; omega, ?_⟩
  rw [lead_append, if_neg (by omega)]; exact h3

theorem Starts.head {b B : List Bool} (h : Starts b) (hB : Head B) : Head (b ++ B) := by
  obtain ⟨h1, h2⟩ := h
  obtain ⟨h3, _⟩ := hB
  refine ⟨by rw [List.length_append]; omega, ?_⟩
  rw [lead_append, if_neg (by omega), List.length_append]; omega

theorem fill_head (n : Nat) (e : Encoding) (m : Bool) (x : List Bool) : Head (List.replicate n false ++ (eolBits e m ++ x)) := by
  have hl : (eolBits e m ++ x).length = (if e = .t4_2d then 13 else 12) + x.length := by rw [List.length_append, eolBits_length]
  have h12 : 12 ≤ (eolBits e m ++ x).length := by rw [hl]; split <;> omega
  refine ⟨by rw [List.length_append]; omega, ?_⟩
  rw [lead_append, if_pos (by rw [lead_replicate, List.length_replicate]), eolBits_lead, List.length_append, List.length_replicate]
  omega

section
variable {w : Nat} {e : Encoding}

/-- A row of one dimensional codes is sent. -/
theorem send_1d {row : List Byte} {bits : List Bool} (hE : Emits (loop1d false 0 (rowToRuns row w)) bits) (s : Enc) (hs : s.width = w) (ok : WOk s.w) :
    ∃ x, encode1d s row = some { s with w := x, ref := stretch (rowToRuns row w), refSteps := (rowToRuns row w).length } ∧ WOk x ∧ x.bits = s.w.bits ++ bits ∧
      x.rowBits = s.w.rowBits + bits.length := by
  obtain ⟨x, e1, h⟩ := hE s.w ok
  refine ⟨x, ?_, h⟩
  unfold encode1d
  simp only
  rw [hs, e1]; rfl

/-- A row of two dimensional codes is sent. -/
theorem send_2d {row : List Byte} {Q : List Nat} {bits : List Bool}
    (hE : Emits (fun x => loop2d row w (stretch (rowToRuns row w)) (rowToRuns row w).length (stretch Q) Q.length (w + 2) x 0 0 0) bits) (s : Enc) (hs : s.width = w)
    (hr : s.ref = stretch Q) (hn : s.refSteps = Q.length) (ok : WOk s.w) :
    ∃ x, encode2d s row = some { s with w := x, ref := stretch (rowToRuns row w), refSteps := (rowToRuns row w).length } ∧ WOk x ∧ x.bits = s.w.bits ++ bits ∧
      x.rowBits = s.w.rowBits + bits.length := by
  obtain ⟨x, e1, h⟩ := hE s.w ok
  refine ⟨x, ?_, h⟩
  simp only at e1
  unfold encode2d
  simp only
  rw [hs, hr, hn, e1]; rfl

theorem encodeRow_t6 {s : Enc} {row : List Byte} (h : s.encoding = .t6) : encodeRow s row = encode2d s row := by
  unfold encodeRow
  split
  · rfl
  · rename_i h2; rw [h] at h2; cases h2
  · rename_i h2; rw [h] at h2; cases h2

theorem encodeRow_1d {s : Enc} {row : List Byte} (h : s.encoding = .t4_1d) : encodeRow s row = encode1d (encodeEol s) row := by
  unfold encodeRow
  split
  · rename_i h2; rw [h] at h2; cases h2
  · rename_i h2; rw [h] at h2; cases h2
  · rfl

theorem encodeRow_2d {s : Enc} {row : List Byte} (h : s.encoding = .t4_2d) : encodeRow s row =
    (if (encodeEol s).rowIs2d = true then (encode2d (encodeEol s) row).map fun s => { s with rowsTo1d := s.rowsTo1d - 1 }
      else (encode1d (encodeEol s) row).map fun s => { s with rowIs2d := true }).map
      fun s => if s.rowsTo1d ≤ 0 then { s with rowIs2d := false, rowsTo1d := s.maxRows - 1 } else s := by
  unfold encodeRow
  split
  · rename_i h2; rw [h] at h2; cases h2
  · rfl
  · rename_i h2; rw [h] at h2; cases h2

/-- The decoder ends with these rows. -/
def Ends (d : Dec) (rows : List (List Byte)) : Prop := ∃ t, L d = some (t, true) ∧ t.eols = 6 ∧ t.rows = rows ∧ t.badRows = 0

theorem Ends.run {d u : Dec} {rows : List (List Byte)} (r : Run d u) (h : Ends u rows) : Ends d rows := by
  unfold Ends at *
  rw [r.L]; exact h

/-- A T.6 page. -/
theorem plan_t6 (hw : 8 ≤ w) : ∀ (rows : List (List Byte)) (c : Enc) (Q : List Nat) (px : Nat → Bool), (∀ r ∈ rows, w = 8 * r.length) → c.encoding = .t6 → c.width = w →
    Runs px w Q → c.ref = stretch Q → c.refSteps = Q.length → 0 ≤ c.w.rowBits →
    ∃ B, Plan c rows B ∧ Head B ∧ ∀ (all : List (List Byte)) (d : Dec) (tail : List Bool), tail ≠ [] → Gap Q w .t6 all d → d.rowIs2d = true → d.skip = 0 → d.rx = B ++ tail →
      Ends d (all ++ rows) := by
  intro rows
  induction rows with
  | nil =>
    intro c Q px _ h6 hwd hQ _ _ h0
    refine ⟨eolsBits .t6 (!c.rowIs2d) 2, .nil h0 (by rw [eolsBits_length]; decide) (by rw [eolsBits_length, if_neg (by decide)]; omega) ?_, ?_, ?_⟩
    · intro s hs ok
      have hc := core_eq hs
      rw [← hc.2.2.2.2.2.1]
      exact finalise_t6 s ok (hc.1.trans h6)
    · exact fill_head 0 .t6 _ _
    · intro all d tail ht hg _ _ hx
      rw [List.append_nil]
      exact eols_end _ tail ht 1 0 d hg.idle rfl hx
  | cons row t ih =>
    intro c Q px hrows h6 hwd hQ href hsteps h0
    have hR := rowToRuns_spec row w (by omega)
    obtain ⟨bits, hE, hS, hT, hlen⟩ := encode2d_spec hR hQ (by omega)
    obtain ⟨B, hp, hh, hd⟩ := ih { c with w := ⟨0, 0, c.w.rowBits + bits.length, []⟩, ref := stretch (rowToRuns row w), refSteps := (rowToRuns row w).length, rows := [] } (rowToRuns row w)
      (black row) (fun r hr => hrows r (List.mem_cons_of_mem _ hr)) h6 hwd hR rfl rfl (by simp only; omega)
    refine ⟨bits ++ B, .cons h0 (by omega) ?_ hp rfl, hS.head hh, ?_⟩
    · intro s hs ok
      obtain ⟨c1, c2, c3, c4, c5, c6, c7, c8, c9⟩ := core_eq hs
      obtain ⟨x, e1, ok1, b1, r1⟩ := send_2d hE s (c2.trans hwd) (c8.trans href) (c9.trans hsteps) ok
      refine ⟨{ s with w := x, ref := stretch (rowToRuns row w), refSteps := (rowToRuns row w).length }, ?_, ?_, ok1, b1⟩
      · rw [encodeRow_t6 (c1.trans h6), e1]
      · exact eq_core rfl c1 c2 c3 c4 c5 c6 (by rw [← c7]; exact r1) rfl rfl
    · intro all d tail ht hg hd2 hs hx
      obtain ⟨u, hu, hu2, r⟩ := row_t6 hR (hrows row List.mem_cons_self) hQ (by omega) hT d (B ++ tail) hg hd2 hs (by rw [hx, List.append_assoc]) (hh.good _)
      have := hd (all ++ [row]) (u.rs (B ++ tail) 0) tail ht (hu.rs _ 0) hu2 rfl rfl
      rw [List.append_assoc] at this
      exact this.run r

/-- The state of the decoder between the codes of a row and the EOL before the next. -/
def Pend (first : Bool) (Q : List Nat) (w : Nat) (e : Encoding) (all : List (List Byte)) (d : Dec) : Prop :=
  if first then Wait w e d ∧ Q = [w] ∧ all = []
  else ∃ row rows, all = rows ++ [row] ∧ Runs (black row) w Q ∧ w = 8 * row.length ∧ Done Q w e rows d

theorem eol_pend (hw : 0 < w) {first : Bool} {Q : List Nat} {all : List (List Byte)} {d : Dec} (h : Pend first Q w e all d) (n : Nat) (hn : first = true → n = 0) (m : Bool) (rest : List Bool)
    (hrest : rest ≠ []) (hs : d.skip = 0) (hx : d.rx = List.replicate n false ++ (eolBits e m ++ rest)) :
    ∃ u, Gap Q w e all u ∧ (e = .t4_2d → u.rowIs2d = !m) ∧ (e = .t4_1d → u.rowIs2d = false) ∧ Run d (u.rs rest 0) := by
  cases first with
  | true =>
    obtain ⟨h1, rfl, rfl⟩ := h
    obtain rfl := hn rfl
    obtain ⟨u, a, b, c⟩ := eol_wait h1 m rest hrest hx
    exact ⟨u, a, fun hh => by rw [b, if_pos hh], fun hh => by rw [b, if_neg (by rw [hh]; decide)], c⟩
  | false =>
    obtain ⟨row, rows, rfl, hR, hrow, hd⟩ := h
    obtain ⟨v, hv, r1⟩ := fill_run hR m rest hrest n d hd hs hx
    obtain ⟨u, a, b, r2⟩ := eol_done hR hrow hw (hv.rs (eolBits e m ++ rest)) m rest hrest rfl
    refine ⟨u, a, fun hh => by rw [b, if_pos hh], fun hh => ?_, r1.trans r2⟩
    rw [b, if_neg (by rw [hh]; decide)]
    exact hv.oneD hh

theorem enc_t4 (h : e ≠ .t6) : e = .t4_1d ∨ e = .t4_2d := by
  cases e with
  | t6 => exact absurd rfl h
  | t4_1d => exact Or.inl rfl
  | t4_2d => exact Or.inr rfl

/-- A T.4 page. -/
theorem plan_t4 (hw : 8 ≤ w) (h6 : e ≠ .t6) : ∀ (rows : List (List Byte)) (c : Enc) (first : Bool) (Q : List Nat) (px : Nat → Bool), (∀ r ∈ rows, w = 8 * r.length) → c.encoding = e →
    c.width = w → (e = .t4_1d → c.rowIs2d = false) → Runs px w Q → c.ref = stretch Q → c.refSteps = Q.length → 0 ≤ c.w.rowBits → (first = true → c.w.rowBits = 0) → c.minBits + 13 ≤ 8 * w →
    ∃ B, Plan c rows B ∧ Head B ∧ ∀ (all : List (List Byte)) (d : Dec) (tail : List Bool), tail ≠ [] → Pend first Q w e all d → d.skip = 0 → d.rx = B ++ tail →
      Ends d (all ++ rows) := by
  intro rows
  induction rows with
  | nil =>
    intro c first Q px _ he hwd _ hQ _ _ h0 hf hmin
    refine ⟨List.replicate (fillOf c) false ++ eolsBits e true 6, .nil h0 ?_ ?_ ?_, fill_head _ e _ _, ?_⟩
    · rw [List.length_append, eolsBits_length]
      split <;> omega
    · have := fillOf_le h0 (show c.minBits + 13 ≤ 8 * w from hmin)
      rw [List.length_append, List.length_replicate, eolsBits_length]
      split <;> omega
    · intro s hs ok
      have hc := core_eq hs
      have := finalise_t4 s ok (by rw [hc.1, he]; exact h6)
      rw [← fillOf_core s, hs, hc.1, he] at this
      exact this
    · intro all d tail ht hp hs hx
      rw [List.append_nil]
      obtain ⟨u, hu, _, _, r⟩ := eol_pend (by omega) hp (fillOf c) (fun hh => by unfold fillOf; simp only; rw [if_neg (fun h2 => h2.1 (hf hh))]) true (eolsBits e true 5 ++ tail) (by simp [ht]) hs
        (by rw [hx, show eolsBits e true 6 = eolBits e true ++ eolsBits e true 5 from rfl]; simp only [List.append_assoc])
      refine Ends.run r ?_
      exact eols_end true tail ht 4 0 _ (hu.idle.rs _ 0) (by unfold ends; rw [if_neg h6]) rfl
  | cons row t ih =>
    intro c first Q px hrows he hwd h1d hQ href hsteps h0 hf hmin
    have hfill := fillOf_le h0 hmin
    have heol : ∀ m, (eolBits e m).length ≤ 13 := fun m => by rw [eolBits_length]; split <;> omega
    have hR := rowToRuns_spec row w (by omega)
    have hpend : ∀ {d all}, Done (rowToRuns row w) w e all d → Pend false (rowToRuns row w) w e (all ++ [row]) d :=
      fun h => ⟨row, _, rfl, hR, hrows row List.mem_cons_self, h⟩
    by_cases h2 : c.rowIs2d = true
    · -- A two dimensional row.
      have he2 : e = .t4_2d := by
        rcases enc_t4 h6 with h | h
        · rw [h1d h] at h2; cases h2
        · exact h
      obtain ⟨bits, hE, hS, hT, hlen⟩ := encode2d_spec hR hQ (by omega)
      obtain ⟨B, hp, hh, hd⟩ := ih { c with w := ⟨0, 0, bits.length, []⟩, ref := stretch (rowToRuns row w), refSteps := (rowToRuns row w).length, rows := [], rowIs2d := if c.rowsTo1d - 1 ≤ 0 then false else true, rowsTo1d := if c.rowsTo1d - 1 ≤ 0 then c.maxRows - 1 else c.rowsTo1d - 1 }
        false (rowToRuns row w) (black row) (fun r hr => hrows r (List.mem_cons_of_mem _ hr)) he hwd (fun hh => by rw [he2] at hh; cases hh) hR rfl rfl (by simp only; omega) (fun hh => by cases hh) hmin
      refine ⟨(List.replicate (fillOf c) false ++ (eolBits e false ++ bits)) ++ B, .cons h0 (by
        have := heol false
        simp only [List.length_append, List.length_replicate]; omega) ?_ hp rfl, ?_, ?_⟩
      · intro s hs ok
        obtain ⟨c1, c2, c3, c4, c5, c6, c7, c8, c9⟩ := core_eq hs
        obtain ⟨y, e0, ok0, r0, b0⟩ := encodeEol_spec s ok
        obtain ⟨x, e1, ok1, b1, r1⟩ := send_2d hE { s with w := y } (c2.trans hwd) (c8.trans href) (c9.trans hsteps) ok0
        have hrow : encodeRow s row = some (if s.rowsTo1d - 1 ≤ 0 then
            { s with w := x, ref := stretch (rowToRuns row w), refSteps := (rowToRuns row w).length, rowIs2d := false, rowsTo1d := s.maxRows - 1 }
            else { s with w := x, ref := stretch (rowToRuns row w), refSteps := (rowToRuns row w).length, rowsTo1d := s.rowsTo1d - 1 }) := by
          rw [encodeRow_2d (c1.trans (he.trans he2)), e0, if_pos (show ({ s with w := y } : Enc).rowIs2d = true from c6.trans h2), e1]; rfl
        refine ⟨_, hrow, ?_, ?_, ?_⟩
        · rw [← c5, ← c4]
          have hr : x.rowBits = bits.length := by rw [r1, r0]; omega
          split
          · exact eq_core rfl c1 c2 c3 rfl rfl rfl hr rfl rfl
          · exact eq_core rfl c1 c2 c3 rfl rfl (c6.trans h2) hr rfl rfl
        · split <;> exact ok1
        · have : x.bits = s.w.bits ++ (List.replicate (fillOf c) false ++ (eolBits e false ++ bits)) := by
            rw [b1]
            show y.bits ++ bits = _
            rw [b0, ← fillOf_core s, hs, c6, h2, c1, he]
            simp only [List.append_assoc]; rfl
          split <;> exact this
      · rw [List.append_assoc, List.append_assoc]; exact fill_head _ _ _ _
      · intro all d tail ht hpd hs hx
        obtain ⟨u, hu, hu2, _, r⟩ := eol_pend (by omega) hpd (fillOf c) (fun hh => by unfold fillOf; simp only; rw [if_neg (fun h2 => h2.1 (hf hh))]) false (bits ++ (B ++ tail)) (by simp [ht]) hs
          (by rw [hx]; simp only [List.append_assoc])
        obtain ⟨v, hv, r2⟩ := row_2d hQ (by omega) hT (u.rs (bits ++ (B ++ tail)) 0) (B ++ tail) (hu.rs _ 0) he2 (hu2 he2) rfl rfl (hh.good _)
        have := hd (all ++ [row]) (v.rs (B ++ tail) 0) tail ht (hpend (hv.rs _)) rfl rfl
        rw [List.append_assoc] at this
        exact this.run (r.trans r2)
    · -- A one dimensional row.
      have h2 : c.rowIs2d = false := by simpa using h2
      obtain ⟨bits, hE, hlen, hS, hT⟩ := row_1d hR (by omega)
      have hdec : ∀ (B : List Bool), Head B → (∀ (all : List (List Byte)) (d : Dec) (tail : List Bool), tail ≠ [] → Pend false (rowToRuns row w) w e all d → d.skip = 0 → d.rx = B ++ tail →
          Ends d (all ++ t)) → ∀ (all : List (List Byte)) (d : Dec) (tail : List Bool), tail ≠ [] → Pend first Q w e all d → d.skip = 0 →
          d.rx = (List.replicate (fillOf c) false ++ (eolBits e true ++ bits)) ++ B ++ tail → Ends d (all ++ row :: t) := by
        intro B hh hd all d tail ht hpd hs hx
        obtain ⟨u, hu, hu2, hu1, r⟩ := eol_pend (by omega) hpd (fillOf c) (fun hh => by unfold fillOf; simp only; rw [if_neg (fun h2 => h2.1 (hf hh))]) true (bits ++ (B ++ tail)) (by simp [ht]) hs
          (by rw [hx]; simp only [List.append_assoc])
        have hmode : u.rowIs2d = false := by
          rcases enc_t4 h6 with h | h
          · exact hu1 h
          · exact hu2 h
        obtain ⟨v, hv, r2⟩ := hT _ _ _ (u.rs (bits ++ (B ++ tail)) 0) (B ++ tail) (hu.rs _ 0) h6 hmode rfl rfl (hh.good _)
        have := hd (all ++ [row]) (v.rs (B ++ tail) 0) tail ht (hpend (hv.rs _)) rfl rfl
        rw [List.append_assoc] at this
        exact this.run (r.trans r2)
      have hsend : ∀ s, core s = c → WOk s.w → ∃ x : W, encode1d (encodeEol s) row = some { s with w := x, ref := stretch (rowToRuns row w), refSteps := (rowToRuns row w).length } ∧ WOk x ∧
          x.rowBits = bits.length ∧ x.bits = s.w.bits ++ (List.replicate (fillOf c) false ++ (eolBits e true ++ bits)) := by
        intro s hs ok
        obtain ⟨c1, c2, c3, c4, c5, c6, c7, c8, c9⟩ := core_eq hs
        obtain ⟨y, e0, ok0, r0, b0⟩ := encodeEol_spec s ok
        obtain ⟨x, e1, ok1, b1, r1⟩ := send_1d hE { s with w := y } (c2.trans hwd) ok0
        refine ⟨x, by rw [e0, e1], ok1, by rw [r1, r0]; omega, ?_⟩
        rw [b1]
        show y.bits ++ bits = _
        rw [b0, ← fillOf_core s, hs, c6, h2, c1, he]
        simp only [List.append_assoc]; rfl
      by_cases he2 : e = .t4_2d
      · obtain ⟨B, hp, hh, hd⟩ := ih { c with w := ⟨0, 0, bits.length, []⟩, ref := stretch (rowToRuns row w), refSteps := (rowToRuns row w).length, rows := [], rowIs2d := if c.rowsTo1d ≤ 0 then false else true, rowsTo1d := if c.rowsTo1d ≤ 0 then c.maxRows - 1 else c.rowsTo1d }
          false (rowToRuns row w) (black row) (fun r hr => hrows r (List.mem_cons_of_mem _ hr)) he hwd (fun hh => by rw [he2] at hh; cases hh) hR rfl rfl (by simp only; omega) (fun hh => by cases hh) hmin
        refine ⟨(List.replicate (fillOf c) false ++ (eolBits e true ++ bits)) ++ B, .cons h0 (by
          have := heol true
          simp only [List.length_append, List.length_replicate]; omega) ?_ hp rfl, ?_, hdec B hh hd⟩
        · intro s hs ok
          obtain ⟨c1, c2, c3, c4, c5, c6, c7, c8, c9⟩ := core_eq hs
          obtain ⟨x, e1, ok1, r1, b1⟩ := hsend s hs ok
          have hrow : encodeRow s row = some (if s.rowsTo1d ≤ 0 then
              { s with w := x, ref := stretch (rowToRuns row w), refSteps := (rowToRuns row w).length, rowIs2d := false, rowsTo1d := s.maxRows - 1 }
              else { s with w := x, ref := stretch (rowToRuns row w), refSteps := (rowToRuns row w).length, rowIs2d := true }) := by
            have hz : (encodeEol s).rowIs2d = false := c6.trans h2
            rw [encodeRow_2d (c1.trans (he.trans he2)), if_neg (by rw [hz]; decide), e1]; rfl
          refine ⟨_, hrow, ?_, ?_, ?_⟩
          · rw [← c5, ← c4]
            split
            · exact eq_core rfl c1 c2 c3 rfl rfl rfl r1 rfl rfl
            · exact eq_core rfl c1 c2 c3 rfl rfl rfl r1 rfl rfl
          · split <;> exact ok1
          · split <;> exact b1
        · rw [List.append_assoc, List.append_assoc]; exact fill_head _ _ _ _
      · have he1 : e = .t4_1d := (enc_t4 h6).resolve_right he2
        obtain ⟨B, hp, hh, hd⟩ := ih { c with w := ⟨0, 0, bits.length, []⟩, ref := stretch (rowToRuns row w), refSteps := (rowToRuns row w).length, rows := [] }
          false (rowToRuns row w) (black row) (fun r hr => hrows r (List.mem_cons_of_mem _ hr)) he hwd h1d hR rfl rfl (by simp only; omega) (fun hh => by cases hh) hmin
        refine ⟨(List.replicate (fillOf c) false ++ (eolBits e true ++ bits)) ++ B, .cons h0 (by
          have := heol true
          simp only [List.length_append, List.length_replicate]; omega) ?_ hp rfl, ?_, hdec B hh hd⟩
        · intro s hs ok
          obtain ⟨c1, c2, c3, c4, c5, c6, c7, c8, c9⟩ := core_eq hs
          obtain ⟨x, e1, ok1, r1, b1⟩ := hsend s hs ok
          exact ⟨{ s with w := x, ref := stretch (rowToRuns row w), refSteps := (rowToRuns row w).length }, (encodeRow_1d (c1.trans (he.trans he1))).trans e1,
            eq_core rfl c1 c2 c3 c4 c5 c6 r1 rfl rfl, ok1, b1⟩
        · rw [List.append_assoc, List.append_assoc]; exact fill_head _ _ _ _

end

end T4
