import Verif.NonEcm.Image

/-!
# The buffer does not change an image (C32)
-/

namespace NonEcm

/-! ## The split of the data into calls -/

theorem tcfStart_append (s : State) (h : s.phase = .tcfOnes) (a b : List Octet) : tcfStart s (a ++ b) = inject (tcfStart s a) b := by
  induction a with
  | nil => simp only [List.nil_append, tcfStart, inject, h]
  | cons x a ih =>
    simp only [List.cons_append, tcfStart]
    by_cases hx : x ≠ 0xFF
    · rw [if_pos hx, if_pos hx, ← List.cons_append, List.foldl_append]
      have : ∀ (l : List Octet) (q : State), q.phase = .tcfZeros → (l.foldl tcfOctet q).phase = .tcfZeros := by
        intro l
        induction l with
        | nil => exact fun _ h => h
        | cons y l ih => exact fun q h => ih _ h
      simp only [inject, this (x :: a) { s with phase := .tcfZeros, fill := 0x00 } rfl]
    · rw [if_neg hx, if_neg hx, ih]

theorem tcfOctets_phase (l : List Octet) (q : State) (h : q.phase = .tcfZeros) : (l.foldl tcfOctet q).phase = .tcfZeros := by
  induction l generalizing q with
  | nil => exact h
  | cons y l ih => exact ih _ h

theorem extendRow_phase (n : Nat) (q : State) : (extendRow n q).phase = q.phase := by
  induction n generalizing q with
  | zero => rfl
  | succ n ih =>
    unfold extendRow
    split
    · rw [ih]; rfl
    · rfl

theorem imageOctet_phase (q : State) (b : Octet) : (imageOctet q b).phase = q.phase := by
  unfold imageOctet
  simp only [store, shiftIn]
  split
  · unfold nextEol
    simp only
    split
    · exact extendRow_phase _ _
    · rfl
  · rfl

theorem imageOctets_phase (l : List Octet) (q : State) (h : q.phase = .inProgress) : (l.foldl imageOctet q).phase = .inProgress := by
  induction l generalizing q with
  | nil => exact h
  | cons y l ih => exact ih _ ((imageOctet_phase q y).trans h)

theorem imageStart_append (s : State) (h : s.phase = .waiting) (a b : List Octet) : imageStart s (a ++ b) = inject (imageStart s a) b := by
  induction a generalizing s with
  | nil => simp only [List.nil_append, imageStart, inject, h]
  | cons x a ih =>
    simp only [List.cons_append, imageStart]
    by_cases hx : isEol s x = true
    · rw [if_pos hx, if_pos hx, List.foldl_append]
      simp only [inject, imageOctets_phase a (firstEol s x) rfl]
    · rw [if_neg hx, if_neg hx]
      exact ih _ h

/-- It does not matter how the octets are divided among calls. -/
theorem inject_append (s : State) (a b : List Octet) : inject s (a ++ b) = inject (inject s a) b := by
  cases h : s.phase with
  | tcfOnes =>
    simp only [inject, h]
    exact tcfStart_append s h a b
  | tcfZeros =>
    simp only [inject, h, tcfOctets_phase a s h, List.foldl_append]
  | waiting =>
    simp only [inject, h]
    exact imageStart_append s h a b
  | inProgress =>
    simp only [inject, h, imageOctets_phase a s h, List.foldl_append]

/-! ## Images -/

/-- A schedule keeps the invariant. -/
theorem run_inv {s : State} {i o r h : List Octet} (hi : Inv s i o r h) (sent : List Bool) (hs : sent ++ current s = bits o) (ops : List Op)
    (hroom : Room s ops) :
    ∃ bs o' r' h', (run s ops).2 = bs.map some ∧ Inv (run s ops).1 (i ++ arrived ops) o' r' h' ∧ sent ++ bs ++ current (run s ops).1 = bits o' ∧
      (run s ops).1.minBits = s.minBits := by
  induction ops generalizing s i o r h sent with
  | nil => exact ⟨[], o, r, h, rfl, by simpa [arrived, run] using hi, by simpa [run] using hs, rfl⟩
  | cons op ops ih =>
    cases op with
    | put b =>
      obtain ⟨r1, h1, i1, c1, d1⟩ := inv_put hi b hroom.1
      obtain ⟨bs, o', r', h', e1, e2, e3, e4⟩ := ih i1 sent (by rw [c1]; exact hs) hroom.2
      exact ⟨bs, o', r', h', e1, by rw [List.append_assoc] at e2; exact e2, e3, e4.trans d1⟩
    | get =>
      obtain ⟨b, o1, r1, g1, g2, g3, g4⟩ := inv_get hi
      obtain ⟨bs, o', r', h', e1, e2, e3, e4⟩ := ih g2 (sent ++ [b])
        (by rw [List.append_assoc, List.singleton_append, ← g3, bits_append, ← hs, List.append_assoc]) hroom
      refine ⟨b :: bs, o', r', h', ?_, e2, ?_, e4.trans g4⟩
      · simp only [run, List.map_cons, g1, e1]
      · rw [List.append_assoc sent [b] bs] at e3
        exact e3

/-- After the end of the data was told, all that is in the buffer is sent, and then the end is told to the modem. -/
theorem drain (n : Nat) (s : State) (r : List Octet) (hr : Ring s r []) (hf : s.finished = true) (h8 : s.bitNo ≤ 8) (hn : s.bitNo + 8 * r.length = n) :
    (run s (List.replicate (n + 1) .get)).2 = (current s ++ bits r).map some ++ [none] ∧
      ∃ q, (run s (List.replicate (n + 1) .get)).1 = restart q ∧ q.bitNo = 0 ∧ q.imageMode = s.imageMode ∧ q.minBits = s.minBits := by
  induction n generalizing s r with
  | zero =>
    have h0 : s.bitNo = 0 := by omega
    have hr0 : r = [] := List.eq_nil_of_length_eq_zero (by omega)
    subst hr0
    simp only [List.replicate_succ, List.replicate_zero, run]
    unfold getBit
    rw [if_pos h0, if_neg (fun hh => hh (hr.eq_iff.2 rfl)), if_pos hf]
    refine ⟨?_, s, rfl, h0, rfl, rfl⟩
    simp only [current, h0]
    rfl
  | succ n ih =>
    rw [List.replicate_succ, run]
    by_cases h0 : s.bitNo = 0
    · cases r with
      | nil => simp only [List.length_nil] at hn; omega
      | cons a r =>
        have hget : getBit s = shiftOut { s with octet := a.setWidth 32, outPtr := (s.outPtr + 1) % size, bitNo := 8 } := by
          unfold getBit
          rw [if_pos h0, if_pos (fun hh => by have := hr.eq_iff.1 hh; cases this), hr.head]
        obtain ⟨b, hb, hc⟩ := shiftOut_sends { s with octet := a.setWidth 32, outPtr := (s.outPtr + 1) % size, bitNo := 8 } (by simp) (Nat.le_refl 8)
        rw [current_loaded { s with octet := a.setWidth 32, outPtr := (s.outPtr + 1) % size, bitNo := 8 } a rfl rfl] at hc
        have hcur : current s = [] := by simp only [current, h0]; rfl
        simp only [List.length_cons] at hn
        obtain ⟨hrun, q, q1, q2, q3, q4⟩ := ih (getBit s).1 r (by rw [hget]; exact hr.pop rfl rfl rfl rfl) (by rw [hget]; exact hf) (by rw [hget]; show 8 - 1 ≤ 8; omega)
          (by rw [hget]; show 8 - 1 + 8 * r.length = n; omega)
        refine ⟨?_, q, q1, q2, by rw [q3, hget]; rfl, by rw [q4, hget]; rfl⟩
        simp only [hrun]
        rw [hget, hb, hcur, bits_cons, ← hc]
        rfl
    · have hget : getBit s = shiftOut s := by
        unfold getBit
        rw [if_neg h0]
      obtain ⟨b, hb, hc⟩ := shiftOut_sends s h0 h8
      obtain ⟨hrun, q, q1, q2, q3, q4⟩ := ih (getBit s).1 r (by rw [hget]; exact Ring.congr hr rfl rfl rfl rfl) (by rw [hget]; exact hf) (by rw [hget]; show s.bitNo - 1 ≤ 8; omega)
        (by rw [hget]; show s.bitNo - 1 + 8 * r.length = n; omega)
      refine ⟨?_, q, q1, q2, by rw [q3, hget]; rfl, by rw [q4, hget]; rfl⟩
      simp only [hrun]
      rw [hget, hb, ← hc]
      rfl

theorem length_bits (l : List Octet) : (bits l).length = 8 * l.length := by
  induction l with
  | nil => rfl
  | cons a l ih => rw [bits_cons, List.length_append, ih, bitsOf_length, List.length_cons]; omega

theorem length_current (s : State) : (current s).length = s.bitNo := by simp [current]

/-- What may become of a row of the image. The first row is row 0. An EOL is right behind another if it ends a row of 12 or 13 bits, except that the first
row is taken to be eight bits shorter than it is. -/
def RowKept (minBits : Int) (k a b : Nat) : Prop :=
  if a = (if k = 0 then 20 else 12) ∨ a = (if k = 0 then 21 else 13) then b = a else a ≤ b ∧ minBits ≤ b

theorem RowOk.kept {min : Int} {k a b : Nat} (h : RowOk min k a b) : RowKept min k a b := by
  have hc : Close k a ↔ a = (if k = 0 then 20 else 12) ∨ a = (if k = 0 then 21 else 13) := by
    unfold Close counted
    by_cases hk : k = 0
    · simp only [hk, if_true]
      omega
    · simp only [hk, if_false]
      omega
  unfold RowKept
  by_cases hh : a = (if k = 0 then 20 else 12) ∨ a = (if k = 0 then 21 else 13)
  · rw [if_pos hh]
    exact h.1 (hc.2 hh)
  · rw [if_neg hh]
    exact h.2 (fun hx => hh (hc.1 hx))

/-- Whatever the schedule, as long as the buffer does not overflow: the image the modem gets is the image which arrived, with the rows no shorter than
they were, and long enough, except that nothing is put between two EOLs which are right behind each other. When the data has ended the modem gets the
rest, and is then told of the end. The buffer is then as it was at the start. -/
theorem image_flows (s : State) (himg : s.imageMode = true) (h0 : s.bitNo = 0) (ops : List Op) (hroom : Room (restart s) ops) :
    ∃ sent rest q, (run (restart s) ops).2 = sent.map some ∧
      run (push (run (restart s) ops).1) (List.replicate (rest.length + 1) .get) = (restart q, rest.map some ++ [none]) ∧
      q.imageMode = true ∧ q.bitNo = 0 ∧ q.minBits = s.minBits ∧
      image (sent ++ rest) = image (bits (arrived ops)) ∧
      (rows (sent ++ rest)).length = (rows (bits (arrived ops))).length ∧
      ∀ k a b, (rows (bits (arrived ops)))[k]? = some a → (rows (sent ++ rest))[k]? = some b → RowKept s.minBits k a b := by
  have hcur : current (restart s) = [] := by
    have : (restart s).bitNo = 0 := h0
    simp only [current, this]
    rfl
  obtain ⟨bs, o, r, h, e1, e2, e3, e4⟩ := run_inv (inv_restart s himg h0) [] (by rw [hcur]; rfl) ops hroom
  generalize (run (restart s) ops).1 = s' at e2 e3 e4
  have hmin : s'.minBits = s.minBits := e4
  have hr : Ring (push s') (r ++ h) [] := e2.ring.mark rfl rfl rfl rfl
  obtain ⟨hd, q, q1, q2, q3, q4⟩ := drain _ (push s') (r ++ h) hr rfl e2.bitNo rfl
  have hlen : (current s' ++ bits (r ++ h)).length = (push s').bitNo + 8 * (r ++ h).length := by
    rw [List.length_append, length_bits, length_current]
    rfl
  have hall : bs ++ (current s' ++ bits (r ++ h)) = bits o ++ (bits r ++ bits h) := by
    rw [List.nil_append] at e3
    rw [← List.append_assoc, e3, bits_append]
  rw [List.nil_append] at e2
  refine ⟨bs, current s' ++ bits (r ++ h), q, e1, ?_, q3.trans e2.image, q2, q4.trans hmin, ?_⟩
  · rw [hlen, ← q1]
    exact Prod.ext rfl hd
  · rw [hall]
    rcases e2.phase with ⟨p1, p2, p3, p4, p5, p6⟩ | ⟨p1, p2, p3, p4, p5, p6⟩
    · subst p3 p4
      have ho : bits o ++ (bits [] ++ bits []) = bits o := List.append_nil _
      simp only [image, rows]
      rw [p6, ho, (ones_stream o p5).1]
      exact ⟨rfl, rfl, fun k a b ha => by cases ha⟩
    · obtain ⟨rs, ri, t1, t2, t3, t4, t5, t6⟩ := p6
      rw [bits_append, List.append_assoc] at t1
      refine ⟨p4.image, ?_⟩
      simp only [rows]
      rw [t1, t2]
      exact ⟨t5.1.symm, fun k a b ha hb => (hmin ▸ t5.2 k a b ha hb).kept⟩

/-- The image the modem gets is the image which arrived. -/
theorem image_preserved (minBits : Int) (ops : List Op) (hroom : Room (init true minBits) ops) :
    ∃ sent rest, (run (init true minBits) ops).2 = sent.map some ∧
      (run (push (run (init true minBits) ops).1) (List.replicate (rest.length + 1) .get)).2 = rest.map some ++ [none] ∧
      image (sent ++ rest) = image (bits (arrived ops)) := by
  obtain ⟨sent, rest, q, h1, h2, _, _, _, h3, _⟩ := image_flows ⟨minBits, fun _ => 0, 0, 0, 0, 0, 0, 0, .tcfOnes, false, 0, 0, true⟩ rfl rfl ops hroom
  exact ⟨sent, rest, h1, congrArg Prod.snd h2, h3⟩

/-- The rows the modem gets are long enough, and nothing is put between EOLs which are right behind each other, with the exception of the first row. -/
theorem row_lengths_partial (minBits : Int) (ops : List Op) (hroom : Room (init true minBits) ops) :
    ∃ sent rest, (run (init true minBits) ops).2 = sent.map some ∧
      (run (push (run (init true minBits) ops).1) (List.replicate (rest.length + 1) .get)).2 = rest.map some ++ [none] ∧
      (rows (sent ++ rest)).length = (rows (bits (arrived ops))).length ∧
      ∀ (k a b : Nat), 0 < k → (rows (bits (arrived ops)))[k]? = some a → (rows (sent ++ rest))[k]? = some b →
        if a = 12 ∨ a = 13 then b = a else a ≤ b ∧ minBits ≤ b := by
  obtain ⟨sent, rest, q, h1, h2, _, _, _, _, h4, h5⟩ := image_flows ⟨minBits, fun _ => 0, 0, 0, 0, 0, 0, 0, .tcfOnes, false, 0, 0, true⟩ rfl rfl ops hroom
  refine ⟨sent, rest, h1, congrArg Prod.snd h2, h4, fun k a b hk ha hb => ?_⟩
  have := h5 k a b ha hb
  unfold RowKept at this
  have hk0 : k ≠ 0 := by omega
  simp only [hk0, if_false] at this
  exact this

/-- An example: ones, an EOL, a row and an EOL, with bits taken in between, so that the buffer has to add octets. -/
def exampleOps : List Op :=
  List.replicate 8 .get ++ [.put 0xFF, .put 0x00, .put 0x1B, .put 0x55] ++ List.replicate 40 .get ++ [.put 0xA0, .put 0x00, .put 0x10, .put 0x77] ++
    List.replicate 32 .get

instance (s : State) (ops : List Op) : Decidable (Room s ops) := by
  induction ops generalizing s with
  | nil => exact isTrue trivial
  | cons op ops ih =>
    cases op with
    | put b => exact @instDecidableAnd _ _ inferInstance (ih _)
    | get => exact ih _

example : Room (init true 0) exampleOps := by decide +kernel

example : image (bits (arrived exampleOps)) = some (squeeze 0 (bitsOf 0xB |>.drop 4 |>.append (bits [0x55, 0xA0, 0x00, 0x10, 0x77]))) := by decide +kernel

example : rows (bits (arrived exampleOps)) = [32] := by decide +kernel

/-- Two rows and an RTC, with a minimum of 40 bits to a row. -/
def exampleRows : List Op := [0x00, 0x00, 0x1B, 0x55, 0xA0, 0x00, 0x16, 0x00, 0x10, 0x01, 0x00, 0x10, 0x01].map .put

example : Room (init true 40) exampleRows := by decide +kernel

example : rows (bits (arrived exampleRows)) = [32, 16, 12, 12, 12] := by decide +kernel

/-- With an EOL right behind the first the buffer does put zeros between the two. -/
theorem first_row_stretched :
    let ops := [0x00, 0x01, 0x00, 0x10, 0x01, 0x00, 0x10].map Op.put
    let out := (run (push (run (init true 40) ops).1) (List.replicate 105 .get)).2.filterMap id
    rows (bits (arrived ops)) = [12, 12, 12] ∧ rows out = [52, 12, 12] := by decide +kernel

/-- The first row is taken to be eight bits shorter than it is: one of 20 bits is not extended at all. -/
theorem first_row_short :
    let ops := [0x00, 0x01, 0x55, 0x00, 0x10, 0x55].map Op.put
    let out := (run (push (run (init true 40) ops).1) (List.replicate 96 .get)).2.filterMap id
    rows (bits (arrived ops)) = [20] ∧ rows out = [20] := by decide +kernel

end NonEcm
