import Verif.NonEcm.Rows

/-!
# The image on its way through the buffer
-/

namespace NonEcm

/-- The bits of the current octet which are still to be sent. -/
def current (s : State) : List Bool := (List.range s.bitNo).map fun j => s.octet.getLsbD (7 - j)

theorem bit_seven (x : BitVec 32) : decide ((x >>> 7) &&& 1 = 1) = x.getLsbD 7 := by
  have h : ((x >>> 7) &&& 1 = 1#32) ↔ x.getLsbD 7 = true := by
    constructor
    · intro h
      have := congrArg (fun y => y.getLsbD 0) h
      simpa using this
    · intro h
      apply BitVec.eq_of_getLsbD_eq
      intro i hi
      by_cases h0 : i = 0
      · subst h0; simpa using h
      · simp [BitVec.getLsbD_one, h0]
  by_cases hb : x.getLsbD 7 = true
  · rw [hb]; exact decide_eq_true (h.2 hb)
  · rw [Bool.not_eq_true] at hb
    rw [hb]
    exact decide_eq_false (fun hh => by rw [h.1 hh] at hb; cases hb)

theorem shiftOut_sends (s : State) (h : s.bitNo ≠ 0) (h8 : s.bitNo ≤ 8) :
    ∃ b, (shiftOut s).2 = some b ∧ b :: current (shiftOut s).1 = current s := by
  refine ⟨_, rfl, ?_⟩
  rw [bit_seven]
  simp only [current, shiftOut]
  obtain ⟨n, hn⟩ : ∃ n, s.bitNo = n + 1 := ⟨s.bitNo - 1, by omega⟩
  rw [hn, Nat.add_sub_cancel, List.range_succ_eq_map, List.map_cons, List.map_map]
  congr 1
  refine List.map_congr_left fun j hj => ?_
  have := List.mem_range.1 hj
  simp only [BitVec.getLsbD_shiftLeft, Function.comp]
  rw [decide_eq_true (by omega : 7 - j < 32), decide_eq_false (by omega : ¬ (7 - j < 1))]
  simp only [Bool.not_false, Bool.true_and]
  congr 1

theorem current_loaded (s : State) (b : Octet) (h : s.octet = b.setWidth 32) (h8 : s.bitNo = 8) : current s = bitsOf b := by
  simp only [current, bitsOf, h8, h]
  refine List.map_congr_left fun j hj => ?_
  simp only [BitVec.getLsbD_setWidth]
  rw [decide_eq_true (by omega : 7 - j < 32), Bool.true_and]

/-- A row is made long enough. -/
theorem extendRow_spec (n : Nat) (s : State) (r h : List Octet) (hr : Ring s r h) (hn : (s.minBits - s.rowBits).toNat ≤ n)
    (hroom : s.minBits - s.rowBits ≤ 8 * ((size : Int) - 1 - (r.length + h.length))) :
    ∃ m, Ring (extendRow n s) r (h ++ List.replicate m 0) ∧ extendRow n s = { s with
      data := (extendRow n s).data
      inPtr := (extendRow n s).inPtr
      rowBits := s.rowBits + 8 * m } ∧ (m = 0 ∨ s.rowBits + 8 * (m - 1 : Int) < s.minBits) ∧ s.minBits ≤ s.rowBits + 8 * m := by
  induction n generalizing s h with
  | zero => exact ⟨0, by simpa [extendRow] using hr, by simp [extendRow], Or.inl rfl, by omega⟩
  | succ n ih =>
    unfold extendRow
    by_cases hc : s.rowBits < s.minBits
    · rw [if_pos hc]
      have hr1 : Ring { s with rowBits := s.rowBits + 8 } r h := Ring.congr hr rfl rfl rfl rfl
      have e1 : (store { s with rowBits := s.rowBits + 8 } 0).rowBits = s.rowBits + 8 := rfl
      have e2 : (store { s with rowBits := s.rowBits + 8 } 0).minBits = s.minBits := rfl
      obtain ⟨m, h1, h3, h4, h5⟩ := ih (store { s with rowBits := s.rowBits + 8 } 0) (h ++ [0])
        (Ring.store hr1 0 (by omega)) (by rw [e1, e2]; omega) (by rw [e1, e2]; simp only [List.length_append, List.length_cons, List.length_nil]; omega)
      rw [e1, e2] at h4 h5
      refine ⟨m + 1, ?_, ?_, Or.inr ?_, ?_⟩
      · rw [List.append_assoc] at h1
        exact h1
      · conv => lhs; rw [h3]
        simp only [store]
        congr 1
        omega
      · rcases h4 with h4 | h4
        · subst h4; omega
        · omega
      · omega
    · rw [if_neg hc]
      exact ⟨0, by simpa using hr, by simp, Or.inl rfl, by omega⟩

/-- The buffer while it carries an image: what has arrived, what has been loaded for sending, what waits. -/
structure Inv (s : State) (input output ready held : List Octet) : Prop where
  ring : Ring s ready held
  live : s.finished = false
  image : s.imageMode = true
  bitNo : s.bitNo ≤ 8
  tail : Tail s.bitStream (zc 0 (bits input))
  phase : (s.phase = .waiting ∧ s.fill = 0xFF ∧ ready = [] ∧ held = [] ∧ (∀ b ∈ output, b = 0xFF) ∧ afterEol 0 (bits input) = none) ∨
    (s.phase = .inProgress ∧ s.fill = 0 ∧ -8 ≤ s.rowBits ∧ Same (bits output ++ (bits ready ++ bits held)) (bits input) ∧
      Eol (zc 0 (bits (output ++ ready))) (bits held) ∧ Track s.minBits s.rowBits (bits input) (bits (output ++ ready)) (bits held))

/-- The buffer is ready for an image. -/
theorem inv_restart (s : State) (h1 : s.imageMode = true) (h2 : s.bitNo = 0) : Inv (restart s) [] [] [] [] := by
  refine ⟨⟨by decide, by show 0 < size; decide, rfl, rfl, fun k hk => by cases hk⟩, rfl, h1, by show s.bitNo ≤ 8; omega, tail_start,
    Or.inl ⟨?_, rfl, rfl, rfl, by simp, rfl⟩⟩
  show (if s.imageMode then Phase.waiting else .tcfOnes) = .waiting
  rw [h1]
  rfl

/-- Taking a bit. -/
theorem inv_get {s : State} {i o r h : List Octet} (hi : Inv s i o r h) :
    ∃ b o' r', (getBit s).2 = some b ∧ Inv (getBit s).1 i (o ++ o') r' h ∧ current s ++ bits o' = b :: current (getBit s).1 ∧
      (getBit s).1.minBits = s.minBits := by
  unfold getBit
  by_cases h0 : s.bitNo = 0
  · have hcur : current s = [] := by simp only [current, h0]; rfl
    rw [if_pos h0]
    cases r with
    | cons a r =>
      rw [if_pos (fun hh => by have := hi.ring.eq_iff.1 hh; cases this), hi.ring.head]
      obtain ⟨b, hb, hc⟩ := shiftOut_sends { s with octet := a.setWidth 32, outPtr := (s.outPtr + 1) % size, bitNo := 8 } (by simp) (Nat.le_refl 8)
      refine ⟨b, [a], r, hb, ⟨hi.ring.pop rfl rfl rfl rfl, hi.live, hi.image, by show 8 - 1 ≤ 8; omega, hi.tail, ?_⟩, ?_, rfl⟩
      · rcases hi.phase with h1 | ⟨h1, h2, h3, h4, h5, h6⟩
        · cases h1.2.2.1
        · refine Or.inr ⟨h1, h2, h3, ?_, ?_, ?_⟩
          · rw [bits_append, bits_one, List.append_assoc, ← List.append_assoc (bitsOf a)]
            exact h4
          · rw [List.append_assoc]; exact h5
          · rw [List.append_assoc]; exact h6
      · rw [hc, hcur, List.nil_append, bits_one]
        exact (current_loaded _ a rfl rfl).symm
    | nil =>
      rw [if_neg (fun hh => hh (hi.ring.eq_iff.2 rfl)), if_neg (show ¬ s.finished = true by rw [hi.live]; simp)]
      obtain ⟨b, hb, hc⟩ := shiftOut_sends { s with octet := s.fill.setWidth 32, bitNo := 8 } (by simp) (Nat.le_refl 8)
      refine ⟨b, [s.fill], [], hb, ⟨Ring.congr hi.ring rfl rfl rfl rfl, hi.live, hi.image, by show 8 - 1 ≤ 8; omega, hi.tail, ?_⟩, ?_, rfl⟩
      · rcases hi.phase with ⟨h1, h2, h3, h4, h5, h6⟩ | ⟨h1, h2, h3, h4, h5, h6⟩
        · refine Or.inl ⟨h1, h2, rfl, h4, ?_, h6⟩
          intro x hx
          rcases List.mem_append.1 hx with hx | hx
          · exact h5 x hx
          · rw [List.mem_singleton.1 hx, h2]
        · refine Or.inr ⟨h1, h2, h3, ?_, ?_, ?_⟩
          · rw [bits_append, bits_one, h2, bitsOf_zero, List.append_assoc]
            have := h4.insert (a := bits o) (b := bits [] ++ bits h) (by rw [List.append_nil] at h5; exact h5) 8
            exact this
          · rw [List.append_nil] at h5 ⊢
            rw [h2, bits_append, zc_append]
            refine h5.more ?_
            rw [bits_one, bitsOf_zero, zc_zeros]
            omega
          · rw [List.append_nil] at h5 h6 ⊢
            rw [h2, bits_append, bits_one, bitsOf_zero]
            exact h6.fill h5 8
      · rw [hc, hcur, List.nil_append, bits_one]
        exact (current_loaded _ s.fill rfl rfl).symm
  · rw [if_neg h0]
    obtain ⟨b, hb, hc⟩ := shiftOut_sends s h0 hi.bitNo
    refine ⟨b, [], r, hb, ?_, by rw [hc]; exact List.append_nil _, rfl⟩
    rw [List.append_nil]
    exact ⟨Ring.congr hi.ring rfl rfl rfl rfl, hi.live, hi.image, by show s.bitNo - 1 ≤ 8; have := hi.bitNo; omega, hi.tail, hi.phase⟩

theorem current_congr {s q : State} (h1 : q.octet = s.octet) (h2 : q.bitNo = s.bitNo) : current q = current s := by
  simp only [current, h1, h2]

/-- The first EOL in a stream. -/
theorem afterEol_next {i : List Bool} (h : afterEol 0 i = none) (b : Octet) :
    (Eol (zc 0 i) (bitsOf b) → ∃ l t, bitsOf b = List.replicate l false ++ true :: t ∧ afterEol 0 (i ++ bitsOf b) = some t) ∧
    (¬ Eol (zc 0 i) (bitsOf b) → afterEol 0 (i ++ bitsOf b) = none) := by
  rw [afterEol_append_none _ _ _ h]
  constructor
  · rintro ⟨l, t, e, hl⟩
    refine ⟨l, t, e, ?_⟩
    rw [e, afterEol_zeros]
    exact if_pos hl
  · intro hn
    by_cases hb : b = 0
    · subst hb
      rw [bitsOf_zero]
      have := afterEol_zeros (zc 0 i) 8 []
      rw [List.append_nil] at this
      rw [this]
      rfl
    · obtain ⟨h1, h2, h3⟩ := bitsOf_lead b hb
      have hl := bitsOf_length b
      rw [h1] at hn ⊢
      rw [h1] at hl
      generalize (7 - lower b).toNat = l at hn hl ⊢
      rw [afterEol_zeros]
      have hlt : ¬ (zc 0 i + l ≥ 11) := fun hge => hn ⟨l, _, rfl, hge⟩
      simp only [afterEol]
      rw [if_neg hlt]
      simp only [List.length_append, List.length_cons, List.length_replicate] at hl
      exact afterEol_short _ _ (by omega)

theorem ones_stream (o : List Octet) (h : ∀ b ∈ o, b = 0xFF) : afterEol 0 (bits o) = none ∧ zc 0 (bits o) = 0 := by
  have : o = List.replicate o.length 0xFF := List.eq_replicate_iff.2 ⟨rfl, h⟩
  rw [this]
  clear h this
  generalize o.length = n
  induction n with
  | zero => exact ⟨rfl, rfl⟩
  | succ n ih =>
    rw [List.replicate_succ, bits_cons, bitsOf_ones]
    exact ih

/-- The arrival of an octet. -/
theorem inv_put {s : State} {i o r h : List Octet} (hi : Inv s i o r h) (b : Octet) (hroom : level s + s.minBits.toNat / 8 + 4 < size) :
    ∃ r' h', Inv (inject s [b]) (i ++ [b]) o r' h' ∧ current (inject s [b]) = current s ∧ (inject s [b]).minBits = s.minBits := by
  rw [hi.ring.level] at hroom
  have htail : Tail ((s.bitStream <<< 8) ||| b.setWidth 32) (zc 0 (bits (i ++ [b]))) := by
    rw [bits_append, bits_one, zc_append]
    exact tail_next hi.tail b
  rcases hi.phase with ⟨h1, h2, h3, h4, h5, h6⟩ | ⟨h1, h2, h3, h4, h5, h6⟩
  · subst h3 h4
    have hin : inject s [b] = if isEol s b then firstEol s b else shiftIn s b := by
      simp only [inject, h1, imageStart, List.foldl_nil]
    rw [hin]
    obtain ⟨a1, a2⟩ := afterEol_next h6 b
    by_cases he : isEol s b = true
    · rw [if_pos he]
      have heol := (isEol_iff hi.tail b).1 he
      obtain ⟨l, t, e1, e2⟩ := a1 heol
      obtain ⟨o1, o2⟩ := ones_stream o h5
      have hmark : s.eolPtr = s.inPtr := by rw [hi.ring.eol, hi.ring.inp]; rfl
      have hr0 : Ring { s with phase := .inProgress, rowBits := lower b - 8, eolPtr := s.inPtr, fill := 0x00 } [] [] :=
        Ring.congr hi.ring rfl hmark.symm rfl rfl
      have hr1 := hr0.store 0x00 (by simp only [List.length_nil]; decide)
      have hr2 := hr1.store 0x00 (by simp only [List.length_nil, List.length_append, List.length_cons]; decide)
      have hr3 := hr2.store b (by simp only [List.length_nil, List.length_append, List.length_cons]; decide)
      have hb : b ≠ 0 := by
        rintro rfl
        simp [isEol] at he
      refine ⟨[], [0, 0, b], ⟨Ring.congr hr3 rfl rfl rfl rfl, hi.live, hi.image, hi.bitNo, htail, Or.inr ⟨rfl, rfl, ?_, ?_, ?_, ?_⟩⟩, rfl, rfl⟩
      · show -8 ≤ lower b - 8
        have := (bitsOf_lead b hb).2.1
        omega
      · refine ⟨t, t, ?_, by rw [bits_append, bits_one]; exact e2, rfl, rfl⟩
        show afterEol 0 (bits o ++ (bits [] ++ bits [0, 0, b])) = some t
        rw [afterEol_append_none _ _ _ o1, o2]
        show afterEol 0 (bitsOf 0 ++ (bitsOf 0 ++ (bitsOf b ++ []))) = some t
        rw [bitsOf_zero, List.append_nil, e1, afterEol_zeros, afterEol_zeros, afterEol_zeros]
        exact if_pos (by omega)
      · refine ⟨16 + l, t, ?_, by omega⟩
        show bitsOf 0 ++ (bitsOf 0 ++ (bitsOf b ++ [])) = _
        rw [bitsOf_zero, List.append_nil, e1, ← List.append_assoc, ← List.append_assoc, List.replicate_append_replicate, List.replicate_append_replicate]
      · rw [bits_append i, bits_one, List.append_nil]
        refine Track.first h6 heol o1 ?_
        show bitsOf 0 ++ (bitsOf 0 ++ (bitsOf b ++ [])) = _
        rw [bitsOf_zero, List.append_nil, ← List.append_assoc, List.replicate_append_replicate]
    · rw [if_neg he]
      refine ⟨[], [], ⟨Ring.congr hi.ring rfl rfl rfl rfl, hi.live, hi.image, hi.bitNo, htail, Or.inl ⟨h1, h2, rfl, rfl, h5, ?_⟩⟩, rfl, rfl⟩
      rw [bits_append, bits_one]
      exact a2 (fun hh => he ((isEol_iff hi.tail b).2 hh))
  · have hin : inject s [b] = imageOctet s b := by
      simp only [inject, h1, List.foldl_cons, List.foldl_nil]
    rw [hin]
    have hsame := h4.append (bitsOf b)
    have hsame' : Same (bits o ++ (bits r ++ bits (h ++ [b]))) (bits (i ++ [b])) := by
      rw [bits_append, bits_append, bits_one, ← List.append_assoc (bits r), ← List.append_assoc]
      exact hsame
    have heol' : Eol (zc 0 (bits (o ++ r))) (bits (h ++ [b])) := by
      rw [bits_append h]
      exact h5.append _
    have hzc0 : zc 0 (bits (o ++ r) ++ bits h) = zc 0 (bits i) := by
      rw [← h4.zc, bits_append, List.append_assoc]
    by_cases he : isEol s b = true
    · have hb : b ≠ 0 := by
        rintro rfl
        simp [isEol] at he
      obtain ⟨hl1, hl2, hl3⟩ := bitsOf_lead b hb
      have heol := (isEol_iff hi.tail b).1 he
      unfold imageOctet
      simp only [he, if_true]
      unfold nextEol
      by_cases hc : s.rowBits + (8 - lower b) < 12 ∨ s.rowBits + (8 - lower b) > 13
      · simp only [hc, if_true]
        have hr0 : Ring { s with rowBits := s.rowBits + (8 - lower b) } r h := Ring.congr hi.ring rfl rfl rfl rfl
        obtain ⟨m, m1, m2, m3, m4⟩ := extendRow_spec (s.minBits - (s.rowBits + (8 - lower b))).toNat { s with rowBits := s.rowBits + (8 - lower b) } r h hr0
          (Nat.le_refl _) (by simp only; omega)
        generalize hq : extendRow (s.minBits - (s.rowBits + (8 - lower b))).toNat { s with rowBits := s.rowBits + (8 - lower b) } = q at m1 m2
        have hlen : r.length + h.length + m + 1 < size := by
          simp only at m3
          omega
        have hr2 : Ring (shiftIn { q with eolPtr := q.inPtr, rowBits := lower b - 8 } b) (r ++ (h ++ List.replicate m 0)) [] := m1.mark rfl rfl rfl rfl
        have hr3 : Ring { shiftIn { q with eolPtr := q.inPtr, rowBits := lower b - 8 } b with rowBits := lower b - 8 + 8 } (r ++ (h ++ List.replicate m 0)) [] :=
          Ring.congr hr2 rfl rfl rfl rfl
        have hr4 := hr3.store b (by simp only [List.length_append, List.length_replicate, List.length_nil]; omega)
        have f1 : q.finished = s.finished := by rw [m2]
        have f2 : q.imageMode = s.imageMode := by rw [m2]
        have f3 : q.bitNo = s.bitNo := by rw [m2]
        have f4 : q.bitStream = s.bitStream := by rw [m2]
        have f5 : q.phase = s.phase := by rw [m2]
        have f6 : q.fill = s.fill := by rw [m2]
        have f7 : q.octet = s.octet := by rw [m2]
        have f8 : q.minBits = s.minBits := by rw [m2]
        have hzc : zc 0 (bits (o ++ (r ++ (h ++ List.replicate m 0)))) = zc 0 (bits i) + 8 * m := by
          rw [← h4.zc, ← List.append_assoc, ← List.append_assoc, bits_append _ (List.replicate m 0), zc_append, bits_zeros, zc_zeros, bits_append, bits_append,
            List.append_assoc]
        refine ⟨r ++ (h ++ List.replicate m 0), [] ++ [b], ⟨hr4, f1.trans hi.live, f2.trans hi.image, ?_, ?_, Or.inr ⟨f5.trans h1, f6.trans h2, ?_, ?_, ?_, ?_⟩⟩,
          current_congr f7 f3, f8⟩
        · show q.bitNo ≤ 8
          rw [f3]; exact hi.bitNo
        · show Tail ((q.bitStream <<< 8) ||| b.setWidth 32) _
          rw [f4]; exact htail
        · show -8 ≤ lower b - 8 + 8
          omega
        · rw [bits_append i, bits_one]
          have hs2 := hsame.insert (a := bits o ++ (bits r ++ bits h)) (b := bitsOf b) (by rw [h4.zc]; exact heol) (8 * m)
          have e : bits o ++ (bits (r ++ (h ++ List.replicate m 0)) ++ bits ([] ++ [b])) =
              bits o ++ (bits r ++ bits h) ++ (List.replicate (8 * m) false ++ bitsOf b) := by
            rw [List.nil_append, bits_one, bits_append, bits_append, bits_zeros]
            simp only [List.append_assoc]
          rw [e]
          exact hs2
        · rw [List.nil_append, bits_one, hzc]
          exact heol.more (Nat.le_add_right _ _)
        · have ht := h6.next hzc0 heol (by omega) m m4
          show Track q.minBits (lower b - 8 + 8) _ _ _
          rw [f8, bits_append i, bits_one, List.nil_append, bits_one, show lower b - 8 + 8 = lower b by omega, ← List.append_assoc, ← List.append_assoc,
            bits_append (o ++ r ++ h), bits_append (o ++ r), bits_zeros]
          exact ht
      · simp only [hc, if_false]
        have hr0 : Ring { shiftIn { s with rowBits := lower b - 8 } b with rowBits := lower b - 8 + 8 } r h := Ring.congr hi.ring rfl rfl rfl rfl
        refine ⟨r, h ++ [b], ⟨hr0.store b (by omega), hi.live, hi.image, hi.bitNo, htail, Or.inr ⟨h1, h2, ?_, hsame', heol', ?_⟩⟩, rfl, rfl⟩
        · show -8 ≤ lower b - 8 + 8
          omega
        · show Track s.minBits (lower b - 8 + 8) _ _ _
          rw [bits_append i, bits_append h, bits_one, show lower b - 8 + 8 = lower b by omega]
          exact h6.close hzc0 h5 heol (by omega)
    · unfold imageOctet
      simp only [he]
      have hr0 : Ring { shiftIn s b with rowBits := (shiftIn s b).rowBits + 8 } r h := Ring.congr hi.ring rfl rfl rfl rfl
      refine ⟨r, h ++ [b], ⟨hr0.store b (by omega), hi.live, hi.image, hi.bitNo, htail, Or.inr ⟨h1, h2, ?_, hsame', heol', ?_⟩⟩, rfl, rfl⟩
      · show -8 ≤ s.rowBits + 8
        omega
      · show Track s.minBits (s.rowBits + 8) _ _ _
        rw [bits_append i, bits_append h, bits_one]
        exact h6.plain hzc0 (fun hh => he ((isEol_iff hi.tail b).2 hh))

end NonEcm
