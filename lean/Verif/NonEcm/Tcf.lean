import Verif.NonEcm.Props

/-!
# The training check sequence in the buffer, and overruns (C32)
-/

namespace NonEcm

theorem Stuffed.append {d z e y : List Octet} (h : Stuffed d z) (h' : Stuffed e y) : Stuffed (d ++ e) (z ++ y) := by
  induction h with
  | nil => exact h'
  | keep b _ ih => exact ih.keep b
  | fill _ ih => exact ih.fill

theorem Stuffed.insert {d : List Octet} (a b : List Octet) (h : Stuffed d (a ++ b)) : Stuffed d (a ++ 0 :: b) := by
  generalize hz : a ++ b = z at h
  induction h generalizing a with
  | nil =>
    obtain ⟨rfl, rfl⟩ := List.append_eq_nil_iff.1 hz
    exact .fill .nil
  | @keep x d z h ih =>
    cases a with
    | nil =>
      rw [List.nil_append] at hz ⊢
      rw [hz]
      exact .fill (h.keep x)
    | cons y a =>
      rw [List.cons_append] at hz
      obtain ⟨rfl, hz'⟩ := List.cons.inj hz
      exact (ih a hz').keep y
  | @fill d z h ih =>
    cases a with
    | nil =>
      rw [List.nil_append] at hz ⊢
      rw [hz]
      exact .fill h.fill
    | cons y a =>
      rw [List.cons_append] at hz
      obtain ⟨rfl, hz'⟩ := List.cons.inj hz
      exact (ih a hz').fill

/-- The octets behind the initial ones. -/
def afterOnes (l : List Octet) : List Octet := l.dropWhile (· = 0xFF)

theorem afterOnes_append_ones (l : List Octet) (h : ∀ b ∈ l, b = 0xFF) (l' : List Octet) : afterOnes (l ++ l') = afterOnes l' := by
  induction l with
  | nil => rfl
  | cons x l ih =>
    have hx := h x (by simp)
    rw [List.cons_append, afterOnes, List.dropWhile_cons_of_pos (by simpa using hx)]
    exact ih (fun b hb => h b (by simp [hb]))

theorem afterOnes_append (l : List Octet) (h : afterOnes l ≠ []) (l' : List Octet) : afterOnes (l ++ l') = afterOnes l ++ l' := by
  induction l with
  | nil => exact absurd rfl h
  | cons x l ih =>
    by_cases hx : x = 0xFF
    · rw [List.cons_append, afterOnes, List.dropWhile_cons_of_pos (by simpa using hx), afterOnes, List.dropWhile_cons_of_pos (by simpa using hx)]
      rw [afterOnes, List.dropWhile_cons_of_pos (by simpa using hx)] at h
      exact ih h
    · rw [List.cons_append, afterOnes, List.dropWhile_cons_of_neg (by simpa using hx), afterOnes, List.dropWhile_cons_of_neg (by simpa using hx)]
      rfl

/-- The buffer while it carries a TCF. -/
structure TInv (s : State) (input output ready held : List Octet) : Prop where
  ring : Ring s ready held
  live : s.finished = false
  tcf : s.imageMode = false
  bitNo : s.bitNo ≤ 8
  phase : (s.phase = .tcfOnes ∧ s.fill = 0xFF ∧ ready = [] ∧ held = [] ∧ (∀ b ∈ output, b = 0xFF) ∧ (∀ b ∈ input, b = 0xFF)) ∨
    (s.phase = .tcfZeros ∧ s.fill = 0 ∧ ∃ n z, output = List.replicate n 0xFF ++ z ∧ afterOnes input ≠ [] ∧ Stuffed (afterOnes input) (z ++ (ready ++ held)))

theorem tinv_restart (s : State) (h1 : s.imageMode = false) (h2 : s.bitNo = 0) : TInv (restart s) [] [] [] [] := by
  refine ⟨⟨by decide, by show 0 < size; decide, rfl, rfl, fun k hk => by cases hk⟩, rfl, h1, by show s.bitNo ≤ 8; omega,
    Or.inl ⟨?_, rfl, rfl, rfl, by simp, by simp⟩⟩
  show (if s.imageMode then Phase.waiting else .tcfOnes) = .tcfOnes
  rw [h1]
  rfl

theorem tinv_get {s : State} {i o r h : List Octet} (hi : TInv s i o r h) :
    ∃ b o' r', (getBit s).2 = some b ∧ TInv (getBit s).1 i (o ++ o') r' h ∧ current s ++ bits o' = b :: current (getBit s).1 ∧
      (getBit s).1.minBits = s.minBits := by
  unfold getBit
  by_cases h0 : s.bitNo = 0
  · have hcur : current s = [] := by simp only [current, h0]; rfl
    rw [if_pos h0]
    cases r with
    | cons a r =>
      rw [if_pos (fun hh => by have := hi.ring.eq_iff.1 hh; cases this), hi.ring.head]
      obtain ⟨b, hb, hc⟩ := shiftOut_sends { s with octet := a.setWidth 32, outPtr := (s.outPtr + 1) % size, bitNo := 8 } (by simp) (Nat.le_refl 8)
      refine ⟨b, [a], r, hb, ⟨hi.ring.pop rfl rfl rfl rfl, hi.live, hi.tcf, by show 8 - 1 ≤ 8; omega, ?_⟩, ?_, rfl⟩
      · rcases hi.phase with h1 | ⟨h1, h2, n, z, h3, h4, h5⟩
        · cases h1.2.2.1
        · refine Or.inr ⟨h1, h2, n, z ++ [a], by rw [h3, List.append_assoc], h4, ?_⟩
          rw [List.append_assoc, List.singleton_append, ← List.cons_append]
          exact h5
      · rw [hc, hcur, List.nil_append, bits_one]
        exact (current_loaded _ a rfl rfl).symm
    | nil =>
      rw [if_neg (fun hh => hh (hi.ring.eq_iff.2 rfl)), if_neg (show ¬ s.finished = true by rw [hi.live]; simp)]
      obtain ⟨b, hb, hc⟩ := shiftOut_sends { s with octet := s.fill.setWidth 32, bitNo := 8 } (by simp) (Nat.le_refl 8)
      refine ⟨b, [s.fill], [], hb, ⟨Ring.congr hi.ring rfl rfl rfl rfl, hi.live, hi.tcf, by show 8 - 1 ≤ 8; omega, ?_⟩, ?_, rfl⟩
      · rcases hi.phase with ⟨h1, h2, h3, h4, h5, h6⟩ | ⟨h1, h2, n, z, h3, h4, h5⟩
        · refine Or.inl ⟨h1, h2, rfl, h4, ?_, h6⟩
          intro x hx
          rcases List.mem_append.1 hx with hx | hx
          · exact h5 x hx
          · rw [List.mem_singleton.1 hx, h2]
        · refine Or.inr ⟨h1, h2, n, z ++ [0], by rw [h3, h2, List.append_assoc], h4, ?_⟩
          rw [List.append_assoc, List.singleton_append]
          exact h5.insert z h
      · rw [hc, hcur, List.nil_append, bits_one]
        exact (current_loaded _ s.fill rfl rfl).symm
  · rw [if_neg h0]
    obtain ⟨b, hb, hc⟩ := shiftOut_sends s h0 hi.bitNo
    refine ⟨b, [], r, hb, ?_, by rw [hc]; exact List.append_nil _, rfl⟩
    rw [List.append_nil]
    exact ⟨Ring.congr hi.ring rfl rfl rfl rfl, hi.live, hi.tcf, by show s.bitNo - 1 ≤ 8; have := hi.bitNo; omega, hi.phase⟩

theorem tinv_put {s : State} {i o r h : List Octet} (hi : TInv s i o r h) (b : Octet) (hroom : level s + 1 < size) :
    ∃ r' h', TInv (inject s [b]) (i ++ [b]) o r' h' ∧ current (inject s [b]) = current s ∧ (inject s [b]).minBits = s.minBits := by
  rw [hi.ring.level] at hroom
  rcases hi.phase with ⟨h1, h2, h3, h4, h5, h6⟩ | ⟨h1, h2, n, z, h3, h4, h5⟩
  · subst h3 h4
    have hin : inject s [b] = if b ≠ 0xFF then tcfOctet { s with phase := .tcfZeros, fill := 0x00 } b else s := by
      simp only [inject, h1, tcfStart, List.foldl_cons, List.foldl_nil]
    rw [hin]
    by_cases hb : b ≠ 0xFF
    · rw [if_pos hb]
      have hr0 : Ring { s with phase := .tcfZeros, fill := 0x00, eolPtr := s.inPtr } [] [] := hi.ring.mark rfl rfl rfl rfl
      have hr1 := hr0.store b hroom
      have ha : afterOnes (i ++ [b]) = [b] := by
        rw [afterOnes_append_ones i h6, afterOnes, List.dropWhile_cons_of_neg (by simpa using hb)]
      refine ⟨[], [b], ⟨hr1, hi.live, hi.tcf, hi.bitNo, Or.inr ⟨rfl, rfl, o.length, [], ?_, ?_, ?_⟩⟩, rfl, rfl⟩
      · rw [List.append_nil]
        exact List.eq_replicate_iff.2 ⟨rfl, h5⟩
      · rw [ha]; simp
      · rw [ha]; exact .keep b .nil
    · rw [if_neg hb]
      refine ⟨[], [], ⟨hi.ring, hi.live, hi.tcf, hi.bitNo, Or.inl ⟨h1, h2, rfl, rfl, h5, ?_⟩⟩, rfl, rfl⟩
      intro x hx
      rcases List.mem_append.1 hx with hx | hx
      · exact h6 x hx
      · rw [List.mem_singleton.1 hx]
        exact Decidable.not_not.1 hb
  · have hin : inject s [b] = tcfOctet s b := by
      simp only [inject, h1, List.foldl_cons, List.foldl_nil]
    rw [hin]
    have hr0 : Ring { s with eolPtr := s.inPtr } (r ++ h) [] := hi.ring.mark rfl rfl rfl rfl
    have hr1 := hr0.store b (by simp only [List.length_append, List.length_nil]; omega)
    refine ⟨r ++ h, [b], ⟨hr1, hi.live, hi.tcf, hi.bitNo, Or.inr ⟨h1, h2, n, z, h3, ?_, ?_⟩⟩, rfl, rfl⟩
    · rw [afterOnes_append i h4]; simp [h4]
    · rw [afterOnes_append i h4, ← List.append_assoc z]
      exact h5.append (.keep b .nil)

theorem run_tinv {s : State} {i o r h : List Octet} (hi : TInv s i o r h) (sent : List Bool) (hs : sent ++ current s = bits o) (ops : List Op)
    (hroom : Room s ops) :
    ∃ bs o' r' h', (run s ops).2 = bs.map some ∧ TInv (run s ops).1 (i ++ arrived ops) o' r' h' ∧ sent ++ bs ++ current (run s ops).1 = bits o' ∧
      (run s ops).1.minBits = s.minBits := by
  induction ops generalizing s i o r h sent with
  | nil => exact ⟨[], o, r, h, rfl, by simpa [arrived, run] using hi, by simpa [run] using hs, rfl⟩
  | cons op ops ih =>
    cases op with
    | put b =>
      obtain ⟨r1, h1, i1, c1, d1⟩ := tinv_put hi b (by have := hroom.1; omega)
      obtain ⟨bs, o', r', h', e1, e2, e3, e4⟩ := ih i1 sent (by rw [c1]; exact hs) hroom.2
      exact ⟨bs, o', r', h', e1, by rw [List.append_assoc] at e2; exact e2, e3, e4.trans d1⟩
    | get =>
      obtain ⟨b, o1, r1, g1, g2, g3, g4⟩ := tinv_get hi
      obtain ⟨bs, o', r', h', e1, e2, e3, e4⟩ := ih g2 (sent ++ [b])
        (by rw [List.append_assoc, List.singleton_append, ← g3, bits_append, ← hs, List.append_assoc]) hroom
      refine ⟨b :: bs, o', r', h', ?_, e2, ?_, e4.trans g4⟩
      · simp only [run, List.map_cons, g1, e1]
      · rw [List.append_assoc sent [b] bs] at e3
        exact e3

/-- Whatever the schedule, as long as the buffer does not overflow: what the modem gets of a TCF is ones, and then the octets which arrived, from the
first which is not all ones, in their order, with nothing but zero octets between them. -/
theorem tcf_flows (s : State) (htcf : s.imageMode = false) (h0 : s.bitNo = 0) (ops : List Op) (hroom : Room (restart s) ops) :
    ∃ sent rest q n z, (run (restart s) ops).2 = sent.map some ∧
      run (push (run (restart s) ops).1) (List.replicate (rest.length + 1) .get) = (restart q, rest.map some ++ [none]) ∧
      q.imageMode = false ∧ q.bitNo = 0 ∧ q.minBits = s.minBits ∧
      sent ++ rest = bits (List.replicate n 0xFF ++ z) ∧ Stuffed ((arrived ops).dropWhile (· = 0xFF)) z := by
  have hcur : current (restart s) = [] := by
    have : (restart s).bitNo = 0 := h0
    simp only [current, this]
    rfl
  obtain ⟨bs, o, r, h, e1, e2, e3, e4⟩ := run_tinv (tinv_restart s htcf h0) [] (by rw [hcur]; rfl) ops hroom
  generalize (run (restart s) ops).1 = s' at e2 e3 e4
  have hmin : s'.minBits = s.minBits := e4
  have hr : Ring (push s') (r ++ h) [] := e2.ring.mark rfl rfl rfl rfl
  obtain ⟨hd, q, q1, q2, q3, q4⟩ := drain _ (push s') (r ++ h) hr rfl e2.bitNo rfl
  have hlen : (current s' ++ bits (r ++ h)).length = (push s').bitNo + 8 * (r ++ h).length := by
    rw [List.length_append, length_bits, length_current]
    rfl
  have hall : bs ++ (current s' ++ bits (r ++ h)) = bits (o ++ (r ++ h)) := by
    rw [List.nil_append] at e3
    rw [← List.append_assoc, e3, ← bits_append]
  rw [List.nil_append] at e2
  have hrun : run (push s') (List.replicate ((current s' ++ bits (r ++ h)).length + 1) .get) =
      (restart q, (current s' ++ bits (r ++ h)).map some ++ [none]) := by
    rw [hlen, ← q1]
    exact Prod.ext rfl hd
  rcases e2.phase with ⟨p1, p2, p3, p4, p5, p6⟩ | ⟨p1, p2, n, z, p3, p4, p5⟩
  · subst p3 p4
    refine ⟨bs, _, q, o.length, [], e1, hrun, q3.trans e2.tcf, q2, q4.trans hmin, ?_, ?_⟩
    · rw [hall, List.append_nil, List.append_nil, List.append_nil]
      exact congrArg bits (List.eq_replicate_iff.2 ⟨rfl, p5⟩)
    · have := afterOnes_append_ones (arrived ops) p6 []
      rw [List.append_nil] at this
      unfold afterOnes at this
      rw [this]
      exact .nil
  · refine ⟨bs, _, q, n, z ++ (r ++ h), e1, hrun, q3.trans e2.tcf, q2, q4.trans hmin, ?_, p5⟩
    rw [hall, p3, List.append_assoc]

/-- An example: ones, an octet with the transition, zeros. -/
def exampleTcf : List Op := [.put 0xFF, .put 0xFF] ++ List.replicate 12 .get ++ [.put 0xF0] ++ List.replicate 12 .get ++ [.put 0x00, .put 0x00]

example : Room (init false 0) exampleTcf := by decide +kernel

/-- The octet with the transition is held back, and zeros are sent before it: the modem sends zeros among the ones. -/
theorem zeros_before_transition :
    (run (push (run (init false 0) [.put 0xF0, .put 0x00]).1) (List.replicate 16 .get)).2.filterMap id = bits [0xF0, 0x00] ∧
    (run (init false 0) ([.put 0xF0] ++ List.replicate 8 .get ++ [.put 0x00] ++ List.replicate 8 .get)).2.filterMap id = bits [0x00, 0xF0] := by
  decide +kernel

/-! ## Overruns -/

theorem tcfOctets_ptrs (l : List Octet) (s : State) (h : s.inPtr < size) :
    (l.foldl tcfOctet s).inPtr = (s.inPtr + l.length) % size ∧ (l.foldl tcfOctet s).outPtr = s.outPtr ∧ (l.foldl tcfOctet s).bitNo = s.bitNo := by
  induction l generalizing s with
  | nil => exact ⟨(Nat.mod_eq_of_lt h).symm, rfl, rfl⟩
  | cons x l ih =>
    obtain ⟨h1, h2, h3⟩ := ih (tcfOctet s x) (Nat.mod_lt _ (by decide))
    refine ⟨?_, h2, h3⟩
    rw [List.foldl_cons, h1]
    show ((s.inPtr + 1) % size + l.length) % size = (s.inPtr + (l.length + 1)) % size
    rw [Nat.mod_add_mod]
    congr 1
    omega

/-- When as many octets as the buffer holds arrive before any is taken, all are lost. -/
theorem overrun (minBits : Int) (b : Octet) (l : List Octet) (hb : b ≠ 0xFF) (hl : (b :: l).length = size) :
    (getBit (push (inject (init false minBits) (b :: l)))).2 = none := by
  have e : inject (init false minBits) (b :: l) = (b :: l).foldl tcfOctet { init false minBits with phase := .tcfZeros, fill := 0x00 } := by
    show tcfStart _ _ = _
    rw [tcfStart, if_pos hb]
  obtain ⟨h1, h2, h3⟩ := tcfOctets_ptrs (b :: l) { init false minBits with phase := .tcfZeros, fill := 0x00 } (by show 0 < size; decide)
  rw [← e] at h1 h2 h3
  rw [hl, show ({ init false minBits with phase := .tcfZeros, fill := 0x00 } : State).inPtr = 0 from rfl, Nat.zero_add] at h1
  generalize inject (init false minBits) (b :: l) = q at h1 h2 h3
  have i1 : q.inPtr = 0 := h1.trans (Nat.mod_self size) 
  have i2 : q.outPtr = 0 := h2
  have i3 : q.bitNo = 0 := h3
  unfold getBit
  rw [if_pos (show (push q).bitNo = 0 from i3), if_neg (show ¬ ((push q).outPtr ≠ (push q).eolPtr) from fun hh => hh (i2.trans i1.symm)),
    if_pos (show (push q).finished = true from rfl)]

example : ((0x00 : Octet) :: List.replicate 16383 0x00).length = size := by rw [List.length_cons, List.length_replicate]; rfl

end NonEcm
