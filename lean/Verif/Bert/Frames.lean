import Verif.Bert.Spec
import Verif.Bert.Lfsr

/-!
# What each part of the tester leaves alone
-/

namespace Bert

/-- The reports of the error rate. -/
def RateOnly (rs : List Report) : Prop := ∀ r ∈ rs, 3 ≤ r.1

theorem report_rate {s : State} {k : Nat} (h : 3 ≤ k) : RateOnly (s.report k) := by
  intro r hr
  simp only [State.report] at hr
  split at hr
  · simp only [List.mem_singleton] at hr; subst hr; exact h
  · simp at hr

theorem setRate_frame (s : State) (i : Nat) (hi : 2 ≤ i) :
    (∃ er, (setRate s i).1 = { s with errorRate := er }) ∧ RateOnly (setRate s i).2 := by
  refine ⟨⟨_, rfl⟩, ?_⟩
  simp only [setRate]
  split
  · exact report_rate (by simp only [reportGt10_2]; omega)
  · intro r hr; simp at hr

theorem rollDecade_frame (s : State) (test : Bool) (i : Nat) (hi : 2 ≤ i) :
    (∃ dp db er, (rollDecade s test i).1 = { s with decadePtr := dp, decadeBad := db, errorRate := er }) ∧
    RateOnly (rollDecade s test i).2.2 := by
  simp only [rollDecade]
  constructor
  · split <;> split <;> exact ⟨_, _, _, rfl⟩
  · split
    · exact (setRate_frame _ i hi).2
    · intro r hr; simp at hr

theorem assessLoop_frame (f : Nat) (s : State) (test : Bool) (i : Nat) (hi : 2 ≤ i) :
    (∃ dp db er, (assessLoop f s test i).1 = { s with decadePtr := dp, decadeBad := db, errorRate := er }) ∧
    RateOnly (assessLoop f s test i).2 := by
  induction f generalizing s test i with
  | zero =>
    simp only [assessLoop]
    constructor
    · split <;> split <;> exact ⟨_, _, _, rfl⟩
    · split
      · exact (setRate_frame _ i hi).2
      · intro r hr; simp at hr
  | succ f ih =>
    simp only [assessLoop]
    split
    · exact ⟨⟨_, _, _, rfl⟩, by intro r hr; simp at hr⟩
    · obtain ⟨⟨dp, db, er, e⟩, hr⟩ := rollDecade_frame s test i hi
      obtain ⟨⟨dp', db', er', e'⟩, hr'⟩ := ih (rollDecade s test i).1 (rollDecade s test i).2.1 (i + 1) (by omega)
      constructor
      · exact ⟨dp', db', er', by rw [e', e]⟩
      · intro r h
        rcases List.mem_append.1 h with h | h
        · exact hr r h
        · exact hr' r h

theorem assess_frame (s : State) :
    (∃ dp db er, (assess s).1 = { s with decadePtr := dp, decadeBad := db, errorRate := er }) ∧
    RateOnly (assess s).2 := assessLoop_frame 6 s true 2 (by omega)

theorem measure_frame (s : State) :
    (∃ dp db er ms, (measure s).1 = { s with decadePtr := dp, decadeBad := db, errorRate := er, rx := { s.rx with measurementStep := ms } }) ∧
    RateOnly (measure s).2 := by
  simp only [measure]
  split
  · obtain ⟨⟨dp, db, er, e⟩, hr⟩ := assess_frame { s with rx := { s.rx with measurementStep := measurementStep } }
    exact ⟨⟨dp, db, er, _, e⟩, hr⟩
  · exact ⟨⟨_, _, _, _, rfl⟩, by intro r hr; simp at hr⟩

theorem regular_frame (s : State) :
    (∃ rc, (regular s).1 = { s with rx := { s.rx with reportCountdown := rc } }) ∧ ∀ r ∈ (regular s).2, r.1 = 2 := by
  simp only [regular]
  split
  · split
    · refine ⟨⟨_, rfl⟩, ?_⟩
      intro r hr
      simp only [State.report] at hr
      split at hr
      · simp only [List.mem_singleton] at hr; subst hr; rfl
      · simp at hr
    · exact ⟨⟨_, rfl⟩, by intro r hr; simp at hr⟩
  · exact ⟨⟨s.rx.reportCountdown, rfl⟩, by intro r hr; simp at hr⟩

/-- Whether a bit is inverted to limit a run. -/
def limitFlip (mz z : Nat) (test : Bool) : Bool := decide (mz ≠ 0) && test && decide (z + 1 > mz)

/-- The count of a run which is limited. -/
def limitCount (mz z : Nat) (test : Bool) : Nat :=
  if mz ≠ 0 then (if test then (if z + 1 > mz then 0 else z + 1) else 0) else z

theorem suppress_eq (mz z : Nat) (test b : Bool) :
    suppress mz z test (bit b) = (limitCount mz z test, bit (b ^^ limitFlip mz z test)) := by
  simp only [suppress, limitCount, limitFlip]
  by_cases h : mz = 0
  · simp [h]
  · cases test
    · simp [h]
    · by_cases hz : z + 1 > mz
      · simp only [h, hz, ne_eq, not_false_eq_true, if_true, bit_xor_one, decide_true, Bool.and_self, Bool.xor_true]
      · simp [h, hz]

/-- Whether the bit just checked ends a check of the synchronisation, and there were too many bad bits. -/
def loses (r : Rx) (bad : Bool) : Bool :=
  decide (r.resyncCnt - 1 ≤ 0) &&
    decide (((r.resyncBadBits + (if bad then 1 else 0) : Nat) : Int) ≥ (r.resyncLen * r.resyncPercent).tdiv 100)

/-- A bit is checked against the register. -/
theorem putRandom_sync (s : State) (v : Bool) (h : s.rx.resync = 0) (hm : s.mask = (1 : Word) <<< s.shift)
    (hs : s.shift < 32) (bad : Bool)
    (hb : bad = (v ^^ limitFlip s.maxZeros s.rx.zeros (s.rx.reg.getLsbD s.shift) ^^ s.rx.reg.getLsbD s.shift)) :
    (∃ dp db er ms, (putRandom s (bit v)).1 =
      { s with
        decadePtr := dp, decadeBad := db, errorRate := er,
        results := ⟨s.results.totalBits + 1, s.results.badBits + (if bad then 1 else 0),
          s.results.resyncs + (if loses s.rx bad then 1 else 0)⟩,
        rx := { s.rx with
          reg := next s.shift s.shift2 s.rx.reg,
          zeros := limitCount s.maxZeros s.rx.zeros (s.rx.reg.getLsbD s.shift),
          resync := if loses s.rx bad then 1 else 0,
          resyncBadBits := if s.rx.resyncCnt - 1 ≤ 0 then 0 else s.rx.resyncBadBits + (if bad then 1 else 0),
          resyncCnt := if s.rx.resyncCnt - 1 ≤ 0 then s.rx.resyncLen else s.rx.resyncCnt - 1,
          measurementStep := ms } }) ∧
    told reportSynced (putRandom s (bit v)).2 = 0 ∧
    told reportUnsynced (putRandom s (bit v)).2 = (if loses s.rx bad ∧ s.reporter then 1 else 0) := by
  have hc : ∃ db, check s (bit v) = { s with
      decadeBad := db,
      results := ⟨s.results.totalBits + 1, s.results.badBits + (if bad then 1 else 0), s.results.resyncs⟩,
      rx := { s.rx with
        zeros := limitCount s.maxZeros s.rx.zeros (s.rx.reg.getLsbD s.shift),
        resyncBadBits := s.rx.resyncBadBits + (if bad then 1 else 0) } } := by
    simp only [check, hm, and_mask_ne_zero hs, suppress_eq, shift_and_one_eq, ne_eq, bit_inj]
    have : (¬ ((v ^^ limitFlip s.maxZeros s.rx.zeros (s.rx.reg.getLsbD s.shift)) = s.rx.reg.getLsbD s.shift)) ↔ bad = true := by
      rw [hb]
      cases (v ^^ limitFlip s.maxZeros s.rx.zeros (s.rx.reg.getLsbD s.shift)) <;> cases s.rx.reg.getLsbD s.shift <;> decide
    cases bad
    · rw [if_neg (by simpa using this)]
      exact ⟨_, rfl⟩
    · rw [if_pos (this.2 rfl)]
      exact ⟨_, rfl⟩
  obtain ⟨db, hc⟩ := hc
  obtain ⟨⟨dp, db', er, ms, hme⟩, hrate⟩ := measure_frame (check s (bit v))
  have hrate0 : told reportSynced (measure (check s (bit v))).2 = 0 := by
    rw [told, List.countP_eq_zero]
    intro r hr
    have := hrate r hr
    simp only [reportSynced, beq_iff_eq]
    omega
  have hrate1 : told reportUnsynced (measure (check s (bit v))).2 = 0 := by
    rw [told, List.countP_eq_zero]
    intro r hr
    have := hrate r hr
    simp only [reportUnsynced, beq_iff_eq]
    omega
  simp only [putRandom, h, ne_eq, not_true_eq_false, if_false]
  simp only [told, List.countP_append] at hrate0 hrate1 ⊢
  rw [hrate0, hrate1, hme, hc]
  simp only [checkSync, State.report, loses]
  by_cases h1 : s.rx.resyncCnt - 1 ≤ 0
  · by_cases h2 : ((s.rx.resyncBadBits + (if bad = true then 1 else 0) : Nat) : Int) ≥ (s.rx.resyncLen * s.rx.resyncPercent).tdiv 100
    · simp only [h1, h2, if_true, decide_true, Bool.true_and, true_and]
      refine ⟨⟨_, _, _, _, rfl⟩, ?_, ?_⟩ <;> cases s.reporter <;> rfl
    · simp only [h1, h2, if_true, if_false, decide_true, decide_false, Bool.true_and, false_and, Bool.false_eq_true]
      refine ⟨⟨dp, db', er, ms, ?_⟩, rfl, rfl⟩
      simp [h]
  · simp only [h1, if_false, decide_false, Bool.false_and]
    refine ⟨⟨dp, db', er, ms, ?_⟩, rfl, by simp⟩
    simp [h]

/-- A bit is used to find the place in the pattern. -/
theorem putRandom_search (s : State) (v : Bool) (h : s.rx.resync ≠ 0) :
    (putRandom s (bit v)).1 =
      { s with
        rx := { s.rx with
          reg := next s.shift s.shift2 (if v = s.rx.reg.getLsbD s.shift then s.rx.reg else s.rx.reg ^^^ s.mask),
          resync := if v = s.rx.reg.getLsbD s.shift then (if s.rx.resync + 1 > s.resyncTime then 0 else s.rx.resync + 1) else 2 } } ∧
    (putRandom s (bit v)).2 =
      (if v = s.rx.reg.getLsbD s.shift ∧ s.rx.resync + 1 > s.resyncTime then s.report reportSynced else []) := by
  simp only [putRandom, h, ne_eq, not_false_eq_true, if_true, putSearch, shift_and_one_eq, bit_inj]
  by_cases hv : v = s.rx.reg.getLsbD s.shift
  · simp only [hv, if_true, true_and]
    split <;> exact ⟨rfl, rfl⟩
  · simp only [hv, if_false, false_and, and_self]

/-- The limit on the bits sent has been reached. -/
def ended (s : State) : Prop := s.limit ≠ 0 ∧ (s.tx.bits : Int) ≥ s.limit

instance (s : State) : Decidable (ended s) := by unfold ended; infer_instance

theorem turn_ended {s : State} (h : ended s) (e : Bool) : turn s e = (s, []) := by
  have h1 : getBit s = (s, endOfData) := by
    unfold getBit; exact if_pos h
  have h2 : line e endOfData = endOfData := by cases e <;> decide
  simp only [turn, h1, h2, putBit]
  rw [if_pos (by decide)]

theorem line_bit (e b : Bool) : line e (bit b) = bit (b ^^ e) := by
  cases e <;> cases b <;> decide

theorem putBit_bit (s : State) (b : Bool) :
    putBit s (bit b) =
      let s := { s with rx := { s.rx with bits := s.rx.bits + 1 } }
      let p := putClass s (bit b ^^^ s.invert)
      ((regular p.1).1, p.2 ++ (regular p.1).2) := by
  simp only [putBit, bit_slt, bit_and_one]
  rfl

end Bert
