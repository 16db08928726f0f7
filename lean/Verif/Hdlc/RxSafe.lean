import Verif.Hdlc.RxLemmas

/-! # The HDLC receiver on arbitrary input -/

namespace Hdlc
open Spec
open Crc.Spec (bits octetBits)

theorem trail_shape (h : List Bool) (m : Nat) (hm : trail 0 h = m) :
    h = List.replicate m true ∨ ∃ pre, h = pre ++ false :: List.replicate m true := by
  have gen : ∀ (h : List Bool) (n m : Nat), trail n h = m →
      (h = List.replicate (m - n) true ∧ n ≤ m) ∨ ∃ pre, h = pre ++ false :: List.replicate m true := by
    intro h
    induction h with
    | nil => intro n m e; simp [trail] at e; subst e; left; simp
    | cons b h ih =>
      intro n m e
      cases b
      · have := ih 0 m e
        rcases this with ⟨h1, _⟩ | ⟨pre, h1⟩
        · right; exact ⟨[], by rw [h1]; simp⟩
        · right; exact ⟨false :: pre, by rw [h1]; simp⟩
      · rcases ih (n + 1) m e with ⟨h1, h2⟩ | ⟨pre, h1⟩
        · left
          refine ⟨?_, by omega⟩
          rw [show m - n = (m - (n + 1)) + 1 by omega, List.replicate_succ, ← h1]
        · right; exact ⟨true :: pre, by rw [h1]; simp⟩
  rcases gen h 0 m hm with ⟨h1, _⟩ | h1
  · left; simpa using h1
  · right; exact h1

/-- What is always true of a receiver: `hist` are the line bits (since a reset), and `k` the
number of inputs so far. -/
structure RInv (hist : List Bool) (k : Nat) (s : Rx) : Prop where
  th : 1 ≤ s.framingOkThreshold
  cb : s.crcBytes = 2 ∨ s.crcBytes = 4
  max : s.maxFrameLen ≤ bufSize
  size : s.buffer.length = bufSize
  start : hist.head? = some false
  reg : Reg s.rawBitStream (min 7 (trail 0 hist))
  num : s.numBits ≤ k
  seen : s.flagsSeen ≤ s.framingOkThreshold
  high : ∀ i, 8 ≤ i → s.byteInProgress.getLsbD i = false
  coll : s.flagsSeen = s.framingOkThreshold → trail 0 hist ≤ 6 ∧
    ∃ pre u, hist = pre ++ flagBits ++ u ∧ ¬ flagBits <:+: u ∧ Holds s (destuff 0 u)

theorem goodFrames_append (a b : List Report) : goodFrames (a ++ b) = goodFrames a ++ goodFrames b := by
  simp [goodFrames]

/-- What a step may do to the rest of the state. -/
structure RStep (line : List Bool) (s s' : Rx) : Prop where
  cfg : SameCfg s s'
  rep : ∃ new, s'.out = s.out ++ new ∧ (allFrames new).length ≤ 1 ∧
    s'.rxFrames = s.rxFrames + (goodFrames new).length ∧
    s'.rxBytes = s.rxBytes + (goodFrames new).flatten.length ∧
    ∀ p ∈ goodFrames new, p.length + s.crcBytes ≤ s.maxFrameLen ∧ JustReceived s.crcBytes line p

theorem RStep.quiet {line : List Bool} {s s' : Rx} (h : SameCfg s s') (ho : s'.out = s.out)
    (hf : s'.rxFrames = s.rxFrames) (hb : s'.rxBytes = s.rxBytes) : RStep line s s' :=
  ⟨h, [], by simp [ho], by simp [allFrames], by simp [hf, goodFrames], by simp [hb, goodFrames],
    by simp [goodFrames]⟩

theorem RStep.status {line : List Bool} {s s' : Rx} (h : SameCfg s s') (c : Int)
    (ho : s'.out = s.out ++ [.status c])
    (hf : s'.rxFrames = s.rxFrames) (hb : s'.rxBytes = s.rxBytes) : RStep line s s' :=
  ⟨h, [.status c], ho, by simp [allFrames], by simp [hf, goodFrames], by simp [hb, goodFrames],
    by simp [goodFrames]⟩

theorem octetSetAndCount_facts (s : Rx) (line : List Bool) :
    RStep line s (octetSetAndCount s) ∧ (octetSetAndCount s).flagsSeen = s.flagsSeen ∧
    (octetSetAndCount s).rawBitStream = s.rawBitStream ∧ (octetSetAndCount s).buffer = s.buffer ∧
    (octetSetAndCount s).byteInProgress = s.byteInProgress ∧ (octetSetAndCount s).numBits = s.numBits ∧
    (octetSetAndCount s).len = s.len := by
  unfold octetSetAndCount
  split
  · exact ⟨.quiet (.rfl' s) rfl rfl rfl, rfl, rfl, rfl, rfl, rfl, rfl⟩
  · split
    · split
      · exact ⟨.status ⟨rfl, rfl, rfl, rfl⟩ _ rfl rfl rfl, rfl, rfl, rfl, rfl, rfl, rfl⟩
      · exact ⟨.quiet ⟨rfl, rfl, rfl, rfl⟩ rfl rfl rfl, rfl, rfl, rfl, rfl, rfl, rfl⟩
    · exact ⟨.quiet ⟨rfl, rfl, rfl, rfl⟩ rfl rfl rfl, rfl, rfl, rfl, rfl, rfl, rfl⟩

theorem octetCountStep_facts (s : Rx) (line : List Bool) :
    RStep line s (octetCountStep s) ∧ (octetCountStep s).flagsSeen = s.flagsSeen ∧
    (octetCountStep s).rawBitStream = s.rawBitStream ∧ (octetCountStep s).buffer = s.buffer ∧
    (octetCountStep s).byteInProgress = s.byteInProgress ∧ (octetCountStep s).numBits = s.numBits ∧
    (octetCountStep s).len = s.len := by
  unfold octetCountStep
  split
  · exact ⟨.quiet (.rfl' s) rfl rfl rfl, rfl, rfl, rfl, rfl, rfl, rfl⟩
  · split
    · split
      · exact ⟨.status ⟨rfl, rfl, rfl, rfl⟩ _ rfl rfl rfl, rfl, rfl, rfl, rfl, rfl, rfl⟩
      · exact ⟨.quiet ⟨rfl, rfl, rfl, rfl⟩ rfl rfl rfl, rfl, rfl, rfl, rfl, rfl, rfl⟩
    · exact ⟨.quiet (.rfl' s) rfl rfl rfl, rfl, rfl, rfl, rfl, rfl, rfl⟩

theorem trail_snoc (n : Nat) (h : List Bool) (b : Bool) :
    trail n (h ++ [b]) = if b then trail n h + 1 else 0 := by
  simp [trail]

theorem next_min (t : Nat) (b : Bool) :
    nextOnes (min 7 t) b = min 7 (if b then t + 1 else 0) := by
  cases b
  · simp [nextOnes]
  · simp [nextOnes]; omega

theorem reg_snoc {raw : BitVec 32} {hist : List Bool} (h : Reg raw (min 7 (trail 0 hist))) (b : Bool) :
    Reg (pushRaw raw b) (min 7 (trail 0 (hist ++ [b]))) := by
  rw [trail_snoc, ← next_min]
  exact pushRaw_reg h b

theorem head_snoc {hist : List Bool} (h : hist.head? = some false) (b : Bool) :
    (hist ++ [b]).head? = some false := by
  cases hist with
  | nil => simp at h
  | cons a l => simpa using h

/-- Six ones and a zero, in a history which starts with a zero, are a flag. -/
theorem flag_suffix {hist : List Bool} (h : hist.head? = some false) (h6 : trail 0 hist = 6) :
    ∃ pre, hist ++ [false] = pre ++ flagBits := by
  rcases trail_shape hist 6 h6 with h1 | ⟨pre, h1⟩
  · rw [h1] at h; simp at h
  · exact ⟨pre, by rw [h1]; simp [flagBits, List.replicate]⟩

theorem noflag_snoc {u : List Bool} {b : Bool} (h : ¬ flagBits <:+: u) (hb : ¬ trail 0 u = 6 ∨ b = true) :
    ¬ flagBits <:+: u ++ [b] := by
  rintro ⟨a, c, e⟩
  rcases List.eq_nil_or_concat c with rfl | ⟨c', x, rfl⟩
  · have e' : (a ++ [false, true, true, true, true, true, true]) ++ [false] = u ++ [b] := by
      rw [← e]; simp [flagBits]
    obtain ⟨h1, h2⟩ := List.append_inj' e' rfl
    rcases hb with hb | hb
    · apply hb; rw [← h1, trail_append]; rfl
    · rw [hb] at h2; simp at h2
  · rw [List.concat_eq_append, ← List.append_assoc] at e
    obtain ⟨h1, _⟩ := List.append_inj' e rfl
    exact h ⟨a, c', h1⟩

/-- A data bit when not collecting. -/
theorem dataBit_idle {hist : List Bool} {k : Nat} {s : Rx} (h : RInv hist k s) (b : Bool)
    (hk : s.numBits < 2147483647 ∨ rxDataBit { s with rawBitStream := pushRaw s.rawBitStream b } ≠ none)
    (hs : s.flagsSeen ≠ s.framingOkThreshold) :
    ∃ s', rxDataBit { s with rawBitStream := pushRaw s.rawBitStream b } = some s' ∧
      RInv (hist ++ [b]) (k + 1) s' ∧ RStep (hist ++ [b]) s s' := by
  have hlt : s.flagsSeen < s.framingOkThreshold := by have := h.seen; omega
  have hnum := h.num
  have hk : s.numBits < 2147483647 := by
    rcases hk with hk | hk
    · exact hk
    · refine Nat.lt_of_not_le fun hc => hk ?_
      unfold rxDataBit
      rw [if_pos hc]
  unfold rxDataBit
  rw [if_neg (by simp only; omega)]
  simp only
  rw [if_pos hlt]
  split
  · obtain ⟨f1, f2, f3, f4, f5, f6, f7⟩ := octetCountStep_facts
      { s with rawBitStream := pushRaw s.rawBitStream b, numBits := s.numBits + 1 } (hist ++ [b])
    refine ⟨_, rfl, ⟨?_, ?_, ?_, ?_, head_snoc h.start b, ?_, ?_, ?_, ?_, ?_⟩,
      ⟨⟨f1.cfg.1, f1.cfg.2, f1.cfg.3, f1.cfg.4⟩, f1.rep⟩⟩
    · rw [f1.cfg.threshold]; exact h.th
    · rw [f1.cfg.crcBytes]; exact h.cb
    · rw [f1.cfg.maxFrameLen]; exact h.max
    · rw [f4]; exact h.size
    · rw [f3]; exact reg_snoc h.reg b
    · rw [f6]; simp only; omega
    · rw [f2, f1.cfg.threshold]; exact h.seen
    · rw [f5]; exact h.high
    · rw [f2, f1.cfg.threshold]; intro e; exact absurd e hs
  · exact ⟨_, rfl, ⟨h.th, h.cb, h.max, h.size, head_snoc h.start b, reg_snoc h.reg b, by simp only; omega, h.seen,
      h.high, fun e => absurd e hs⟩, .quiet ⟨rfl, rfl, rfl, rfl⟩ rfl rfl rfl⟩

/-- A data bit when collecting. -/
theorem dataBit_coll {hist : List Bool} {k : Nat} {s : Rx} (h : RInv hist k s) (b : Bool)
    (hs : s.flagsSeen = s.framingOkThreshold)
    (hn : trail 0 hist ≤ 4 ∨ (trail 0 hist = 5 ∧ b = true)) :
    ∃ s', rxDataBit { s with rawBitStream := pushRaw s.rawBitStream b } = some s' ∧
      RInv (hist ++ [b]) (k + 1) s' ∧ RStep (hist ++ [b]) s s' := by
  obtain ⟨_, pre, u, hu, hno, hh⟩ := h.coll hs
  have hnum := h.num
  have ht : trail 0 u = trail 0 hist := by
    rw [hu, trail_append, trail_append]
    rfl
  have hd : destuff 0 (u ++ [b]) = destuff 0 u ++ [b] := by
    rw [destuff_append]
    congr 1
    cases b
    · have : ¬ trail 0 hist = 5 := by
        rcases hn with h | ⟨_, h⟩
        · omega
        · cases h
      simp [destuff, ht, this]
    · simp [destuff]
  by_cases hroom : s.len < s.maxFrameLen ∨ s.numBits < 7
  · obtain ⟨s', e, h1, h2, h3, h4⟩ := rxDataBit_holds h.reg hh b hroom
    have hf : s'.rxFrames = s.rxFrames ∧ s'.rxBytes = s.rxBytes ∧ s'.numBits ≤ k + 1 := by
      have h8 := hh.num
      unfold rxDataBit at e
      rw [if_neg (by simp only; omega)] at e
      simp only at e
      rw [if_neg (by omega)] at e
      split at e
      · unfold rxOctet at e
        simp only at e
        rw [if_pos (by omega), if_pos (by have := h.size; have := h.max; omega)] at e
        simp only [Option.bind_eq_bind, Option.bind_some, Option.pure_def, Option.some.injEq] at e
        subst e
        exact ⟨rfl, rfl, by simp⟩
      · simp only [Option.some.injEq] at e
        subst e
        exact ⟨rfl, rfl, by simp only; omega⟩
    refine ⟨s', e, ⟨by rw [h2.threshold]; exact h.th, by rw [h2.crcBytes]; exact h.cb,
      by rw [h2.maxFrameLen]; exact h.max, h1.size, head_snoc h.start b, by rw [h4]; exact reg_snoc h.reg b,
      hf.2.2, Nat.le_of_eq h1.seen, h1.high, fun _ => ⟨?_, pre, u ++ [b], by rw [hu]; simp, noflag_snoc hno (by rw [ht]; rcases hn with h | h <;> omega), ?_⟩⟩,
      .quiet h2 h3 hf.1 hf.2.1⟩
    · rw [trail_snoc]; split <;> omega
    · rw [hd]; exact h1
  · have h8 := hh.num
    have hroom' := hh.room
    unfold rxDataBit
    rw [if_neg (by simp only; omega)]
    simp only
    rw [if_neg (by omega), if_pos (by omega)]
    unfold rxOctet
    simp only
    rw [if_neg (by omega)]
    obtain ⟨f1, f2, f3, f4, f5, f6, f7⟩ := octetSetAndCount_facts
      { s with rawBitStream := pushRaw s.rawBitStream b, numBits := s.numBits + 1,
               byteInProgress := (s.byteInProgress ||| (pushRaw s.rawBitStream b &&& 0x100#32)) >>> 1,
               len := bufSize + 1, flagsSeen := s.framingOkThreshold - 1 } (hist ++ [b])
    have hth := h.th
    refine ⟨_, rfl, ⟨?_, ?_, ?_, ?_, head_snoc h.start b, ?_, ?_, ?_, ?_, ?_⟩,
      ⟨⟨f1.cfg.1, f1.cfg.2, f1.cfg.3, f1.cfg.4⟩, f1.rep⟩⟩
    · simp only [f1.cfg.threshold]; exact h.th
    · simp only [f1.cfg.crcBytes]; exact h.cb
    · simp only [f1.cfg.maxFrameLen]; exact h.max
    · simp only [f4]; exact h.size
    · simp only [f3]; exact reg_snoc h.reg b
    · simp
    · simp only [f2, f1.cfg.threshold]; omega
    · simp only [f5]
      intro i hi
      rw [pushRaw_bit h.reg, bip_push _ _ h.high, if_neg (by omega), if_neg (by omega)]
    · simp only [f2, f1.cfg.threshold]; intro e; omega

theorem backOff_seen {s : Rx} (h : 1 ≤ s.framingOkThreshold) :
    (backOff s).flagsSeen < s.framingOkThreshold := by
  simp only [backOff]; split <;> omega

/-- An abort. -/
theorem abort_step {hist : List Bool} {k : Nat} {s : Rx} (h : RInv hist k s) :
    let s' := { rxAbort { s with rawBitStream := pushRaw s.rawBitStream true } with len := 0, numBits := 0 }
    RInv (hist ++ [true]) (k + 1) s' ∧ RStep (hist ++ [true]) s s' := by
  let s1 : Rx := backOff (Rx.reportStatus { s with rawBitStream := pushRaw s.rawBitStream true, rxAborts := s.rxAborts + 1 } abort)
  have hb : s1.flagsSeen < s.framingOkThreshold := backOff_seen (s := Rx.reportStatus { s with rawBitStream := pushRaw s.rawBitStream true, rxAborts := s.rxAborts + 1 } abort) h.th
  obtain ⟨f1, f2, f3, f4, f5, f6, f7⟩ := octetSetAndCount_facts s1 (hist ++ [true])
  obtain ⟨new, g1, g2, g3, g4, g5⟩ := f1.rep
  intro s'
  have e : s' = { octetSetAndCount s1 with len := 0, numBits := 0 } := rfl
  rw [e]
  refine ⟨⟨?_, ?_, ?_, ?_, head_snoc h.start true, ?_, ?_, ?_, ?_, ?_⟩, ⟨?_, ⟨.status abort :: new, ?_, ?_, ?_, ?_, ?_⟩⟩⟩
  · simp only [f1.cfg.threshold]; exact h.th
  · simp only [f1.cfg.crcBytes]; exact h.cb
  · simp only [f1.cfg.maxFrameLen]; exact h.max
  · simp only [f4]; exact h.size
  · simp only [f3]; exact reg_snoc h.reg true
  · simp
  · simp only [f2, f1.cfg.threshold]; exact Nat.le_of_lt hb
  · simp only [f5]; exact h.high
  · simp only [f2, f1.cfg.threshold]
    intro e
    have e' : s1.flagsSeen = s.framingOkThreshold := e
    omega
  · exact ⟨f1.cfg.1, f1.cfg.2, f1.cfg.3, f1.cfg.4⟩
  · simp only [g1]
    show s.out ++ [.status abort] ++ new = _
    simp
  · simpa [allFrames] using g2
  · simp only [g3]; rfl
  · simp only [g4]; rfl
  · intro p hp; exact g5 p (by simpa [goodFrames] using hp)

/-- A flag when not collecting. -/
theorem framing_step {hist : List Bool} {k : Nat} {s : Rx} (h : RInv hist k s) (h6 : trail 0 hist = 6)
    (hs : s.flagsSeen < s.framingOkThreshold) :
    let s' := { rxFramingFlag { s with rawBitStream := pushRaw s.rawBitStream false, octetCountingMode := false } with len := 0, numBits := 0 }
    RInv (hist ++ [false]) (k + 1) s' ∧ RStep (hist ++ [false]) s s' := by
  obtain ⟨pre, hpre⟩ := flag_suffix h.start h6
  have hth := h.th
  -- the state after counting the flag, before the announcement
  have key : ∀ (t : Rx), t.framingOkThreshold = s.framingOkThreshold → t.crcBytes = s.crcBytes →
      t.maxFrameLen = s.maxFrameLen → t.reportBadFrames = s.reportBadFrames → t.buffer = s.buffer →
      t.rawBitStream = pushRaw s.rawBitStream false → t.byteInProgress = s.byteInProgress →
      t.out = s.out → t.rxFrames = s.rxFrames → t.rxBytes = s.rxBytes → t.flagsSeen < s.framingOkThreshold →
      let t1 := { t with flagsSeen := t.flagsSeen + 1 }
      let t2 := if t1.flagsSeen ≥ t1.framingOkThreshold ∧ t1.framingOkAnnounced = false then
        { t1.reportStatus framingOk with framingOkAnnounced := true } else t1
      RInv (hist ++ [false]) (k + 1) { t2 with len := 0, numBits := 0 } ∧
        RStep (hist ++ [false]) s { t2 with len := 0, numBits := 0 } := by
    intro t e1 e2 e3 e4 e5 e6 e7 e8 e9 e10 hlt t1 t2
    have q : t2.framingOkThreshold = s.framingOkThreshold ∧ t2.crcBytes = s.crcBytes ∧
      t2.maxFrameLen = s.maxFrameLen ∧ t2.reportBadFrames = s.reportBadFrames ∧ t2.buffer = s.buffer ∧
      t2.rawBitStream = pushRaw s.rawBitStream false ∧ t2.byteInProgress = s.byteInProgress ∧
      t2.rxFrames = s.rxFrames ∧ t2.rxBytes = s.rxBytes ∧ t2.flagsSeen = t.flagsSeen + 1 := by
      simp only [t2]
      split <;> exact ⟨e1, e2, e3, e4, e5, e6, e7, e9, e10, rfl⟩
    obtain ⟨q1, q2, q3, q4, q5, q6, q7, q8, q9, q10⟩ := q
    refine ⟨⟨by simp only [q1]; exact h.th, by simp only [q2]; exact h.cb, by simp only [q3]; exact h.max,
      by simp only [q5]; exact h.size, head_snoc h.start false, by simp only [q6]; exact reg_snoc h.reg false,
      by simp, by simp only [q1, q10]; omega, by simp only [q7]; exact h.high, ?_⟩, ?_⟩
    · intro e
      refine ⟨by rw [trail_snoc]; simp, pre, [], by simp [hpre], by decide, ?_⟩
      exact holds_fresh e (by simp only [q5]; exact h.size) (by simp only [q3]; exact h.max)
        (by simp only [q7]; exact h.high) rfl rfl
    · by_cases hc : t1.flagsSeen ≥ t1.framingOkThreshold ∧ t1.framingOkAnnounced = false
      · refine RStep.status ⟨q2, q3, q1, q4⟩ framingOk ?_ q8 q9
        show t2.out = _
        simp only [t2, if_pos hc]
        show t.out ++ _ = _
        rw [e8]
      · refine RStep.quiet ⟨q2, q3, q1, q4⟩ ?_ q8 q9
        show t2.out = _
        simp only [t2, if_neg hc]
        exact e8
  unfold rxFramingFlag
  simp only
  split
  · exact key (backOff { s with rawBitStream := pushRaw s.rawBitStream false, octetCountingMode := false })
      rfl rfl rfl rfl rfl rfl rfl rfl rfl rfl (backOff_seen (s := { s with rawBitStream := pushRaw s.rawBitStream false, octetCountingMode := false }) h.th)
  · exact key { s with rawBitStream := pushRaw s.rawBitStream false, octetCountingMode := false }
      rfl rfl rfl rfl rfl rfl rfl rfl rfl rfl hs

/-- What the end of a frame does. -/
theorem endFrame_step {hist : List Bool} {k : Nat} {s : Rx} (h : RInv hist k s) (h6 : trail 0 hist = 6)
    (hs : s.flagsSeen = s.framingOkThreshold) :
    ∃ s', rxEndFrame { s with rawBitStream := pushRaw s.rawBitStream false, octetCountingMode := false } = some s' ∧
      RStep (hist ++ [false]) s s' ∧ s'.flagsSeen = s.flagsSeen ∧ s'.rawBitStream = pushRaw s.rawBitStream false ∧
      s'.buffer = s.buffer ∧ s'.byteInProgress = s.byteInProgress := by
  obtain ⟨_, pre, u, hu, hno, hh⟩ := h.coll hs
  have hlen : s.len ≤ s.buffer.length := by have := hh.room; have := h.max; have := h.size; omega
  unfold rxEndFrame
  by_cases hc : s.numBits = 7 ∧ s.len ≥ s.crcBytes ∧ s.len ≤ s.maxFrameLen
  · rw [if_pos hc]
    rw [rxCrcOk_eq { s with rawBitStream := pushRaw s.rawBitStream false, octetCountingMode := false } hlen]
    simp only
    have hsome : ∃ ok, fcsOk s.crcBytes (s.buffer.take s.len) = some ok := by
      unfold fcsOk
      split
      · unfold Crc.itu16Check; rw [(Crc.crc_calc_is_bit_serial _ _ 0).1]; exact ⟨_, rfl⟩
      · unfold Crc.itu32Check; rw [(Crc.crc_calc_is_bit_serial _ 0 _).2]; exact ⟨_, rfl⟩
    obtain ⟨ok, hok⟩ := hsome
    rw [hok]
    simp only [Option.bind_eq_bind, Option.bind_some]
    cases ok
    · simp only [Bool.false_eq_true, if_false]
      split
      · unfold Rx.reportFrame
        rw [if_pos (by simp only; omega)]
        refine ⟨_, rfl, ⟨⟨rfl, rfl, rfl, rfl⟩, [.frame (s.buffer.take (s.len - s.crcBytes)) false], rfl,
          by simp [allFrames], by simp [goodFrames], by simp [goodFrames], by simp [goodFrames]⟩, rfl, rfl, rfl, rfl⟩
      · exact ⟨_, rfl, .quiet ⟨rfl, rfl, rfl, rfl⟩ rfl rfl rfl, rfl, rfl, rfl, rfl⟩
    · simp only [if_true]
      unfold Rx.reportFrame
      rw [if_pos (by simp only; omega)]
      have hsplit : s.buffer.take s.len = s.buffer.take (s.len - s.crcBytes) ++
          (s.buffer.take s.len).drop (s.len - s.crcBytes) := by
        have := List.take_append_drop (s.len - s.crcBytes) (s.buffer.take s.len)
        rw [List.take_take, Nat.min_eq_left (by omega)] at this
        exact this.symm
      have hfcs : (s.buffer.take s.len).drop (s.len - s.crcBytes) =
          fcs s.crcBytes (s.buffer.take (s.len - s.crcBytes)) := by
        apply fcs_unique _ h.cb
        · simp; omega
        · rw [← hsplit]; exact hok
      rw [hfcs] at hsplit
      refine ⟨_, rfl, ⟨⟨rfl, rfl, rfl, rfl⟩, [.frame (s.buffer.take (s.len - s.crcBytes)) true], rfl,
        by simp [allFrames], by simp [goodFrames], ?_, ?_⟩, rfl, rfl, rfl, rfl⟩
      · simp [goodFrames]; omega
      · intro p hp
        simp only [goodFrames, List.filterMap_cons, List.filterMap_nil, List.mem_cons, List.not_mem_nil, or_false] at hp
        subst hp
        refine ⟨by simp; omega, ?_, pre, u, (destuff 0 u).drop (8 * s.len), by rw [hu], hno, ?_, ?_⟩
        · obtain ⟨q, hq⟩ := flag_suffix h.start h6
          exact ⟨q, hq.symm⟩
        · have := hh.count
          simp; omega
        · rw [← hsplit, hh.octets, List.take_append_drop]
  · rw [if_neg hc]
    simp only
    split
    · unfold Rx.reportFrame
      rw [if_pos (by simp only; split <;> omega)]
      refine ⟨_, rfl, ⟨⟨rfl, rfl, rfl, rfl⟩, [.frame (s.buffer.take (if s.len ≥ s.crcBytes then s.len - s.crcBytes else 0)) false], rfl,
          by simp [allFrames], by simp [goodFrames], by simp [goodFrames], by simp [goodFrames]⟩, rfl, rfl, rfl, rfl⟩
    · exact ⟨_, rfl, .quiet ⟨rfl, rfl, rfl, rfl⟩ rfl rfl rfl, rfl, rfl, rfl, rfl⟩

/-- Any line bit. -/
theorem bit_step {hist : List Bool} {k : Nat} {s : Rx} (h : RInv hist k s) (b : Bool)
    (hk : s.numBits < 2147483647 ∨ rxPutBit s (bitOf b) ≠ none) :
    ∃ s', rxPutBit s (bitOf b) = some s' ∧ RInv (hist ++ [b]) (k + 1) s' ∧ RStep (hist ++ [b]) s s' := by
  rw [rxPutBit_eq h.reg] at hk ⊢
  simp only at hk ⊢
  by_cases h5 : min 7 (trail 0 hist) = 5 ∧ b = false
  · rw [if_pos h5]
    obtain ⟨h5, rfl⟩ := h5
    refine ⟨_, rfl, ⟨h.th, h.cb, h.max, h.size, head_snoc h.start false, reg_snoc h.reg false,
      Nat.le_succ_of_le h.num, h.seen, h.high, ?_⟩, .quiet ⟨rfl, rfl, rfl, rfl⟩ rfl rfl rfl⟩
    intro hs
    obtain ⟨_, pre, u, hu, hno, hh⟩ := h.coll hs
    refine ⟨by rw [trail_snoc]; simp, pre, u ++ [false], by rw [hu]; simp, ?_, ?_⟩
    · exact noflag_snoc hno (by have ht : trail 0 u = trail 0 hist := by rw [hu, trail_append, trail_append]; rfl
                                omega)
    have ht : trail 0 u = trail 0 hist := by rw [hu, trail_append, trail_append]; rfl
    have : trail 0 hist = 5 := by omega
    rw [destuff_append, ht, this]
    simp only [destuff, if_true, List.append_nil]
    exact ⟨hh.1, hh.2, hh.3, hh.4, hh.5, hh.6, hh.7, hh.8, hh.9⟩
  · rw [if_neg h5]
    by_cases h6 : min 7 (trail 0 hist) = 6
    · rw [if_pos h6]
      have h6' : trail 0 hist = 6 := by omega
      unfold rxFlagOrAbort
      cases b
      · rw [if_neg (by rw [pushRaw_abort h.reg]; decide)]
        simp only
        by_cases hs : s.flagsSeen = s.framingOkThreshold
        · obtain ⟨pre, hpre⟩ := flag_suffix h.start h6'
          rw [if_pos (Nat.le_of_eq hs.symm)]
          by_cases hl : s.len = 0
          · rw [if_neg (by simp [hl])]
            refine ⟨_, rfl, ⟨h.th, h.cb, h.max, h.size, head_snoc h.start false, reg_snoc h.reg false,
              by simp, h.seen, h.high, ?_⟩, .quiet ⟨rfl, rfl, rfl, rfl⟩ rfl rfl rfl⟩
            intro _
            exact ⟨by rw [trail_snoc]; simp, pre, [], by simp [hpre], by decide,
              holds_fresh hs h.size h.max h.high rfl rfl⟩
          · rw [if_pos (by simpa using hl)]
            obtain ⟨s', e, q1, q2, q3, q4, q5⟩ := endFrame_step h h6' hs
            rw [e]
            refine ⟨_, rfl, ⟨by simp only [q1.cfg.threshold]; exact h.th, by simp only [q1.cfg.crcBytes]; exact h.cb,
              by simp only [q1.cfg.maxFrameLen]; exact h.max, by simp only [q4]; exact h.size,
              head_snoc h.start false, by simp only [q3]; exact reg_snoc h.reg false, by simp,
              by simp only [q2, q1.cfg.threshold]; exact h.seen, by simp only [q5]; exact h.high, ?_⟩,
              ⟨⟨q1.cfg.1, q1.cfg.2, q1.cfg.3, q1.cfg.4⟩, q1.rep⟩⟩
            intro _
            exact ⟨by rw [trail_snoc]; simp, pre, [], by simp [hpre], by decide,
              holds_fresh (by simp only [q2, q1.cfg.threshold]; exact hs) (by simp only [q4]; exact h.size)
                (by simp only [q1.cfg.maxFrameLen]; exact h.max) (by simp only [q5]; exact h.high) rfl rfl⟩
        · have hlt : s.flagsSeen < s.framingOkThreshold := by have := h.seen; omega
          rw [if_neg (by omega)]
          exact ⟨_, rfl, framing_step h h6' hlt⟩
      · rw [if_pos (by rw [pushRaw_abort h.reg])]
        exact ⟨_, rfl, abort_step h⟩
    · rw [if_neg h5, if_neg h6] at hk
      rw [if_neg h6]
      by_cases hs : s.flagsSeen = s.framingOkThreshold
      · have := (h.coll hs).1
        refine dataBit_coll h b hs ?_
        by_cases h5' : trail 0 hist = 5
        · right; refine ⟨h5', ?_⟩
          cases b
          · exact absurd ⟨by omega, rfl⟩ h5
          · rfl
        · left; omega
      · exact dataBit_idle h b hk hs

/-- A bit counts by its lowest bit. -/
theorem rxPutBit_low (s : Rx) (x : Int) (hx : ¬ x < 0) :
    rxPutBit s x = rxPutBit s (bitOf (decide (x % 2 = 1))) := by
  have hb : ∀ b, ¬ bitOf b < 0 := by intro b; cases b <;> decide
  unfold rxPutBit
  rw [if_neg hx, if_neg (hb _)]
  have e : (BitVec.ofInt 32 x <<< 8) &&& 0x100#32 =
      (BitVec.ofInt 32 (bitOf (decide (x % 2 = 1))) <<< 8) &&& 0x100#32 := by
    have h0 : ∀ y : Int, (BitVec.ofInt 32 y <<< 8) &&& 0x100#32 =
        if (BitVec.ofInt 32 y).getLsbD 0 then 0x100#32 else 0#32 := by
      intro y
      generalize BitVec.ofInt 32 y = v
      rw [show 0x100#32 = BitVec.twoPow 32 8 by decide]
      ext i hi
      simp only [BitVec.getElem_and, BitVec.getElem_shiftLeft, BitVec.getElem_twoPow]
      by_cases h8 : i = 8
      · subst h8
        have e : v[0] = v.getLsbD 0 := by simp
        rw [show decide (8 = 8) = true from rfl]; cases h : v.getLsbD 0 <;> simp only [e, h] <;> simp
      · have : decide (8 = i) = false := by simp; omega
        cases h : v.getLsbD 0 <;> simp [h8]
    rw [h0, h0]
    have h1 : ∀ y : Int, (BitVec.ofInt 32 y).getLsbD 0 = decide (y % 2 = 1) := by
      intro y
      rw [BitVec.getLsbD, BitVec.toNat_ofInt, Nat.testBit_zero]
      congr 1
      apply propext
      omega
    rw [h1, h1]
    by_cases hm : x % 2 = 1
    · simp [hm, bitOf]
    · simp [hm, bitOf]
  rw [e]

theorem lineBits_snoc (l : List Int) (x : Int) : lineBits (l ++ [x]) =
    if x = carrierUp ∨ x = trainingSucceeded then [false]
    else if x < 0 then lineBits l else lineBits l ++ [decide (x % 2 = 1)] := by
  simp [lineBits]

/-- Any input. -/
theorem input_step {l : List Int} {s : Rx} (h : RInv (lineBits l) l.length s) (x : Int)
    (hk : s.numBits < 2147483647 ∨ rxPutBit s x ≠ none) :
    ∃ s', rxPutBit s x = some s' ∧ RInv (lineBits (l ++ [x])) (l ++ [x]).length s' ∧
      RStep (lineBits (l ++ [x])) s s' := by
  rw [lineBits_snoc, List.length_append, List.length_singleton]
  by_cases hx : x < 0
  · unfold rxPutBit
    rw [if_pos hx]
    refine ⟨_, rfl, ?_⟩
    unfold rxSpecialCondition
    by_cases h1 : x = carrierUp ∨ x = trainingSucceeded
    · rw [if_pos h1, if_pos h1]
      refine ⟨⟨h.th, h.cb, h.max, h.size, rfl, ⟨by intro i _; simp [Rx.reportStatus], by simp only [Rx.reportStatus]; decide⟩, by simp [Rx.reportStatus],
        by simp [Rx.reportStatus], h.high, ?_⟩, .status ⟨rfl, rfl, rfl, rfl⟩ x rfl rfl rfl⟩
      intro e
      have := h.th
      have e' : 0 = s.framingOkThreshold := e
      omega
    · rw [if_neg h1, if_neg h1, if_pos hx]
      have mono : ∀ t : Rx, t = s ∨ t = s.reportStatus x → RInv (lineBits l) (l.length + 1) t := by
        rintro t (rfl | rfl)
        · exact ⟨h.th, h.cb, h.max, h.size, h.start, h.reg, Nat.le_succ_of_le h.num, h.seen, h.high, h.coll⟩
        · refine ⟨h.th, h.cb, h.max, h.size, h.start, h.reg, Nat.le_succ_of_le h.num, h.seen, h.high, ?_⟩
          intro e
          obtain ⟨q, pre, u, hu, hno, hh⟩ := h.coll e
          exact ⟨q, pre, u, hu, hno, hh.1, hh.2, hh.3, hh.4, hh.5, hh.6, hh.7, hh.8, hh.9⟩
      split
      · exact ⟨mono _ (Or.inr rfl), .status ⟨rfl, rfl, rfl, rfl⟩ x rfl rfl rfl⟩
      · exact ⟨mono _ (Or.inl rfl), .quiet ⟨rfl, rfl, rfl, rfl⟩ rfl rfl rfl⟩
  · have h1 : ¬ (x = carrierUp ∨ x = trainingSucceeded) := by
      rintro (rfl | rfl) <;> exact hx (by decide)
    rw [rxPutBit_low s x hx] at hk
    rw [if_neg h1, if_neg hx, rxPutBit_low s x hx]
    exact bit_step h _ hk

theorem feed_snoc (s : Rx) (l : List Int) (x : Int) : feed s (l ++ [x]) = (feed s l).bind (rxPutBit · x) := by
  induction l generalizing s with
  | nil => simp only [List.nil_append, feed, Option.bind_some]; cases rxPutBit s x <;> rfl
  | cons a l ih =>
    simp only [List.cons_append, feed]
    cases rxPutBit s a with
    | none => rfl
    | some t => simp [ih]

/-- A freshly set up receiver. -/
def rxSetup (crc32 bad : Bool) (threshold : Int) (maxLen : Nat) (interval : Int) : Rx :=
  rxSetOctetCountingReportInterval (rxSetMaxFrameLen (rxInit crc32 bad threshold) maxLen) interval

theorem setup_inv (crc32 bad : Bool) (threshold : Int) (maxLen : Nat) (interval : Int) :
    RInv (lineBits []) 0 (rxSetup crc32 bad threshold maxLen interval) := by
  have hth : 1 ≤ (rxSetup crc32 bad threshold maxLen interval).framingOkThreshold := by
    simp only [rxSetup, rxSetOctetCountingReportInterval, rxSetMaxFrameLen, rxInit]
    split <;> omega
  refine ⟨hth, ?_, ?_, by simp [rxSetup, rxSetOctetCountingReportInterval, rxSetMaxFrameLen, rxInit], rfl,
    ⟨by intro i _; simp [rxSetup, rxSetOctetCountingReportInterval, rxSetMaxFrameLen, rxInit], by
      simp only [rxSetup, rxSetOctetCountingReportInterval, rxSetMaxFrameLen, rxInit]; decide⟩, Nat.zero_le _,
    Nat.zero_le _, by intro i _; simp [rxSetup, rxSetOctetCountingReportInterval, rxSetMaxFrameLen, rxInit], ?_⟩
  · simp only [rxSetup, rxSetOctetCountingReportInterval, rxSetMaxFrameLen, rxInit]; cases crc32 <;> simp
  · simp only [rxSetup, rxSetOctetCountingReportInterval, rxSetMaxFrameLen]; split <;> first | omega | exact Nat.le_refl _
  · intro e
    have e' : 0 = (rxSetup crc32 bad threshold maxLen interval).framingOkThreshold := e
    omega

theorem feed_inv (crc32 bad : Bool) (threshold : Int) (maxLen : Nat) (interval : Int) (n : Nat) :
    ∀ l : List Int, l.length = n → (n < 2147483648 ∨ feed (rxSetup crc32 bad threshold maxLen interval) l ≠ none) →
    ∃ s, feed (rxSetup crc32 bad threshold maxLen interval) l = some s ∧ RInv (lineBits l) l.length s ∧
      SameCfg (rxSetup crc32 bad threshold maxLen interval) s := by
  induction n with
  | zero =>
    intro l hl _
    have : l = [] := List.eq_nil_of_length_eq_zero hl
    subst this
    exact ⟨_, rfl, setup_inv crc32 bad threshold maxLen interval, .rfl' _⟩
  | succ n ih =>
    intro l hl hn
    have hne : l ≠ [] := by intro e; simp [e] at hl
    obtain ⟨l', x, rfl⟩ : ∃ l' x, l = l' ++ [x] := ⟨l.dropLast, l.getLast hne, (List.dropLast_concat_getLast hne).symm⟩
    have hl' : l'.length = n := by simpa using hl
    obtain ⟨s, e, h, hc⟩ := ih l' hl' (by
      rcases hn with hn | hn
      · left; omega
      · right; intro e; exact hn (by rw [feed_snoc, e]; rfl))
    obtain ⟨s', e', h', hs⟩ := input_step h x (by
      rcases hn with hn | hn
      · left; have := h.num; omega
      · right; intro e'; exact hn (by rw [feed_snoc, e]; exact e'))
    exact ⟨s', by rw [feed_snoc, e]; exact e', h', hc.trans hs.cfg⟩

end Hdlc
