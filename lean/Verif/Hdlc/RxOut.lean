import Verif.Hdlc.RxOctets

/-! # What the HDLC receiver has reported does not influence it -/

namespace Hdlc
open Spec
open Crc.Spec (bits octetBits)

/-- The state with earlier reports. -/
abbrev addOut (o : List Report) (s : Rx) : Rx := { s with out := o ++ s.out }

theorem reportStatus_out (s : Rx) (o : List Report) (x : Int) :
    (addOut o s).reportStatus x = addOut o (s.reportStatus x) := by
  simp [Rx.reportStatus, addOut]

theorem octetSetAndCount_out (s : Rx) (o : List Report) :
    octetSetAndCount (addOut o s) = addOut o (octetSetAndCount s) := by
  unfold octetSetAndCount
  by_cases h1 : s.octetCountReportInterval = 0
  · rw [if_pos h1, if_pos h1]
  · rw [if_neg h1, if_neg h1]
    by_cases h2 : s.octetCountingMode
    · rw [if_pos h2, if_pos h2]
      by_cases h3 : s.octetCount - 1 ≤ 0
      · rw [if_pos h3, if_pos h3]
        exact reportStatus_out { s with octetCount := s.octetCountReportInterval } o _
      · rw [if_neg h3, if_neg h3]
    · rw [if_neg h2, if_neg h2]

theorem octetCountStep_out (s : Rx) (o : List Report) :
    octetCountStep (addOut o s) = addOut o (octetCountStep s) := by
  unfold octetCountStep
  by_cases h1 : s.octetCountReportInterval = 0
  · rw [if_pos h1, if_pos h1]
  · rw [if_neg h1, if_neg h1]
    by_cases h2 : s.octetCountingMode
    · rw [if_pos h2, if_pos h2]
      by_cases h3 : s.octetCount - 1 ≤ 0
      · rw [if_pos h3, if_pos h3]
        exact reportStatus_out { s with octetCount := s.octetCountReportInterval } o _
      · rw [if_neg h3, if_neg h3]
    · rw [if_neg h2, if_neg h2]

theorem rxAbort_out (s : Rx) (o : List Report) : rxAbort (addOut o s) = addOut o (rxAbort s) := by
  unfold rxAbort
  rw [← octetSetAndCount_out, reportStatus_out { s with rxAborts := s.rxAborts + 1 } o abort]
  rfl

theorem rxFramingFlag_out (s : Rx) (o : List Report) :
    rxFramingFlag (addOut o s) = addOut o (rxFramingFlag s) := by
  unfold rxFramingFlag
  have key : ∀ t : Rx, (if t.flagsSeen + 1 ≥ t.framingOkThreshold ∧ t.framingOkAnnounced = false then
      ({ Rx.reportStatus { addOut o t with flagsSeen := t.flagsSeen + 1 } framingOk with framingOkAnnounced := true } : Rx)
      else { addOut o t with flagsSeen := t.flagsSeen + 1 }) =
      addOut o (if t.flagsSeen + 1 ≥ t.framingOkThreshold ∧ t.framingOkAnnounced = false then
      ({ Rx.reportStatus { t with flagsSeen := t.flagsSeen + 1 } framingOk with framingOkAnnounced := true } : Rx)
      else { t with flagsSeen := t.flagsSeen + 1 }) := by
    intro t
    by_cases h : t.flagsSeen + 1 ≥ t.framingOkThreshold ∧ t.framingOkAnnounced = false
    · rw [if_pos h, if_pos h]; simp [Rx.reportStatus]
    · rw [if_neg h, if_neg h]
  by_cases h1 : s.flagsSeen ≠ s.framingOkThreshold - 1 ∧ s.numBits ≠ 7
  · rw [if_pos h1, if_pos h1]; exact key (backOff s)
  · rw [if_neg h1, if_neg h1]; exact key s

theorem reportFrame_out (s : Rx) (o : List Report) (ok : Bool) :
    (addOut o s).reportFrame ok = (s.reportFrame ok).map (addOut o) := by
  unfold Rx.reportFrame
  by_cases h : s.len ≤ s.buffer.length
  · rw [if_pos h, if_pos h]; simp
  · rw [if_neg h, if_neg h]; rfl

theorem rxEndFrame_out (s : Rx) (o : List Report) :
    rxEndFrame (addOut o s) = (rxEndFrame s).map (addOut o) := by
  unfold rxEndFrame
  have e : rxCrcOk (addOut o s) = rxCrcOk s := rfl
  rw [e]
  by_cases h1 : s.numBits = 7 ∧ s.len ≥ s.crcBytes ∧ s.len ≤ s.maxFrameLen
  · rw [if_pos h1, if_pos h1]
    cases rxCrcOk s with
    | none => rfl
    | some ok =>
      cases ok
      · simp only [Option.bind_eq_bind, Option.bind_some, Bool.false_eq_true, if_false]
        by_cases h2 : s.reportBadFrames
        · rw [if_pos h2, if_pos h2]
          exact reportFrame_out { s with rxCrcErrors := s.rxCrcErrors + 1, len := s.len - s.crcBytes } o false
        · rw [if_neg h2, if_neg h2]; rfl
      · exact reportFrame_out { s with rxFrames := s.rxFrames + 1, rxBytes := s.rxBytes + (s.len - s.crcBytes), len := s.len - s.crcBytes } o true
  · rw [if_neg h1, if_neg h1]
    by_cases h2 : s.reportBadFrames
    · rw [if_pos h2, if_pos h2]
      have := reportFrame_out { s with len := if s.len ≥ s.crcBytes then s.len - s.crcBytes else 0 } o false
      simp only [addOut] at this
      rw [this]
      cases Rx.reportFrame { s with len := if s.len ≥ s.crcBytes then s.len - s.crcBytes else 0 } false <;> rfl
    · rw [if_neg h2, if_neg h2]; rfl

theorem rxFlagOrAbort_out (s : Rx) (o : List Report) :
    rxFlagOrAbort (addOut o s) = (rxFlagOrAbort s).map (addOut o) := by
  unfold rxFlagOrAbort
  by_cases h1 : s.rawBitStream &&& 0x0100#32 ≠ 0
  · rw [if_pos h1, if_pos h1, rxAbort_out]; rfl
  · rw [if_neg h1, if_neg h1]
    simp only
    by_cases h2 : s.flagsSeen ≥ s.framingOkThreshold
    · rw [if_pos h2, if_pos h2]
      by_cases h3 : s.len ≠ 0
      · rw [if_pos h3, if_pos h3]
        have := rxEndFrame_out { s with octetCountingMode := false } o
        simp only [addOut] at this ⊢
        rw [this]
        cases rxEndFrame { s with octetCountingMode := false } <;> rfl
      · rw [if_neg h3, if_neg h3]; rfl
    · rw [if_neg h2, if_neg h2]
      have := rxFramingFlag_out { s with octetCountingMode := false } o
      simp only [addOut] at this ⊢
      rw [this]; rfl

theorem rxOctet_out (s : Rx) (o : List Report) : rxOctet (addOut o s) = (rxOctet s).map (addOut o) := by
  unfold rxOctet
  by_cases h1 : s.len < s.maxFrameLen
  · rw [if_pos h1, if_pos h1]
    by_cases h2 : s.len < s.buffer.length
    · rw [if_pos h2, if_pos h2]; rfl
    · rw [if_neg h2, if_neg h2]; rfl
  · rw [if_neg h1, if_neg h1]
    have := octetSetAndCount_out { s with len := bufSize + 1, flagsSeen := s.framingOkThreshold - 1 } o
    simp only [addOut] at this
    rw [this]; rfl

theorem rxDataBit_out (s : Rx) (o : List Report) :
    rxDataBit (addOut o s) = (rxDataBit s).map (addOut o) := by
  unfold rxDataBit
  by_cases h1 : s.numBits ≥ 2147483647
  · rw [if_pos h1, if_pos h1]; rfl
  · rw [if_neg h1, if_neg h1]
    simp only
    by_cases h2 : s.flagsSeen < s.framingOkThreshold
    · rw [if_pos h2, if_pos h2]
      by_cases h3 : (s.numBits + 1) % 8 = 0
      · rw [if_pos h3, if_pos h3]
        have := octetCountStep_out { s with numBits := s.numBits + 1 } o
        simp only [addOut] at this
        rw [this]; rfl
      · rw [if_neg h3, if_neg h3]; rfl
    · rw [if_neg h2, if_neg h2]
      by_cases h3 : s.numBits + 1 = 8
      · rw [if_pos h3, if_pos h3]
        exact rxOctet_out { s with numBits := s.numBits + 1, byteInProgress := (s.byteInProgress ||| (s.rawBitStream &&& 0x100#32)) >>> 1 } o
      · rw [if_neg h3, if_neg h3]; rfl

theorem core_out (s : Rx) (o : List Report) : rxPutBitCore (addOut o s) = (rxPutBitCore s).map (addOut o) := by
  unfold rxPutBitCore
  rw [rxFlagOrAbort_out, rxDataBit_out]
  simp only
  split
  · rfl
  · split <;> rfl

theorem putBit_out (s : Rx) (o : List Report) (x : Int) : rxPutBit (addOut o s) x = (rxPutBit s x).map (addOut o) := by
  unfold rxPutBit
  by_cases h : x < 0
  · rw [if_pos h, if_pos h]
    unfold rxSpecialCondition
    by_cases h1 : x = carrierUp ∨ x = trainingSucceeded
    · rw [if_pos h1, if_pos h1]; simp [Rx.reportStatus]
    · rw [if_neg h1, if_neg h1]
      split
      · simp [Rx.reportStatus]
      · simp
  · rw [if_neg h, if_neg h]
    exact core_out { s with rawBitStream := (s.rawBitStream <<< 1) ||| ((BitVec.ofInt 32 x <<< 8) &&& 0x100#32) } o

/-- Reports are only added. -/
theorem putBit_mono {s s' : Rx} {x : Int} (h : rxPutBit s x = some s') : s.out <+: s'.out := by
  have := putBit_out { s with out := [] } s.out x
  have e : addOut s.out { s with out := [] } = s := by simp [addOut]
  rw [e, h] at this
  cases hq : rxPutBit { s with out := [] } x with
  | none => rw [hq] at this; simp at this
  | some t =>
    rw [hq] at this
    simp only [Option.map_some, Option.some.injEq] at this
    rw [this]
    exact List.prefix_append _ _

theorem feedB_mono {s s' : Rx} {l : List Bool} (h : feedB s l = some s') : s.out <+: s'.out := by
  induction l generalizing s with
  | nil => simp only [feedB, Option.some.injEq] at h; subst h; exact List.prefix_refl _
  | cons b l ih =>
    simp only [feedB] at h
    cases hp : rxPutBit s (bitOf b) with
    | none => rw [hp] at h; simp at h
    | some t =>
      rw [hp] at h
      exact (putBit_mono hp).trans (ih h)

/-- The same but for statuses reported. -/
def Sim (s t : Rx) : Prop := ∃ a b u, s = addOut a u ∧ t = addOut b u ∧ allFrames a = allFrames b

theorem Sim.refl (s : Rx) : Sim s s := ⟨[], [], s, rfl, rfl, rfl⟩

theorem Sim.out {s t : Rx} (h : Sim s t) : allFrames s.out = allFrames t.out := by
  obtain ⟨a, b, u, rfl, rfl, h⟩ := h
  simp [allFrames_append, h]

theorem Sim.put {s t t' : Rx} (h : Sim s t) (x : Int) (ht : rxPutBit t x = some t') :
    ∃ s', rxPutBit s x = some s' ∧ Sim s' t' := by
  obtain ⟨a, b, u, rfl, rfl, h⟩ := h
  rw [putBit_out] at ht ⊢
  cases hu : rxPutBit u x with
  | none => rw [hu] at ht; simp at ht
  | some u' =>
    rw [hu] at ht
    simp only [Option.map_some, Option.some.injEq] at ht
    exact ⟨_, rfl, a, b, u', rfl, ht.symm, h⟩

theorem Sim.endOfData {s t : Rx} (h : Sim s t) : Sim s (rxSpecialCondition t endOfData) := by
  obtain ⟨a, b, u, rfl, rfl, h⟩ := h
  have e : rxSpecialCondition (addOut b u) Hdlc.endOfData = (addOut b u).reportStatus Hdlc.endOfData := by
    unfold rxSpecialCondition
    rw [if_neg (by decide), if_pos (by decide)]
  rw [e]
  refine ⟨a ++ u.out, b ++ u.out ++ [.status Hdlc.endOfData], { u with out := [] }, by simp [addOut], by simp [Rx.reportStatus, addOut], ?_⟩
  simp [allFrames_append, h]
  simp [allFrames]

/-- The bits of some values which are bits or the end of data. -/
def bitsOf (l : List Int) : List Bool := l.flatMap fun x => if x < 0 then [] else [decide (x % 2 = 1)]

/-- The end of data makes no difference to the frames. -/
theorem feed_sim (l : List Int) (hl : ∀ x ∈ l, x < 0 → x = endOfData) : ∀ {s t t' : Rx}, Sim s t →
    feedB t (bitsOf l) = some t' → ∃ s', feed s l = some s' ∧ Sim t' s' := by
  induction l with
  | nil =>
    intro s t t' h ht
    simp only [bitsOf, List.flatMap_nil, feedB, Option.some.injEq] at ht
    subst ht
    obtain ⟨a, b, u, h1, h2, h3⟩ := h
    exact ⟨s, rfl, b, a, u, h2, h1, h3.symm⟩
  | cons x l ih =>
    intro s t t' h ht
    have hl' := fun y hy => hl y (List.mem_cons_of_mem _ hy)
    have hsym : Sim t s := by obtain ⟨a, b, u, h1, h2, h3⟩ := h; exact ⟨b, a, u, h2, h1, h3.symm⟩
    by_cases hx : x < 0
    · have hx' := hl x List.mem_cons_self hx
      subst hx'
      have hb : bitsOf (endOfData :: l) = bitsOf l := rfl
      rw [hb] at ht
      have hs : rxPutBit s endOfData = some (rxSpecialCondition s endOfData) := by
        unfold rxPutBit; rw [if_pos (by decide)]
      have h2 := hsym.endOfData
      obtain ⟨s', e, h3⟩ := ih hl' (s := rxSpecialCondition s endOfData) (t := t) (by
        obtain ⟨a, b, u, h1, h2, h3⟩ := h2; exact ⟨b, a, u, h2, h1, h3.symm⟩) ht
      refine ⟨s', ?_, h3⟩
      simp only [feed, hs]; exact e
    · have hb : bitsOf (x :: l) = decide (x % 2 = 1) :: bitsOf l := by
        simp [bitsOf, hx]
      rw [hb] at ht
      simp only [feedB] at ht
      cases hp : rxPutBit t (bitOf (decide (x % 2 = 1))) with
      | none => rw [hp] at ht; simp at ht
      | some t1 =>
        rw [hp] at ht
        obtain ⟨s1, e1, h1⟩ := h.put _ hp
        obtain ⟨s', e, h3⟩ := ih hl' h1 ht
        refine ⟨s', ?_, h3⟩
        simp only [feed, rxPutBit_low s x hx, e1]; exact e

end Hdlc
