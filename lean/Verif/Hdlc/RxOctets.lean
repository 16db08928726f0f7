import Verif.Hdlc.RxSafe

/-! # The octet interface of the HDLC receiver -/

namespace Hdlc
open Spec
open Crc.Spec (bits octetBits)

/-- The same from bit 8 up. -/
def SameHigh (r r' : BitVec 32) : Prop := ∀ i, 8 ≤ i → r.getLsbD i = r'.getLsbD i

theorem SameHigh.mask {r r' : BitVec 32} (h : SameHigh r r') (m : BitVec 32)
    (hm : ∀ i, i < 8 → m.getLsbD i = false) : r &&& m = r' &&& m := by
  ext i hi
  simp only [BitVec.getElem_and]
  by_cases h8 : i < 8
  · have := hm i h8
    rw [BitVec.getLsbD_eq_getElem hi] at this
    simp [this]
  · have := h i (by omega)
    rw [BitVec.getLsbD_eq_getElem hi, BitVec.getLsbD_eq_getElem hi] at this
    rw [this]

theorem SameHigh.masks {r r' : BitVec 32} (h : SameHigh r r') :
    r &&& 0x3E00#32 = r' &&& 0x3E00#32 ∧ r &&& 0x4100#32 = r' &&& 0x4100#32 ∧
    r &&& 0xFE00#32 = r' &&& 0xFE00#32 ∧ r &&& 0x100#32 = r' &&& 0x100#32 :=
  ⟨h.mask _ (by decide), h.mask _ (by decide), h.mask _ (by decide), h.mask _ (by decide)⟩

/-- Replace the register. -/
abbrev withRaw (r : BitVec 32) (s : Rx) : Rx := { s with rawBitStream := r }

theorem octetSetAndCount_raw (s : Rx) (r : BitVec 32) :
    octetSetAndCount (withRaw r s) = withRaw r (octetSetAndCount s) := by
  unfold octetSetAndCount
  have e1 : (withRaw r s).octetCountReportInterval = s.octetCountReportInterval := rfl
  have e2 : (withRaw r s).octetCountingMode = s.octetCountingMode := rfl
  have e3 : (withRaw r s).octetCount = s.octetCount := rfl
  rw [e1, e2, e3]
  by_cases h1 : s.octetCountReportInterval = 0
  · rw [if_pos h1, if_pos h1]
  · rw [if_neg h1, if_neg h1]
    by_cases h2 : s.octetCountingMode
    · rw [if_pos h2, if_pos h2]
      by_cases h3 : s.octetCount - 1 ≤ 0
      · rw [if_pos h3, if_pos h3]; rfl
      · rw [if_neg h3, if_neg h3]
    · rw [if_neg h2, if_neg h2] <;> rfl

theorem octetCountStep_raw (s : Rx) (r : BitVec 32) :
    octetCountStep (withRaw r s) = withRaw r (octetCountStep s) := by
  unfold octetCountStep
  have e1 : (withRaw r s).octetCountReportInterval = s.octetCountReportInterval := rfl
  have e2 : (withRaw r s).octetCountingMode = s.octetCountingMode := rfl
  have e3 : (withRaw r s).octetCount = s.octetCount := rfl
  rw [e1, e2, e3]
  by_cases h1 : s.octetCountReportInterval = 0
  · rw [if_pos h1, if_pos h1]
  · rw [if_neg h1, if_neg h1]
    by_cases h2 : s.octetCountingMode
    · rw [if_pos h2, if_pos h2]
      by_cases h3 : s.octetCount - 1 ≤ 0
      · rw [if_pos h3, if_pos h3]; rfl
      · rw [if_neg h3, if_neg h3]
    · rw [if_neg h2, if_neg h2] <;> rfl

theorem rxAbort_raw (s : Rx) (r : BitVec 32) : rxAbort (withRaw r s) = withRaw r (rxAbort s) := by
  unfold rxAbort
  rw [← octetSetAndCount_raw]
  rfl

theorem rxFramingFlag_raw (s : Rx) (r : BitVec 32) :
    rxFramingFlag (withRaw r s) = withRaw r (rxFramingFlag s) := by
  unfold rxFramingFlag
  have e1 : backOff (withRaw r s) = withRaw r (backOff s) := rfl
  have e2 : (withRaw r s).flagsSeen = s.flagsSeen := rfl
  have e3 : (withRaw r s).framingOkThreshold = s.framingOkThreshold := rfl
  have e4 : (withRaw r s).numBits = s.numBits := rfl
  rw [e1, e2, e3, e4]
  have key : ∀ t : Rx, (if (withRaw r t).flagsSeen + 1 ≥ (withRaw r t).framingOkThreshold ∧ (withRaw r t).framingOkAnnounced = false then
      ({ Rx.reportStatus { withRaw r t with flagsSeen := (withRaw r t).flagsSeen + 1 } framingOk with framingOkAnnounced := true } : Rx)
      else { withRaw r t with flagsSeen := (withRaw r t).flagsSeen + 1 }) =
      withRaw r (if t.flagsSeen + 1 ≥ t.framingOkThreshold ∧ t.framingOkAnnounced = false then
      ({ Rx.reportStatus { t with flagsSeen := t.flagsSeen + 1 } framingOk with framingOkAnnounced := true } : Rx)
      else { t with flagsSeen := t.flagsSeen + 1 }) := by
    intro t
    by_cases h : t.flagsSeen + 1 ≥ t.framingOkThreshold ∧ t.framingOkAnnounced = false
    · rw [if_pos h, if_pos (show (withRaw r t).flagsSeen + 1 ≥ (withRaw r t).framingOkThreshold ∧ (withRaw r t).framingOkAnnounced = false from h)]; rfl
    · rw [if_neg h, if_neg (show ¬ ((withRaw r t).flagsSeen + 1 ≥ (withRaw r t).framingOkThreshold ∧ (withRaw r t).framingOkAnnounced = false) from h)]
  by_cases h1 : s.flagsSeen ≠ s.framingOkThreshold - 1 ∧ s.numBits ≠ 7
  · rw [if_pos h1, if_pos h1]; exact key (backOff s)
  · rw [if_neg h1, if_neg h1]; exact key s

theorem reportFrame_raw (s : Rx) (r : BitVec 32) (ok : Bool) :
    (withRaw r s).reportFrame ok = (s.reportFrame ok).map (withRaw r) := by
  unfold Rx.reportFrame
  by_cases h : s.len ≤ s.buffer.length
  · rw [if_pos h, if_pos (show (withRaw r s).len ≤ (withRaw r s).buffer.length from h)]; rfl
  · rw [if_neg h, if_neg (show ¬ (withRaw r s).len ≤ (withRaw r s).buffer.length from h)]; rfl

theorem rxEndFrame_raw (s : Rx) (r : BitVec 32) :
    rxEndFrame (withRaw r s) = (rxEndFrame s).map (withRaw r) := by
  unfold rxEndFrame
  have e : rxCrcOk (withRaw r s) = rxCrcOk s := rfl
  rw [e]
  simp only [withRaw]
  by_cases h1 : s.numBits = 7 ∧ s.len ≥ s.crcBytes ∧ s.len ≤ s.maxFrameLen
  · rw [if_pos h1, if_pos h1]
    cases rxCrcOk s with
    | none => rfl
    | some ok =>
      cases ok
      · simp only [Option.bind_eq_bind, Option.bind_some, Bool.false_eq_true, if_false]
        by_cases h2 : s.reportBadFrames
        · rw [if_pos h2, if_pos h2]
          exact reportFrame_raw { s with rxCrcErrors := s.rxCrcErrors + 1, len := s.len - s.crcBytes } r false
        · rw [if_neg h2, if_neg h2]; rfl
      · exact reportFrame_raw { s with rxFrames := s.rxFrames + 1, rxBytes := s.rxBytes + (s.len - s.crcBytes), len := s.len - s.crcBytes } r true
  · rw [if_neg h1, if_neg h1]
    by_cases h2 : s.reportBadFrames
    · rw [if_pos h2, if_pos h2]
      have := reportFrame_raw { s with len := if s.len ≥ s.crcBytes then s.len - s.crcBytes else 0 } r false
      simp only [withRaw] at this
      rw [this]
      cases Rx.reportFrame { s with len := if s.len ≥ s.crcBytes then s.len - s.crcBytes else 0 } false <;> rfl
    · rw [if_neg h2, if_neg h2]; rfl

theorem rxFlagOrAbort_raw (s : Rx) {r : BitVec 32} (h : SameHigh r s.rawBitStream) :
    rxFlagOrAbort (withRaw r s) = (rxFlagOrAbort s).map (withRaw r) := by
  unfold rxFlagOrAbort
  have e : (withRaw r s).rawBitStream = r := rfl
  rw [e, h.masks.2.2.2]
  by_cases h1 : s.rawBitStream &&& 0x0100#32 ≠ 0
  · rw [if_pos h1, if_pos h1, rxAbort_raw]; rfl
  · rw [if_neg h1, if_neg h1]
    simp only
    by_cases h2 : s.flagsSeen ≥ s.framingOkThreshold
    · rw [if_pos h2, if_pos (show (withRaw r s).flagsSeen ≥ (withRaw r s).framingOkThreshold from h2)]
      by_cases h3 : s.len ≠ 0
      · rw [if_pos h3, if_pos (show (withRaw r s).len ≠ 0 from h3)]
        have := rxEndFrame_raw { s with octetCountingMode := false } r
        simp only [withRaw] at this ⊢
        rw [this]
        cases rxEndFrame { s with octetCountingMode := false } <;> rfl
      · rw [if_neg h3, if_neg (show ¬ (withRaw r s).len ≠ 0 from h3)]; rfl
    · rw [if_neg h2, if_neg (show ¬ (withRaw r s).flagsSeen ≥ (withRaw r s).framingOkThreshold from h2)]
      have := rxFramingFlag_raw { s with octetCountingMode := false } r
      simp only [withRaw] at this ⊢
      rw [this]; rfl

theorem rxOctet_raw (s : Rx) (r : BitVec 32) : rxOctet (withRaw r s) = (rxOctet s).map (withRaw r) := by
  unfold rxOctet
  by_cases h1 : s.len < s.maxFrameLen
  · rw [if_pos h1, if_pos h1]
    by_cases h2 : s.len < s.buffer.length
    · rw [if_pos h2, if_pos h2]; rfl
    · rw [if_neg h2, if_neg h2]; rfl
  · rw [if_neg h1, if_neg h1]
    have := octetSetAndCount_raw { s with len := bufSize + 1, flagsSeen := s.framingOkThreshold - 1 } r
    simp only [withRaw] at this
    rw [this]; rfl

theorem rxDataBit_raw (s : Rx) {r : BitVec 32} (h : SameHigh r s.rawBitStream) :
    rxDataBit (withRaw r s) = (rxDataBit s).map (withRaw r) := by
  unfold rxDataBit
  by_cases h1 : s.numBits ≥ 2147483647
  · rw [if_pos h1, if_pos h1]; rfl
  · rw [if_neg h1, if_neg h1]
    simp only
    by_cases h2 : s.flagsSeen < s.framingOkThreshold
    · rw [if_pos h2, if_pos h2]
      by_cases h3 : (s.numBits + 1) % 8 = 0
      · rw [if_pos h3, if_pos h3]
        have := octetCountStep_raw { s with numBits := s.numBits + 1 } r
        simp only [withRaw] at this
        rw [this]; rfl
      · rw [if_neg h3, if_neg h3]; rfl
    · rw [if_neg h2, if_neg h2, h.masks.2.2.2]
      by_cases h3 : s.numBits + 1 = 8
      · rw [if_pos h3, if_pos h3]
        exact rxOctet_raw { s with numBits := s.numBits + 1, byteInProgress := (s.byteInProgress ||| (s.rawBitStream &&& 0x100#32)) >>> 1 } r
      · rw [if_neg h3, if_neg h3]; rfl

theorem core_raw (s : Rx) {r : BitVec 32} (h : SameHigh r s.rawBitStream) :
    rxPutBitCore (withRaw r s) = (rxPutBitCore s).map (withRaw r) := by
  unfold rxPutBitCore
  have e : (withRaw r s).rawBitStream = r := rfl
  rw [e, h.masks.1, h.masks.2.1, h.masks.2.2.1, rxFlagOrAbort_raw s h, rxDataBit_raw s h]
  split
  · rfl
  · split <;> rfl

/-- The core leaves the register alone. -/
theorem core_keeps (s t : Rx) (h : rxPutBitCore s = some t) : t.rawBitStream = s.rawBitStream := by
  have := core_raw s (r := s.rawBitStream) (fun _ _ => rfl)
  have e : withRaw s.rawBitStream s = s := rfl
  rw [e, h] at this
  simp only [Option.map_some, Option.some.injEq] at this
  rw [this]

/-- The bits which shifts bring up from the low octet. -/
def lowBits : Nat → BitVec 32 → List Bool
  | 0, _ => []
  | k + 1, r => r.getLsbD 7 :: lowBits k (r <<< 1)

theorem pushRaw_high {r r' : BitVec 32} (h : SameHigh r r') (hl : ∀ i, i < 8 → r'.getLsbD i = false) :
    SameHigh (r <<< 1) (pushRaw r' (r.getLsbD 7)) ∧ ∀ i, i < 8 → (pushRaw r' (r.getLsbD 7)).getLsbD i = false := by
  have h0 : ∀ b i, ((BitVec.ofInt 32 (bitOf b) <<< 8) &&& 0x100#32).getLsbD i = (decide (i = 8) && b) := by
    intro b i
    have : (BitVec.ofInt 32 (bitOf b) <<< 8) &&& 0x100#32 = if b then BitVec.twoPow 32 8 else 0#32 := by
      cases b <;> decide
    rw [this]
    cases b
    · simp
    · simp only [if_true, BitVec.getLsbD_twoPow, Bool.and_true]
      by_cases e : i = 8
      · subst e; rfl
      · have : ¬ 8 = i := by omega
        simp [e, this]
  constructor
  · intro i hi
    simp only [pushRaw, BitVec.getLsbD_or, h0, BitVec.getLsbD_shiftLeft]
    by_cases e : i = 8
    · subst e
      have := hl 7 (by omega)
      simp only [show (8:Nat) - 1 = 7 from rfl, this]
      simp
    · have : i - 1 ≥ 8 := by omega
      have := h (i - 1) this
      simp [e, this]
  · intro i hi
    simp only [pushRaw, BitVec.getLsbD_or, h0, BitVec.getLsbD_shiftLeft]
    have e : ¬ i = 8 := by omega
    have := hl (i - 1) (by omega)
    simp [e, this]

theorem shift_eq (k : Nat) : ∀ (r r' : BitVec 32) (s : Rx), SameHigh r r' → (∀ i, i < 8 → r'.getLsbD i = false) →
    rxShiftBits k (withRaw r s) = (feedB (withRaw r' s) (lowBits k r)).map (withRaw (r <<< k)) ∧
    ∀ t, feedB (withRaw r' s) (lowBits k r) = some t →
      SameHigh (r <<< k) t.rawBitStream ∧ ∀ i, i < 8 → t.rawBitStream.getLsbD i = false := by
  induction k with
  | zero =>
    intro r r' s h hl
    refine ⟨?_, ?_⟩
    · simp only [rxShiftBits, lowBits, feedB, Option.map_some, BitVec.shiftLeft_zero]
    · intro t ht
      simp only [lowBits, feedB, Option.some.injEq] at ht
      subst ht
      simp only [BitVec.shiftLeft_zero]
      exact ⟨h, hl⟩
  | succ k ih =>
    intro r r' s h hl
    obtain ⟨p1, p2⟩ := pushRaw_high h hl
    have hb : rxPutBit (withRaw r' s) (bitOf (r.getLsbD 7)) = rxPutBitCore (withRaw (pushRaw r' (r.getLsbD 7)) s) := by
      unfold rxPutBit
      rw [if_neg (by cases r.getLsbD 7 <;> decide)]
      rfl
    simp only [rxShiftBits, lowBits, feedB, hb]
    have hc := core_raw (withRaw (pushRaw r' (r.getLsbD 7)) s) (r := r <<< 1) p1
    have e : withRaw (r <<< 1) (withRaw (pushRaw r' (r.getLsbD 7)) s) = { withRaw r s with rawBitStream := (withRaw r s).rawBitStream <<< 1 } := rfl
    rw [← e, hc]
    cases hcore : rxPutBitCore (withRaw (pushRaw r' (r.getLsbD 7)) s) with
    | none => simp
    | some t =>
      have hk := core_keeps _ _ hcore
      have ht : t = withRaw (pushRaw r' (r.getLsbD 7)) t := by
        have : t.rawBitStream = pushRaw r' (r.getLsbD 7) := hk
        rw [← this]
      obtain ⟨i1, i2⟩ := ih (r <<< 1) (pushRaw r' (r.getLsbD 7)) t p1 p2
      rw [← ht] at i1 i2
      simp only [Option.map_some, Option.bind_eq_bind, Option.bind_some]
      rw [show r <<< (k + 1) = r <<< 1 <<< k by rw [← BitVec.shiftLeft_add]; congr 1; omega]
      exact ⟨i1, i2⟩

theorem feedB_eq (s : Rx) (l : List Bool) : feedB s l = feed s (l.map fun b => if b then 1 else 0) := by
  induction l generalizing s with
  | nil => rfl
  | cons b l ih =>
    simp only [feedB, List.map_cons, feed]
    have : bitOf b = if b then 1 else 0 := rfl
    rw [← this]
    cases rxPutBit s (bitOf b) with
    | none => rfl
    | some t => exact ih t

theorem lowBits_eq (r : BitVec 32) (x : BitVec 8) (h : ∀ i, i < 8 → r.getLsbD i = x.getLsbD i) :
    lowBits 8 r = (octetBits x).reverse := by
  have e : (octetBits x).reverse = [x.getLsbD 7, x.getLsbD 6, x.getLsbD 5, x.getLsbD 4, x.getLsbD 3, x.getLsbD 2, x.getLsbD 1, x.getLsbD 0] := by
    simp [octetBits, List.range, List.range.loop]
  rw [e]
  simp only [lowBits]
  rw [← h 0 (by omega), ← h 1 (by omega), ← h 2 (by omega), ← h 3 (by omega), ← h 4 (by omega),
    ← h 5 (by omega), ← h 6 (by omega), ← h 7 (by omega)]
  simp [← BitVec.shiftLeft_add, BitVec.getLsbD_shiftLeft]

/-- One octet. -/
theorem putByte_bits {s : Rx} (hl : ∀ i, i < 8 → s.rawBitStream.getLsbD i = false) (x : Int) (h0 : 0 ≤ x) (h1 : x < 256) :
    rxPutByte s x = feed s (asBits x) ∧
    ∀ t, rxPutByte s x = some t → ∀ i, i < 8 → t.rawBitStream.getLsbD i = false := by
  have hx : ∀ i, (BitVec.ofInt 32 x).getLsbD i = (decide (i < 8) && (BitVec.ofInt 8 x).getLsbD i) := by
    intro i
    obtain ⟨n, rfl⟩ := Int.eq_ofNat_of_zero_le h0
    have hn : n < 256 := by omega
    rw [BitVec.ofInt_natCast, BitVec.ofInt_natCast, BitVec.getLsbD_ofNat, BitVec.getLsbD_ofNat]
    by_cases hi : i < 8
    · have : i < 32 := by omega
      simp [hi, this]
    · have : n.testBit i = false := by
        apply Nat.testBit_lt_two_pow
        calc n < 2 ^ 8 := hn
          _ ≤ 2 ^ i := Nat.pow_le_pow_right (by decide) (by omega)
      simp [hi, this]
  have hs : SameHigh (s.rawBitStream ||| BitVec.ofInt 32 x) s.rawBitStream := by
    intro i hi
    have : ¬ i < 8 := by omega
    simp [BitVec.getLsbD_or, hx, this]
  obtain ⟨e1, e2⟩ := shift_eq 8 _ s.rawBitStream s hs hl
  have hlb : lowBits 8 (s.rawBitStream ||| BitVec.ofInt 32 x) = msbBits x := by
    apply lowBits_eq
    intro i hi
    simp [BitVec.getLsbD_or, hx, hi, hl i hi]
  have ep : rxPutByte s x = rxShiftBits 8 (withRaw (s.rawBitStream ||| BitVec.ofInt 32 x) s) := by
    unfold rxPutByte; rw [if_neg (by omega)]
  have ef : feed s (asBits x) = feedB s (msbBits x) := by
    unfold asBits; rw [if_neg (by omega), feedB_eq]
  have es : withRaw s.rawBitStream s = s := rfl
  rw [es, hlb] at e1 e2
  rw [ep, ef, e1]
  cases hf : feedB s (msbBits x) with
  | none => exact ⟨rfl, by simp⟩
  | some t =>
    obtain ⟨f1, f2⟩ := e2 t hf
    have : (s.rawBitStream ||| BitVec.ofInt 32 x) <<< 8 = t.rawBitStream := by
      ext i hi
      rw [← BitVec.getLsbD_eq_getElem hi, ← BitVec.getLsbD_eq_getElem hi]
      by_cases h8 : i < 8
      · rw [f2 i h8, BitVec.getLsbD_shiftLeft]; simp [h8]
      · exact f1 i (by omega)
    rw [this]
    refine ⟨rfl, ?_⟩
    intro u hu
    simp only [Option.map_some, Option.some.injEq] at hu
    subst hu
    exact f2

theorem feed_append (s : Rx) (a b : List Int) : feed s (a ++ b) = (feed s a).bind (feed · b) := by
  induction a generalizing s with
  | nil => rfl
  | cons x a ih =>
    simp only [List.cons_append, feed]
    cases rxPutBit s x with
    | none => rfl
    | some t => exact ih t

theorem feedOctets_eq {s : Rx} (hl : ∀ i, i < 8 → s.rawBitStream.getLsbD i = false) (l : List Int)
    (h : ∀ x ∈ l, x < 256) : feedOctets s l = feed s (l.flatMap asBits) := by
  induction l generalizing s with
  | nil => rfl
  | cons x l ih =>
    have hx := h x List.mem_cons_self
    have hl' := fun y hy => h y (List.mem_cons_of_mem _ hy)
    simp only [feedOctets, List.flatMap_cons, feed_append]
    by_cases h0 : x < 0
    · have e1 : asBits x = [x] := by unfold asBits; rw [if_pos h0]
      have e2 : rxPutByte s x = some (rxSpecialCondition s x) := by unfold rxPutByte; rw [if_pos h0]
      have e3 : feed s [x] = some (rxSpecialCondition s x) := by
        simp only [feed]; unfold rxPutBit; rw [if_pos h0]; rfl
      rw [e1, e2, e3]
      apply ih (s := rxSpecialCondition s x) _ hl'
      unfold rxSpecialCondition
      split
      · intro i _; simp [Rx.reportStatus]
      · split <;> exact hl
    · obtain ⟨e1, e2⟩ := putByte_bits hl x (by omega) hx
      cases hp : rxPutByte s x with
      | none => rw [← e1, hp]; rfl
      | some t =>
        rw [← e1, hp]
        exact ih (s := t) (e2 t hp) hl'

theorem rxPut_eq (s : Rx) (l : List Byte) : rxPut s l = feedOctets s (l.map fun b => (b.toNat : Int)) := by
  induction l generalizing s with
  | nil => rfl
  | cons b l ih =>
    simp only [rxPut, List.map_cons, feedOctets]
    cases rxPutByte s (b.toNat : Int) with
    | none => rfl
    | some t => exact ih t

end Hdlc
