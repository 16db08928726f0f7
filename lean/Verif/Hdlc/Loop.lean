import Verif.Hdlc.RxOut
import Verif.Hdlc.TxInv

/-! # An HDLC receiver connected to a transmitter -/

namespace Hdlc
open Spec
open Crc.Spec (bits octetBits)

/-! ## Runs of the transmitter -/

/-- The invariant between operations: `line` are the bits which have passed. -/
structure RunInv (bitwise : Bool) (line : List Bool) (items : List Item) (s : Tx) : Prop where
  inv : TInv (line ++ lb s.bits s.byte) items s
  few : s.bits ≤ 7
  octets : bitwise = false → s.bits = 0

theorem TInv.withBits {E : List Bool} {items : List Item} {s : Tx} (h : TInv E items s) (b : BitVec 32) (n : Nat) :
    TInv E items { s with byte := b, bits := n } := by
  refine ⟨h.abort, h.cb, h.size, h.max, h.len, h.delim, h.frames, h.cur, ?_⟩
  cases h.phase with
  | idle h1 h2 h3 h4 h5 h6 h7 h8 => exact .idle h1 h2 h3 h4 h5 h6 h7 h8
  | data h1 h2 h3 h4 h5 h6 h7 => exact .data h1 h2 h3 h4 h5 h6 h7
  | check h1 h2 h3 h4 h5 h6 h7 h8 => exact .check h1 h2 h3 h4 h5 h6 h7 h8

theorem bit_out (x : BitVec 32) (n : Nat) :
    (((x >>> n) &&& 1#32).toNat : Int) = if x.getLsbD n then 1 else 0 := by
  have : (x >>> n) &&& 1#32 = if x.getLsbD n then 1#32 else 0#32 := by
    ext i hi
    rw [BitVec.getElem_and, BitVec.getElem_ushiftRight]
    cases i with
    | zero => cases h : x.getLsbD n <;> simp [h]
    | succ i => cases x.getLsbD n <;> simp [BitVec.getElem_one]
  rw [this]
  cases x.getLsbD n <;> rfl

/-- What may be taken. -/
def Value (bitwise : Bool) (v : Int) : Prop :=
  v = endOfData ∨ (0 ≤ v ∧ v < 256 ∧ (bitwise = true → v = 0 ∨ v = 1))

theorem take_step (bitwise : Bool) (hd : List Event → List Call) {line : List Bool} {items : List Item} {s : Tx}
    (h : RunInv bitwise line items s) :
    ∃ s' v items', (if bitwise then txGetBit hd s else txGetByte hd s) = some (s', v) ∧
      RunInv bitwise (line ++ passes bitwise v) items' s' ∧ items <+: items' ∧ Value bitwise v ∧
      s'.crcBytes = s.crcBytes := by
  cases bitwise
  · have h0 := h.octets rfl
    have hi := h.inv
    rw [h0] at hi
    simp only [lb, List.append_nil] at hi
    obtain ⟨s', v, items', g⟩ := get_step hd hi
    refine ⟨s', v, items', g.run, ⟨?_, ?_, ?_⟩, g.more, ?_, g.crcBytes⟩
    · rw [g.bits, h0]; simp only [lb, List.append_nil]; exact g.inv
    · rw [g.bits]; exact h.few
    · intro _; rw [g.bits]; exact h0
    · by_cases hv : v < 0
      · exact Or.inl (g.status hv)
      · exact Or.inr ⟨by omega, g.small, by simp⟩
  · simp only [if_true]
    have step : ∀ (t : Tx) (its : List Item) (n : Nat), TInv (line ++ lb (n + 1) t.byte) its t → n ≤ 7 →
        let t' : Tx := { t with bits := n }
        let v : Int := ((t.byte >>> n) &&& 1#32).toNat
        RunInv true (line ++ passes true v) its t' ∧ Value true v := by
      intro t its n hi hn t' v
      have hv : v = if t.byte.getLsbD n then 1 else 0 := bit_out t.byte n
      have hp : passes true v = [t.byte.getLsbD n] := by
        rw [hv]; cases t.byte.getLsbD n <;> rfl
      refine ⟨⟨?_, hn, by simp⟩, ?_⟩
      · rw [hp]
        have : line ++ [t.byte.getLsbD n] ++ lb n t.byte = line ++ lb (n + 1) t.byte := by simp [lb]
        show TInv (line ++ [t.byte.getLsbD n] ++ lb n t.byte) its t'
        rw [this]
        exact hi.withBits t.byte n
      · rw [hv]
        cases t.byte.getLsbD n
        · exact Or.inr ⟨by decide, by decide, fun _ => Or.inl rfl⟩
        · exact Or.inr ⟨by decide, by decide, fun _ => Or.inr rfl⟩
    unfold txGetBit
    by_cases h0 : s.bits = 0
    · simp only [h0, if_true]
      have hi := h.inv
      rw [h0] at hi
      simp only [lb, List.append_nil] at hi
      obtain ⟨s', v, items', g⟩ := get_step hd hi
      rw [g.run]
      simp only [Option.bind_eq_bind, Option.bind_some, Option.pure_def]
      by_cases hv : v < 0
      · rw [if_pos hv]
        refine ⟨s', v, items', rfl, ⟨?_, by rw [g.bits, h0]; omega, by simp⟩, g.more, Or.inl (g.status hv), g.crcBytes⟩
        have e : passes true v = passes false v := by unfold passes; rw [if_pos hv, if_pos hv]
        rw [e, g.bits, h0]
        simp only [lb, List.append_nil]
        exact g.inv
      · rw [if_neg hv]
        obtain ⟨n, rfl⟩ := Int.eq_ofNat_of_zero_le (Int.not_lt.1 hv)
        have hn := g.small
        have hinv : TInv (line ++ lb 8 (BitVec.ofInt 32 n)) items' { s' with byte := BitVec.ofInt 32 n, bits := 8 } := by
          have := g.inv
          rw [passes_nat (by omega)] at this
          have e : msbBits (n : Int) = lb 8 (BitVec.ofInt 32 n) := by
            have := msbBits_nat (BitVec.ofNat 32 n)
            rw [BitVec.toNat_ofNat, Nat.mod_eq_of_lt (by omega)] at this
            rw [this, BitVec.ofInt_natCast]
          rw [e] at this
          exact this.withBits _ _
        obtain ⟨r1, r2⟩ := step { s' with byte := BitVec.ofInt 32 n, bits := 8 } items' 7 hinv (by omega)
        exact ⟨_, _, items', rfl, r1, g.more, r2, g.crcBytes⟩
    · rw [if_neg h0]
      have hf := h.few
      obtain ⟨m, hm⟩ : ∃ m, s.bits = m + 1 := ⟨s.bits - 1, by omega⟩
      have hi := h.inv
      rw [hm] at hi
      obtain ⟨r1, r2⟩ := step s items m hi (by omega)
      have e : s.bits - 1 = m := by omega
      simp only [e]
      exact ⟨_, _, items, rfl, r1, List.prefix_refl _, r2, rfl⟩

theorem call_step (bitwise : Bool) {line : List Bool} {items : List Item} {s : Tx}
    (h : RunInv bitwise line items s) (c : Call) :
    ∃ s', txCall s c = some s' ∧ RunInv bitwise line items s' ∧ s'.crcBytes = s.crcBytes := by
  obtain ⟨s', e, hi, hk⟩ := call_inv h.inv c
  exact ⟨s', e, ⟨by rw [hk.bits, hk.byte]; exact hi, by rw [hk.bits]; exact h.few, fun hb => by rw [hk.bits]; exact h.octets hb⟩, hk.crcBytes⟩

theorem txRun_get (bitwise : Bool) (hd : List Event → List Call) (ops : List Op) (s : Tx) :
    txRun bitwise hd s (.get :: ops) = (if bitwise then txGetBit hd s else txGetByte hd s).bind fun r =>
      (txRun bitwise hd r.1 ops).map fun q => (q.1, r.2 :: q.2) := by
  cases bitwise
  · simp only [txRun, Bool.false_eq_true, if_false]
    cases txGetByte hd s with
    | none => rfl
    | some r => simp only [Option.bind_eq_bind, Option.bind_some]; cases txRun false hd r.1 ops <;> rfl
  · simp only [txRun, if_true]
    cases txGetBit hd s with
    | none => rfl
    | some r => simp only [Option.bind_eq_bind, Option.bind_some]; cases txRun true hd r.1 ops <;> rfl

theorem run_inv (bitwise : Bool) (hd : List Event → List Call) (ops : List Op) :
    ∀ {line : List Bool} {items : List Item} {s : Tx}, RunInv bitwise line items s →
    ∃ s' vs items', txRun bitwise hd s ops = some (s', vs) ∧ RunInv bitwise (line ++ lineOf bitwise vs) items' s' ∧
      items <+: items' ∧ (∀ v ∈ vs, Value bitwise v) ∧ s'.crcBytes = s.crcBytes := by
  induction ops with
  | nil =>
    intro line items s h
    exact ⟨s, [], items, rfl, by simpa [lineOf] using h, List.prefix_refl _, by simp, rfl⟩
  | cons op ops ih =>
    intro line items s h
    cases op with
    | call c =>
      obtain ⟨s1, e1, h1, k1⟩ := call_step bitwise h c
      obtain ⟨s2, vs, items2, e2, h2, p2, v2, k2⟩ := ih h1
      exact ⟨s2, vs, items2, by simp [txRun, e1, e2], h2, p2, v2, k2.trans k1⟩
    | get =>
      obtain ⟨s1, v, items1, e1, h1, p1, v1, k1⟩ := take_step bitwise hd h
      obtain ⟨s2, vs, items2, e2, h2, p2, v2, k2⟩ := ih h1
      refine ⟨s2, v :: vs, items2, by rw [txRun_get, e1, Option.bind_some, e2]; rfl, ?_, p1.trans p2, ?_, k2.trans k1⟩
      · simpa [lineOf, List.append_assoc] using h2
      · intro w hw
        rcases List.mem_cons.1 hw with rfl | hw
        · exact v1
        · exact v2 w hw

theorem run_append (bitwise : Bool) (hd : List Event → List Call) (a b : List Op) (s : Tx) :
    txRun bitwise hd s (a ++ b) = (txRun bitwise hd s a).bind fun (s1, v1) =>
      (txRun bitwise hd s1 b).map fun (s2, v2) => (s2, v1 ++ v2) := by
  induction a generalizing s with
  | nil =>
    simp only [List.nil_append, txRun, Option.bind_some]
    cases txRun bitwise hd s b <;> rfl
  | cons op a ih =>
    cases op with
    | call c =>
      simp only [List.cons_append, txRun]
      cases txCall s c with
      | none => rfl
      | some s1 => exact ih s1
    | get =>
      rw [List.cons_append, txRun_get, txRun_get]
      cases (if bitwise then txGetBit hd s else txGetByte hd s) with
      | none => rfl
      | some r =>
        obtain ⟨s1, v⟩ := r
        simp only [Option.bind_some, ih s1]
        cases txRun bitwise hd s1 a with
        | none => rfl
        | some r =>
          obtain ⟨s2, vs⟩ := r
          simp only [Option.bind_some, Option.map_some]
          cases txRun bitwise hd s2 b <;> rfl

/-- Where the line is: items, and part of a frame. -/
theorem RunInv.line {bitwise : Bool} {line : List Bool} {items : List Item} {s : Tx} (h : RunInv bitwise line items s) :
    ∃ rest k, line ++ rest = wire s.crcBytes items ++ stuff 0 (bits k) ∧ rest.length ≤ 16 ∧
      k <+: inProgress s.log ++ fcs s.crcBytes (inProgress s.log) := by
  have hi := h.inv
  have hf := h.few
  refine ⟨lb s.bits s.byte ++ lb s.numBits s.octetsInProgress, ?_⟩
  rw [← List.append_assoc, hi.cur]
  have hl : s.numBits ≤ 9 → (lb s.bits s.byte ++ lb s.numBits s.octetsInProgress).length ≤ 16 := by
    intro hn; rw [List.length_append, lb_length, lb_length]; omega
  cases hi.phase with
  | idle h1 h2 h3 => exact ⟨[], by simpa [bits, stuff] using h3, hl (by omega), List.nil_prefix⟩
  | data h1 h2 h3 h4 h5 =>
    exact ⟨_, h5, hl h3, (List.take_prefix_take_left h2).trans (List.prefix_append _ _)⟩
  | check h1 h2 h3 h4 h5 h6 h7 =>
    refine ⟨_, h7, hl h4, ?_⟩
    rw [← h6]
    refine (List.prefix_append_right_inj _).2 (List.take_prefix_take_left ?_)
    omega

theorem start_inv (bitwise crc32 : Bool) (iff : Int) (prog : Bool) : RunInv bitwise [] [] (txInit crc32 iff prog) :=
  ⟨by simpa [txInit, lb] using init_inv crc32 iff prog, Nat.zero_le _, fun _ => rfl⟩

/-! ## The receiver on a line -/

/-- Before framing is established, at the end of a flag. -/
structure Seek (cfg : Rx) (k : Nat) (s : Rx) : Prop where
  reg : Reg s.rawBitStream 0
  seen : s.flagsSeen = k
  num : s.numBits = 0
  cfg : SameCfg cfg s
  out : allFrames s.out = []
  size : s.buffer.length = bufSize
  max : s.maxFrameLen ≤ bufSize
  high : ∀ i, 8 ≤ i → s.byteInProgress.getLsbD i = false

theorem put_idle {s : Rx} {n : Nat} (b : Bool) (hr : Reg s.rawBitStream n) (hn : n ≤ 4 ∨ n = 5 ∧ b = true)
    (hs : s.flagsSeen < s.framingOkThreshold) (h7 : s.numBits < 7) :
    rxPutBit s (bitOf b) = some { s with rawBitStream := pushRaw s.rawBitStream b, numBits := s.numBits + 1 } := by
  rw [rxPutBit_eq hr]
  simp only
  rw [if_neg (by rintro ⟨rfl, rfl⟩; simp at hn), if_neg (by omega)]
  unfold rxDataBit
  rw [if_neg (by simp only; omega)]
  simp only
  rw [if_pos hs, if_neg (by omega)]

/-- A flag before framing is established. -/
theorem seek_flag {cfg s : Rx} {k : Nat} (h : Seek cfg k s) (hk : k < cfg.framingOkThreshold) :
    ∃ s', feedB s flagBits = some s' ∧
      (k + 1 < cfg.framingOkThreshold → Seek cfg (k + 1) s') ∧
      (k + 1 = cfg.framingOkThreshold → Coll cfg [] 0 [] s') := by
  have hs : s.flagsSeen < s.framingOkThreshold := by rw [h.seen, h.cfg.threshold]; exact hk
  have h0 := h.num
  let r1 := pushRaw s.rawBitStream false
  let r2 := pushRaw r1 true
  let r3 := pushRaw r2 true
  let r4 := pushRaw r3 true
  let r5 := pushRaw r4 true
  let r6 := pushRaw r5 true
  let r7 := pushRaw r6 true
  have g1 : Reg r1 0 := pushRaw_reg h.reg false
  have g2 : Reg r2 1 := pushRaw_reg g1 true
  have g3 : Reg r3 2 := pushRaw_reg g2 true
  have g4 : Reg r4 3 := pushRaw_reg g3 true
  have g5 : Reg r5 4 := pushRaw_reg g4 true
  have g6 : Reg r6 5 := pushRaw_reg g5 true
  have g7 : Reg r7 6 := pushRaw_reg g6 true
  have e1 : rxPutBit s (bitOf false) = some { s with rawBitStream := r1, numBits := 1 } := by
    rw [put_idle false h.reg (by omega) hs (by omega), h0]
  have e2 : rxPutBit { s with rawBitStream := r1, numBits := 1 } (bitOf true) = some { s with rawBitStream := r2, numBits := 2 } :=
    put_idle (s := { s with rawBitStream := r1, numBits := 1 }) true g1 (by omega) hs (by simp)
  have e3 : rxPutBit { s with rawBitStream := r2, numBits := 2 } (bitOf true) = some { s with rawBitStream := r3, numBits := 3 } :=
    put_idle (s := { s with rawBitStream := r2, numBits := 2 }) true g2 (by omega) hs (by simp)
  have e4 : rxPutBit { s with rawBitStream := r3, numBits := 3 } (bitOf true) = some { s with rawBitStream := r4, numBits := 4 } :=
    put_idle (s := { s with rawBitStream := r3, numBits := 3 }) true g3 (by omega) hs (by simp)
  have e5 : rxPutBit { s with rawBitStream := r4, numBits := 4 } (bitOf true) = some { s with rawBitStream := r5, numBits := 5 } :=
    put_idle (s := { s with rawBitStream := r4, numBits := 4 }) true g4 (by omega) hs (by simp)
  have e6 : rxPutBit { s with rawBitStream := r5, numBits := 5 } (bitOf true) = some { s with rawBitStream := r6, numBits := 6 } :=
    put_idle (s := { s with rawBitStream := r5, numBits := 5 }) true g5 (by omega) hs (by simp)
  have e7 : rxPutBit { s with rawBitStream := r6, numBits := 6 } (bitOf true) = some { s with rawBitStream := r7, numBits := 7 } :=
    put_idle (s := { s with rawBitStream := r6, numBits := 6 }) true g6 (Or.inr ⟨rfl, rfl⟩) hs (by simp)
  have ef : feedB s [false, true, true, true, true, true, true] = some { s with rawBitStream := r7, numBits := 7 } := by
    simp [feedB, e1, e2, e3, e4, e5, e6, e7]
  let s7 : Rx := { s with rawBitStream := r7, numBits := 7 }
  have e8 : rxPutBit s7 (bitOf false) = some { rxFramingFlag { s7 with rawBitStream := pushRaw r7 false, octetCountingMode := false } with len := 0, numBits := 0 } := by
    rw [rxPutBit_eq (s := s7) g7]
    simp only
    rw [if_neg (by simp), if_pos trivial]
    unfold rxFlagOrAbort
    rw [if_neg (by rw [pushRaw_abort (raw := s7.rawBitStream) g7]; decide)]
    simp only
    rw [if_neg (by show ¬ s.flagsSeen ≥ s.framingOkThreshold; omega)]
    rfl
  refine ⟨_, by rw [flag_split, feedB_append, ef]; simp only [Option.bind_some, feedB, s7] at e8 ⊢; rw [e8]; rfl, ?_⟩
  have g8 : Reg (pushRaw r7 false) 0 := pushRaw_reg g7 false
  unfold rxFramingFlag
  simp only
  have hno : ¬ (s.flagsSeen ≠ s.framingOkThreshold - 1 ∧ 7 ≠ 7) := fun h => h.2 rfl
  rw [if_neg hno]
  have hth := h.cfg.threshold
  have hseen := h.seen
  by_cases hc : s.flagsSeen + 1 ≥ s.framingOkThreshold ∧ s.framingOkAnnounced = false
  · rw [if_pos hc]
    refine ⟨fun hlt => by omega, fun he => ⟨g8, ?_, ⟨h.cfg.1, h.cfg.2, h.cfg.3, h.cfg.4⟩, ?_⟩⟩
    · exact holds_fresh (by simp only [Rx.reportStatus]; omega) h.size h.max h.high rfl rfl
    · simp only [Rx.reportStatus, allFrames_append, h.out]; rfl
  · rw [if_neg hc]
    refine ⟨fun hlt => ⟨g8, by simp only; omega, rfl, ⟨h.cfg.1, h.cfg.2, h.cfg.3, h.cfg.4⟩, h.out, h.size, h.max, h.high⟩,
      fun he => ⟨g8, ?_, ⟨h.cfg.1, h.cfg.2, h.cfg.3, h.cfg.4⟩, h.out⟩⟩
    exact holds_fresh (by simp only; omega) h.size h.max h.high rfl rfl

theorem seek_flags {cfg : Rx} (n : Nat) : ∀ {s : Rx} {k : Nat}, Seek cfg k s → n ≠ 0 → k + n = cfg.framingOkThreshold →
    ∃ s', feedB s (flags n) = some s' ∧ Coll cfg [] 0 [] s' := by
  induction n with
  | zero => intro s k _ h; exact absurd rfl h
  | succ n ih =>
    intro s k h _ hk
    obtain ⟨s1, e1, f1, f2⟩ := seek_flag h (by omega)
    have hfl : flags (n + 1) = flagBits ++ flags n := by simp [flags, List.replicate_succ]
    rw [hfl]
    by_cases hn : n = 0
    · subst hn
      exact ⟨s1, by simpa [flags] using e1, f2 (by omega)⟩
    · obtain ⟨s2, e2, h2⟩ := ih (f1 (by omega)) hn (by omega)
      exact ⟨s2, by rw [feedB_append, e1]; exact e2, h2⟩

theorem delimited_tail {l : List Item} (h : Delimited (.flag :: l)) : Delimited l := by
  cases l with
  | nil => trivial
  | cons j l => exact h

/-- Flags and frames, once framing is established. -/
theorem feed_wire {cfg : Rx} (hcb : cfg.crcBytes = 2 ∨ cfg.crcBytes = 4) : ∀ (items : List Item) {s : Rx} {fs : List (List Byte × Bool)},
    Coll cfg fs 0 [] s → Delimited items → (∀ p ∈ framesIn items, p.length + cfg.crcBytes ≤ cfg.maxFrameLen) →
    ∃ s', feedB s (wire cfg.crcBytes items) = some s' ∧
      Coll cfg (fs ++ (framesIn items).map (·, true)) 0 [] s'
  | [], s, fs, h, _, _ => ⟨s, rfl, by simpa [framesIn] using h⟩
  | .flag :: l, s, fs, h, hd, hm => by
    obtain ⟨s1, e1, h1⟩ := feed_flag_idle h
    have hfl : framesIn (.flag :: l) = framesIn l := rfl
    obtain ⟨s2, e2, h2⟩ := feed_wire hcb l h1 (delimited_tail hd) (by rw [hfl] at hm; exact hm)
    refine ⟨s2, ?_, by rw [hfl]; exact h2⟩
    have : wire cfg.crcBytes (.flag :: l) = flagBits ++ wire cfg.crcBytes l := rfl
    rw [this, feedB_append, e1]; exact e2
  | [.frame p], s, fs, h, hd, hm => by simp [Delimited] at hd
  | .frame p :: .frame q :: l, s, fs, h, hd, hm => by simp [Delimited] at hd
  | .frame p :: .flag :: l, s, fs, h, hd, hm => by
    have hfl : framesIn (.frame p :: .flag :: l) = p :: framesIn l := rfl
    rw [hfl] at hm
    have hp := hm p List.mem_cons_self
    have hbl : (bits (p ++ fcs cfg.crcBytes p)).length ≤ 8 * cfg.maxFrameLen := by
      rw [Crc.bits_length, List.length_append, fcs_length _ hcb]; omega
    obtain ⟨s1, e1, h1⟩ := feed_stuff (bits (p ++ fcs cfg.crcBytes p)) h (by omega) (by simpa using hbl)
    rw [List.nil_append] at h1
    obtain ⟨s2, e2, h2⟩ := feed_flag_frame p hcb h1 (trail_stuff 0 (by omega) _) hp
    obtain ⟨s3, e3, h3⟩ := feed_wire hcb l h2 (delimited_tail hd.2) (fun q hq => hm q (List.mem_cons_of_mem _ hq))
    refine ⟨s3, ?_, by rw [hfl]; simpa using h3⟩
    have : wire cfg.crcBytes (.frame p :: .flag :: l) = stuff 0 (bits (p ++ fcs cfg.crcBytes p)) ++ (flagBits ++ wire cfg.crcBytes l) := rfl
    rw [this, feedB_append, e1, Option.bind_some, feedB_append, e2]; exact e3

theorem flag_not_stuffed {x : List Bool} (y : List Bool) (h : flagBits <+: stuff 0 x ++ y) (hl : 8 ≤ (stuff 0 x).length) : False := by
  have : flagBits <+: stuff 0 x := List.prefix_of_prefix_length_le h (List.prefix_append _ _) hl
  obtain ⟨z, hz⟩ := this
  exact stuff_no_flag 0 (by omega) x [false] ([false] ++ z) (by rw [← hz]; simp [flagBits, List.replicate])

theorem stuff_length (x : List Bool) : ∀ n, x.length ≤ (stuff n x).length := by
  induction x with
  | nil => intro n; simp
  | cons b x ih =>
    intro n
    cases b
    · simp only [stuff, List.length_cons]; have := ih 0; omega
    · simp only [stuff]
      split
      · simp only [List.length_cons]; have := ih 0; omega
      · simp only [List.length_cons]; have := ih (n + 1); omega

/-- A line which starts with flags starts with flag items. -/
theorem peel_flags {c : Nat} (hc : c = 2 ∨ c = 4) (n : Nat) : ∀ {items : List Item} {k : List Byte},
    flags n <+: wire c items ++ stuff 0 (bits k) → ∃ l, items = List.replicate n .flag ++ l := by
  induction n with
  | zero => intro items k _; exact ⟨items, rfl⟩
  | succ n ih =>
    intro items k h
    have hfl : flags (n + 1) = flagBits ++ flags n := by simp [flags, List.replicate_succ]
    rw [hfl] at h
    have h1 : flagBits <+: wire c items ++ stuff 0 (bits k) := (List.prefix_append _ _).trans h
    cases items with
    | nil =>
      exfalso
      have h1' : flagBits <+: stuff 0 (bits k) ++ [] := by simpa [wire] using h1
      have := h1'.length_le
      exact flag_not_stuffed [] h1' (by simpa [flagBits] using this)
    | cons i l =>
      cases i with
      | frame p =>
        exfalso
        have e : wire c (.frame p :: l) ++ stuff 0 (bits k) = stuff 0 (bits (p ++ fcs c p)) ++ (wire c l ++ stuff 0 (bits k)) := by
          simp [wire, Item.bits]
        rw [e] at h1
        refine flag_not_stuffed _ h1 ?_
        have := stuff_length (bits (p ++ fcs c p)) 0
        rw [Crc.bits_length, List.length_append, fcs_length _ hc] at this
        omega
      | flag =>
        have e : wire c (.flag :: l) ++ stuff 0 (bits k) = flagBits ++ (wire c l ++ stuff 0 (bits k)) := by
          simp [wire, Item.bits]
        rw [e, List.prefix_append_right_inj] at h
        obtain ⟨l', rfl⟩ := ih h
        exact ⟨l', by simp [List.replicate_succ]⟩

/-- What the receiver makes of a line which starts with enough flags. -/
theorem feed_line {cfg : Rx} (hcb : cfg.crcBytes = 2 ∨ cfg.crcBytes = 4) (hth : 1 ≤ cfg.framingOkThreshold)
    (h0 : Seek cfg 0 cfg) {items : List Item} {k : List Byte} (hd : Delimited items)
    (hfl : flags cfg.framingOkThreshold <+: wire cfg.crcBytes items ++ stuff 0 (bits k))
    (hm : ∀ p ∈ framesIn items, p.length + cfg.crcBytes ≤ cfg.maxFrameLen) (hk : k.length ≤ cfg.maxFrameLen) :
    ∃ s', feedB cfg (wire cfg.crcBytes items ++ stuff 0 (bits k)) = some s' ∧
      allFrames s'.out = (framesIn items).map (·, true) := by
  obtain ⟨l, rfl⟩ := peel_flags hcb _ hfl
  have hw : wire cfg.crcBytes (List.replicate cfg.framingOkThreshold .flag) = flags cfg.framingOkThreshold := by
    unfold wire flags
    rw [List.flatMap_replicate]
    rfl
  have hf : framesIn (List.replicate cfg.framingOkThreshold .flag ++ l) = framesIn l := by
    rw [framesIn_append]
    have : framesIn (List.replicate cfg.framingOkThreshold .flag) = [] := by
      unfold framesIn; rw [List.filterMap_eq_nil_iff]; intro a ha; rw [List.eq_of_mem_replicate ha]
    rw [this, List.nil_append]
  have hdl : ∀ n, Delimited (List.replicate n .flag ++ l) → Delimited l := by
    intro n
    induction n with
    | zero => exact id
    | succ n ih => intro h; exact ih (delimited_tail h)
  obtain ⟨s1, e1, h1⟩ := seek_flags cfg.framingOkThreshold h0 (by omega) (by omega)
  obtain ⟨s2, e2, h2⟩ := feed_wire hcb l h1 (hdl _ hd) (by rw [hf] at hm; exact hm)
  obtain ⟨s3, e3, h3⟩ := feed_stuff (bits k) h2 (by omega) (by rw [List.nil_append, Crc.bits_length]; omega)
  refine ⟨s3, ?_, ?_⟩
  · rw [wire_append, hw, feedB_append, feedB_append, e1, Option.bind_some, e2]; exact e3
  · rw [h3.out, hf]; rfl

end Hdlc
