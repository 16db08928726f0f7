import Verif.Hdlc.TxLemmas

/-! # The HDLC transmitter keeps its invariant -/

namespace Hdlc
open Spec
open Crc.Spec (bits octetBits serial poly16 poly32)

theorem underflow_log {E : List Bool} {items : List Item} {s : Tx} (h : TInv E items s) (hl : s.len = 0) :
    TInv E items { s with log := s.log ++ [.underflow] } := by
  have hc : inProgress s.log = [] := by rw [h.cur, hl]; rfl
  refine ⟨h.abort, h.cb, h.size, h.max, h.len, h.delim, ?_, ?_, ?_⟩
  · simp only [(framesOf_underflow _).1, if_pos hc]; exact h.frames
  · simp only [(framesOf_underflow _).2, hl]; rfl
  · cases h.phase with
    | idle h1 h2 h3 h4 h5 h6 h7 h8 => exact .idle h1 h2 h3 h4 h5 h6 h7 h8
    | data h1 h2 h3 h4 h5 h6 h7 => exact .data h1 h2 h3 h4 h5 h6 h7
    | check h1 h2 h3 h4 h5 h6 h7 h8 => exact .check h1 h2 h3 h4 h5 h6 h7 h8

theorem underflow_inv {E : List Bool} {items : List Item} {s : Tx} (hd : List Event → List Call)
    (h : TInv E items { s with log := s.log ++ [.underflow] }) :
    ∃ s', txUnderflow hd s = some s' ∧ TInv E items s' ∧ Keeps s s' := by
  obtain ⟨s', e, hi, hk⟩ := calls_inv (hd (s.log ++ [.underflow])) h
  exact ⟨s', e, hi, ⟨hk.1, hk.2, hk.3, hk.4, hk.5, hk.6, hk.7⟩⟩

/-- A flag from the idle octet. -/
theorem idle_flag {E : List Bool} {items : List Item} {s : Tx} (h : TInv E items s) (hp : s.pos = 0) :
    TInv (E ++ msbBits (s.idleOctet.toNat : Int)) (items ++ [.flag]) s ∧ s.idleOctet.toNat < 256 := by
  cases hph : h.phase with
  | idle h1 h2 h3 h4 h5 h6 h7 h8 =>
    refine ⟨⟨h.abort, h.cb, h.size, h.max, h.len, delimited_append _ _ h.delim rfl, ?_, h.cur, ?_⟩, h7⟩
    · rw [framesIn_append, h.frames]; simp [framesIn]
    · refine .idle h1 h2 ?_ h4 h5 h6 h7 h8
      rw [msbBits_nat, h4, wire_append, ← h3]
      simp only [List.append_assoc]
      congr 2
      rw [h5, List.take_append_drop]
      simp [wire, Item.bits]
  | data h1 => omega
  | check h1 h2 => unfold maxFrame at h2; omega

/-- An octet of a frame. -/
theorem octet_step {E : List Bool} {pre : List Bool} {k : List Byte} {s : Tx} {b : Byte}
    (hl : E ++ lb s.numBits s.octetsInProgress = pre ++ stuff 0 (bits k))
    (ht : TailOnes s.octetsInProgress (trail 0 (stuff 0 (bits k)))) (hn : s.numBits ≤ 7)
    (hb : s.buffer[s.pos]? = some b) :
    ∃ o nb v, txOctet s = some ({ s with pos := s.pos + 1, octetsInProgress := o, numBits := nb }, v) ∧
      0 ≤ v ∧ v < 256 ∧ nb ≤ 9 ∧
      E ++ msbBits v ++ lb nb o = pre ++ stuff 0 (bits (k ++ [b])) ∧
      TailOnes o (trail 0 (stuff 0 (bits (k ++ [b])))) := by
  have hsp := octet_spec b ht hn
  simp only at hsp
  unfold txOctet
  rw [hb]
  simp only [Option.bind_eq_bind, Option.bind_some, Option.pure_def]
  generalize hr : txBits (8 - (BitOps.bottomBit (b.setWidth 32 ||| 0x100#32)).toNat) ((b.setWidth 32) >>> (BitOps.bottomBit (b.setWidth 32 ||| 0x100#32)).toNat)
    (s.octetsInProgress <<< (BitOps.bottomBit (b.setWidth 32 ||| 0x100#32)).toNat, s.numBits) = r at hsp ⊢
  obtain ⟨o, nb⟩ := r
  simp only at hsp ⊢
  obtain ⟨e1, e2, e3⟩ := hsp
  have hk : bits (k ++ [b]) = bits k ++ octetBits b := by rw [Crc.bits_append]; simp [bits]
  have hst : stuff 0 (bits (k ++ [b])) = stuff 0 (bits k) ++ stuff (trail 0 (stuff 0 (bits k))) (octetBits b) := by
    rw [hk, stuff_append 0 (by omega)]
  refine ⟨o, nb, _, rfl, by omega, ?_, by omega, ?_, ?_⟩
  · have := and_FF_lt (o >>> nb); omega
  · rw [msbBits_FF, hst, List.append_assoc, e2, ← List.append_assoc, hl]; simp
  · rw [hst, trail_append]; exact e3

theorem getElem_take_succ (l : List Byte) (i : Nat) (h : i < l.length) :
    ∃ b, l[i]? = some b ∧ l.take (i + 1) = l.take i ++ [b] := by
  refine ⟨l[i], by simp [h], ?_⟩
  rw [List.take_add_one]; simp [h]

/-- The check sequence, in the buffer. -/
theorem storeCrc_fcs {s : Tx} (hcb : s.crcBytes = 2 ∨ s.crcBytes = 4) (hsize : s.buffer.length = bufSize)
    (hlen : s.len ≤ maxFrame) (hcrc : s.crc = crcOf s.crcBytes (s.buffer.take s.len)) :
    (txStoreCrc s).buffer.take s.len = s.buffer.take s.len ∧ (txStoreCrc s).buffer.length = bufSize ∧
    ((txStoreCrc s).buffer.drop maxFrame).take s.crcBytes = fcs s.crcBytes (s.buffer.take s.len) := by
  have split : ∃ m a b c d, s.buffer = m ++ [a, b, c, d] ∧ m.length = maxFrame := by
    have h1 : (s.buffer.drop maxFrame).length = 4 := by simp [hsize, bufSize]
    match hd : s.buffer.drop maxFrame, h1 with
    | [a, b, c, d], _ =>
      exact ⟨s.buffer.take maxFrame, a, b, c, d, by rw [← hd, List.take_append_drop], by simp [hsize, bufSize]⟩
  obtain ⟨m, a, b, c, d, hbuf, hm⟩ := split
  have put : ∀ (a b c d x : Byte) (i : Nat), (m ++ [a, b, c, d]).set (maxFrame + i) x = m ++ ([a, b, c, d].set i x) := by
    intro a b c d x i
    rw [List.set_append_right _ _ (by omega)]
    congr 2; omega
  have put0 : ∀ (a b c d x : Byte), (m ++ [a, b, c, d]).set maxFrame x = m ++ [x, b, c, d] := fun a b c d x => put a b c d x 0
  have htake : ∀ l : List Byte, (m ++ l).take s.len = m.take s.len := by
    intro l; rw [List.take_append_of_le_length (by omega)]
  have hdrop : ∀ l : List Byte, (m ++ l).drop maxFrame = l := by
    intro l; rw [← hm, List.drop_left]
  have hcur : s.buffer.take s.len = m.take s.len := by rw [hbuf, htake]
  rcases hcb with hc | hc
  · have e : (txStoreCrc s).buffer = m ++ [(s.crc ^^^ 0xFFFFFFFF#32).setWidth 8, ((s.crc ^^^ 0xFFFFFFFF#32) >>> 8).setWidth 8, c, d] := by
      simp only [txStoreCrc, hbuf, put0, put]
      rw [if_neg (by omega)]; rfl
    rw [e]
    refine ⟨by rw [htake, hcur], by simp [hm, bufSize], ?_⟩
    rw [hdrop, hcrc, hc]
    unfold crcOf fcs
    simp only [if_true]
    generalize serial poly16 0xFFFF#16 (bits (s.buffer.take s.len)) = w
    simp only [List.take_succ_cons, List.take_zero, List.cons.injEq, and_true]
    rw [show w.setWidth 32 ^^^ 4294967295#32 = ~~~ (w.setWidth 32) by
      rw [show (4294967295#32) = BitVec.allOnes 32 by decide, BitVec.xor_allOnes]]
    constructor
    · apply BitVec.eq_of_getLsbD_eq
      intro i hi
      have h1 : i < 32 := by omega
      have h2 : i < 16 := by omega
      simp only [BitVec.getLsbD_setWidth, BitVec.getLsbD_not]
      simp [hi, h1, h2]
    · apply BitVec.eq_of_getLsbD_eq
      intro i hi
      have h1 : 8 + i < 32 := by omega
      have h2 : 8 + i < 16 := by omega
      simp only [BitVec.getLsbD_setWidth, BitVec.getLsbD_ushiftRight, BitVec.getLsbD_not]
      simp [hi, h1, h2]
  · have e : (txStoreCrc s).buffer = m ++ [(s.crc ^^^ 0xFFFFFFFF#32).setWidth 8, ((s.crc ^^^ 0xFFFFFFFF#32) >>> 8).setWidth 8,
        ((s.crc ^^^ 0xFFFFFFFF#32) >>> 16).setWidth 8, ((s.crc ^^^ 0xFFFFFFFF#32) >>> 24).setWidth 8] := by
      simp only [txStoreCrc, hbuf, put0, put]
      rw [if_pos hc]
      simp only [List.set, put]
    rw [e]
    refine ⟨by rw [htake, hcur], by simp [hm, bufSize], ?_⟩
    rw [hdrop, hcrc, hc]
    unfold crcOf fcs
    simp only [show ¬ (4 = 2) by omega, if_false]
    generalize serial poly32 0xFFFFFFFF#32 (bits (s.buffer.take s.len)) = w
    rw [show w ^^^ 4294967295#32 = ~~~ w by rw [show (4294967295#32) = BitVec.allOnes 32 by decide, BitVec.xor_allOnes]]
    rfl

/-- The end of a frame, as octets. -/
theorem end_octets (o : BitVec 32) (nb : Nat) (h : nb ≤ 7) :
    lb 8 ((o <<< (8 - nb)) ||| (0x7E#32 >>> nb)) = lb nb o ++ flagBits.take (8 - nb) ∧
    lb 8 ((0x7E7E#32 >>> nb) &&& 0xFF#32) = flagBits.drop (8 - nb) ++ flagBits.take (8 - nb) ∧
    lb nb (((0x7E7E#32 >>> nb) &&& 0xFF#32) >>> (8 - nb)) = flagBits.drop (8 - nb) ∧
    TailOnes (((0x7E7E#32 >>> nb) &&& 0xFF#32) >>> (8 - nb)) 0 := by
  have hc : nb = 0 ∨ nb = 1 ∨ nb = 2 ∨ nb = 3 ∨ nb = 4 ∨ nb = 5 ∨ nb = 6 ∨ nb = 7 := by omega
  rcases hc with rfl | rfl | rfl | rfl | rfl | rfl | rfl | rfl
  all_goals
    refine ⟨?_, by decide, by decide, ⟨by decide, by intro i hi; omega, by decide⟩⟩
    simp only [lb, flagBits, BitVec.getLsbD_or, BitVec.getLsbD_shiftLeft]
    simp
    try decide

/-- What taking an octet does. -/
structure Got (hd : List Event → List Call) (E : List Bool) (items : List Item) (s s' : Tx) (v : Int) (items' : List Item) : Prop where
  run : txGetByte hd s = some (s', v)
  inv : TInv (E ++ passes false v) items' s'
  more : items <+: items'
  small : v < 256
  status : v < 0 → v = endOfData
  byte : s'.byte = s.byte
  bits : s'.bits = s.bits
  crcBytes : s'.crcBytes = s.crcBytes

theorem passes_nat {v : Int} (h : 0 ≤ v) : passes false v = msbBits v := by
  unfold passes; rw [if_neg (by omega)]; rfl

theorem phase_flags {E : List Bool} {items : List Item} {s : Tx} (h : Phase E items s) (hf : s.flagOctets > 0) : s.pos = 0 := by
  cases h with
  | idle h1 => exact h1
  | data _ _ _ h4 => omega
  | check _ _ _ _ h5 => omega

theorem phase_empty {E : List Bool} {items : List Item} {s : Tx} (h : Phase E items s) (hf : s.len = 0) : s.pos = 0 := by
  cases h with
  | idle h1 => exact h1
  | data h1 h2 => omega
  | check h1 => omega

theorem timed_step (hd : List Event → List Call) {E : List Bool} {items : List Item} {s : Tx} (h : TInv E items s)
    (hf : s.flagOctets > 0) : ∃ s' v items', Got hd E items s s' v items' := by
  have hp := phase_flags h.phase hf
  have h0 : TInv E items { s with flagOctets := s.flagOctets - 1 } :=
    ⟨h.abort, h.cb, h.size, h.max, h.len, h.delim, h.frames, h.cur,
      h.phase.change s.txEnd s.reportFlagUnderflow _ s.maxFrameLen (Or.inr hp)⟩
  have h1 : TInv E items { s with flagOctets := s.flagOctets - 1, reportFlagUnderflow := false } :=
    ⟨h.abort, h.cb, h.size, h.max, h.len, h.delim, h.frames, h.cur,
      h.phase.change s.txEnd false _ s.maxFrameLen (Or.inr hp)⟩
  have fin : ∀ t : Tx, TInv E items t → Keeps s t →
      txGetByte hd s = (if t.abortOctets ≠ 0 then some ({ t with abortOctets := 0 }, 0x7F) else some (t, (t.idleOctet.toNat : Int))) →
      ∃ s' v items', Got hd E items s s' v items' := by
    intro t ht hk he
    rw [if_neg (by simp [ht.abort])] at he
    obtain ⟨i1, i2⟩ := idle_flag ht (by rw [hk.pos, hp])
    refine ⟨t, _, items ++ [.flag], he, ?_, List.prefix_append _ _, by omega, by omega, hk.byte, hk.bits, hk.crcBytes⟩
    rw [passes_nat (by omega)]; exact i1
  by_cases hc : s.flagOctets - 1 ≤ 0 ∧ s.reportFlagUnderflow = true
  · by_cases hl : s.len = 0
    · obtain ⟨t, e, ht, hk⟩ := underflow_inv hd (underflow_log h1 hl)
      refine fin t ht ⟨hk.1, hk.2, hk.3, hk.4, hk.5, hk.6, hk.7⟩ ?_
      unfold txGetByte txTimedFlag
      rw [if_pos hf]
      simp only
      rw [if_pos hc, if_pos hl, e]
      simp only [Option.bind_eq_bind, Option.bind_some, Option.pure_def]
    · refine fin _ h1 ⟨rfl, rfl, rfl, rfl, rfl, rfl, rfl⟩ ?_
      unfold txGetByte txTimedFlag
      rw [if_pos hf]
      simp only
      rw [if_pos hc, if_neg hl]
      simp only [Option.bind_eq_bind, Option.bind_some, Option.pure_def]
  · refine fin _ h0 ⟨rfl, rfl, rfl, rfl, rfl, rfl, rfl⟩ ?_
    unfold txGetByte txTimedFlag
    rw [if_pos hf]
    simp only
    rw [if_neg hc]
    simp only [Option.bind_eq_bind, Option.bind_some, Option.pure_def]

theorem empty_step (hd : List Event → List Call) {E : List Bool} {items : List Item} {s : Tx} (h : TInv E items s)
    (hf : ¬ s.flagOctets > 0) (hl : s.len = 0) : ∃ s' v items', Got hd E items s s' v items' := by
  have hp := phase_empty h.phase hl
  by_cases he : s.txEnd = true
  · refine ⟨{ s with txEnd := false }, endOfData, items, ?_, ?_, List.prefix_refl _, by decide, fun _ => rfl, rfl, rfl, rfl⟩
    · unfold txGetByte
      rw [if_neg hf, if_neg (by simp [hl]), if_pos he]
    · have : passes false endOfData = [] := rfl
      rw [this, List.append_nil]
      exact ⟨h.abort, h.cb, h.size, h.max, h.len, h.delim, h.frames, h.cur,
        h.phase.change false s.reportFlagUnderflow s.flagOctets s.maxFrameLen (Or.inr hp)⟩
  · obtain ⟨i1, i2⟩ := idle_flag h hp
    refine ⟨s, (s.idleOctet.toNat : Int), items ++ [.flag], ?_, ?_, List.prefix_append _ _, ?_, ?_, rfl, rfl, rfl⟩
    rotate_left
    · rw [passes_nat (v := (s.idleOctet.toNat : Int)) (by omega)]; exact i1
    · omega
    · omega
    · unfold txGetByte
      rw [if_neg hf, if_neg (by simp [hl]), if_neg he]

/-- An octet which was left over. -/
theorem left_step (hd : List Event → List Call) {E : List Bool} {items : List Item} {s : Tx} (h : TInv E items s)
    (hf : ¬ s.flagOctets > 0) (hl : s.len ≠ 0) (h8 : s.numBits ≥ 8) : ∃ s' v items', Got hd E items s s' v items' := by
  refine ⟨{ s with numBits := s.numBits - 8 }, (((s.octetsInProgress >>> (s.numBits - 8)) &&& 0xFF#32).toNat : Int), items,
    ?_, ?_, List.prefix_refl _, ?_, ?_, rfl, rfl, rfl⟩
  · unfold txGetByte
    rw [if_neg hf, if_pos hl, if_pos h8]
  · have e : lb s.numBits s.octetsInProgress = lb 8 (s.octetsInProgress >>> (s.numBits - 8)) ++ lb (s.numBits - 8) s.octetsInProgress := by
      rw [← lb_split]; congr 1; omega
    rw [passes_nat (by omega), msbBits_FF]
    refine ⟨h.abort, h.cb, h.size, h.max, h.len, h.delim, h.frames, h.cur, ?_⟩
    cases h.phase with
    | idle h1 h2 => omega
    | data h1 h2 h3 h4 h5 h6 h7 =>
      refine .data h1 h2 (by simp only; omega) h4 ?_ h6 h7
      rw [e, ← List.append_assoc] at h5
      exact h5
    | check h1 h2 h3 h4 h5 h6 h7 h8 =>
      refine .check h1 h2 h3 (by simp only; omega) h5 h6 ?_ h8
      rw [e, ← List.append_assoc] at h7
      exact h7
  · have := and_FF_lt (s.octetsInProgress >>> (s.numBits - 8)); omega
  · omega

/-- An octet of the payload. -/
theorem payload_step (hd : List Event → List Call) {E : List Bool} {items : List Item} {s : Tx} (h : TInv E items s)
    (hf : ¬ s.flagOctets > 0) (hl : s.len ≠ 0) (h8 : ¬ s.numBits ≥ 8) (hp : s.pos < s.len) :
    ∃ s' v items', Got hd E items s s' v items' := by
  have hlen := h.len
  have hsize := h.size
  have hbs : bufSize = maxFrame + 4 := rfl
  obtain ⟨b, hb, ht⟩ := getElem_take_succ s.buffer s.pos (by omega)
  have hcrc : s.crc = crcOf s.crcBytes (s.buffer.take s.len) := by
    cases h.phase with
    | idle _ _ _ _ _ _ _ h8 => exact h8
    | data _ _ _ _ _ _ h7 => exact h7
    | check g1 g2 => omega
  have hs : E ++ lb s.numBits s.octetsInProgress = wire s.crcBytes items ++ stuff 0 (bits (s.buffer.take s.pos)) ∧
      TailOnes s.octetsInProgress (trail 0 (stuff 0 (bits (s.buffer.take s.pos)))) := by
    cases h.phase with
    | idle h1 _ h3 _ _ h6 => rw [h1]; exact ⟨by simpa [bits, stuff] using h3, by simpa [bits, stuff, trail] using h6⟩
    | data _ _ _ _ h5 h6 => exact ⟨h5, h6⟩
    | check g1 g2 => omega
  obtain ⟨o, nb, v, e, v0, v1, hnb, hline, htail⟩ := octet_step hs.1 hs.2 (by omega) hb
  refine ⟨{ s with pos := s.pos + 1, octetsInProgress := o, numBits := nb }, v, items, ?_, ?_, List.prefix_refl _, v1,
    by omega, rfl, rfl, rfl⟩
  · unfold txGetByte
    rw [if_neg hf, if_pos hl, if_neg h8, if_neg (by omega), e]
  · rw [passes_nat v0]
    refine ⟨h.abort, h.cb, h.size, h.max, h.len, h.delim, h.frames, h.cur, ?_⟩
    refine .data (by simp) (by simp only; omega) hnb (by simp only; omega) ?_ ?_ hcrc
    · simp only [ht]; exact hline
    · simp only [ht]; exact htail

/-- An octet of the check sequence, once it is in the buffer. -/
theorem fcs_step {E : List Bool} {items : List Item} {s : Tx} (h : TInv E items s)
    (hf : ¬ s.flagOctets > 0) (hl : s.len ≠ 0) (h8 : ¬ s.numBits ≥ 8)
    (hp : maxFrame ≤ s.pos) (hp' : s.pos < maxFrame + s.crcBytes)
    (hfcs : (s.buffer.drop maxFrame).take s.crcBytes = fcs s.crcBytes (s.buffer.take s.len))
    (hline : E ++ lb s.numBits s.octetsInProgress =
        wire s.crcBytes items ++ stuff 0 (bits (s.buffer.take s.len ++ (s.buffer.drop maxFrame).take (s.pos - maxFrame))))
    (htail : TailOnes s.octetsInProgress
        (trail 0 (stuff 0 (bits (s.buffer.take s.len ++ (s.buffer.drop maxFrame).take (s.pos - maxFrame)))))) :
    ∃ s' v, txOctet s = some (s', v) ∧ TInv (E ++ passes false v) items s' ∧ 0 ≤ v ∧ v < 256 ∧
      s'.byte = s.byte ∧ s'.bits = s.bits ∧ s'.crcBytes = s.crcBytes := by
  have hsize := h.size
  have hbs : bufSize = maxFrame + 4 := rfl
  have hcb := h.cb
  obtain ⟨b, hb, ht⟩ := getElem_take_succ (s.buffer.drop maxFrame) (s.pos - maxFrame) (by simp; omega)
  have hb' : s.buffer[s.pos]? = some b := by
    have : maxFrame + (s.pos - maxFrame) = s.pos := by omega
    rw [← hb, List.getElem?_drop, this]
  obtain ⟨o, nb, v, e, v0, v1, hnb, hline', htail'⟩ := octet_step hline htail (by omega) hb'
  refine ⟨_, v, e, ?_, v0, v1, rfl, rfl, rfl⟩
  rw [passes_nat v0]
  have hk : s.buffer.take s.len ++ (s.buffer.drop maxFrame).take (s.pos - maxFrame) ++ [b] =
      s.buffer.take s.len ++ (s.buffer.drop maxFrame).take (s.pos + 1 - maxFrame) := by
    have : s.pos + 1 - maxFrame = s.pos - maxFrame + 1 := by omega
    rw [List.append_assoc, ← ht, this]
  refine ⟨h.abort, h.cb, h.size, h.max, h.len, h.delim, h.frames, h.cur, ?_⟩
  refine .check (by simp only; omega) (by simp only; omega) (by simp only; omega) hnb (by simp only; omega) hfcs ?_ ?_
  · simp only; rw [← hk]; exact hline'
  · simp only; rw [← hk]; exact htail'

/-- The first octet of the check sequence. -/
theorem check_start (hd : List Event → List Call) {E : List Bool} {items : List Item} {s : Tx} (h : TInv E items s)
    (hf : ¬ s.flagOctets > 0) (hl : s.len ≠ 0) (h8 : ¬ s.numBits ≥ 8) (hp : s.pos = s.len) :
    ∃ s' v items', Got hd E items s s' v items' := by
  have hlen := h.len
  have hph := h.phase
  cases hph with
  | idle h1 => omega
  | check g1 g2 => omega
  | data h1 h2 h3 h4 h5 h6 h7 =>
    obtain ⟨c1, c2, c3⟩ := storeCrc_fcs h.cb h.size h.len h7
    have hcb := h.cb
    -- the state with the check sequence in the buffer; only the phase is not as the invariant says
    have hinv : TInv E items { txStoreCrc s with pos := s.pos, crc := s.crc } := by
      refine ⟨h.abort, h.cb, c2, h.max, h.len, h.delim, h.frames, ?_, ?_⟩
      · exact h.cur.trans c1.symm
      · refine .data h1 h2 h3 h4 ?_ ?_ ?_
        · have : (txStoreCrc s).buffer.take s.pos = s.buffer.take s.pos := by rw [hp]; exact c1
          simp only [this]; exact h5
        · have : (txStoreCrc s).buffer.take s.pos = s.buffer.take s.pos := by rw [hp]; exact c1
          simp only [this]; exact h6
        · show s.crc = crcOf s.crcBytes ((txStoreCrc s).buffer.take s.len)
          rw [c1]; exact h7
    have hb : ∃ b, (txStoreCrc s).buffer[maxFrame]? = some b := by
      have : maxFrame < (txStoreCrc s).buffer.length := by rw [c2]; decide
      exact ⟨_, List.getElem?_eq_getElem this⟩
    obtain ⟨b, hb⟩ := hb
    have hk : s.buffer.take s.pos = s.buffer.take s.len := by rw [hp]
    rw [hk] at h5 h6
    obtain ⟨o, nb, v, e, v0, v1, hnb, hline', htail'⟩ := octet_step (s := txStoreCrc s) h5 h6 (by show s.numBits ≤ 7; omega) hb
    have hone : (txStoreCrc s).buffer.take s.len ++ ((txStoreCrc s).buffer.drop maxFrame).take (maxFrame + 1 - maxFrame) = s.buffer.take s.len ++ [b] := by
      rw [c1]
      congr 1
      have : maxFrame + 1 - maxFrame = 1 := by omega
      rw [this]
      have hb' : ((txStoreCrc s).buffer.drop maxFrame)[0]? = some b := by rw [List.getElem?_drop]; exact hb
      cases hd : (txStoreCrc s).buffer.drop maxFrame with
      | nil => rw [hd] at hb'; simp at hb'
      | cons x xs => rw [hd] at hb'; simpa using hb'
    refine ⟨{ txStoreCrc s with pos := (txStoreCrc s).pos + 1, octetsInProgress := o, numBits := nb }, v, items, ?_, ?_,
      List.prefix_refl _, v1, by omega, rfl, rfl, rfl⟩
    · unfold txGetByte
      rw [if_neg hf, if_pos hl, if_neg h8, if_pos (by omega), if_pos hp, e]
    · rw [passes_nat v0]
      refine ⟨h.abort, h.cb, c2, h.max, h.len, h.delim, h.frames, hinv.cur, ?_⟩
      refine .check ?_ ?_ ?_ hnb h4 ?_ ?_ ?_
      · show 0 < s.len; omega
      · show maxFrame < maxFrame + 1; omega
      · show maxFrame + 1 ≤ maxFrame + s.crcBytes; omega
      · show ((txStoreCrc s).buffer.drop maxFrame).take s.crcBytes = fcs s.crcBytes ((txStoreCrc s).buffer.take s.len)
        rw [c1]; exact c3
      · show _ = wire s.crcBytes items ++ stuff 0 (bits ((txStoreCrc s).buffer.take s.len ++ ((txStoreCrc s).buffer.drop maxFrame).take (maxFrame + 1 - maxFrame)))
        rw [hone]; exact hline'
      · show TailOnes o (trail 0 (stuff 0 (bits ((txStoreCrc s).buffer.take s.len ++ ((txStoreCrc s).buffer.drop maxFrame).take (maxFrame + 1 - maxFrame)))))
        rw [hone]; exact htail'

/-- The end of a frame. -/
theorem end_step (hd : List Event → List Call) {E : List Bool} {items : List Item} {s : Tx} (h : TInv E items s)
    (hf : ¬ s.flagOctets > 0) (hl : s.len ≠ 0) (h8 : ¬ s.numBits ≥ 8) (hp : s.pos > s.len)
    (hp' : s.pos = maxFrame + s.crcBytes) :
    ∃ s' v items', Got hd E items s s' v items' := by
  have hcb := h.cb
  have hph := h.phase
  cases hph with
  | idle h1 => omega
  | data h1 h2 => omega
  | check g1 g2 g3 g4 g5 g6 g7 g8 =>
    obtain ⟨o1, o2, o3, o4⟩ := end_octets s.octetsInProgress s.numBits (by omega)
    rw [hp', Nat.add_sub_cancel_left, g6] at g7
    let s1 : Tx := { s with idleOctet := (0x7E7E#32 >>> s.numBits) &&& 0xFF#32,
                            octetsInProgress := ((0x7E7E#32 >>> s.numBits) &&& 0xFF#32) >>> (8 - s.numBits),
                            flagOctets := s.interFrameFlags - 1, len := 0, pos := 0, crc := s.crcStart,
                            reportFlagUnderflow := false }
    let w : BitVec 32 := (s.octetsInProgress <<< (8 - s.numBits)) ||| (0x7E#32 >>> s.numBits)
    let items' := items ++ [.frame (s.buffer.take s.len), .flag]
    have hne : ¬ inProgress s.log = [] := by
      rw [h.cur]
      intro e
      have hsize := h.size
      have := congrArg List.length e
      have hlen := h.len
      have hbs : bufSize = maxFrame + 4 := rfl
      rw [List.length_take, List.length_nil] at this
      omega
    have hinv : TInv (E ++ msbBits ((w &&& 0xFF#32).toNat : Int)) items' { s1 with log := s1.log ++ [.underflow] } := by
      refine ⟨h.abort, h.cb, h.size, h.max, Nat.zero_le _, delimited_append _ _ h.delim ⟨rfl, rfl⟩, ?_, ?_, ?_⟩
      · show framesIn items' = completed (s.log ++ [.underflow])
        rw [(framesOf_underflow _).1, if_neg hne, h.cur, ← h.frames]
        simp [items', framesIn]
      · show inProgress (s.log ++ [.underflow]) = _
        rw [(framesOf_underflow _).2]; rfl
      · refine .idle rfl (by show s.numBits ≤ 7; omega) ?_ ?_ o3 o4 (and_FF_lt _) ?_
        · show E ++ msbBits ((w &&& 0xFF#32).toNat : Int) ++ lb s.numBits (((0x7E7E#32 >>> s.numBits) &&& 0xFF#32) >>> (8 - s.numBits)) = wire s.crcBytes items'
          rw [msbBits_FF, o3]
          show E ++ lb 8 ((s.octetsInProgress <<< (8 - s.numBits)) ||| (0x7E#32 >>> s.numBits)) ++ _ = _
          rw [o1]
          simp only [items', wire_append]
          rw [← List.append_assoc, g7]
          simp only [List.append_assoc, List.take_append_drop]
          simp [wire, Item.bits]
        · show lb 8 ((0x7E7E#32 >>> s.numBits) &&& 0xFF#32) = lb s.numBits (((0x7E7E#32 >>> s.numBits) &&& 0xFF#32) >>> (8 - s.numBits)) ++ _
          rw [o2, o3]
        · show s.crcStart = crcOf s.crcBytes []
          unfold Tx.crcStart crcOf
          rcases hcb with hc | hc <;> simp [hc, bits, serial]
    obtain ⟨t, e, ht, hk⟩ := underflow_inv hd hinv
    have hpre : items <+: items' := List.prefix_append _ _
    have hlt := and_FF_lt w
    have fin : ∀ u : Tx, TInv (E ++ msbBits ((w &&& 0xFF#32).toNat : Int)) items' u → Keeps s1 u →
        txGetByte hd s = some (u, ((w &&& 0xFF#32).toNat : Int)) → ∃ s' v items', Got hd E items s s' v items' := by
      intro u hu hku he
      refine ⟨u, _, items', he, ?_, hpre, by omega, by omega, hku.byte, hku.bits, hku.crcBytes⟩
      rw [passes_nat (by omega)]; exact hu
    have hrun : txGetByte hd s = some (if t.len = 0 ∧ t.flagOctets < 2 then { t with flagOctets := 2 } else t, ((w &&& 0xFF#32).toNat : Int)) := by
      unfold txGetByte txEndFrame
      rw [if_neg hf, if_pos hl, if_neg h8, if_pos (by omega), if_neg (by omega), if_pos hp']
      simp only
      have e' : txUnderflow hd { s with idleOctet := (0x7E7E#32 >>> s.numBits) &&& 0xFF#32, octetsInProgress := ((0x7E7E#32 >>> s.numBits) &&& 0xFF#32) >>> (8 - s.numBits), flagOctets := s.interFrameFlags - 1, len := 0, pos := 0, crc := s.crcStart, reportFlagUnderflow := false } = some t := e
      rw [e']
      rfl
    by_cases hc : t.len = 0 ∧ t.flagOctets < 2
    · rw [if_pos hc] at hrun
      refine fin _ ?_ ?_ hrun
      · exact ⟨ht.abort, ht.cb, ht.size, ht.max, ht.len, ht.delim, ht.frames, ht.cur,
          ht.phase.change t.txEnd t.reportFlagUnderflow 2 t.maxFrameLen (Or.inr hk.pos)⟩
      · exact ⟨hk.1, hk.2, hk.3, hk.4, hk.5, hk.6, hk.7⟩
    · rw [if_neg hc] at hrun
      exact fin _ ht hk hrun

/-- Taking an octet always works, and keeps the invariant. -/
theorem get_step (hd : List Event → List Call) {E : List Bool} {items : List Item} {s : Tx} (h : TInv E items s) :
    ∃ s' v items', Got hd E items s s' v items' := by
  by_cases hf : s.flagOctets > 0
  · exact timed_step hd h hf
  · by_cases hl : s.len = 0
    · exact empty_step hd h hf hl
    · by_cases h8 : s.numBits ≥ 8
      · exact left_step hd h hf hl h8
      · by_cases hp : s.pos < s.len
        · exact payload_step hd h hf hl h8 hp
        · by_cases hp1 : s.pos = s.len
          · exact check_start hd h hf hl h8 hp1
          · by_cases hp2 : s.pos = maxFrame + s.crcBytes
            · exact end_step hd h hf hl h8 (by omega) hp2
            · have hph := h.phase
              cases hph with
              | idle h1 => omega
              | data h1 h2 => omega
              | check g1 g2 g3 g4 g5 g6 g7 g8 =>
                obtain ⟨s', v, e, hi, v0, v1, k1, k2, k3⟩ := fcs_step h hf hl h8 (by omega) (by omega) g6 g7 g8
                refine ⟨s', v, items, ?_, hi, List.prefix_refl _, v1, by omega, k1, k2, k3⟩
                unfold txGetByte
                rw [if_neg hf, if_pos hl, if_neg h8, if_pos (by omega), if_neg hp1, if_neg hp2, e]

theorem init_inv (crc32 : Bool) (iff : Int) (prog : Bool) : TInv [] [] (txInit crc32 iff prog) := by
  refine ⟨rfl, ?_, ?_, Nat.le_refl _, Nat.zero_le _, trivial, rfl, rfl, ?_⟩
  · cases crc32 <;> simp [txInit]
  · simp [txInit]
  · refine .idle rfl (Nat.zero_le _) ?_ ?_ ?_ ⟨by decide, by intro i hi; omega, ?_⟩ ?_ ?_
    · simp [txInit, lb, wire]
    · simp only [txInit]; decide
    · simp only [txInit]; decide
    · simp [txInit]
    · simp only [txInit]; decide
    · simp only [txInit, crcOf]
      cases crc32 <;> simp [bits, serial]

end Hdlc
