import Verif.Hdlc.RxLemmas
import Verif.BitOps.Props

/-! # Lemmas about the HDLC transmitter -/

namespace Hdlc
open Spec
open Crc.Spec (bits octetBits serial poly16 poly32)

/-! ## The register of bits in progress -/

/-- The lowest `n` bits, most significant first. -/
def lb : Nat → BitVec 32 → List Bool
  | 0, _ => []
  | n + 1, x => x.getLsbD n :: lb n x

theorem lb_length (n : Nat) (x : BitVec 32) : (lb n x).length = n := by
  induction n with
  | zero => rfl
  | succ n ih => simp [lb, ih]

theorem lb_congr {n : Nat} {x y : BitVec 32} (h : ∀ i, i < n → x.getLsbD i = y.getLsbD i) : lb n x = lb n y := by
  induction n with
  | zero => rfl
  | succ n ih => simp only [lb]; rw [h n (by omega), ih (fun i hi => h i (by omega))]

theorem lb_split (n m : Nat) (x : BitVec 32) : lb (n + m) x = lb n (x >>> m) ++ lb m x := by
  induction n with
  | zero => simp [lb]
  | succ n ih =>
    rw [show n + 1 + m = (n + m) + 1 by omega]
    simp only [lb, List.cons_append, ih, BitVec.getLsbD_ushiftRight]
    rw [Nat.add_comm m n]

/-- `y` is `x` after the bit `b` is shifted in. -/
def Push (x : BitVec 32) (b : Bool) (y : BitVec 32) : Prop :=
  y.getLsbD 0 = b ∧ ∀ i, i + 1 < 32 → y.getLsbD (i + 1) = x.getLsbD i

theorem lb_push {x y : BitVec 32} {b : Bool} (h : Push x b y) (n : Nat) (hn : n < 32) :
    lb (n + 1) y = lb n x ++ [b] := by
  induction n with
  | zero => simp only [lb, h.1]; rfl
  | succ n ih =>
    rw [lb, ih (by omega), h.2 n (by omega)]
    rfl

theorem push_bit (o x : BitVec 32) : Push o (x.getLsbD 0) ((o <<< 1) ||| (x &&& 1#32)) := by
  have h1 : ∀ i, (1#32).getLsbD i = decide (i = 0) := by
    intro i
    cases i with
    | zero => rfl
    | succ i => simp [BitVec.getLsbD_one]
  refine ⟨?_, ?_⟩
  · rw [BitVec.getLsbD_or, BitVec.getLsbD_shiftLeft, BitVec.getLsbD_and, h1]; simp
  · intro i hi
    rw [BitVec.getLsbD_or, BitVec.getLsbD_shiftLeft, BitVec.getLsbD_and, h1]
    simp [hi]

theorem push_zero (o : BitVec 32) : Push o false (o <<< 1) := by
  refine ⟨?_, ?_⟩
  · rw [BitVec.getLsbD_shiftLeft]; simp
  · intro i hi
    rw [BitVec.getLsbD_shiftLeft]
    simp [hi]

/-- The register ends with `t` ones, and there are not more than 4. -/
structure TailOnes (o : BitVec 32) (t : Nat) : Prop where
  le : t ≤ 4
  ones : ∀ i, i < t → o.getLsbD i = true
  zero : o.getLsbD t = false

theorem and_1F (o : BitVec 32) : (o &&& 0x1F#32 = 0x1F#32) ↔ ∀ i, i < 5 → o.getLsbD i = true := by
  constructor
  · intro h i hi
    have := congrArg (·.getLsbD i) h
    simp only [BitVec.getLsbD_and] at this
    have h1 : ∀ i, i < 5 → (0x1F#32).getLsbD i = true := by decide
    rw [h1 i hi] at this
    simpa using this
  · intro h
    ext i hi
    rw [BitVec.getElem_and]
    by_cases h5 : i < 5
    · have := h i h5
      rw [BitVec.getLsbD_eq_getElem hi] at this
      simp [this]
    · have h1 : ∀ i, i < 32 → 5 ≤ i → (0x1F#32).getLsbD i = false := by decide
      have := h1 i hi (by omega)
      rw [BitVec.getLsbD_eq_getElem hi] at this
      simp [this]

theorem tail_push_false {o y : BitVec 32} (h : Push o false y) : TailOnes y 0 :=
  ⟨by omega, by intro i hi; omega, h.1⟩

theorem tail_push_true {o y : BitVec 32} {t : Nat} (ht : TailOnes o t) (h4 : t < 4) (h : Push o true y) :
    TailOnes y (t + 1) := by
  refine ⟨by omega, ?_, ?_⟩
  · intro i hi
    cases i with
    | zero => exact h.1
    | succ i => rw [h.2 i (by omega)]; exact ht.ones i (by omega)
  · rw [h.2 t (by omega)]; exact ht.zero

theorem full_iff {o y : BitVec 32} {b : Bool} {t : Nat} (ht : TailOnes o t) (h : Push o b y) :
    (y &&& 0x1F#32 = 0x1F#32) ↔ (b = true ∧ t = 4) := by
  rw [and_1F]
  have hle := ht.le
  constructor
  · intro hy
    refine ⟨by rw [← h.1]; exact hy 0 (by omega), ?_⟩
    have hz := ht.zero
    by_cases h4 : t = 4
    · exact h4
    · have := hy (t + 1) (by omega)
      rw [h.2 t (by omega), hz] at this
      exact absurd this (by decide)
  · rintro ⟨rfl, rfl⟩ i hi
    cases i with
    | zero => exact h.1
    | succ i => rw [h.2 i (by omega)]; exact ht.ones i (by omega)

/-- The lowest `n` bits, least significant first. -/
def lowFirst : Nat → BitVec 32 → List Bool
  | 0, _ => []
  | n + 1, x => x.getLsbD 0 :: lowFirst n (x >>> 1)

theorem txBits_spec (n : Nat) : ∀ (x o : BitVec 32) (nb m t : Nat), TailOnes o t → nb + m + 2 * n ≤ 32 →
    ∃ k, (txBits n x (o, nb)).2 = nb + k ∧ 5 * k ≤ t + n ∧
      lb (nb + k + m + n) (txBits n x (o, nb)).1 = lb (nb + m) o ++ stuff t (lowFirst n x) ∧
      TailOnes (txBits n x (o, nb)).1 (trail t (stuff t (lowFirst n x))) := by
  induction n with
  | zero =>
    intro x o nb m t ht _
    exact ⟨0, rfl, by omega, by simp [txBits, lowFirst, stuff], by simpa [txBits, lowFirst, stuff, trail] using ht⟩
  | succ n ih =>
    intro x o nb m t ht hl
    have hp := push_bit o x
    simp only [txBits, lowFirst]
    cases hb : x.getLsbD 0
    · rw [hb] at hp
      have hf := full_iff ht hp
      rw [if_neg (by rw [hf]; simp)]
      obtain ⟨k, e1, e2, e3, e4⟩ := ih (x >>> 1) _ nb (m + 1) 0 (tail_push_false hp) (by omega)
      refine ⟨k, e1, by omega, ?_, ?_⟩
      · rw [show nb + k + m + (n + 1) = nb + k + (m + 1) + n by omega, e3, show nb + (m + 1) = nb + m + 1 by omega,
          lb_push hp _ (by omega)]
        simp [stuff]
      · simpa [stuff, trail] using e4
    · rw [hb] at hp
      have hf := full_iff ht hp
      by_cases h4 : t = 4
      · rw [if_pos (hf.2 ⟨rfl, h4⟩)]
        have hp0 := push_zero ((o <<< 1) ||| (x &&& 1#32))
        obtain ⟨k, e1, e2, e3, e4⟩ := ih (x >>> 1) _ (nb + 1) (m + 1) 0 (tail_push_false hp0) (by omega)
        refine ⟨k + 1, by rw [e1]; omega, by omega, ?_, ?_⟩
        · rw [show nb + (k + 1) + m + (n + 1) = nb + 1 + k + (m + 1) + n by omega, e3,
            show nb + 1 + (m + 1) = nb + m + 1 + 1 by omega, lb_push hp0 _ (by omega), lb_push hp _ (by omega)]
          simp [stuff, h4]
        · simpa [stuff, h4, trail] using e4
      · have h4' : t < 4 := by have := ht.le; omega
        rw [if_neg (by rw [hf]; simp [h4])]
        obtain ⟨k, e1, e2, e3, e4⟩ := ih (x >>> 1) _ nb (m + 1) (t + 1) (tail_push_true ht h4' hp) (by omega)
        refine ⟨k, e1, by omega, ?_, ?_⟩
        · rw [show nb + k + m + (n + 1) = nb + k + (m + 1) + n by omega, e3, show nb + (m + 1) = nb + m + 1 by omega,
            lb_push hp _ (by omega)]
          simp [stuff, h4]
        · simpa [stuff, h4, trail] using e4

/-- Zero bits may be shifted in together. -/
theorem txBits_zeros (i : Nat) : ∀ (n : Nat) (x o : BitVec 32) (nb : Nat), i ≤ n → (∀ j, j < i → x.getLsbD j = false) →
    txBits (n - i) (x >>> i) (o <<< i, nb) = txBits n x (o, nb) := by
  induction i with
  | zero => intro n x o nb _ _; simp
  | succ i ih =>
    intro n x o nb hn hx
    obtain ⟨n, rfl⟩ : ∃ n', n = n' + 1 := ⟨n - 1, by omega⟩
    have h0 : x &&& 1#32 = 0#32 := by
      ext j hj
      have := hx 0 (by omega)
      rw [BitVec.getElem_and]
      cases j with
      | zero => rw [← BitVec.getLsbD_eq_getElem hj, this]; simp
      | succ j => simp [BitVec.getElem_one]
    rw [show n + 1 - (i + 1) = n - i by omega]
    conv => rhs; rw [txBits]
    simp only [h0, BitVec.or_zero]
    have hne : ¬ (o <<< 1 &&& 0x1F#32 = 0x1F#32) := by
      rw [and_1F]; intro h
      have := h 0 (by omega)
      rw [(push_zero o).1] at this
      exact absurd this (by decide)
    rw [if_neg hne]
    have := ih n (x >>> 1) (o <<< 1) nb (by omega) (by
      intro j hj; rw [BitVec.getLsbD_ushiftRight]; exact hx (1 + j) (by omega))
    rw [← this, ← BitVec.shiftLeft_add, ← BitVec.shiftRight_add, Nat.add_comm 1 i]

theorem lowFirst_octet (b : BitVec 8) : lowFirst 8 (b.setWidth 32) = octetBits b := by
  simp [lowFirst, octetBits, List.range, List.range.loop, ← BitVec.shiftRight_add]

/-- Sending an octet of a frame. -/
theorem octet_spec (b : BitVec 8) {o : BitVec 32} {nb t : Nat} (ht : TailOnes o t) (hnb : nb ≤ 7) :
    let i := (BitOps.bottomBit (b.setWidth 32 ||| 0x100#32)).toNat
    let r := txBits (8 - i) ((b.setWidth 32) >>> i) (o <<< i, nb)
    r.2 ≤ nb + 2 ∧ lb 8 (r.1 >>> r.2) ++ lb r.2 r.1 = lb nb o ++ stuff t (octetBits b) ∧
      TailOnes r.1 (trail t (stuff t (octetBits b))) := by
  intro i r
  have hi : i ≤ 8 ∧ ∀ j, j < i → (b.setWidth 32).getLsbD j = false := by
    have h8 : (b.setWidth 32 ||| 0x100#32).getLsbD 8 = true := by
      rw [BitVec.getLsbD_or]; simp
    have hb := BitOps.bottom_bit_correct (b.setWidth 32 ||| 0x100#32)
    rcases hb with ⟨h0, _⟩ | ⟨q, h1, h2, h3⟩
    · rw [h0] at h8; simp at h8
    · have hiq : i = q := by simp only [i, h1]; rfl
      rw [hiq]
      refine ⟨?_, ?_⟩
      · by_contra hc
        have := h3 8 (by omega)
        rw [h8] at this; exact absurd this (by decide)
      · intro j hj
        have := h3 j hj
        rw [BitVec.getLsbD_or] at this
        simp only [Bool.or_eq_false_iff] at this
        exact this.1
  have hr : r = txBits 8 (b.setWidth 32) (o, nb) := txBits_zeros i 8 _ o nb hi.1 hi.2
  obtain ⟨k, e1, e2, e3, e4⟩ := txBits_spec 8 (b.setWidth 32) o nb 0 t ht (by omega)
  rw [← hr, lowFirst_octet] at e3 e4
  rw [← hr] at e1
  have h4 := ht.le
  refine ⟨by omega, ?_, e4⟩
  rw [← lb_split, e1, show 8 + (nb + k) = nb + k + 0 + 8 by omega, e3]
  rfl

theorem and_FF_lt (v : BitVec 32) : (v &&& 0xFF#32).toNat < 256 := by
  rw [BitVec.toNat_and]
  exact Nat.lt_of_le_of_lt Nat.and_le_right (by decide)

theorem msbBits_nat (v : BitVec 32) : msbBits (v.toNat : Int) = lb 8 v := by
  have e : (octetBits (BitVec.ofInt 8 v.toNat)).reverse = lb 8 v := by
    have hb : ∀ i, i < 8 → (BitVec.ofInt 8 v.toNat).getLsbD i = v.getLsbD i := by
      intro i hi
      rw [BitVec.ofInt_natCast, BitVec.getLsbD_ofNat]
      simp [hi, BitVec.getLsbD]
    simp only [octetBits, List.range, List.range.loop, List.map_cons, List.map_nil, lb]
    rw [hb 0 (by omega), hb 1 (by omega), hb 2 (by omega), hb 3 (by omega), hb 4 (by omega), hb 5 (by omega),
      hb 6 (by omega), hb 7 (by omega)]
    rfl
  exact e

theorem msbBits_FF (v : BitVec 32) : msbBits ((v &&& 0xFF#32).toNat : Int) = lb 8 v := by
  rw [msbBits_nat]
  apply lb_congr
  intro i hi
  have h1 : ∀ i, i < 8 → (0xFF#32).getLsbD i = true := by decide
  rw [BitVec.getLsbD_and, h1 i hi, Bool.and_true]

/-! ## What the user has asked for -/

theorem framesOf_accepted (log : List Event) (p : List Byte) :
    completed (log ++ [.accepted p]) = completed log ∧ inProgress (log ++ [.accepted p]) = inProgress log ++ p := by
  simp [completed, inProgress, framesOf]

theorem framesOf_underflow (log : List Event) :
    completed (log ++ [.underflow]) = (if inProgress log = [] then completed log else completed log ++ [inProgress log]) ∧
    inProgress (log ++ [.underflow]) = [] := by
  unfold completed inProgress framesOf
  rw [List.foldl_append]
  exact ⟨rfl, rfl⟩

theorem wire_append (c : Nat) (a b : List Item) : wire c (a ++ b) = wire c a ++ wire c b := by
  simp [wire]

theorem framesIn_append (a b : List Item) : framesIn (a ++ b) = framesIn a ++ framesIn b := by
  simp [framesIn]

theorem delimited_append : ∀ (a b : List Item), Delimited a → Delimited b → Delimited (a ++ b)
  | [], b, _, hb => hb
  | [i], b, ha, hb => by
    simp only [Delimited] at ha
    subst ha
    cases b with
    | nil => simp [Delimited]
    | cons j b => exact hb
  | .frame p :: j :: l, b, ha, hb => by
    simp only [Delimited] at ha
    simp only [List.cons_append, Delimited]
    exact ⟨ha.1, delimited_append (j :: l) b ha.2 hb⟩
  | .flag :: j :: l, b, ha, hb => by
    simp only [Delimited] at ha
    simp only [List.cons_append, Delimited]
    exact delimited_append (j :: l) b ha hb

/-! ## The invariant -/

/-- The register of the CRC of some octets. -/
def crcOf (crcBytes : Nat) (p : List Byte) : BitVec 32 :=
  if crcBytes = 2 then (serial poly16 0xFFFF#16 (bits p)).setWidth 32 else serial poly32 0xFFFFFFFF#32 (bits p)

/-- Where a transmitter is in sending: nothing but flags, or the octets `k` of a frame. `E` are the
bits which have been given out. -/
inductive Phase (E : List Bool) (items : List Item) (s : Tx) : Prop
  | idle (pos : s.pos = 0) (nb : s.numBits ≤ 7)
      (line : E ++ lb s.numBits s.octetsInProgress = wire s.crcBytes items)
      (idle : lb 8 s.idleOctet = lb s.numBits s.octetsInProgress ++ flagBits.take (8 - s.numBits))
      (pend : lb s.numBits s.octetsInProgress = flagBits.drop (8 - s.numBits))
      (tail : TailOnes s.octetsInProgress 0)
      (small : s.idleOctet.toNat < 256)
      (crc : s.crc = crcOf s.crcBytes (s.buffer.take s.len))
  | data (pos : 0 < s.pos) (le : s.pos ≤ s.len) (nb : s.numBits ≤ 9) (flags : s.flagOctets ≤ 0)
      (line : E ++ lb s.numBits s.octetsInProgress =
        wire s.crcBytes items ++ stuff 0 (bits (s.buffer.take s.pos)))
      (tail : TailOnes s.octetsInProgress (trail 0 (stuff 0 (bits (s.buffer.take s.pos)))))
      (crc : s.crc = crcOf s.crcBytes (s.buffer.take s.len))
  | check (len : 0 < s.len) (lo : maxFrame < s.pos) (hi : s.pos ≤ maxFrame + s.crcBytes) (nb : s.numBits ≤ 9)
      (flags : s.flagOctets ≤ 0)
      (fcs : (s.buffer.drop maxFrame).take s.crcBytes = fcs s.crcBytes (s.buffer.take s.len))
      (line : E ++ lb s.numBits s.octetsInProgress =
        wire s.crcBytes items ++ stuff 0 (bits (s.buffer.take s.len ++ (s.buffer.drop maxFrame).take (s.pos - maxFrame))))
      (tail : TailOnes s.octetsInProgress
        (trail 0 (stuff 0 (bits (s.buffer.take s.len ++ (s.buffer.drop maxFrame).take (s.pos - maxFrame))))))

/-- What is always true of a transmitter. -/
structure TInv (E : List Bool) (items : List Item) (s : Tx) : Prop where
  abort : s.abortOctets = 0
  cb : s.crcBytes = 2 ∨ s.crcBytes = 4
  size : s.buffer.length = bufSize
  max : s.maxFrameLen ≤ maxFrame
  len : s.len ≤ maxFrame
  delim : Delimited items
  frames : framesIn items = completed s.log
  cur : inProgress s.log = s.buffer.take s.len
  phase : Phase E items s

theorem txCrc_eq (s : Tx) (p : List Byte) (q : List Byte) (hcb : s.crcBytes = 2 ∨ s.crcBytes = 4)
    (h : s.crc = crcOf s.crcBytes q) : txCrc s p = some (crcOf s.crcBytes (q ++ p)) := by
  unfold txCrc crcOf
  unfold crcOf at h
  rcases hcb with hc | hc
  · rw [if_pos hc, if_pos hc]
    rw [if_pos hc] at h
    rw [(Crc.crc_calc_is_bit_serial p _ 0).1, h]
    simp only [Option.map_some]
    rw [BitVec.setWidth_setWidth_of_le _ (by decide), BitVec.setWidth_eq, Crc.bits_append, Crc.serial_append]
  · rw [if_neg (by omega), if_neg (by omega)]
    rw [if_neg (by omega)] at h
    rw [(Crc.crc_calc_is_bit_serial p 0 _).2, h, Crc.bits_append, Crc.serial_append]

/-- The parts of the state which calls leave alone. -/
structure Keeps (s s' : Tx) : Prop where
  crcBytes : s'.crcBytes = s.crcBytes
  pos : s'.pos = s.pos
  numBits : s'.numBits = s.numBits
  oip : s'.octetsInProgress = s.octetsInProgress
  idleOctet : s'.idleOctet = s.idleOctet
  byte : s'.byte = s.byte
  bits : s'.bits = s.bits

theorem Keeps.trans {a b c : Tx} (h : Keeps a b) (h' : Keeps b c) : Keeps a c :=
  ⟨h'.1.trans h.1, h'.2.trans h.2, h'.3.trans h.3, h'.4.trans h.4, h'.5.trans h.5, h'.6.trans h.6, h'.7.trans h.7⟩

/-- A change of fields which do not matter. -/
theorem Phase.change {E : List Bool} {items : List Item} {s : Tx} (h : Phase E items s) (txEnd rfu : Bool) (fo : Int)
    (mfl : Nat) (hfo : fo ≤ 0 ∨ s.pos = 0) :
    Phase E items { s with txEnd := txEnd, reportFlagUnderflow := rfu, flagOctets := fo, maxFrameLen := mfl } := by
  cases h with
  | idle h1 h2 h3 h4 h5 h6 h7 h8 => exact .idle h1 h2 h3 h4 h5 h6 h7 h8
  | data h1 h2 h3 h4 h5 h6 h7 => exact .data h1 h2 h3 (by simp only; omega) h5 h6 h7
  | check h1 h2 h3 h4 h5 h6 h7 h8 =>
    have : s.pos ≠ 0 := by unfold maxFrame at h2; omega
    exact .check h1 h2 h3 h4 (by simp only; omega) h6 h7 h8

theorem frame_inv {E : List Bool} {items : List Item} {s : Tx} (h : TInv E items s) (p : List Byte) :
    ∃ s' r, txFrame s p = some (s', r) ∧ TInv E items s' ∧ Keeps s s' := by
  have keep : ∀ t : Tx, t.crcBytes = s.crcBytes → t.pos = s.pos → t.numBits = s.numBits →
      t.octetsInProgress = s.octetsInProgress → t.idleOctet = s.idleOctet → t.byte = s.byte → t.bits = s.bits → Keeps s t :=
    fun t a b c d e f g => ⟨a, b, c, d, e, f, g⟩
  unfold txFrame
  by_cases h0 : p.length = 0
  · rw [if_pos h0]
    refine ⟨_, _, rfl, ⟨h.abort, h.cb, h.size, h.max, h.len, h.delim, h.frames, h.cur, ?_⟩, keep _ rfl rfl rfl rfl rfl rfl rfl⟩
    have hp := h.phase
    cases hp with
    | idle h1 h2 h3 h4 h5 h6 h7 h8 => exact .idle h1 h2 h3 h4 h5 h6 h7 h8
    | data h1 h2 h3 h4 h5 h6 h7 => exact .data h1 h2 h3 h4 h5 h6 h7
    | check h1 h2 h3 h4 h5 h6 h7 h8 => exact .check h1 h2 h3 h4 h5 h6 h7 h8
  · rw [if_neg h0]
    by_cases h1 : s.len + p.length > s.maxFrameLen
    · rw [if_pos h1]; exact ⟨_, _, rfl, h, keep _ rfl rfl rfl rfl rfl rfl rfl⟩
    · rw [if_neg h1]
      by_cases h2 : (s.progressive = true ∧ s.pos ≥ maxFrame) ∨ (s.progressive = false ∧ s.len ≠ 0)
      · rw [if_pos h2]; exact ⟨_, _, rfl, h, keep _ rfl rfl rfl rfl rfl rfl rfl⟩
      · rw [if_neg h2]
        have hmax := h.max
        have hsize := h.size
        have hroom : ¬ s.len + p.length > s.buffer.length := by
          rw [hsize]; unfold bufSize; omega
        rw [if_neg hroom]
        have hlen' : (if s.progressive = true then s.len + p.length else p.length) = s.len + p.length := by
          split
          · rfl
          · rename_i hp
            have : s.len = 0 := by
              by_contra hc
              exact h2 (Or.inr ⟨by simpa using hp, hc⟩)
            omega
        -- not in the check sequence
        have hnc : ¬ maxFrame < s.pos ∨ s.len = 0 := by
          by_cases hp : s.progressive = true
          · left; intro hc; exact h2 (Or.inl ⟨hp, by omega⟩)
          · right; by_contra hc; exact h2 (Or.inr ⟨by simpa using hp, hc⟩)
        have hcrc : s.crc = crcOf s.crcBytes (s.buffer.take s.len) := by
          cases h.phase with
          | idle _ _ _ _ _ _ _ h8 => exact h8
          | data _ _ _ _ _ _ h7 => exact h7
          | check g1 g2 => rcases hnc with hh | hh <;> omega
        rw [txCrc_eq s p (s.buffer.take s.len) h.cb hcrc]
        have htake : (s.buffer.take s.len ++ p ++ s.buffer.drop (s.len + p.length)).take (s.len + p.length) =
            s.buffer.take s.len ++ p := by
          rw [List.take_append_of_le_length (by simp; omega), List.take_of_length_le (by simp)]
        refine ⟨_, _, rfl, ⟨h.abort, h.cb, ?_, h.max, ?_, h.delim, ?_, ?_, ?_⟩, keep _ rfl rfl rfl rfl rfl rfl rfl⟩
        · simp only [List.length_append, List.length_take, List.length_drop]; omega
        · simp only [hlen']; omega
        · simp only [(framesOf_accepted _ _).1]; exact h.frames
        · simp only [(framesOf_accepted _ _).2, hlen', h.cur, htake]
        · cases h.phase with
          | idle g1 g2 g3 g4 g5 g6 g7 g8 =>
            refine .idle g1 g2 g3 g4 g5 g6 g7 ?_
            simp only [hlen', htake]
          | data g1 g2 g3 g4 g5 g6 g7 =>
            have ht : (s.buffer.take s.len ++ p ++ s.buffer.drop (s.len + p.length)).take s.pos = s.buffer.take s.pos := by
              rw [List.append_assoc, List.take_append_of_le_length (by simp; omega), List.take_take, Nat.min_eq_left g2]
            refine .data g1 (by simp only [hlen']; omega) g3 g4 ?_ ?_ ?_
            · simp only [ht]; exact g5
            · simp only [ht]; exact g6
            · simp only [hlen', htake]
          | check g1 g2 => rcases hnc with hh | hh <;> omega

theorem call_inv {E : List Bool} {items : List Item} {s : Tx} (h : TInv E items s) (c : Call) :
    ∃ s', txCall s c = some s' ∧ TInv E items s' ∧ Keeps s s' := by
  cases c with
  | frame p =>
    obtain ⟨s', r, e, hi, hk⟩ := frame_inv h p
    exact ⟨s', by simp [txCall, e], hi, hk⟩
  | flags n =>
    refine ⟨_, rfl, ?_⟩
    unfold txFlags
    split
    · exact ⟨h, ⟨rfl, rfl, rfl, rfl, rfl, rfl, rfl⟩⟩
    · rename_i hp
      exact ⟨⟨h.abort, h.cb, h.size, h.max, h.len, h.delim, h.frames, h.cur,
        h.phase.change false true _ s.maxFrameLen (Or.inr (by simpa using hp))⟩, ⟨rfl, rfl, rfl, rfl, rfl, rfl, rfl⟩⟩
  | setMaxFrameLen n =>
    refine ⟨_, rfl, ⟨h.abort, h.cb, h.size, ?_, h.len, h.delim, h.frames, h.cur, ?_⟩, ⟨rfl, rfl, rfl, rfl, rfl, rfl, rfl⟩⟩
    · simp only [txSetMaxFrameLen]; split <;> omega
    · have hp := h.phase
      cases hp with
      | idle h1 h2 h3 h4 h5 h6 h7 h8 => exact .idle h1 h2 h3 h4 h5 h6 h7 h8
      | data h1 h2 h3 h4 h5 h6 h7 => exact .data h1 h2 h3 h4 h5 h6 h7
      | check h1 h2 h3 h4 h5 h6 h7 h8 => exact .check h1 h2 h3 h4 h5 h6 h7 h8

theorem calls_inv {E : List Bool} {items : List Item} (cs : List Call) : ∀ {s : Tx}, TInv E items s →
    ∃ s', txCalls s cs = some s' ∧ TInv E items s' ∧ Keeps s s' := by
  induction cs with
  | nil => intro s h; exact ⟨s, rfl, h, ⟨rfl, rfl, rfl, rfl, rfl, rfl, rfl⟩⟩
  | cons c cs ih =>
    intro s h
    obtain ⟨s1, e1, h1, k1⟩ := call_inv h c
    obtain ⟨s2, e2, h2, k2⟩ := ih h1
    exact ⟨s2, by simp [txCalls, e1, e2], h2, k1.trans k2⟩

end Hdlc
