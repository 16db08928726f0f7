import Verif.Hdlc.Spec
import Verif.Crc.Props
import Verif.Tac

/-! # Lemmas about the HDLC receiver -/

namespace Hdlc
open Spec
open Crc.Spec (bits octetBits)

/-! ## The shift register -/

/-- The eight newest line bits. -/
def newest (s : Rx) : BitVec 8 := s.rawBitStream.extractLsb' 8 8

/-- The number of ones in a row just received, up to 7. -/
def onesIn (w : BitVec 8) : Nat :=
  if w &&& 1 = 0 then 0 else if w &&& 2 = 0 then 1 else if w &&& 4 = 0 then 2
  else if w &&& 8 = 0 then 3 else if w &&& 16 = 0 then 4 else if w &&& 32 = 0 then 5
  else if w &&& 64 = 0 then 6 else 7

/-- The next count of ones. -/
def nextOnes (n : Nat) (b : Bool) : Nat := if b then min 7 (n + 1) else 0

/-- The register holds only line bits, the last `n` of which were ones. -/
structure Reg (raw : BitVec 32) (n : Nat) : Prop where
  low : ∀ i, i < 8 → raw.getLsbD i = false
  ones : onesIn (raw.extractLsb' 8 8) = n

def bitOf (b : Bool) : Int := if b then 1 else 0

/-- The register after a line bit. -/
def pushRaw (raw : BitVec 32) (b : Bool) : BitVec 32 :=
  (raw <<< 1) ||| ((BitVec.ofInt 32 (bitOf b) <<< 8) &&& 0x100#32)

theorem shift_facts : ∀ (w : BitVec 8) (b : Bool),
    let w' := (w <<< 1) ||| (if b then 1#8 else 0#8)
    ((w' &&& 0x3E#8 = 0x3E#8 ∧ w' &&& 0x41#8 = 0#8) ↔ (onesIn w = 5 ∧ b = false)) ∧
    ((w' &&& 0x3E#8 = 0x3E#8 ∧ w' &&& 0xFE#8 = 0x7E#8) ↔ onesIn w = 6) ∧
    onesIn w' = nextOnes (onesIn w) b := by
  decide +kernel

theorem mask_iff (raw : BitVec 32) (m v : BitVec 8) :
    (raw &&& (m.setWidth 32 <<< 8) = (v.setWidth 32 <<< 8)) ↔ (raw.extractLsb' 8 8 &&& m) = v := by
  constructor
  · intro h
    ext i hi
    have := congrArg (·.getLsbD (8 + i)) h
    simp only [BitVec.getLsbD_and, BitVec.getLsbD_shiftLeft, BitVec.getLsbD_setWidth] at this
    rw [show 8 + i - 8 = i by omega] at this
    have h1 : ¬ (8 + i < 8) := by omega
    have h2 : 8 + i < 32 := by omega
    have h3 : i < 32 := by omega
    bdec [h1, h2, h3] at this
    simp only [BitVec.getElem_and, BitVec.getElem_extractLsb']
    simpa [BitVec.getLsbD_eq_getElem hi] using this
  · intro h
    ext i hi
    have := fun (h8 : 8 ≤ i) (hi8 : i - 8 < 8) => congrArg (·.getLsbD (i - 8)) h
    simp only [BitVec.getElem_and, BitVec.getElem_shiftLeft, BitVec.getElem_setWidth]
    by_cases h8 : i < 8
    · simp [h8]
    · simp only [h8]
      by_cases h16 : i - 8 < 8
      · have := this (by omega) h16
        simp only [BitVec.getLsbD_and, BitVec.getLsbD_extractLsb'] at this
        rw [show 8 + (i - 8) = i by omega] at this
        simpa [h16, BitVec.getLsbD_eq_getElem hi] using this
      · have e1 : m.getLsbD (i - 8) = false := BitVec.getLsbD_of_ge _ _ (by omega)
        have e2 : v.getLsbD (i - 8) = false := BitVec.getLsbD_of_ge _ _ (by omega)
        simp [e1, e2]

theorem pushRaw_newest (raw : BitVec 32) (b : Bool) (h : raw.getLsbD 7 = false) :
    (pushRaw raw b).extractLsb' 8 8 = (raw.extractLsb' 8 8 <<< 1) ||| (if b then 1#8 else 0#8) := by
  ext i hi
  simp only [pushRaw, BitVec.getElem_extractLsb', BitVec.getElem_or, BitVec.getElem_shiftLeft,
    BitVec.getLsbD_or, BitVec.getLsbD_shiftLeft, BitVec.getLsbD_and]
  rcases Nat.eq_zero_or_pos i with rfl | hp
  · have h' : raw[7] = false := by simpa [BitVec.getLsbD_eq_getElem] using h
    cases b <;> simp [bitOf, h'] <;> decide
  · have e : (8 + i - 1) = 8 + (i - 1) := by omega
    have e2 : (0x100#32).getLsbD (8 + i) = false := by
      have : i = 1 ∨ i = 2 ∨ i = 3 ∨ i = 4 ∨ i = 5 ∨ i = 6 ∨ i = 7 := by omega
      rcases this with rfl | rfl | rfl | rfl | rfl | rfl | rfl <;> decide
    have e3 : (if b then 1#8 else 0#8)[i] = false := by
      have : i = 1 ∨ i = 2 ∨ i = 3 ∨ i = 4 ∨ i = 5 ∨ i = 6 ∨ i = 7 := by omega
      clear h
      rcases this with rfl | rfl | rfl | rfl | rfl | rfl | rfl <;> cases b <;> simp
    rw [e2, e3]
    have h1 : ¬ i < 1 := by omega
    have h2 : ¬ 8 + i < 1 := by omega
    have h3 : 8 + i < 32 := by omega
    have h4 : i - 1 < 8 := by omega
    simp [h1, h2, h3, e]

theorem pushRaw_reg {raw : BitVec 32} {n : Nat} (h : Reg raw n) (b : Bool) :
    Reg (pushRaw raw b) (nextOnes n b) := by
  refine ⟨?_, ?_⟩
  · intro i hi
    simp only [pushRaw, BitVec.getLsbD_or, BitVec.getLsbD_shiftLeft, BitVec.getLsbD_and]
    have h8 : i < 8 := hi
    have := h.low (i - 1) (by omega)
    simp [hi, this]
  · rw [pushRaw_newest raw b (h.low 7 (by omega)), (shift_facts _ b).2.2, h.ones]

theorem pushRaw_stuffed {raw : BitVec 32} {n : Nat} (h : Reg raw n) (b : Bool) :
    (pushRaw raw b &&& 0x3E00#32 = 0x3E00#32 ∧ pushRaw raw b &&& 0x4100#32 = 0) ↔ (n = 5 ∧ b = false) := by
  rw [← h.ones, ← (shift_facts _ b).1, ← pushRaw_newest raw b (h.low 7 (by omega)),
    ← mask_iff, ← mask_iff]
  rfl

theorem pushRaw_flag {raw : BitVec 32} {n : Nat} (h : Reg raw n) (b : Bool) :
    (pushRaw raw b &&& 0x3E00#32 = 0x3E00#32 ∧ pushRaw raw b &&& 0xFE00#32 = 0x7E00#32) ↔ n = 6 := by
  rw [← h.ones, ← (shift_facts _ b).2.1, ← pushRaw_newest raw b (h.low 7 (by omega)),
    ← mask_iff, ← mask_iff]
  rfl

theorem pushRaw_bit {raw : BitVec 32} {n : Nat} (h : Reg raw n) (b : Bool) :
    pushRaw raw b &&& 0x100#32 = if b then 0x100#32 else 0#32 := by
  have e := (mask_iff (pushRaw raw b) 1#8 (if b then 1#8 else 0#8)).2 (by
    rw [pushRaw_newest raw b (h.low 7 (by omega))]
    generalize raw.extractLsb' 8 8 = w
    revert w
    cases b <;> decide +kernel)
  cases b
  · exact e
  · exact e

theorem pushRaw_abort {raw : BitVec 32} {n : Nat} (h : Reg raw n) (b : Bool) :
    (pushRaw raw b &&& 0x0100#32 ≠ 0) ↔ b = true := by
  rw [show (0x0100#32) = 0x100#32 from rfl, pushRaw_bit h b]
  cases b <;> decide

/-- A line bit, by the number of ones before it. -/
theorem rxPutBit_eq {s : Rx} {n : Nat} (h : Reg s.rawBitStream n) (b : Bool) :
    rxPutBit s (bitOf b) =
      (let s' := { s with rawBitStream := pushRaw s.rawBitStream b }
       if n = 5 ∧ b = false then some s' else if n = 6 then rxFlagOrAbort s' else rxDataBit s') := by
  have hb : ¬ bitOf b < 0 := by cases b <;> decide
  unfold rxPutBit rxPutBitCore
  rw [if_neg hb]
  show (if pushRaw s.rawBitStream b &&& 0x3E00#32 = 0x3E00#32 ∧ pushRaw s.rawBitStream b &&& 0x4100#32 = 0 then
      some { s with rawBitStream := pushRaw s.rawBitStream b }
    else if pushRaw s.rawBitStream b &&& 0x3E00#32 = 0x3E00#32 ∧
        pushRaw s.rawBitStream b &&& 0xFE00#32 = 0x7E00#32 then
      rxFlagOrAbort { s with rawBitStream := pushRaw s.rawBitStream b }
    else rxDataBit { s with rawBitStream := pushRaw s.rawBitStream b }) = _
  simp only [pushRaw_stuffed h b, pushRaw_flag h b]

/-! ## Collecting a frame -/

/-- The receiver is collecting, and these are the bits since the flag. -/
structure Holds (s : Rx) (d : List Bool) : Prop where
  seen : s.flagsSeen = s.framingOkThreshold
  size : s.buffer.length = bufSize
  room : s.len ≤ s.maxFrameLen
  max : s.maxFrameLen ≤ bufSize
  num : s.numBits < 8
  count : d.length = 8 * s.len + s.numBits
  octets : bits (s.buffer.take s.len) = d.take (8 * s.len)
  part : ∀ i, i < s.numBits → s.byteInProgress.getLsbD (8 - s.numBits + i) = d.getD (8 * s.len + i) false
  high : ∀ i, 8 ≤ i → s.byteInProgress.getLsbD i = false

/-- The parts of the receiver which data bits leave alone. -/
structure SameCfg (s s' : Rx) : Prop where
  crcBytes : s'.crcBytes = s.crcBytes
  maxFrameLen : s'.maxFrameLen = s.maxFrameLen
  threshold : s'.framingOkThreshold = s.framingOkThreshold
  bad : s'.reportBadFrames = s.reportBadFrames

theorem SameCfg.rfl' (s : Rx) : SameCfg s s := ⟨rfl, rfl, rfl, rfl⟩

theorem SameCfg.trans {a b c : Rx} (h : SameCfg a b) (h' : SameCfg b c) : SameCfg a c :=
  ⟨h'.1.trans h.1, h'.2.trans h.2, h'.3.trans h.3, h'.4.trans h.4⟩

theorem bip_push (x : BitVec 32) (b : Bool) (hx : ∀ i, 8 ≤ i → x.getLsbD i = false) (j : Nat) :
    ((x ||| (if b then 0x100#32 else 0#32)) >>> 1).getLsbD j =
      if j < 7 then x.getLsbD (j + 1) else if j = 7 then b else false := by
  simp only [BitVec.getLsbD_ushiftRight, BitVec.getLsbD_or]
  have e : (if b then 0x100#32 else 0#32).getLsbD (1 + j) = (decide (j = 7) && b) := by
    cases b
    · simp
    · simp only [if_true, Bool.and_true]
      rw [show (0x100#32) = BitVec.twoPow 32 8 by decide, BitVec.getLsbD_twoPow]
      by_cases h : j = 7
      · subst h; decide
      · simp [h]; omega
  rw [e, Nat.add_comm 1 j]
  by_cases h7 : j < 7
  · have : ¬ j = 7 := by omega
    simp [h7, this]
  · by_cases h : j = 7
    · subst h; rw [show 7 + 1 = 8 by rfl, hx 8 (by omega)]; simp
    · simp [h7, h, hx (j + 1) (by omega)]

theorem octetBits_of {w : BitVec 8} {l : List Bool} (hl : l.length = 8)
    (h : ∀ i, i < 8 → w.getLsbD i = l.getD i false) : octetBits w = l := by
  apply List.ext_getElem
  · simp [octetBits, hl]
  · intro i h1 h2
    simp only [octetBits, List.getElem_map, List.getElem_range]
    rw [h i (by omega)]
    simp [List.getD_eq_getElem?_getD, h2]

/-- What a data bit does while collecting, when there is room. -/
theorem rxDataBit_holds {s : Rx} {d : List Bool} {raw : BitVec 32} {n : Nat} (hr : Reg raw n)
    (h : Holds s d) (b : Bool) (hroom : s.len < s.maxFrameLen ∨ s.numBits < 7) :
    ∃ s', rxDataBit { s with rawBitStream := pushRaw raw b } = some s' ∧ Holds s' (d ++ [b]) ∧
      SameCfg s s' ∧ s'.out = s.out ∧ s'.rawBitStream = pushRaw raw b := by
  obtain ⟨seen, size, room, max, num, count, octets, part, high⟩ := h
  unfold rxDataBit
  rw [if_neg (by simp only; omega)]
  simp only
  rw [if_neg (by omega), pushRaw_bit hr b]
  have hbip : ∀ i, i < s.numBits + 1 →
      ((s.byteInProgress ||| (if b then 0x100#32 else 0#32)) >>> 1).getLsbD (8 - (s.numBits + 1) + i) =
        (d ++ [b]).getD (8 * s.len + i) false := by
    intro i hi
    rw [bip_push _ _ high]
    by_cases hi' : i < s.numBits
    · rw [if_pos (by omega), show 8 - (s.numBits + 1) + i + 1 = 8 - s.numBits + i by omega, part i hi']
      simp only [List.getD_eq_getElem?_getD]
      rw [List.getElem?_append_left (by omega)]
    · have : i = s.numBits := by omega
      subst this
      rw [if_neg (by omega), if_pos (by omega)]
      simp only [List.getD_eq_getElem?_getD]
      rw [List.getElem?_append_right (by omega)]
      simp [count]
  have hhigh : ∀ i, 8 ≤ i →
      ((s.byteInProgress ||| (if b then 0x100#32 else 0#32)) >>> 1).getLsbD i = false := by
    intro i hi
    rw [bip_push _ _ high, if_neg (by omega), if_neg (by omega)]
  by_cases h8 : s.numBits + 1 = 8
  · rw [if_pos h8]
    unfold rxOctet
    simp only
    rw [if_pos (by omega), if_pos (by omega)]
    refine ⟨_, rfl, ⟨seen, by simpa using size, by simp only; omega, max, by simp, ?_, ?_, ?_, hhigh⟩,
      ⟨rfl, rfl, rfl, rfl⟩, rfl, rfl⟩
    · simp only [List.length_append, List.length_singleton, count]; omega
    · simp only
      have hlt : s.len < s.buffer.length := by omega
      rw [List.take_succ_eq_append_getElem (by simpa using hlt)]
      rw [List.take_set, List.getElem_set_self]
      rw [List.set_eq_of_length_le (by simp; omega), Crc.bits_append, octets]
      have e : bits [((s.byteInProgress ||| (if b then 0x100#32 else 0#32)) >>> 1).setWidth 8] =
          d.drop (8 * s.len) ++ [b] := by
        have e1 : ∀ w, bits [w] = octetBits w := by intro w; simp [bits]
        rw [e1]
        apply octetBits_of
        · simp [count]; omega
        · intro i hi
          have := hbip i (by omega)
          rw [show 8 - (s.numBits + 1) + i = i by omega] at this
          simp only [BitVec.getLsbD_setWidth, hi, decide_true, Bool.true_and, this]
          simp only [List.getD_eq_getElem?_getD]
          rw [show d.drop (8 * s.len) ++ [b] = (d ++ [b]).drop (8 * s.len) by
            rw [List.drop_append_of_le_length (by omega)]]
          rw [List.getElem?_drop]
      rw [e, ← List.append_assoc, List.take_append_drop, List.take_of_length_le]
      simp [count]; omega
    · intro i hi; simp at hi
  · rw [if_neg h8]
    refine ⟨_, rfl, ⟨seen, size, room, max, by simp only; omega, ?_, ?_, hbip, hhigh⟩,
      ⟨rfl, rfl, rfl, rfl⟩, rfl, rfl⟩
    · simp only [List.length_append, List.length_singleton, count]; omega
    · simp only
      rw [List.take_append_of_le_length (by omega), octets]

/-! ## Stuffing -/

/-- The number of ones at the end, after `n` ones. -/
def trail (n : Nat) (l : List Bool) : Nat := l.foldl (fun n b => if b then n + 1 else 0) n

theorem trail_append (n : Nat) (a b : List Bool) : trail n (a ++ b) = trail (trail n a) b := by
  simp [trail]

theorem destuff_append (n : Nat) (a b : List Bool) :
    destuff n (a ++ b) = destuff n a ++ destuff (trail n a) b := by
  induction a generalizing n with
  | nil => rfl
  | cons x a ih =>
    cases x
    · simp only [List.cons_append, destuff, trail, List.foldl_cons]
      split <;> simp [ih, trail]
    · simp only [List.cons_append, destuff, trail, List.foldl_cons]
      simp [ih, trail]

theorem destuff_stuff (n : Nat) (hn : n ≤ 4) (x : List Bool) : destuff n (stuff n x) = x := by
  induction x generalizing n with
  | nil => rfl
  | cons b x ih =>
    cases b
    · have : ¬ n = 5 := by omega
      simp [stuff, destuff, this, ih 0 (by omega)]
    · simp only [stuff]
      split
      · simp_all [destuff, ih 0 (by omega)]
      · simp [destuff, ih (n + 1) (by omega)]

theorem trail_stuff (n : Nat) (hn : n ≤ 4) (x : List Bool) : trail n (stuff n x) ≤ 4 := by
  induction x generalizing n with
  | nil => exact hn
  | cons b x ih =>
    cases b
    · exact ih 0 (by omega)
    · simp only [stuff]
      split
      · exact ih 0 (by omega)
      · exact ih (n + 1) (by omega)

theorem stuff_append (n : Nat) (hn : n ≤ 4) (a b : List Bool) :
    stuff n (a ++ b) = stuff n a ++ stuff (trail n (stuff n a)) b := by
  induction a generalizing n with
  | nil => rfl
  | cons x a ih =>
    cases x
    · simp [stuff, ih 0 (by omega), trail]
    · simp only [stuff, List.cons_append]
      split
      · simp [ih 0 (by omega), trail]
      · simp [ih (n + 1) (by omega), trail]

/-- No six ones in a row. -/
theorem stuff_no_flag (n : Nat) (hn : n ≤ 4) (x a b : List Bool) :
    stuff n x ≠ a ++ List.replicate 6 true ++ b := by
  have key : ∀ (l : List Bool) (n : Nat), n ≤ 4 → ∀ x, stuff n x = l → ∀ a b, l = a ++ b → trail n a ≤ 5 := by
    intro l
    induction l with
    | nil =>
      intro n hn x _ a b hab
      have : a = [] := by
        cases a with
        | nil => rfl
        | cons _ _ => simp at hab
      subst this
      exact Nat.le_succ_of_le hn
    | cons y l ih =>
      intro n hn x hx a b hab
      cases a with
      | nil => exact Nat.le_succ_of_le hn
      | cons z a =>
        simp only [List.cons_append, List.cons.injEq] at hab
        obtain ⟨rfl, rfl⟩ := hab
        cases x with
        | nil => simp [stuff] at hx
        | cons c x =>
          cases c
          · simp only [stuff, List.cons.injEq] at hx
            obtain ⟨rfl, hx⟩ := hx
            exact ih 0 (by omega) x hx a b rfl
          · simp only [stuff] at hx
            split at hx
            · rename_i h4
              simp only [List.cons.injEq] at hx
              obtain ⟨rfl, hx⟩ := hx
              cases a with
              | nil => simp [trail]; omega
              | cons w a =>
                simp only [List.cons_append, List.cons.injEq] at hx
                obtain ⟨rfl, hx⟩ := hx
                have := ih 0 (by omega) (false :: x) (by simp [stuff, hx]) (false :: a) b rfl
                simpa [trail] using this
            · simp only [List.cons.injEq] at hx
              obtain ⟨rfl, hx⟩ := hx
              exact ih (n + 1) (by omega) x hx a b rfl
  intro h
  have := key _ n hn x h (a ++ List.replicate 6 true) b rfl
  rw [trail_append] at this
  simp [trail] at this

/-! ## Feeding bits -/

/-- Feed line bits. -/
def feedB (s : Rx) : List Bool → Option Rx
  | [] => some s
  | b :: bs => do feedB (← rxPutBit s (bitOf b)) bs

theorem feedB_append (s : Rx) (a b : List Bool) : feedB s (a ++ b) = (feedB s a).bind (feedB · b) := by
  induction a generalizing s with
  | nil => rfl
  | cons x a ih =>
    simp only [List.cons_append, feedB]
    cases rxPutBit s (bitOf x) with
    | none => rfl
    | some s' => simp [ih]

/-- The receiver is collecting, with the ones count and the bits since the flag, and has
reported these frames. -/
structure Coll (cfg : Rx) (fs : List (List Byte × Bool)) (n : Nat) (d : List Bool) (s : Rx) : Prop where
  reg : Reg s.rawBitStream n
  holds : Holds s d
  cfg : SameCfg cfg s
  out : allFrames s.out = fs

theorem put_data {cfg s : Rx} {fs : List (List Byte × Bool)} {n : Nat} {d : List Bool} (b : Bool)
    (h : Coll cfg fs n d s) (hn : n ≤ 4 ∨ n = 5 ∧ b = true) (hroom : d.length < 8 * cfg.maxFrameLen + 7) :
    ∃ s', rxPutBit s (bitOf b) = some s' ∧ Coll cfg fs (nextOnes n b) (d ++ [b]) s' := by
  rw [rxPutBit_eq h.reg]
  simp only
  rw [if_neg (by rintro ⟨rfl, rfl⟩; simp at hn), if_neg (by omega)]
  have hc := h.holds.count
  have hm := h.cfg.maxFrameLen
  have h8 := h.holds.num
  have hr := h.holds.room
  obtain ⟨s', e, hh, hcfg, ho, hraw⟩ := rxDataBit_holds h.reg h.holds b (by omega)
  exact ⟨s', e, by rw [hraw]; exact pushRaw_reg h.reg b, hh, h.cfg.trans hcfg, by rw [ho]; exact h.out⟩

theorem put_stuffed {cfg s : Rx} {fs : List (List Byte × Bool)} {d : List Bool}
    (h : Coll cfg fs 5 d s) :
    ∃ s', rxPutBit s (bitOf false) = some s' ∧ Coll cfg fs 0 d s' := by
  rw [rxPutBit_eq h.reg]
  simp only [and_self, if_true]
  exact ⟨_, rfl, pushRaw_reg h.reg false, ⟨h.holds.1, h.holds.2, h.holds.3, h.holds.4, h.holds.5, h.holds.6,
    h.holds.7, h.holds.8, h.holds.9⟩, ⟨h.cfg.1, h.cfg.2, h.cfg.3, h.cfg.4⟩, h.out⟩

theorem feed_stuff {cfg : Rx} {fs : List (List Byte × Bool)} (x : List Bool) :
    ∀ {s : Rx} {n : Nat} {d : List Bool}, Coll cfg fs n d s → n ≤ 4 →
      (d ++ x).length ≤ 8 * cfg.maxFrameLen →
    ∃ s', feedB s (stuff n x) = some s' ∧ Coll cfg fs (trail n (stuff n x)) (d ++ x) s' := by
  induction x with
  | nil => intro s n d h _ _; exact ⟨s, rfl, by simpa [stuff, trail] using h⟩
  | cons b x ih =>
    intro s n d h hn hl
    have hl' : d.length + x.length + 1 ≤ 8 * cfg.maxFrameLen := by simp at hl; omega
    obtain ⟨s1, e1, h1⟩ := put_data b h (Or.inl hn) (by omega)
    cases b
    · obtain ⟨s2, e2, h2⟩ := ih h1 (by simp [nextOnes]) (by simp; omega)
      refine ⟨s2, ?_, ?_⟩
      · simp [stuff, feedB, e1]; exact e2
      · simpa [stuff, trail, nextOnes] using h2
    · by_cases h4 : n = 4
      · subst h4
        obtain ⟨s2, e2, h2⟩ := put_stuffed h1
        obtain ⟨s3, e3, h3⟩ := ih h2 (by omega) (by simp; omega)
        refine ⟨s3, ?_, ?_⟩
        · simp [stuff, feedB, e1, e2, e3]
        · simpa [stuff, trail] using h3
      · have hno : nextOnes n true = n + 1 := by simp [nextOnes]; omega
        rw [hno] at h1
        obtain ⟨s2, e2, h2⟩ := ih h1 (by omega) (by simp; omega)
        refine ⟨s2, ?_, ?_⟩
        · simp [stuff, h4, feedB, e1, e2]
        · simpa [stuff, h4, trail] using h2

/-! ## Frame check sequences -/

theorem itu16Check_take (buf : List Byte) (len : Nat) (h : len ≤ buf.length) :
    Crc.itu16Check buf len = Crc.itu16Check (buf.take len) len := by
  unfold Crc.itu16Check Crc.itu16Calc
  rw [if_pos h, if_pos (by simp; omega), List.take_take, Nat.min_self]

theorem itu32Check_take (buf : List Byte) (len : Nat) (h : len ≤ buf.length) :
    Crc.itu32Check buf len = Crc.itu32Check (buf.take len) len := by
  unfold Crc.itu32Check Crc.itu32Calc
  rw [if_pos h, if_pos (by simp; omega), List.take_take, Nat.min_self]

/-- The CRC test. -/
def fcsOk (crcBytes : Nat) (m : List Byte) : Option Bool :=
  if crcBytes = 2 then Crc.itu16Check m m.length else Crc.itu32Check m m.length

theorem rxCrcOk_eq (s : Rx) (h : s.len ≤ s.buffer.length) :
    rxCrcOk s = fcsOk s.crcBytes (s.buffer.take s.len) := by
  unfold rxCrcOk fcsOk
  have hl : (s.buffer.take s.len).length = s.len := by simp; omega
  rw [hl, ← itu16Check_take _ _ h, ← itu32Check_take _ _ h]

theorem fcs_length (c : Nat) (hc : c = 2 ∨ c = 4) (p : List Byte) : (fcs c p).length = c := by
  rcases hc with rfl | rfl <;> rfl

open Crc in
theorem fcsOk_fcs (c : Nat) (p : List Byte) : fcsOk c (p ++ fcs c p) = some true := by
  unfold fcsOk fcs
  have not_eq : ∀ {w : Nat} (x : BitVec w), ~~~ x = x ^^^ BitVec.allOnes w := by
    intro w x; simp
  split
  · simp only
    unfold itu16Check
    rw [(crc_calc_is_bit_serial _ _ 0).1]
    simp only [Option.bind_eq_bind, Option.bind_some, Option.pure_def, Option.some.injEq]
    rw [bits_append, Crc.serial_append,
      serial_complement _ _ _ (by rw [val_trailer16, not_eq])]
    rw [bits_length]
    exact (by decide +kernel : ((Crc.Spec.serial Crc.Spec.poly16 (BitVec.allOnes 16) (List.replicate 16 false)) &&& 0xFFFF#16 ==
      0xF0B8#16) = true)
  · simp only
    unfold itu32Check
    rw [(crc_calc_is_bit_serial _ 0 _).2]
    simp only [Option.bind_eq_bind, Option.bind_some, Option.pure_def, Option.some.injEq]
    rw [bits_append, Crc.serial_append,
      serial_complement _ _ _ (by rw [val_trailer32, not_eq])]
    rw [bits_length]
    exact (by decide +kernel : ((Crc.Spec.serial Crc.Spec.poly32 (BitVec.allOnes 32) (List.replicate 32 false)) ==
      0xDEBB20E3#32) = true)

open Crc in
/-- Only the right check sequence is accepted. -/
theorem fcs_unique (c : Nat) (hc : c = 2 ∨ c = 4) (p t : List Byte) (ht : t.length = c)
    (h : fcsOk c (p ++ t) = some true) : t = fcs c p := by
  apply Classical.byContradiction
  intro hne
  have hl := fcs_length c hc p
  have hb : Crc.Spec.Burst (8 * c) (p ++ fcs c p) (p ++ t) := by
    refine ⟨by simp [hl, ht], by simpa using fun e => hne e.symm, 8 * p.length, ?_⟩
    intro i hi
    rw [bits_append, bits_append] at hi
    by_cases h1 : i < 8 * p.length
    · rw [List.getElem?_append_left (by rw [bits_length]; exact h1),
        List.getElem?_append_left (by rw [bits_length]; exact h1)] at hi
      exact absurd rfl hi
    · refine ⟨by omega, ?_⟩
      apply Classical.byContradiction
      intro h2
      rw [List.getElem?_eq_none (by simp only [List.length_append, bits_length, hl]; omega),
        List.getElem?_eq_none (by simp only [List.length_append, bits_length, ht]; omega)] at hi
      exact hi rfl
  have hok := fcsOk_fcs c p
  unfold fcsOk at h hok
  rcases hc with rfl | rfl
  · simp only [if_true] at h hok
    rw [crc_itu16_detects_bursts _ _ hok hb] at h
    cases h
  · rw [if_neg (by decide)] at h hok
    rw [crc_itu32_detects_bursts _ _ hok hb] at h
    cases h

/-! ## Flags -/

theorem holds_fresh {s : Rx} (hseen : s.flagsSeen = s.framingOkThreshold) (hsize : s.buffer.length = bufSize)
    (hmax : s.maxFrameLen ≤ bufSize) (hhigh : ∀ i, 8 ≤ i → s.byteInProgress.getLsbD i = false)
    (hlen : s.len = 0) (hnum : s.numBits = 0) : Holds s [] :=
  ⟨hseen, hsize, by omega, hmax, by omega, by simp [hlen, hnum], by simp [hlen, bits],
    by intro i hi; omega, hhigh⟩

theorem allFrames_append (a b : List Report) : allFrames (a ++ b) = allFrames a ++ allFrames b := by
  simp [allFrames]

/-- The seven first bits of a flag, while collecting. -/
theorem feed_flag7 {cfg s : Rx} {fs : List (List Byte × Bool)} {n : Nat} {d : List Bool}
    (h : Coll cfg fs n d s) (hn : n ≤ 4) (hl : d.length ≤ 8 * cfg.maxFrameLen) :
    ∃ s', feedB s [false, true, true, true, true, true, true] = some s' ∧
      Coll cfg fs 6 (d ++ [false, true, true, true, true, true, true]) s' := by
  obtain ⟨s1, e1, h1⟩ := put_data false h (Or.inl hn) (by omega)
  obtain ⟨s2, e2, h2⟩ := put_data true h1 (Or.inl (by simp [nextOnes])) (by simp; omega)
  obtain ⟨s3, e3, h3⟩ := put_data true h2 (Or.inl (by simp [nextOnes])) (by simp; omega)
  obtain ⟨s4, e4, h4⟩ := put_data true h3 (Or.inl (by simp [nextOnes])) (by simp; omega)
  obtain ⟨s5, e5, h5⟩ := put_data true h4 (Or.inl (by simp [nextOnes])) (by simp; omega)
  obtain ⟨s6, e6, h6⟩ := put_data true h5 (Or.inl (by simp [nextOnes])) (by simp; omega)
  obtain ⟨s7, e7, h7⟩ := put_data true h6 (Or.inr (by simp [nextOnes])) (by simp; omega)
  refine ⟨s7, by simp [feedB, e1, e2, e3, e4, e5, e6, e7], ?_⟩
  simpa [nextOnes] using h7

theorem flag_split : flagBits = [false, true, true, true, true, true, true] ++ [false] := rfl

/-- A flag right after a flag. -/
theorem feed_flag_idle {cfg s : Rx} {fs : List (List Byte × Bool)} (h : Coll cfg fs 0 [] s) :
    ∃ s', feedB s flagBits = some s' ∧ Coll cfg fs 0 [] s' := by
  obtain ⟨s1, e1, h1⟩ := feed_flag7 h (by omega) (by simp)
  have hc := h1.holds.count
  have hlen : s1.len = 0 := by have := h1.holds.num; simp at hc; omega
  rw [flag_split, feedB_append, e1]
  simp only [Option.bind_some, feedB]
  rw [rxPutBit_eq h1.reg]
  simp only
  rw [if_neg (by simp), if_pos trivial]
  unfold rxFlagOrAbort
  rw [if_neg (by rw [pushRaw_abort h1.reg]; decide)]
  simp only
  rw [if_pos (Nat.le_of_eq h1.holds.seen.symm), if_neg (by simp [hlen])]
  refine ⟨_, rfl, pushRaw_reg h1.reg false, holds_fresh h1.holds.seen h1.holds.size h1.holds.max
    h1.holds.high rfl rfl, ⟨h1.cfg.1, h1.cfg.2, h1.cfg.3, h1.cfg.4⟩, h1.out⟩

/-- A flag after a frame with a good check sequence. -/
theorem feed_flag_frame {cfg s : Rx} {fs : List (List Byte × Bool)} {n : Nat} (p : List Byte)
    (hcb : cfg.crcBytes = 2 ∨ cfg.crcBytes = 4)
    (h : Coll cfg fs n (bits (p ++ fcs cfg.crcBytes p)) s) (hn : n ≤ 4)
    (hl : p.length + cfg.crcBytes ≤ cfg.maxFrameLen) :
    ∃ s', feedB s flagBits = some s' ∧ Coll cfg (fs ++ [(p, true)]) 0 [] s' := by
  have hfl := fcs_length cfg.crcBytes hcb p
  have hbl : (bits (p ++ fcs cfg.crcBytes p)).length = 8 * (p.length + cfg.crcBytes) := by
    rw [Crc.bits_length]; simp [hfl]
  obtain ⟨s1, e1, h1⟩ := feed_flag7 h hn (by omega)
  have hc := h1.holds.count
  have h8 := h1.holds.num
  rw [List.length_append, hbl] at hc
  simp only [List.length_cons, List.length_nil] at hc
  have hlen : s1.len = p.length + cfg.crcBytes := by omega
  have hnum : s1.numBits = 7 := by omega
  have hbuf : s1.buffer.take s1.len = p ++ fcs cfg.crcBytes p := by
    apply Crc.bits_inj
    · have := h1.holds.size; have := h1.holds.max; have := h1.holds.room
      simp [hfl]; omega
    · rw [h1.holds.octets, List.take_append_of_le_length (by omega), List.take_of_length_le (by omega)]
  rw [flag_split, feedB_append, e1]
  simp only [Option.bind_some, feedB]
  rw [rxPutBit_eq h1.reg]
  simp only
  rw [if_neg (by simp), if_pos trivial]
  unfold rxFlagOrAbort
  rw [if_neg (by rw [pushRaw_abort h1.reg]; decide)]
  simp only
  rw [if_pos (Nat.le_of_eq h1.holds.seen.symm), if_pos (by omega)]
  have hle : s1.len ≤ s1.buffer.length := by
    have := h1.holds.size; have := h1.holds.max; have := h1.holds.room; omega
  unfold rxEndFrame
  rw [if_pos ⟨hnum, by simp only [h1.cfg.crcBytes, hlen]; omega, by simp only [h1.cfg.maxFrameLen, hlen]; omega⟩]
  rw [rxCrcOk_eq { s1 with rawBitStream := pushRaw s1.rawBitStream false, octetCountingMode := false } hle]
  simp only [hbuf, h1.cfg.crcBytes, fcsOk_fcs, Option.bind_eq_bind, Option.bind_some, if_true]
  unfold Rx.reportFrame
  rw [if_pos (by simp only; omega)]
  simp only [Option.bind_some, Option.pure_def]
  refine ⟨_, rfl, pushRaw_reg h1.reg false, holds_fresh h1.holds.seen h1.holds.size h1.holds.max
    h1.holds.high rfl rfl, ⟨rfl, h1.cfg.2, h1.cfg.3, h1.cfg.4⟩, ?_⟩
  simp only [allFrames_append, h1.out]
  congr 1
  simp only [allFrames, List.filterMap_cons, List.filterMap_nil, List.cons.injEq, Prod.mk.injEq, and_true]
  rw [hlen, Nat.add_sub_cancel]
  have : s1.buffer.take p.length = (s1.buffer.take s1.len).take p.length := by
    rw [List.take_take, Nat.min_eq_left (by omega)]
  rw [this, hbuf]; simp

end Hdlc
