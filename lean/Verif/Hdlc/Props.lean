import Verif.Hdlc.Drain
import Verif.Hdlc.RxOctets

/-! # C09-C12: HDLC -/

namespace Hdlc
open Spec
open Crc.Spec (bits octetBits)

/-! ## C12: what the transmitter puts on the line -/

/-- Stuffing loses nothing: removing the stuffed bits gives back the frame. -/
theorem hdlc_stuffing_reversible (p : List Byte) : destuff 0 (stuff 0 (bits p)) = bits p :=
  destuff_stuff 0 (by omega) (bits p)

example : stuff 0 (bits [0xFF#8, 0x7E#8]) ≠ bits [0xFF#8, 0x7E#8] := by decide

/-- Whatever a program does (in the underflow handler and elsewhere, with the bit or octet
interface), the transmitter keeps within its buffer, and the line is flags, and frames which are
stuffed and have their check sequence and are followed by a flag. The frames are those which have
been completed. At most 16 bits have been worked out but have not been taken yet, and after the
last flag there may be a first part of the frame in progress. -/
theorem hdlc_tx_wire (bitwise crc32 prog : Bool) (iff : Int) (h : List Event → List Call) (ops : List Op) :
    ∃ tx vs, txRun bitwise h (txInit crc32 iff prog) ops = some (tx, vs) ∧
      ∃ items rest k, lineOf bitwise vs ++ rest = wire tx.crcBytes items ++ stuff 0 (bits k) ∧
        rest.length ≤ 16 ∧ Delimited items ∧ framesIn items = completed tx.log ∧
        k <+: inProgress tx.log ++ fcs tx.crcBytes (inProgress tx.log) ∧
        tx.crcBytes = (if crc32 then 4 else 2) := by
  obtain ⟨tx, vs, items, e, hi, _, _, hc⟩ := run_inv bitwise h ops (start_inv bitwise crc32 iff prog)
  obtain ⟨rest, k, h1, h2, h3⟩ := hi.line
  exact ⟨tx, vs, e, items, rest, k, h1, h2, hi.inv.delim, hi.inv.frames, h3, hc⟩

/-- Six ones in a row on the line are always those of a flag which was meant. -/
theorem six_ones {c : Nat} : ∀ (items : List Item) (k : List Byte) (a b : List Bool), Delimited items →
    wire c items ++ stuff 0 (bits k) = a ++ List.replicate 6 true ++ b →
    ∃ i1 i2, items = i1 ++ .flag :: i2 ∧ a = wire c i1 ++ [false]
  | [], k, a, b, _, h => absurd h (stuff_no_flag 0 (by omega) (bits k) a b)
  | [.frame p], k, a, b, hd, _ => by simp [Delimited] at hd
  | .frame p :: .frame q :: l, k, a, b, hd, _ => by simp [Delimited] at hd
  | .flag :: l, k, a, b, hd, h => by
    have e : wire c (.flag :: l) ++ stuff 0 (bits k) = flagBits ++ (wire c l ++ stuff 0 (bits k)) := by simp [wire, Item.bits]
    rw [e, List.append_assoc] at h
    match a, h with
    | [], h => simp [flagBits, List.replicate] at h
    | [x], h =>
      simp only [flagBits, List.cons_append, List.cons.injEq] at h
      exact ⟨[], l, rfl, by rw [← h.1]; rfl⟩
    | [_, _], h => simp [flagBits, List.replicate] at h
    | [_, _, _], h => simp [flagBits, List.replicate] at h
    | [_, _, _, _], h => simp [flagBits, List.replicate] at h
    | [_, _, _, _, _], h => simp [flagBits, List.replicate] at h
    | [_, _, _, _, _, _], h => simp [flagBits, List.replicate] at h
    | [_, _, _, _, _, _, _], h => simp [flagBits, List.replicate] at h
    | a1 :: a2 :: a3 :: a4 :: a5 :: a6 :: a7 :: a8 :: a', h =>
      simp only [flagBits, List.cons_append, List.nil_append, List.cons.injEq] at h
      obtain ⟨rfl, rfl, rfl, rfl, rfl, rfl, rfl, rfl, h⟩ := h
      obtain ⟨i1, i2, rfl, rfl⟩ := six_ones l k a' b (delimited_tail hd) (by rw [h, List.append_assoc])
      exact ⟨.flag :: i1, i2, rfl, rfl⟩
  | .frame p :: .flag :: l, k, a, b, hd, h => by
    have e : wire c (.frame p :: .flag :: l) ++ stuff 0 (bits k) =
        stuff 0 (bits (p ++ fcs c p)) ++ (wire c (.flag :: l) ++ stuff 0 (bits k)) := by simp [wire, Item.bits]
    rw [e] at h
    generalize hS : stuff 0 (bits (p ++ fcs c p)) = S at h
    by_cases hl : S.length ≤ a.length
    · have : S <+: a := by
        refine List.prefix_of_prefix_length_le (l₃ := a ++ List.replicate 6 true ++ b) ?_ ?_ hl
        · rw [← h]; exact List.prefix_append _ _
        · rw [List.append_assoc]; exact List.prefix_append _ _
      obtain ⟨a', rfl⟩ := this
      rw [List.append_assoc, List.append_assoc, List.append_cancel_left_eq, ← List.append_assoc] at h
      obtain ⟨i1, i2, e1, rfl⟩ := six_ones (.flag :: l) k a' b hd.2 h
      refine ⟨.frame p :: i1, i2, by rw [e1]; rfl, ?_⟩
      simp [wire, Item.bits, hS]
    · exfalso
      have hw : wire c (.flag :: l) = flagBits ++ wire c l := rfl
      by_cases hl' : a.length + 6 ≤ S.length
      · have : a ++ List.replicate 6 true <+: S := by
          refine List.prefix_of_prefix_length_le (l₃ := a ++ List.replicate 6 true ++ b) (List.prefix_append _ _) ?_ (by simpa using hl')
          rw [← h]; exact List.prefix_append _ _
        obtain ⟨z, hz⟩ := this
        exact stuff_no_flag 0 (by omega) (bits (p ++ fcs c p)) a z (by rw [hS, hz])
      · have hL : (S ++ (wire c (.flag :: l) ++ stuff 0 (bits k)))[S.length]? = some false := by
          rw [List.getElem?_append_right (Nat.le_refl _), Nat.sub_self]; rfl
        have hR : (a ++ List.replicate 6 true ++ b)[S.length]? = some true := by
          rw [List.append_assoc, List.getElem?_append_right (by omega), List.getElem?_append_left (by simp; omega),
            List.getElem?_replicate, if_pos (by omega)]
        rw [h, hR] at hL
        cases hL

/-- No data can imitate a flag or an abort: wherever there are six ones in a row on the line, they are
the middle of a flag which stands between the frames. -/
theorem hdlc_tx_six_ones (bitwise crc32 prog : Bool) (iff : Int) (h : List Event → List Call) (ops : List Op)
    (tx : Tx) (vs : List Int) (hr : txRun bitwise h (txInit crc32 iff prog) ops = some (tx, vs))
    (a b : List Bool) (h6 : lineOf bitwise vs = a ++ List.replicate 6 true ++ b) :
    ∃ items, a = wire tx.crcBytes items ++ [false] ∧ framesIn items <+: completed tx.log ∧
      (lineOf bitwise vs <+: wire tx.crcBytes (items ++ [.flag]) ∨
        wire tx.crcBytes (items ++ [.flag]) <+: lineOf bitwise vs) := by
  obtain ⟨tx', vs', e, items, rest, k, h1, h2, h3, h4, h5, _⟩ := hdlc_tx_wire bitwise crc32 prog iff h ops
  rw [hr] at e
  simp only [Option.some.injEq, Prod.mk.injEq] at e
  obtain ⟨rfl, rfl⟩ := e
  obtain ⟨i1, i2, e1, e2⟩ := six_ones items k a (b ++ rest) h3 (by rw [← h1, h6]; simp)
  refine ⟨i1, e2, ?_, ?_⟩
  · rw [← h4, e1, framesIn_append]; exact List.prefix_append _ _
  · refine List.prefix_or_prefix_of_prefix (l₃ := lineOf bitwise vs ++ rest) (List.prefix_append _ _) ?_
    rw [h1, e1]
    have : i1 ++ .flag :: i2 = i1 ++ [.flag] ++ i2 := by simp
    rw [this, wire_append _ (i1 ++ [Item.flag]) i2, List.append_assoc]
    exact List.prefix_append _ _

/-- What the transmitter says about a frame is true: it takes it or leaves it. It takes it if it has
none and it is not too long. -/
theorem hdlc_tx_accepts (bitwise crc32 prog : Bool) (iff : Int) (h : List Event → List Call) (ops : List Op)
    (tx : Tx) (vs : List Int) (hr : txRun bitwise h (txInit crc32 iff prog) ops = some (tx, vs)) (p : List Byte) (hp : p ≠ []) :
    ∃ tx' r, txFrame tx p = some (tx', r) ∧ (r = 0 ∧ tx'.log = tx.log ++ [.accepted p] ∨ r = -1 ∧ tx' = tx) ∧
      (inProgress tx.log = [] → p.length ≤ tx.maxFrameLen → r = 0) := by
  obtain ⟨s, vs', items, e, hi, _⟩ := run_inv bitwise h ops (start_inv bitwise crc32 iff prog)
  rw [hr] at e
  simp only [Option.some.injEq, Prod.mk.injEq] at e
  obtain ⟨rfl, rfl⟩ := e
  obtain ⟨tx', r, e, _, _⟩ := frame_inv hi.inv p
  refine ⟨tx', r, e, ?_⟩
  have hl := len_iff hi.inv
  have hpos : tx.len = 0 → tx.pos = 0 := phase_empty hi.inv.phase
  have hmf : maxFrame = 400 := rfl
  unfold txFrame at e
  rw [if_neg (by simpa using hp)] at e
  by_cases h1 : tx.len + p.length > tx.maxFrameLen
  · rw [if_pos h1] at e; cases e
    exact ⟨Or.inr ⟨rfl, rfl⟩, fun ha hb => by have := hl.2 ha; omega⟩
  rw [if_neg h1] at e
  by_cases h2 : (tx.progressive = true ∧ tx.pos ≥ maxFrame) ∨ (tx.progressive = false ∧ tx.len ≠ 0)
  · rw [if_pos h2] at e; cases e
    refine ⟨Or.inr ⟨rfl, rfl⟩, fun ha hb => ?_⟩
    have h0 := hl.2 ha
    have := hpos h0
    rcases h2 with h2 | h2
    · omega
    · exact absurd h0 h2.2
  rw [if_neg h2] at e
  split at e
  · cases e
  cases hc : txCrc tx p with
  | none => rw [hc] at e; cases e
  | some crc => rw [hc] at e; cases e; exact ⟨Or.inl ⟨rfl, rfl⟩, fun _ _ => rfl⟩

/-- A transmitter which has a frame completes it, if only enough octets (or bits) are taken. -/
theorem hdlc_tx_completes (bitwise crc32 prog : Bool) (iff : Int) (h : List Event → List Call) (ops : List Op)
    (tx : Tx) (vs : List Int) (hr : txRun bitwise h (txInit crc32 iff prog) ops = some (tx, vs))
    (hp : inProgress tx.log ≠ []) (n : Nat) (hn : (if bitwise then 8 else 1) * (tx.flagOctets.toNat + 811) ≤ n) :
    ∃ tx' vs', txRun bitwise h tx (List.replicate n .get) = some (tx', vs') ∧
      completed tx.log ++ [inProgress tx.log] <+: completed tx'.log := by
  obtain ⟨s, vs', items, e, hi, _⟩ := run_inv bitwise h ops (start_inv bitwise crc32 iff prog)
  rw [hr] at e
  simp only [Option.some.injEq, Prod.mk.injEq] at e
  obtain ⟨rfl, rfl⟩ := e
  obtain ⟨tx', vs', items', e, _⟩ := run_inv bitwise h (List.replicate n .get) hi
  refine ⟨tx', vs', e, drain bitwise h n hi (fun h0 => hp ((len_iff hi.inv).1 h0)) ?_ e⟩
  have h1 := todo_le hi.inv
  have h2 := hi.few
  unfold enough
  cases bitwise
  · simp only [Bool.false_eq_true, if_false] at hn ⊢; omega
  · simp only [if_true] at hn ⊢; omega

/-- When the first call asks for some flags, the line starts with them. (Later calls may be any but
for further flags.) -/
theorem hdlc_tx_preamble (bitwise crc32 prog : Bool) (iff : Int) (h : List Event → List Call) (n : Nat) (ops : List Op)
    (hops : ∀ m, .call (.flags m) ∉ ops) (tx : Tx) (vs : List Int)
    (hr : txRun bitwise h (txInit crc32 iff prog) (.call (.flags n) :: ops) = some (tx, vs))
    (hl : 8 * n ≤ (lineOf bitwise vs).length) : flags n <+: lineOf bitwise vs := by
  obtain ⟨s, e, hi, hc⟩ := call_step bitwise (start_inv bitwise crc32 iff prog) (.flags n)
  simp only [txRun, e, Option.bind_eq_bind, Option.bind_some] at hr
  simp only [txCall, Option.some.injEq] at e
  have hf : s.flagOctets = (n : Int) ∧ s.idleOctet = 0x7E#32 ∧ s.bits = 0 := by
    rw [← e]
    refine ⟨?_, rfl, rfl⟩
    simp only [txFlags, txInit, ne_eq, not_true_eq_false, if_false]
    exact if_neg (by omega)
  have := preamble_run bitwise h n ops hops 0 hi (by rw [hf.2.2]; rfl) (by simpa using hf.1) (Nat.zero_le _) hf.2.1 hr (by simpa using hl)
  simpa using this

/-! ## C09: loopback -/

theorem asBits_bitsOf (l : List Int) : bitsOf (l.flatMap asBits) = lineOf false l := by
  induction l with
  | nil => rfl
  | cons x l ih =>
    have : bitsOf ((x :: l).flatMap asBits) = bitsOf (asBits x) ++ bitsOf (l.flatMap asBits) := by simp [bitsOf]
    rw [this, ih]
    have e : lineOf false (x :: l) = passes false x ++ lineOf false l := rfl
    rw [e]
    congr 1
    unfold asBits passes
    by_cases hx : x < 0
    · rw [if_pos hx, if_pos hx]; simp [bitsOf, hx]
    · rw [if_neg hx, if_neg hx]
      simp only [Bool.false_eq_true, if_false]
      generalize msbBits x = b
      induction b with
      | nil => rfl
      | cons y b ih2 => cases y <;> simpa [bitsOf] using ih2

theorem bitsOf_line (l : List Int) (h : ∀ v ∈ l, Value true v) : bitsOf l = lineOf true l := by
  induction l with
  | nil => rfl
  | cons x l ih =>
    have e1 : bitsOf (x :: l) = (if x < 0 then [] else [decide (x % 2 = 1)]) ++ bitsOf l := rfl
    have e2 : lineOf true (x :: l) = passes true x ++ lineOf true l := rfl
    rw [e1, e2, ih (fun v hv => h v (List.mem_cons_of_mem _ hv))]
    congr 1
    rcases h x List.mem_cons_self with rfl | ⟨_, _, hv⟩
    · rfl
    · rcases hv rfl with rfl | rfl <;> rfl

/-- A receiver fed with what was taken from a transmitter. -/
theorem receive_line {bitwise : Bool} {s r : Rx} {vs : List Int} (hv : ∀ v ∈ vs, Value bitwise v)
    (hl : ∀ i, i < 8 → s.rawBitStream.getLsbD i = false) (h : feedB s (lineOf bitwise vs) = some r) :
    ∃ r', receive bitwise s vs = some r' ∧ allFrames r'.out = allFrames r.out := by
  cases bitwise
  · have h256 : ∀ x ∈ vs, x < 256 := by
      intro x hx
      rcases hv x hx with rfl | ⟨_, h2, _⟩
      · decide
      · exact h2
    have hs : ∀ x ∈ vs.flatMap asBits, x < 0 → x = endOfData := by
      intro x hx h0
      obtain ⟨v, hv1, hv2⟩ := List.mem_flatMap.1 hx
      unfold asBits at hv2
      split at hv2
      · rename_i hneg
        simp only [List.mem_singleton] at hv2
        subst hv2
        rcases hv x hv1 with rfl | ⟨_, _, _⟩
        · rfl
        · omega
      · obtain ⟨b, _, rfl⟩ := List.mem_map.1 hv2
        cases b <;> simp at h0
    rw [← asBits_bitsOf] at h
    obtain ⟨r', e, hsim⟩ := feed_sim _ hs (Sim.refl s) h
    exact ⟨r', by simp only [receive, Bool.false_eq_true, if_false]; rw [feedOctets_eq hl vs h256]; exact e, hsim.out.symm⟩
  · have hs : ∀ x ∈ vs, x < 0 → x = endOfData := by
      intro x hx h0
      rcases hv x hx with rfl | ⟨_, _, _⟩
      · rfl
      · omega
    rw [← bitsOf_line vs hv] at h
    obtain ⟨r', e, hsim⟩ := feed_sim _ hs (Sim.refl s) h
    exact ⟨r', e, hsim.out.symm⟩

theorem setup_seek (crc32 bad : Bool) (threshold : Int) (maxLen : Nat) (interval : Int) :
    Seek (rxSetup crc32 bad threshold maxLen interval) 0 (rxSetup crc32 bad threshold maxLen interval) := by
  have h := setup_inv crc32 bad threshold maxLen interval
  exact ⟨h.reg, rfl, rfl, .rfl' _, rfl, h.size, h.max, h.high⟩

/-- A receiver fed with what is taken from a transmitter reports the frames the transmitter was
given: those, in that order, each once, and as good. The program may do what it likes between
taking octets or bits, and in the underflow handler. The line must start with as many flags as the
receiver wants to see, and no frame may be longer than what the receiver has been told to allow.
Every frame which had been completed is reported by the time sixteen more bits have been
taken. -/
theorem hdlc_loopback (bitwise crc32 prog bad : Bool) (iff threshold interval : Int) (maxLen : Nat)
    (h : List Event → List Call) (ops1 ops2 : List Op) (tx1 tx2 : Tx) (vs1 vs2 : List Int)
    (h1 : txRun bitwise h (txInit crc32 iff prog) ops1 = some (tx1, vs1))
    (h2 : txRun bitwise h tx1 ops2 = some (tx2, vs2))
    (hfl : flags (max 1 threshold.toNat) <+: lineOf bitwise (vs1 ++ vs2))
    (hm : ∀ p ∈ completed tx2.log ++ [inProgress tx2.log], p.length ≤ maxLen) :
    ∃ rx, receive bitwise (rxSetup crc32 bad threshold maxLen interval) (vs1 ++ vs2) = some rx ∧
      allFrames rx.out <+: (completed tx2.log).map (·, true) ∧
      (16 ≤ (lineOf bitwise vs2).length → (completed tx1.log).map (·, true) <+: allFrames rx.out) := by
  obtain ⟨t1, w1, items1, e1, hi1, _, v1, c1⟩ := run_inv bitwise h ops1 (start_inv bitwise crc32 iff prog)
  rw [h1] at e1
  simp only [Option.some.injEq, Prod.mk.injEq] at e1
  obtain ⟨rfl, rfl⟩ := e1
  obtain ⟨t2, w2, items2, e2, hi2, p2, v2, c2⟩ := run_inv bitwise h ops2 hi1
  rw [h2] at e2
  simp only [Option.some.injEq, Prod.mk.injEq] at e2
  obtain ⟨rfl, rfl⟩ := e2
  obtain ⟨rest1, k1, l1, l2, l3⟩ := hi1.line
  obtain ⟨rest2, k2, m1, m2, m3⟩ := hi2.line
  have hl12 : [] ++ lineOf bitwise vs1 ++ lineOf bitwise vs2 = lineOf bitwise (vs1 ++ vs2) := by simp [lineOf]
  rw [hl12] at m1
  rw [List.nil_append] at l1
  have hcb : tx1.crcBytes = if crc32 then 4 else 2 := c1
  let cfg := rxSetup crc32 bad threshold maxLen interval
  have hs := setup_seek crc32 bad threshold maxLen interval
  have hcfg : cfg.crcBytes = if crc32 then 4 else 2 := rfl
  have hth : cfg.framingOkThreshold = max 1 threshold.toNat := by
    simp only [cfg, rxSetup, rxSetOctetCountingReportInterval, rxSetMaxFrameLen, rxInit]; split <;> omega
  have hmax : ∀ n, n ≤ maxLen → n ≤ 400 → n + cfg.crcBytes ≤ cfg.maxFrameLen := by
    have : bufSize = 404 := rfl
    intro n hn hn'
    rw [hcfg]
    simp only [cfg, rxSetup, rxSetOctetCountingReportInterval, rxSetMaxFrameLen, rxInit]
    cases crc32
    · simp only [Bool.false_eq_true, if_false]; split <;> omega
    · simp only [if_true]; split <;> omega
  have hsmall : Small tx2 := run_small bitwise h ops2 hi1 (run_small bitwise h ops1 (start_inv bitwise crc32 iff prog)
    (fun p hp => by simp [txInit, completed, framesOf] at hp) h1) h2
  have hcb' : cfg.crcBytes = 2 ∨ cfg.crcBytes = 4 := by rw [hcfg]; cases crc32 <;> simp
  have hframes : ∀ p ∈ framesIn items2, p.length + cfg.crcBytes ≤ cfg.maxFrameLen := by
    intro p hp
    rw [hi2.inv.frames] at hp
    exact hmax _ (hm p (List.mem_append_left _ hp)) (hsmall p hp)
  have hk2 : k2.length ≤ cfg.maxFrameLen := by
    have := m3.length_le
    have hp := hm (inProgress tx2.log) (by simp)
    rw [List.length_append, fcs_length _ hi2.inv.cb, c2, hcb, ← hcfg] at this
    refine Nat.le_trans this (hmax _ hp ?_)
    rw [hi2.inv.cur, List.length_take]
    have := hi2.inv.len
    unfold maxFrame at this
    omega
  rw [c2, hcb, ← hcfg] at m1
  obtain ⟨s', f1, f2⟩ := feed_line hcb' (by omega) hs hi2.inv.delim (by
    rw [hth, ← m1]; exact hfl.trans (List.prefix_append _ _)) hframes hk2
  have f1' := f1
  rw [← m1, feedB_append] at f1
  cases hr : feedB cfg (lineOf bitwise (vs1 ++ vs2)) with
  | none =>
    have hr' : feedB (rxSetup crc32 bad threshold maxLen interval) (lineOf bitwise (vs1 ++ vs2)) = none := hr
    rw [hr'] at f1; cases f1
  | some r =>
    have hr' : feedB (rxSetup crc32 bad threshold maxLen interval) (lineOf bitwise (vs1 ++ vs2)) = some r := hr
    rw [hr', Option.bind_some] at f1
    have hval : ∀ v ∈ vs1 ++ vs2, Value bitwise v := by
      intro v hv; rcases List.mem_append.1 hv with hv | hv
      · exact v1 v hv
      · exact v2 v hv
    have hraw : ∀ i, i < 8 → cfg.rawBitStream.getLsbD i = false := by
      intro i _; simp [cfg, rxSetup, rxSetOctetCountingReportInterval, rxSetMaxFrameLen, rxInit]
    obtain ⟨rx, g1, g2⟩ := receive_line hval hraw hr
    have mono : ∀ {a b : List Report}, a <+: b → allFrames a <+: allFrames b := by
      rintro a b ⟨z, rfl⟩; rw [allFrames_append]; exact List.prefix_append _ _
    refine ⟨rx, g1, ?_, ?_⟩
    · rw [g2, ← hi2.inv.frames, ← f2]
      exact mono (feedB_mono f1)
    · intro h16
      rw [g2, ← hi1.inv.frames]
      by_cases hne : framesIn items1 = []
      · rw [hne]; exact List.nil_prefix
      have hw1 : wire cfg.crcBytes items1 <+: lineOf bitwise (vs1 ++ vs2) := by
        obtain ⟨z, rfl⟩ := p2
        refine List.prefix_of_prefix_length_le (l₃ := lineOf bitwise (vs1 ++ vs2) ++ rest2) ?_ (List.prefix_append _ _) ?_
        · rw [m1, wire_append, List.append_assoc]; exact List.prefix_append _ _
        · have := congrArg List.length l1
          rw [hcb, ← hcfg] at this
          rw [← hl12]
          simp only [List.length_append, List.nil_append] at this ⊢
          omega
      have hfl1 : flags cfg.framingOkThreshold <+: wire cfg.crcBytes items1 ++ stuff 0 (bits []) := by
        have hstuff : stuff 0 (bits []) = [] := rfl
        rw [hstuff, List.append_nil]
        rw [← hth] at hfl
        rcases List.prefix_or_prefix_of_prefix hfl hw1 with hh | hh
        · exact hh
        · exfalso
          obtain ⟨l, hl⟩ := peel_flags (k := k2) hcb' cfg.framingOkThreshold (items := items2) (by
            rw [← m1]; exact hfl.trans (List.prefix_append _ _))
          rw [hl] at p2
          have hlen : items1.length ≤ cfg.framingOkThreshold := by
            by_contra hc
            have hx : List.replicate cfg.framingOkThreshold Item.flag <+: items1 :=
              List.prefix_of_prefix_length_le (List.prefix_append _ _) p2 (by simp; omega)
            obtain ⟨z, rfl⟩ := hx
            have hzl := hh.length_le
            have hw : wire cfg.crcBytes (List.replicate cfg.framingOkThreshold .flag) = flags cfg.framingOkThreshold := by
              unfold wire flags
              rw [List.flatMap_replicate]
              rfl
            rw [wire_append, hw, List.length_append] at hzl
            have hz0 : wire cfg.crcBytes z = [] := List.eq_nil_of_length_eq_zero (by omega)
            cases z with
            | nil => simp at hc
            | cons i z =>
              have hi0 : Item.bits cfg.crcBytes i ++ wire cfg.crcBytes z = [] := hz0
              have hi1 : Item.bits cfg.crcBytes i = [] := (List.append_eq_nil_iff.1 hi0).1
              cases i with
              | flag => cases hi1
              | frame p =>
                have h3 := stuff_length (bits (p ++ fcs cfg.crcBytes p)) 0
                have h4 : stuff 0 (bits (p ++ fcs cfg.crcBytes p)) = [] := hi1
                rw [h4, Crc.bits_length, List.length_append, fcs_length _ hcb'] at h3
                simp only [List.length_nil] at h3
                omega
          have hx : items1 <+: List.replicate cfg.framingOkThreshold Item.flag :=
            List.prefix_of_prefix_length_le p2 (List.prefix_append _ _) (by simpa using hlen)
          refine hne ?_
          unfold framesIn
          rw [List.filterMap_eq_nil_iff]
          intro a ha
          rw [List.eq_of_mem_replicate (hx.subset ha)]
      have hfr1 : ∀ p ∈ framesIn items1, p.length + cfg.crcBytes ≤ cfg.maxFrameLen := by
        obtain ⟨z, rfl⟩ := p2
        intro p hp
        exact hframes p (by rw [framesIn_append]; exact List.mem_append_left _ hp)
      obtain ⟨r1, q1, q2⟩ := feed_line hcb' (by omega) hs hi1.inv.delim hfl1 hfr1 (k := []) (Nat.zero_le _)
      rw [← q2]
      obtain ⟨y, hy⟩ := hw1
      have hstuff : stuff 0 (bits []) = [] := rfl
      rw [hstuff, List.append_nil] at q1
      rw [← hy, feedB_append] at hr'
      have q1' : feedB (rxSetup crc32 bad threshold maxLen interval) (wire cfg.crcBytes items1) = some r1 := q1
      rw [q1', Option.bind_some] at hr'
      exact mono (feedB_mono hr')

/-- The program of the examples: ask for flags, then give a frame, and take octets. -/
def demo : List Op := [.call (.flags 3), .call (.frame [0xFF#8, 0xFF#8, 0x7E#8])] ++ List.replicate 12 .get

/-- The handler of the examples: one more frame, after the first. -/
def demoHandler : List Event → List Call := fun log => if log.length = 2 then [.frame [0x12#8]] else []

/-- The hypotheses of `hdlc_tx_six_ones`, `hdlc_tx_accepts`, `hdlc_tx_completes` and `hdlc_tx_preamble`
are met. -/
example : (txRun false demoHandler (txInit false 1 false) demo).any (fun (tx, vs) =>
    vs.length = 12 ∧ completed tx.log = [[0xFF#8, 0xFF#8, 0x7E#8]] ∧ inProgress tx.log = [0x12#8] ∧
    8 * 3 ≤ (lineOf false vs).length ∧ flags 3 <+: lineOf false vs) = true := by
  decide +kernel

/-- The hypotheses of `hdlc_loopback` are met, with bits and with octets, and frames are delivered. -/
example : (txRun true demoHandler (txInit true 1 false) (demo ++ List.replicate 150 .get)).any (fun (tx1, vs1) =>
    (txRun true demoHandler tx1 (List.replicate 100 .get)).any (fun (tx2, vs2) =>
      flags 2 <+: lineOf true (vs1 ++ vs2) ∧ completed tx2.log = [[0xFF#8, 0xFF#8, 0x7E#8], [0x12#8]] ∧
      (receive true (rxSetup true false 2 400 0) (vs1 ++ vs2)).any (fun rx =>
        allFrames rx.out = [([0xFF#8, 0xFF#8, 0x7E#8], true), ([0x12#8], true)]))) = true := by
  decide +kernel

example : (txRun false demoHandler (txInit false 1 true) (demo ++ List.replicate 12 .get)).any (fun (tx1, vs1) =>
    (txRun false demoHandler tx1 (List.replicate 3 .get)).any (fun (tx2, vs2) =>
      flags 2 <+: lineOf false (vs1 ++ vs2) ∧ completed tx1.log = [[0xFF#8, 0xFF#8, 0x7E#8], [0x12#8]] ∧
      16 ≤ (lineOf false vs2).length ∧ inProgress tx2.log = [] ∧
      (receive false (rxSetup false false 2 3 0) (vs1 ++ vs2)).any (fun rx =>
        allFrames rx.out = [([0xFF#8, 0xFF#8, 0x7E#8], true), ([0x12#8], true)]))) = true := by
  decide +kernel

/-! ## C10: the receiver on arbitrary input -/

/-- The receiver keeps within its buffer, whatever it is fed with, for fewer than 2^31 inputs.
(Missing: longer inputs, for which it is not true. See `hdlc_rx_bit_count_overflows`.) -/
theorem hdlc_rx_safe_partial (crc32 bad : Bool) (threshold interval : Int) (maxLen : Nat) (l : List Int) (hl : l.length < 2147483648) :
    ∃ rx, feed (rxSetup crc32 bad threshold maxLen interval) l = some rx := by
  obtain ⟨s, e, _⟩ := feed_inv crc32 bad threshold maxLen interval l.length l rfl (Or.inl hl)
  exact ⟨s, e⟩

/-- However long the input, the only thing which can go wrong is that the count of bits overflows. -/
theorem hdlc_rx_only_overflows (crc32 bad : Bool) (threshold interval : Int) (maxLen : Nat) (l : List Int) (x : Int)
    (rx : Rx) (h : feed (rxSetup crc32 bad threshold maxLen interval) l = some rx) (hn : rx.numBits < 2147483647) :
    ∃ rx', rxPutBit rx x = some rx' := by
  obtain ⟨s, e, hi, hc⟩ := feed_inv crc32 bad threshold maxLen interval l.length l rfl (Or.inr (by simp [h]))
  rw [h] at e
  cases e
  obtain ⟨s', e', _⟩ := input_step hi x (Or.inl hn)
  exact ⟨s', e'⟩

/-- However long the input, no bit or status makes the receiver report more than one frame. A frame is
reported as good only if it has just been received: the line bits end with a flag, and what they
have since the flag before it is, when the stuffed bits are removed, that frame and its check
sequence. It is no longer than the maximum. (The statistics are of the frames reported as good.) -/
theorem hdlc_rx_sound (crc32 bad : Bool) (threshold interval : Int) (maxLen : Nat) (l : List Int) (x : Int)
    (rx rx' : Rx) (h : feed (rxSetup crc32 bad threshold maxLen interval) l = some rx) (hx : rxPutBit rx x = some rx') :
    ∃ new, rx'.out = rx.out ++ new ∧ (allFrames new).length ≤ 1 ∧
      (∀ p ∈ goodFrames new, p.length ≤ maxLen ∧ p.length ≤ 402 ∧
        JustReceived (if crc32 then 4 else 2) (lineBits (l ++ [x])) p) ∧
      rx'.rxFrames = rx.rxFrames + (goodFrames new).length ∧
      rx'.rxBytes = rx.rxBytes + (goodFrames new).flatten.length := by
  obtain ⟨s, e, hi, hc⟩ := feed_inv crc32 bad threshold maxLen interval l.length l rfl (Or.inr (by simp [h]))
  rw [h] at e
  cases e
  obtain ⟨s', e', _, hs⟩ := input_step hi x (Or.inr (by simp [hx]))
  rw [hx] at e'
  cases e'
  obtain ⟨new, n1, n2, n3, n4, n5⟩ := hs.rep
  have hcb : rx.crcBytes = if crc32 then 4 else 2 := hc.crcBytes
  refine ⟨new, n1, n2, ?_, n3, n4⟩
  intro p hp
  obtain ⟨q1, q2⟩ := n5 p hp
  have hm := hc.maxFrameLen
  rw [hcb] at q1 q2
  rw [hm] at q1
  have hbs : bufSize = 404 := rfl
  refine ⟨?_, ?_, q2⟩
  · simp only [rxSetup, rxSetOctetCountingReportInterval, rxSetMaxFrameLen, rxInit] at q1
    cases crc32
    · simp only [Bool.false_eq_true, if_false] at q1; split at q1 <;> omega
    · simp only [if_true] at q1; split at q1 <;> omega
  · have := hi.max
    rw [hm] at this
    cases crc32
    · simp only [Bool.false_eq_true, if_false] at q1; omega
    · simp only [if_true] at q1; omega

/-- So the statistics always match the frames which have been reported. -/
theorem hdlc_rx_statistics (crc32 bad : Bool) (threshold interval : Int) (maxLen : Nat) (n : Nat) :
    ∀ (l : List Int) (_ : l.length = n) (rx : Rx),
    feed (rxSetup crc32 bad threshold maxLen interval) l = some rx →
    rx.rxFrames = (goodFrames rx.out).length ∧ rx.rxBytes = (goodFrames rx.out).flatten.length := by
  induction n with
  | zero =>
    intro l hl rx h
    have : l = [] := List.eq_nil_of_length_eq_zero hl
    subst this
    cases h
    exact ⟨rfl, rfl⟩
  | succ n ih =>
    intro l hl rx h
    have hne : l ≠ [] := by intro e; simp [e] at hl
    obtain ⟨l', x, rfl⟩ : ∃ l' x, l = l' ++ [x] := ⟨l.dropLast, l.getLast hne, (List.dropLast_concat_getLast hne).symm⟩
    have hl' : l'.length = n := by simpa using hl
    rw [feed_snoc] at h
    cases e : feed (rxSetup crc32 bad threshold maxLen interval) l' with
    | none => rw [e] at h; cases h
    | some s =>
      rw [e, Option.bind_some] at h
      obtain ⟨i1, i2⟩ := ih l' hl' s e
      obtain ⟨new, r2, _, _, r3, r4⟩ := hdlc_rx_sound crc32 bad threshold interval maxLen l' x s rx e h
      rw [r2, goodFrames_append, List.length_append, List.flatten_append, List.length_append, r3, r4, i1, i2]
      exact ⟨rfl, rfl⟩

/-- A good frame, and a bad one, are reported; the bad one is not reported as good. -/
example : (feed (rxSetup false true 1 400 0) ((flagBits ++ stuff 0 (bits ([0x7E#8] ++ fcs 2 [0x7E#8])) ++ flagBits ++
      stuff 0 (bits ([0x7F#8] ++ fcs 2 [0x7E#8])) ++ flagBits).map bitOf)).any (fun rx =>
    allFrames rx.out = [([0x7E#8], true), ([0x7F#8], false)] ∧ rx.rxFrames = 1 ∧ rx.rxBytes = 1) = true := by
  decide +kernel

theorem feed_zeros (s : Rx) (h0 : s.rawBitStream = 0#32) (hn : s.numBits = 0) (hc : s.octetCountingMode = false)
    (hs : s.flagsSeen < s.framingOkThreshold) (n : Nat) (h : n ≤ 2147483647) :
    feed s (List.replicate n 0) = some { s with numBits := n } := by
  induction n with
  | zero => simp only [List.replicate_zero, feed]; rw [← hn]
  | succ n ih =>
    rw [List.replicate_succ', feed_snoc, ih (by omega), Option.bind_some]
    unfold rxPutBit
    rw [if_neg (by omega)]
    have hr : (s.rawBitStream <<< 1) ||| ((BitVec.ofInt 32 0 <<< 8) &&& 0x100#32) = 0#32 := by rw [h0]; decide
    simp only [hr]
    unfold rxPutBitCore
    simp only
    rw [if_neg (by decide), if_neg (by decide)]
    unfold rxDataBit
    rw [if_neg (by simp only; omega)]
    simp only
    rw [if_pos hs]
    unfold octetCountStep
    simp only [hc, Bool.false_eq_true, if_false]
    rw [← h0]
    split
    · split <;> rfl
    · rfl

/-- The limit on the number of inputs is needed: before framing is found, the receiver counts bits
without limit, in an `int`. On an idle line of zeros the count overflows after 2^31 bits. -/
theorem hdlc_rx_bit_count_overflows (crc32 bad : Bool) (threshold interval : Int) (maxLen : Nat) :
    feed (rxSetup crc32 bad threshold maxLen interval) (List.replicate 2147483648 0) = none := by
  have hth : 0 < (rxSetup crc32 bad threshold maxLen interval).framingOkThreshold := (setup_inv crc32 bad threshold maxLen interval).th
  have e : List.replicate 2147483648 (0 : Int) = List.replicate 2147483647 0 ++ [0] := List.replicate_succ' (n := 2147483647)
  rw [e, feed_snoc, feed_zeros (rxSetup crc32 bad threshold maxLen interval) rfl rfl rfl hth 2147483647 (Nat.le_refl _), Option.bind_some]
  unfold rxPutBit
  rw [if_neg (by omega)]
  have hr : ((0#32) <<< 1) ||| ((BitVec.ofInt 32 0 <<< 8) &&& 0x100#32) = 0#32 := by decide
  have hr' : (rxSetup crc32 bad threshold maxLen interval).rawBitStream = 0#32 := rfl
  simp only [hr', hr]
  unfold rxPutBitCore
  simp only
  rw [if_neg (by decide), if_neg (by decide)]
  unfold rxDataBit
  rw [if_pos (Nat.le_refl _)]

/-! ## C11: octets and bits -/

/-- Feeding octets is the same as feeding their bits, most significant first: the same state, and so
the same reports in the same order and the same statistics, at once and later. -/
theorem hdlc_octets_are_bits (crc32 bad : Bool) (threshold interval : Int) (maxLen : Nat) (l : List Int) (h : ∀ x ∈ l, x < 256) :
    feedOctets (rxSetup crc32 bad threshold maxLen interval) l =
      feed (rxSetup crc32 bad threshold maxLen interval) (l.flatMap asBits) :=
  feedOctets_eq (fun i _ => by simp [rxSetup, rxSetOctetCountingReportInterval, rxSetMaxFrameLen, rxInit]) l h

/-- With a status in the middle of a frame. -/
example : (feedOctets (rxSetup false true 1 400 0) [0x7E, 0x12, endOfData, 0x34, 0x7E, 0x7E]).any (fun rx =>
    rx.out.length = 3) = true := by decide +kernel

/-- So is feeding a block. -/
theorem hdlc_put_is_bits (crc32 bad : Bool) (threshold interval : Int) (maxLen : Nat) (l : List Byte) :
    rxPut (rxSetup crc32 bad threshold maxLen interval) l =
      feed (rxSetup crc32 bad threshold maxLen interval) ((l.map fun b => (b.toNat : Int)).flatMap asBits) := by
  rw [rxPut_eq]
  refine hdlc_octets_are_bits crc32 bad threshold interval maxLen _ ?_
  intro x hx
  obtain ⟨b, _, rfl⟩ := List.mem_map.1 hx
  have := b.isLt
  omega

end Hdlc
