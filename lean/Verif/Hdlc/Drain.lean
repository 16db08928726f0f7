import Verif.Hdlc.Loop

/-! # A transmitter gets on with it -/

namespace Hdlc
open Spec
open Crc.Spec (bits octetBits)

/-- The octets a transmitter still has to give to complete the frame it has: at most this. -/
def todo (s : Tx) : Nat :=
  s.flagOctets.toNat + 2 * (if s.pos ≤ s.len then s.len - s.pos + s.crcBytes else maxFrame + s.crcBytes - s.pos) +
    (if 8 ≤ s.numBits then 1 else 0) + 1

theorem todo_le {E : List Bool} {items : List Item} {s : Tx} (h : TInv E items s) : todo s ≤ s.flagOctets.toNat + 810 := by
  have h1 := h.len
  have h2 := h.cb
  unfold maxFrame at h1
  unfold todo maxFrame
  split <;> split <;> omega

theorem octet_todo {s s' : Tx} {v : Int} (h : txOctet s = some (s', v)) (hn : s.numBits ≤ 7) {t : Nat}
    (ht : TailOnes s.octetsInProgress t) :
    s'.pos = s.pos + 1 ∧ s'.len = s.len ∧ s'.flagOctets = s.flagOctets ∧ s'.log = s.log ∧ s'.crcBytes = s.crcBytes ∧
      s'.bits = s.bits ∧ s'.numBits ≤ 9 := by
  unfold txOctet at h
  cases hb : s.buffer[s.pos]? with
  | none => rw [hb] at h; simp at h
  | some b =>
    rw [hb] at h
    simp only [Option.bind_eq_bind, Option.bind_some, Option.pure_def, Option.some.injEq, Prod.mk.injEq] at h
    obtain ⟨rfl, rfl⟩ := h
    refine ⟨rfl, rfl, rfl, rfl, rfl, rfl, ?_⟩
    exact Nat.le_trans (octet_spec b ht hn).1 (by omega)

theorem call_completed {s s' : Tx} {c : Call} (h : txCall s c = some s') : completed s'.log = completed s.log := by
  cases c with
  | frame p =>
    simp only [txCall, Option.map_eq_some_iff] at h
    obtain ⟨⟨s1, r⟩, h, rfl⟩ := h
    unfold txFrame at h
    by_cases h0 : p.length = 0
    · rw [if_pos h0] at h; cases h; rfl
    rw [if_neg h0] at h
    by_cases h1 : s.len + p.length > s.maxFrameLen
    · rw [if_pos h1] at h; cases h; rfl
    rw [if_neg h1] at h
    by_cases h2 : (s.progressive = true ∧ s.pos ≥ maxFrame) ∨ (s.progressive = false ∧ s.len ≠ 0)
    · rw [if_pos h2] at h; cases h; rfl
    rw [if_neg h2] at h
    by_cases h3 : s.len + p.length > s.buffer.length
    · rw [if_pos h3] at h; cases h
    rw [if_neg h3] at h
    cases hc : txCrc s p with
    | none => rw [hc] at h; cases h
    | some crc => rw [hc] at h; cases h; exact (framesOf_accepted _ _).1
  | flags n =>
    simp only [txCall, Option.some.injEq] at h
    subst h
    unfold txFlags
    split <;> rfl
  | setMaxFrameLen n => simp only [txCall, Option.some.injEq] at h; subst h; rfl

theorem calls_completed (cs : List Call) : ∀ {s s' : Tx}, txCalls s cs = some s' → completed s'.log = completed s.log := by
  induction cs with
  | nil => intro s s' h; cases h; rfl
  | cons c cs ih =>
    intro s s' h
    simp only [txCalls] at h
    cases hc : txCall s c with
    | none => rw [hc] at h; cases h
    | some s1 => rw [hc] at h; exact (ih h).trans (call_completed hc)

/-- Each octet gets a transmitter which has a frame nearer to the end of it. -/
theorem get_todo (hd : List Event → List Call) {E : List Bool} {items : List Item} {s s' : Tx} {v : Int}
    (h : TInv E items s) (hl : s.len ≠ 0) (hg : txGetByte hd s = some (s', v)) :
    0 ≤ v ∧ ((s'.log = s.log ∧ s'.len = s.len ∧ todo s' + 1 ≤ todo s) ∨
      completed s'.log = completed s.log ++ [inProgress s.log]) := by
  have hcb := h.cb
  have hlen := h.len
  have oct : ∀ t : Tx, ∀ {k}, TailOnes t.octetsInProgress k → t.numBits ≤ 7 → txOctet t = some (s', v) →
      0 ≤ v ∧ s'.log = t.log ∧ s'.len = t.len ∧ s'.pos = t.pos + 1 ∧ s'.flagOctets = t.flagOctets ∧ s'.crcBytes = t.crcBytes := by
    intro t k ht hn he
    obtain ⟨a, b, c, d, e, f, g⟩ := octet_todo he hn ht
    refine ⟨?_, d, b, a, c, e⟩
    unfold txOctet at he
    cases hb : t.buffer[t.pos]? with
    | none => rw [hb] at he; simp at he
    | some b =>
      rw [hb] at he
      simp only [Option.bind_eq_bind, Option.bind_some, Option.pure_def, Option.some.injEq, Prod.mk.injEq] at he
      rw [← he.2]; exact Int.natCast_nonneg _
  have tail : ∃ k, TailOnes s.octetsInProgress k := by
    cases h.phase with
    | idle _ _ _ _ _ h6 => exact ⟨_, h6⟩
    | data _ _ _ _ _ h6 => exact ⟨_, h6⟩
    | check _ _ _ _ _ _ _ h8 => exact ⟨_, h8⟩
  obtain ⟨k, tail⟩ := tail
  unfold txGetByte at hg
  by_cases hf : s.flagOctets > 0
  · rw [if_pos hf] at hg
    unfold txTimedFlag at hg
    have ha := h.abort
    simp only [hl, if_false] at hg
    split at hg
    · simp only [Option.bind_eq_bind, Option.bind_some, ha, ne_eq, not_true_eq_false, if_false, Option.pure_def, Option.some.injEq, Prod.mk.injEq] at hg
      obtain ⟨rfl, rfl⟩ := hg
      refine ⟨Int.natCast_nonneg _, Or.inl ⟨rfl, rfl, ?_⟩⟩
      simp only [todo]; omega
    · simp only [Option.bind_eq_bind, Option.bind_some, ha, ne_eq, not_true_eq_false, if_false, Option.pure_def, Option.some.injEq, Prod.mk.injEq] at hg
      obtain ⟨rfl, rfl⟩ := hg
      refine ⟨Int.natCast_nonneg _, Or.inl ⟨rfl, rfl, ?_⟩⟩
      simp only [todo]; omega
  rw [if_neg hf, if_pos hl] at hg
  by_cases h8 : s.numBits ≥ 8
  · rw [if_pos h8] at hg
    have hn9 : s.numBits ≤ 9 := by
      cases h.phase with
      | idle _ h2 => omega
      | data _ _ h3 => exact h3
      | check _ _ _ h4 => exact h4
    simp only [Option.some.injEq, Prod.mk.injEq] at hg
    obtain ⟨rfl, rfl⟩ := hg
    refine ⟨Int.natCast_nonneg _, Or.inl ⟨rfl, rfl, ?_⟩⟩
    simp only [todo]
    rw [if_neg (show ¬ 8 ≤ s.numBits - 8 by omega), if_pos h8]
  rw [if_neg h8] at hg
  by_cases hp : s.pos ≥ s.len
  · rw [if_pos hp] at hg
    by_cases hpe : s.pos = s.len
    · rw [if_pos hpe] at hg
      obtain ⟨a, b, c, d, e, f⟩ := oct (txStoreCrc s) tail (by simp only [txStoreCrc]; omega) hg
      refine ⟨a, Or.inl ⟨b, c, ?_⟩⟩
      simp only [txStoreCrc] at b c d e f
      unfold maxFrame at d hlen
      unfold todo maxFrame
      rw [c, d, e, f, if_neg (show ¬ 400 + 1 ≤ s.len by omega), if_pos (show s.pos ≤ s.len by omega), if_neg h8]
      split <;> omega
    · rw [if_neg hpe] at hg
      by_cases hend : s.pos = maxFrame + s.crcBytes
      · rw [if_pos hend] at hg
        unfold txEndFrame at hg
        simp only [Option.bind_eq_bind, Option.pure_def] at hg
        generalize hu : txUnderflow hd _ = u at hg
        cases u with
        | none => cases hg
        | some t =>
          simp only [Option.bind_some, Option.some.injEq, Prod.mk.injEq] at hg
          obtain ⟨rfl, rfl⟩ := hg
          refine ⟨Int.natCast_nonneg _, Or.inr ?_⟩
          have hne : inProgress s.log ≠ [] := by
            rw [h.cur]; intro hc
            have := congrArg List.length hc
            have hs := h.size
            have hbs : bufSize = maxFrame + 4 := rfl
            simp only [List.length_take, List.length_nil] at this
            omega
          have e1 := calls_completed _ hu
          simp only [(framesOf_underflow _).1, if_neg hne] at e1
          split <;> exact e1
      · rw [if_neg hend] at hg
        obtain ⟨a, b, c, d, e, f⟩ := oct s tail (by omega) hg
        refine ⟨a, Or.inl ⟨b, c, ?_⟩⟩
        have hlt : s.pos < maxFrame + s.crcBytes := by
          cases h.phase with
          | idle h1 => omega
          | data _ h2 => omega
          | check _ _ h3 => omega
        unfold maxFrame at hlt
        unfold todo maxFrame
        rw [c, d, e, f, if_neg (show ¬ s.pos + 1 ≤ s.len by omega), if_neg (show ¬ s.pos ≤ s.len by omega), if_neg h8]
        split <;> omega
  · rw [if_neg hp] at hg
    obtain ⟨a, b, c, d, e, f⟩ := oct s tail (by omega) hg
    refine ⟨a, Or.inl ⟨b, c, ?_⟩⟩
    unfold todo
    rw [c, d, e, f, if_pos (show s.pos + 1 ≤ s.len by omega), if_pos (show s.pos ≤ s.len by omega), if_neg h8]
    split <;> omega

/-- The gets which are enough. -/
def enough (bitwise : Bool) (s : Tx) : Nat := if bitwise then 8 * todo s + s.bits else todo s

theorem len_iff {E : List Bool} {items : List Item} {s : Tx} (h : TInv E items s) : s.len = 0 ↔ inProgress s.log = [] := by
  rw [h.cur]
  have hs := h.size
  have hl := h.len
  have hbs : bufSize = maxFrame + 4 := rfl
  constructor
  · intro e; rw [e]; rfl
  · intro e
    have := congrArg List.length e
    simp only [List.length_take, List.length_nil] at this
    omega

theorem take_todo (bitwise : Bool) (hd : List Event → List Call) {line : List Bool} {items : List Item} {s s' : Tx} {v : Int}
    (h : RunInv bitwise line items s) (hl : s.len ≠ 0)
    (hg : (if bitwise then txGetBit hd s else txGetByte hd s) = some (s', v)) :
    (s'.log = s.log ∧ s'.len = s.len ∧ enough bitwise s' + 1 ≤ enough bitwise s) ∨
      completed s'.log = completed s.log ++ [inProgress s.log] := by
  cases bitwise
  · have h0 := h.octets rfl
    have hi := h.inv
    rw [h0] at hi
    obtain ⟨_, r⟩ := get_todo hd hi hl hg
    exact r
  · simp only [if_true] at hg
    unfold txGetBit at hg
    by_cases h0 : s.bits = 0
    · have hi := h.inv
      rw [h0] at hi
      simp only [h0, if_true] at hg
      cases hb : txGetByte hd s with
      | none => rw [hb] at hg; cases hg
      | some r =>
        obtain ⟨s1, w⟩ := r
        obtain ⟨hw, r⟩ := get_todo hd hi hl hb
        rw [hb] at hg
        simp only [Option.bind_eq_bind, Option.bind_some, if_neg (show ¬ w < 0 by omega), Option.pure_def, Option.some.injEq,
          Prod.mk.injEq] at hg
        obtain ⟨rfl, rfl⟩ := hg
        rcases r with ⟨r1, r2, r3⟩ | r
        · refine Or.inl ⟨r1, r2, ?_⟩
          simp only [enough, if_true, h0]
          have : ∀ (b : BitVec 32) (n : Nat), todo { s1 with byte := b, bits := n } = todo s1 := fun _ _ => rfl
          simp only [this]
          omega
        · exact Or.inr r
    · rw [if_neg h0] at hg
      simp only [Option.some.injEq, Prod.mk.injEq] at hg
      obtain ⟨rfl, rfl⟩ := hg
      refine Or.inl ⟨rfl, rfl, ?_⟩
      simp only [enough, if_true]
      have : ∀ (n : Nat), todo { s with bits := n } = todo s := fun _ => rfl
      simp only [this]
      omega

theorem completed_mono {E E' : List Bool} {i i' : List Item} {s s' : Tx} (h : TInv E i s) (h' : TInv E' i' s')
    (hp : i <+: i') : completed s.log <+: completed s'.log := by
  rw [← h.frames, ← h'.frames]
  obtain ⟨z, rfl⟩ := hp
  rw [framesIn_append]
  exact List.prefix_append _ _

theorem drain (bitwise : Bool) (hd : List Event → List Call) (n : Nat) : ∀ {line : List Bool} {items : List Item} {s s' : Tx} {vs : List Int},
    RunInv bitwise line items s → s.len ≠ 0 → enough bitwise s ≤ n →
    txRun bitwise hd s (List.replicate n .get) = some (s', vs) →
    completed s.log ++ [inProgress s.log] <+: completed s'.log := by
  induction n with
  | zero =>
    intro line items s s' vs _ _ hn
    have : 1 ≤ enough bitwise s := by unfold enough todo; split <;> omega
    omega
  | succ n ih =>
    intro line items s s' vs h hl hn hr
    obtain ⟨s1, v, items1, e1, h1, p1, v1, k1⟩ := take_step bitwise hd h
    obtain ⟨s2, vs2, items2, e2, h2, p2, v2, k2⟩ := run_inv bitwise hd (List.replicate n .get) h1
    rw [List.replicate_succ, txRun_get, e1, Option.bind_some, e2] at hr
    simp only [Option.map_some, Option.some.injEq, Prod.mk.injEq] at hr
    obtain ⟨rfl, _⟩ := hr
    rcases take_todo bitwise hd h hl e1 with ⟨r1, r2, r3⟩ | r
    · have := ih h1 (by omega) (by omega) e2
      rw [r1] at this
      exact this
    · rw [← r]
      exact completed_mono h1.inv h2.inv p2

/-! ## The size of frames -/

theorem empty_completed (hd : List Event → List Call) {E : List Bool} {items : List Item} {s s' : Tx} {v : Int}
    (h : TInv E items s) (hl : s.len = 0) (hg : txGetByte hd s = some (s', v)) : completed s'.log = completed s.log := by
  have hc : inProgress s.log = [] := (len_iff h).1 hl
  unfold txGetByte at hg
  by_cases hf : s.flagOctets > 0
  · rw [if_pos hf] at hg
    unfold txTimedFlag at hg
    simp only [hl, if_true] at hg
    have ha := h.abort
    split at hg
    · generalize hu : txUnderflow hd _ = u at hg
      cases u with
      | none => cases hg
      | some t =>
        have e1 := calls_completed _ hu
        simp only [(framesOf_underflow _).1, if_pos hc] at e1
        simp only [Option.bind_eq_bind, Option.bind_some, Option.pure_def] at hg
        split at hg <;> (cases hg; exact e1)
    · simp only [Option.bind_eq_bind, Option.bind_some, Option.pure_def] at hg
      split at hg <;> (cases hg; rfl)
  · rw [if_neg hf, if_neg (by simp [hl])] at hg
    split at hg <;> (cases hg; rfl)

/-- No frame is longer than the buffer. -/
def Small (s : Tx) : Prop := ∀ p ∈ completed s.log, p.length ≤ 400

theorem get_small (hd : List Event → List Call) {E : List Bool} {items : List Item} {s s' : Tx} {v : Int}
    (h : TInv E items s) (hs : Small s) (hg : txGetByte hd s = some (s', v)) : Small s' := by
  have keep : completed s'.log = completed s.log → Small s' := fun e p hp => hs p (e ▸ hp)
  by_cases hl : s.len = 0
  · exact keep (empty_completed hd h hl hg)
  · rcases (get_todo hd h hl hg).2 with ⟨e, _⟩ | e
    · exact keep (by rw [e])
    · intro p hp
      rw [e] at hp
      rcases List.mem_append.1 hp with hp | hp
      · exact hs p hp
      · rw [List.mem_singleton.1 hp, h.cur, List.length_take]
        have := h.len
        unfold maxFrame at this
        omega

theorem run_small (bitwise : Bool) (hd : List Event → List Call) (ops : List Op) :
    ∀ {line : List Bool} {items : List Item} {s s' : Tx} {vs : List Int}, RunInv bitwise line items s → Small s →
    txRun bitwise hd s ops = some (s', vs) → Small s' := by
  induction ops with
  | nil => intro line items s s' vs _ hs h; cases h; exact hs
  | cons op ops ih =>
    intro line items s s' vs hi hs h
    cases op with
    | call c =>
      obtain ⟨s1, e1, h1, _⟩ := call_step bitwise hi c
      simp only [txRun, e1, Option.bind_eq_bind, Option.bind_some] at h
      exact ih h1 (fun p hp => hs p (call_completed e1 ▸ hp)) h
    | get =>
      obtain ⟨s1, v, items1, e1, h1, p1, v1, k1⟩ := take_step bitwise hd hi
      rw [txRun_get, e1, Option.bind_some] at h
      cases e2 : txRun bitwise hd s1 ops with
      | none => rw [e2] at h; cases h
      | some r =>
        rw [e2] at h
        simp only [Option.map_some, Option.some.injEq, Prod.mk.injEq] at h
        obtain ⟨rfl, _⟩ := h
        refine ih h1 ?_ e2
        cases bitwise
        · exact get_small hd hi.inv hs e1
        · simp only [if_true] at e1
          unfold txGetBit at e1
          by_cases h0 : s.bits = 0
          · simp only [h0, if_true] at e1
            cases hb : txGetByte hd s with
            | none => rw [hb] at e1; cases e1
            | some r =>
              obtain ⟨t, w⟩ := r
              have := get_small hd hi.inv hs hb
              rw [hb] at e1
              simp only [Option.bind_eq_bind, Option.bind_some, Option.pure_def] at e1
              split at e1 <;> (cases e1; exact this)
          · rw [if_neg h0] at e1
            cases e1
            exact hs

/-! ## The flags before the first frame -/

theorem committed_get (bitwise : Bool) (hd : List Event → List Call) {line : List Bool} {items : List Item} {s s' : Tx} {v : Int}
    (h : RunInv bitwise line items s) (hg : (if bitwise then txGetBit hd s else txGetByte hd s) = some (s', v)) :
    line ++ lb s.bits s.byte <+: line ++ passes bitwise v ++ lb s'.bits s'.byte := by
  by_cases h0 : s.bits = 0
  · rw [h0, List.append_assoc]; simp [lb]
  · cases bitwise
    · exact absurd (h.octets rfl) h0
    · simp only [if_true] at hg
      unfold txGetBit at hg
      rw [if_neg h0] at hg
      simp only [Option.some.injEq, Prod.mk.injEq] at hg
      obtain ⟨rfl, rfl⟩ := hg
      obtain ⟨m, hm⟩ : ∃ m, s.bits = m + 1 := ⟨s.bits - 1, by omega⟩
      simp only [hm, Nat.add_sub_cancel, bit_out, lb]
      cases s.byte.getLsbD m <;> simp [passes]

theorem committed_run (bitwise : Bool) (hd : List Event → List Call) (ops : List Op) :
    ∀ {line : List Bool} {items : List Item} {s s' : Tx} {vs : List Int}, RunInv bitwise line items s →
    txRun bitwise hd s ops = some (s', vs) →
    line ++ lb s.bits s.byte <+: line ++ lineOf bitwise vs ++ lb s'.bits s'.byte := by
  induction ops with
  | nil => intro line items s s' vs _ h; cases h; simp [lineOf]
  | cons op ops ih =>
    intro line items s s' vs hi h
    cases op with
    | call c =>
      obtain ⟨s1, e1, h1, k1⟩ := call_inv hi.inv c
      have h1' : RunInv bitwise line items s1 :=
        ⟨by rw [k1.bits, k1.byte]; exact h1, by rw [k1.bits]; exact hi.few, fun hb => by rw [k1.bits]; exact hi.octets hb⟩
      simp only [txRun, e1, Option.bind_eq_bind, Option.bind_some] at h
      have := ih h1' h
      rw [k1.bits, k1.byte] at this
      exact this
    | get =>
      obtain ⟨s1, v, items1, e1, h1, p1, v1, k1⟩ := take_step bitwise hd hi
      rw [txRun_get, e1, Option.bind_some] at h
      cases e2 : txRun bitwise hd s1 ops with
      | none => rw [e2] at h; cases h
      | some r =>
        obtain ⟨s2, vs2⟩ := r
        rw [e2] at h
        simp only [Option.map_some, Option.some.injEq, Prod.mk.injEq] at h
        obtain ⟨rfl, rfl⟩ := h
        have h2 := ih h1 e2
        refine (committed_get bitwise hd hi e1).trans ?_
        simpa [lineOf, List.append_assoc] using h2

theorem flags_succ (n : Nat) : flags (n + 1) = flags n ++ flagBits := by
  simp [flags, List.replicate_succ']

theorem flag_get (hd : List Event → List Call) {E : List Bool} {items : List Item} {s : Tx} (h : TInv E items s)
    (hf : s.flagOctets > 0) : ∃ t, txGetByte hd s = some (t, (s.idleOctet.toNat : Int)) ∧ Keeps s t ∧
      (s.flagOctets > 1 → t.flagOctets = s.flagOctets - 1) := by
  have hp := phase_flags h.phase hf
  have h1 : TInv E items { s with flagOctets := s.flagOctets - 1, reportFlagUnderflow := false } :=
    ⟨h.abort, h.cb, h.size, h.max, h.len, h.delim, h.frames, h.cur,
      h.phase.change s.txEnd false _ s.maxFrameLen (Or.inr hp)⟩
  have fin : ∀ t : Tx, t.abortOctets = 0 → Keeps s t → (s.flagOctets > 1 → t.flagOctets = s.flagOctets - 1) →
      txGetByte hd s = (if t.abortOctets ≠ 0 then some ({ t with abortOctets := 0 }, 0x7F) else some (t, (t.idleOctet.toNat : Int))) →
      ∃ t, txGetByte hd s = some (t, (s.idleOctet.toNat : Int)) ∧ Keeps s t ∧ (s.flagOctets > 1 → t.flagOctets = s.flagOctets - 1) := by
    intro t ht hk hfo he
    rw [if_neg (by simp [ht]), hk.idleOctet] at he
    exact ⟨t, he, hk, hfo⟩
  by_cases hc : s.flagOctets - 1 ≤ 0 ∧ s.reportFlagUnderflow = true
  · by_cases hl : s.len = 0
    · obtain ⟨t, e, ht, hk⟩ := underflow_inv hd (underflow_log h1 hl)
      refine fin t ht.abort ⟨hk.1, hk.2, hk.3, hk.4, hk.5, hk.6, hk.7⟩ (by omega) ?_
      unfold txGetByte txTimedFlag
      rw [if_pos hf]
      simp only
      rw [if_pos hc, if_pos hl, e]
      simp only [Option.bind_eq_bind, Option.bind_some, Option.pure_def]
    · refine fin { s with flagOctets := s.flagOctets - 1, reportFlagUnderflow := false } h.abort ⟨rfl, rfl, rfl, rfl, rfl, rfl, rfl⟩ (fun _ => rfl) ?_
      unfold txGetByte txTimedFlag
      rw [if_pos hf]
      simp only
      rw [if_pos hc, if_neg hl]
      simp only [Option.bind_eq_bind, Option.bind_some, Option.pure_def]
  · refine fin { s with flagOctets := s.flagOctets - 1 } h.abort ⟨rfl, rfl, rfl, rfl, rfl, rfl, rfl⟩ (fun _ => rfl) ?_
    unfold txGetByte txTimedFlag
    rw [if_pos hf]
    simp only
    rw [if_neg hc]
    simp only [Option.bind_eq_bind, Option.bind_some, Option.pure_def]

/-- While `n` flags are being sent. -/
theorem preamble_run (bitwise : Bool) (hd : List Event → List Call) (n : Nat) (ops : List Op)
    (hops : ∀ m, .call (.flags m) ∉ ops) :
    ∀ {line : List Bool} {items : List Item} {s s' : Tx} {vs : List Int} (j : Nat), RunInv bitwise line items s →
    line ++ lb s.bits s.byte = flags j → s.flagOctets = (n : Int) - j → j ≤ n → s.idleOctet = 0x7E#32 →
    txRun bitwise hd s ops = some (s', vs) → 8 * n ≤ (line ++ lineOf bitwise vs).length →
    flags n <+: line ++ lineOf bitwise vs := by
  have len : ∀ m, (flags m).length = 8 * m := by
    intro m; induction m with
    | zero => rfl
    | succ m ih => rw [flags_succ, List.length_append, ih]; simp [flagBits]; omega
  have done : ∀ {line : List Bool} {ops : List Op} {items : List Item} {s s' : Tx} {vs : List Int}, RunInv bitwise line items s →
      line ++ lb s.bits s.byte = flags n → txRun bitwise hd s ops = some (s', vs) → 8 * n ≤ (line ++ lineOf bitwise vs).length →
      flags n <+: line ++ lineOf bitwise vs := by
    intro line ops items s s' vs hi hl hr h8
    have h1 := committed_run bitwise hd ops hi hr
    rw [hl] at h1
    exact List.prefix_of_prefix_length_le h1 (List.prefix_append _ _) (by rw [len]; exact h8)
  induction ops with
  | nil =>
    intro line items s s' vs j hi hl hf hj hid h h8
    cases h
    have h9 : line <+: flags j := hl ▸ List.prefix_append _ _
    have := h9.length_le
    rw [len] at this
    simp only [lineOf, List.flatMap_nil, List.append_nil] at h8 ⊢
    have hjn : j = n := by omega
    subst hjn
    have : line = flags j := h9.eq_of_length (by rw [len]; omega)
    rw [this]; exact List.prefix_refl _
  | cons op ops ih =>
    intro line items s s' vs j hi hl hf hj hid h h8
    by_cases hjn : j = n
    · subst hjn; exact done hi hl h h8
    have hops' : ∀ m, .call (.flags m) ∉ ops := fun m hm => hops m (List.mem_cons_of_mem _ hm)
    cases op with
    | call c =>
      obtain ⟨s1, e1, h1, k1⟩ := call_inv hi.inv c
      have h1' : RunInv bitwise line items s1 :=
        ⟨by rw [k1.bits, k1.byte]; exact h1, by rw [k1.bits]; exact hi.few, fun hb => by rw [k1.bits]; exact hi.octets hb⟩
      simp only [txRun, e1, Option.bind_eq_bind, Option.bind_some] at h
      have hfo : s1.flagOctets = s.flagOctets := by
        cases c with
        | flags m => exact absurd List.mem_cons_self (hops m)
        | setMaxFrameLen m => simp only [txCall, Option.some.injEq] at e1; subst e1; rfl
        | frame p =>
          simp only [txCall, Option.map_eq_some_iff] at e1
          obtain ⟨⟨s2, r⟩, e1, rfl⟩ := e1
          unfold txFrame at e1
          split at e1
          · cases e1; rfl
          split at e1
          · cases e1; rfl
          split at e1
          · cases e1; rfl
          split at e1
          · cases e1
          cases hc : txCrc s p with
          | none => rw [hc] at e1; cases e1
          | some crc => rw [hc] at e1; cases e1; rfl
      exact ih hops' j h1' (by rw [k1.bits, k1.byte]; exact hl) (by rw [hfo]; exact hf) hj (by rw [k1.idleOctet]; exact hid) h h8
    | get =>
      obtain ⟨s1, v, items1, e1, h1, p1, v1, k1⟩ := take_step bitwise hd hi
      rw [txRun_get, e1, Option.bind_some] at h
      cases e2 : txRun bitwise hd s1 ops with
      | none => rw [e2] at h; cases h
      | some r =>
        obtain ⟨s2, vs2⟩ := r
        rw [e2] at h
        simp only [Option.map_some, Option.some.injEq, Prod.mk.injEq] at h
        obtain ⟨rfl, rfl⟩ := h
        have hline : line ++ lineOf bitwise (v :: vs2) = line ++ passes bitwise v ++ lineOf bitwise vs2 := by simp [lineOf]
        rw [hline] at h8 ⊢
        obtain ⟨t, g1, g2, g3⟩ := flag_get hd hi.inv (by omega)
        rw [hid] at g1
        have e7E : ((0x7E#32).toNat : Int) = 126 := rfl
        rw [e7E] at g1
        have next : line ++ passes bitwise v ++ lb s1.bits s1.byte = flags (j + 1) → s1.flagOctets = t.flagOctets → s1.idleOctet = t.idleOctet →
            flags n <+: line ++ passes bitwise v ++ lineOf bitwise vs2 := by
          intro n1 n2 n3
          by_cases hjn' : j + 1 = n
          · subst hjn'; exact done h1 n1 e2 h8
          · exact ih hops' (j + 1) h1 n1 (by rw [n2, g3 (by omega), hf]; push_cast; omega) (by omega) (by rw [n3, g2.idleOctet, hid]) e2 h8
        cases bitwise
        · have h0 := hi.octets rfl
          simp only [Bool.false_eq_true, if_false] at e1
          rw [g1] at e1
          cases e1
          refine next ?_ rfl rfl
          rw [g2.bits, h0]
          rw [h0] at hl
          simp only [lb, List.append_nil] at hl ⊢
          rw [hl, flags_succ]; rfl
        · simp only [if_true] at e1
          unfold txGetBit at e1
          by_cases h0 : s.bits = 0
          · simp only [h0, if_true, g1, Option.bind_eq_bind, Option.bind_some, if_neg (show ¬ (126 : Int) < 0 by decide),
              Option.pure_def, Option.some.injEq, Prod.mk.injEq] at e1
            obtain ⟨rfl, rfl⟩ := e1
            refine next ?_ rfl rfl
            rw [h0] at hl
            simp only [lb, List.append_nil] at hl
            rw [hl, flags_succ, List.append_assoc]
            have : passes true (((BitVec.ofInt 32 126 >>> (8 - 1)) &&& 1#32).toNat : Int) ++ lb (8 - 1) (BitVec.ofInt 32 126) = flagBits := by
              decide
            exact congrArg (flags j ++ ·) this
          · rw [if_neg h0] at e1
            simp only [Option.some.injEq, Prod.mk.injEq] at e1
            obtain ⟨rfl, rfl⟩ := e1
            refine ih hops' j h1 ?_ hf hj hid e2 h8
            obtain ⟨m, hm⟩ : ∃ m, s.bits = m + 1 := ⟨s.bits - 1, by omega⟩
            rw [hm] at hl
            simp only [hm, Nat.add_sub_cancel, bit_out]
            rw [← hl]
            simp only [lb]
            cases s.byte.getLsbD m <;> simp [passes]

end Hdlc
