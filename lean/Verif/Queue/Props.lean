import Verif.Queue.Lemmas

/-!
# C01, C03: the queue is a bounded FIFO

The theorems run the modelled C functions and the specification of `Spec.lean` side by
side over an arbitrary sequence of calls, and say that the observations are the same and
that no call has undefined behaviour.
-/

namespace Queue
open C

/-- One user call on the modelled queue. `none` is undefined behaviour. -/
def callOp (s : State) : Spec.Op → Option (Spec.Out × State)
  | .write buf => (write s buf buf.length).map fun r => (⟨r.1, []⟩, r.2)
  | .writeByte b => (writeByte s b).map fun r => (⟨r.1, []⟩, r.2)
  | .read n => (read s true n).map fun r => (⟨r.1, r.2.1⟩, r.2.2)
  | .discard n => (read s false n).map fun r => (⟨r.1, r.2.1⟩, r.2.2)
  | .view n => (view s true n).map fun r => (⟨r.1, r.2⟩, s)
  | .readByte => (readByte s).map fun r => (⟨r.1, []⟩, r.2)
  | .flush => some (⟨0, []⟩, flush s)
  | .contents => some (⟨contents s, []⟩, s)
  | .freeSpace => some (⟨freeSpace s, []⟩, s)
  | .empty => some (⟨Spec.bool (empty s), []⟩, s)

/-- A sequence of calls; `none` if any of them has undefined behaviour. -/
def runOps : State → List Spec.Op → Option (List Spec.Out)
  | _, [] => some []
  | s, op :: ops => do
    let (o, s) ← callOp s op
    return o :: (← runOps s ops)

/-- The specification state a queue state stands for. -/
def toFifo (s : State) : Spec.Fifo :=
  { cap := (s.len - 1).toNat, ra := s.readAtomic, wa := s.writeAtomic, items := items s }

theorem put_toFifo {s : State} (h : Inv s) {src : List UInt8}
    (hn : (items s).length + src.length < s.len) :
    toFifo (put s src) = { toFifo s with items := items s ++ src } := by
  have hp := put_spec h hn
  have e : toFifo (put s src) = { toFifo s with items := items (put s src) } := rfl
  rw [e, hp.2]

theorem adv_toFifo {s : State} (h : Inv s) (n : Nat) :
    Inv (adv s ((items s).take n).length) ∧
      toFifo (adv s ((items s).take n).length) = { toFifo s with items := (items s).drop n } := by
  have hk := adv_spec h (n := ((items s).take n).length) (by simp; omega)
  refine ⟨hk.1, ?_⟩
  have e : ∀ k, toFifo (adv s k) = { toFifo s with items := items (adv s k) } := fun _ => rfl
  rw [e, hk.2]
  congr 1
  by_cases hn : n ≤ (items s).length
  · simp [Nat.min_eq_left hn]
  · rw [List.drop_of_length_le (by simp; omega), List.drop_of_length_le (by omega)]

theorem callOp_refines {s : State} (h : Inv s) (op : Spec.Op) :
    ∃ s', callOp s op = some ((Spec.step (toFifo s) op).1, s') ∧ Inv s' ∧
      toFifo s' = (Spec.step (toFifo s) op).2 := by
  have hce := contents_eq h
  have hlt := contents_lt h
  have hnn := contents_nonneg h
  have hcap : (((s.len - 1).toNat : Nat) : Int) = s.len - 1 := by omega
  have ecap : (toFifo s).cap = (s.len - 1).toNat := rfl
  have eit : (toFifo s).items = items s := rfl
  have era : (toFifo s).ra = s.readAtomic := rfl
  have ewa : (toFifo s).wa = s.writeAtomic := rfl
  cases op with
  | write buf =>
    simp only [callOp, write_spec h, Spec.step, ecap, eit, ewa]
    by_cases hc : s.writeAtomic ∧ s.len - 1 - (items s).length < buf.length
    · have hc' : s.writeAtomic ∧ (s.len - 1).toNat - (items s).length < buf.length := ⟨hc.1, by omega⟩
      simp only [if_pos hc, if_pos hc']
      exact ⟨s, rfl, h, rfl⟩
    · have hc' : ¬ (s.writeAtomic ∧ (s.len - 1).toNat - (items s).length < buf.length) :=
        fun hh => hc ⟨hh.1, by omega⟩
      simp only [if_neg hc, if_neg hc']
      have e : (s.len - 1 - ((items s).length : Int)).toNat = (s.len - 1).toNat - (items s).length := by
        omega
      rw [e]
      have hn : (items s).length + (buf.take ((s.len - 1).toNat - (items s).length)).length < s.len := by
        simp only [List.length_take]; omega
      exact ⟨_, rfl, (put_spec h hn).1, put_toFifo h hn⟩
  | writeByte b =>
    simp only [callOp, writeByte_spec h, Spec.step, ecap, eit, ewa]
    by_cases hc : ((items s).length : Int) < s.len - 1
    · have hc' : (items s).length < (s.len - 1).toNat := by omega
      simp only [if_pos hc, if_pos hc']
      have hn : (items s).length + [b].length < s.len := by simp; omega
      exact ⟨_, rfl, (put_spec h hn).1, put_toFifo h hn⟩
    · have hc' : ¬ (items s).length < (s.len - 1).toNat := by omega
      simp only [if_neg hc, if_neg hc']
      exact ⟨s, rfl, h, rfl⟩
  | read n =>
    simp only [callOp, read_spec h, Spec.step, era, eit]
    by_cases hc : s.readAtomic ∧ (items s).length < n
    · simp only [if_pos hc]; exact ⟨s, rfl, h, rfl⟩
    · simp only [if_neg hc]; exact ⟨_, rfl, adv_toFifo h n⟩
  | discard n =>
    simp only [callOp, read_spec h, Spec.step, era, eit]
    by_cases hc : s.readAtomic ∧ (items s).length < n
    · simp only [if_pos hc]; exact ⟨s, rfl, h, rfl⟩
    · simp only [if_neg hc]; exact ⟨_, rfl, adv_toFifo h n⟩
  | view n =>
    simp only [callOp, view_spec, read_spec h, Spec.step, era, eit]
    by_cases hc : s.readAtomic ∧ (items s).length < n
    · simp only [if_pos hc]; exact ⟨s, rfl, h, rfl⟩
    · simp only [if_neg hc]; exact ⟨s, rfl, h, rfl⟩
  | readByte =>
    simp only [callOp, readByte_spec h, Spec.step, eit]
    have k1 := adv_toFifo h 1
    cases hit : items s with
    | nil => exact ⟨s, rfl, h, rfl⟩
    | cons b rest =>
      rw [hit] at k1
      exact ⟨_, rfl, by simpa using k1.1, by simpa using k1.2⟩
  | flush =>
    have hf := flush_spec h
    refine ⟨_, rfl, hf.1, ?_⟩
    have e : toFifo (flush s) = { toFifo s with items := items (flush s) } := rfl
    rw [e, hf.2]; rfl
  | contents => exact ⟨s, by simp only [callOp, hce]; rfl, h, rfl⟩
  | freeSpace =>
    refine ⟨s, ?_, h, rfl⟩
    simp only [callOp, freeSpace_eq h, Spec.step, ecap, eit, hcap]
  | empty =>
    refine ⟨s, ?_, h, rfl⟩
    have : empty s = (items s).isEmpty := by
      have hi := items_length h
      obtain ⟨i0, i1, o0, o1, dl⟩ := h
      simp only [empty]
      cases hit : items s with
      | nil =>
        rw [hit] at hce; simp only [contents, List.length_nil] at hce
        simp only [List.isEmpty_nil, decide_eq_true_eq]
        split at hce <;> omega
      | cons a l =>
        rw [hit] at hce; simp only [contents, List.length_cons] at hce
        simp only [List.isEmpty_cons, decide_eq_false_iff_not]
        split at hce <;> omega
    simp only [callOp, this, Spec.step, eit]

theorem runOps_refines (ops : List Spec.Op) : ∀ {s : State}, Inv s →
    runOps s ops = some (Spec.run (toFifo s) ops) := by
  induction ops with
  | nil => intro s h; rfl
  | cons op ops ih =>
    intro s h
    obtain ⟨s', h1, h2, h3⟩ := callOp_refines h op
    simp only [runOps, h1, Option.bind_eq_bind, Option.bind_some, ih h2, Spec.run, h3]
    rfl

/-- **C01.** A queue made by `queue_init(cap, flags)`, whatever was in the memory before,
answers every sequence of calls as a FIFO of capacity `cap` does, without undefined
behaviour. -/
theorem queue_is_bounded_fifo (cap flags : Nat) (garbage : Mem)
    (hg : garbage.length = cap + 1) (ops : List Spec.Op) :
    runOps (init cap flags garbage) ops =
      some (Spec.run ⟨cap, flags.testBit 0, flags.testBit 1, []⟩ ops) := by
  obtain ⟨h1, h2⟩ := init_spec cap flags garbage hg
  rw [runOps_refines ops h1]
  simp only [toFifo, h2]
  congr 3
  simp [init]

/-- A run that wraps around the end of the storage and hits both limits. -/
example : runOps (init 3 0 [9, 9, 9, 9])
    [.write [1, 2, 3, 4], .read 2, .write [5, 6, 7], .contents, .view 9, .read 9, .readByte]
    = some [⟨3, []⟩, ⟨2, [1, 2]⟩, ⟨2, []⟩, ⟨3, []⟩, ⟨3, [3, 5, 6]⟩, ⟨3, [3, 5, 6]⟩, ⟨-1, []⟩] := by
  decide

/-! ## Messages -/

/-- One message call on the modelled queue. -/
def callMsg (s : State) : Spec.MsgOp → Option (Spec.Out × State)
  | .write m => (writeMsg s m m.length).map fun r => (⟨r.1, []⟩, r.2)
  | .read n => (readMsg s n).map fun r => (⟨r.1, r.2.1⟩, r.2.2)
  | .test => (testMsg s).map fun r => (⟨r, []⟩, s)

def runMsgs : State → List Spec.MsgOp → Option (List Spec.Out)
  | _, [] => some []
  | s, op :: ops => do
    let (o, s) ← callMsg s op
    return o :: (← runMsgs s ops)

/-- The bytes by which a list of messages is held. -/
def encode (q : List (List UInt8)) : List UInt8 :=
  q.flatMap fun m => u16bytes m.length ++ m

theorem encode_length (q : List (List UInt8)) : (encode q).length = Spec.msgUsed q := by
  induction q with
  | nil => rfl
  | cons m q ih =>
    simp only [encode, Spec.msgUsed, List.flatMap_cons, List.length_append, List.map_cons,
      List.sum_cons, u16bytes_length] at *
    omega

theorem encode_append (q : List (List UInt8)) (m : List UInt8) :
    encode (q ++ [m]) = encode q ++ (u16bytes m.length ++ m) := by
  simp [encode]

/-- The queue holds these messages. -/
structure MsgRep (cap : Nat) (s : State) (q : List (List UInt8)) : Prop where
  inv : Inv s
  len : s.len = cap + 1
  its : items s = encode q
  lt : ∀ m ∈ q, m.length < 65536

theorem read_ok {s : State} (h : Inv s) (n : Nat) (b : Bool) (hn : n ≤ (items s).length) :
    read s b n = some ((n : Int), if b then (items s).take n else [], adv s n) := by
  rw [read_spec h, if_neg (by omega)]
  simp [Nat.min_eq_left hn]

theorem callMsg_refines {cap : Nat} {s : State} {q : List (List UInt8)} (h : MsgRep cap s q)
    (op : Spec.MsgOp) (hop : ∀ m, op = .write m → m.length < 65536) :
    ∃ s', callMsg s op = some ((Spec.msgStep cap q op).1, s') ∧
      MsgRep cap s' (Spec.msgStep cap q op).2 := by
  obtain ⟨hi, hlen, hits, hlt⟩ := h
  have hil : (items s).length = Spec.msgUsed q := by rw [hits, encode_length]
  cases op with
  | write m =>
    have hm := hop m rfl
    simp only [callMsg, writeMsg_spec hi, toU16_of_lt hm, Spec.msgStep]
    by_cases hc : s.len - 1 - (items s).length < m.length + 2
    · rw [if_pos hc, if_neg (by omega)]
      exact ⟨s, rfl, hi, hlen, hits, hlt⟩
    · rw [if_neg hc, if_pos (by omega)]
      have hp := put_spec hi (src := u16bytes m.length ++ m) (by simp [u16bytes_length]; omega)
      refine ⟨_, rfl, hp.1, hlen, ?_, ?_⟩
      · rw [hp.2, hits, encode_append]
      · intro x hx
        rcases List.mem_append.mp hx with h1 | h1
        · exact hlt x h1
        · simp at h1; subst h1; exact hm
  | read n =>
    cases q with
    | nil =>
      have e : items s = [] := by rw [hits]; rfl
      refine ⟨s, ?_, hi, hlen, hits, hlt⟩
      simp only [callMsg, readMsg]
      rw [show (2 : Int) = ((2 : Nat) : Int) from rfl, read_spec hi, e]
      split
      · rfl
      · have : adv s 0 = s := by
          obtain ⟨i0, i1, o0, o1, dl⟩ := hi
          cases s; simp only [adv, State.mk.injEq, true_and, and_true] at *; split <;> omega
        simp [Spec.msgStep, this]
    | cons m rest =>
      have e : items s = u16bytes m.length ++ (m ++ encode rest) := by
        rw [hits]; simp [encode]
      have hm : m.length < 65536 := hlt m (by simp)
      have h2 : read s true 2 = some (2, u16bytes m.length, adv s 2) := by
        have := read_ok hi 2 true (by rw [e]; simp [u16bytes_length])
        simpa [e, List.take_append, u16bytes_length, show ∀ n, List.take 2 (u16bytes n) = u16bytes n from fun _ => rfl] using this
      obtain ⟨hi2, he2⟩ := adv_spec hi (n := 2) (by rw [e]; simp [u16bytes_length])
      have he2' : items (adv s 2) = m ++ encode rest := by
        rw [he2, e]; simp [u16bytes_length, List.drop_append]
      simp only [callMsg, readMsg, h2, Option.bind_eq_bind, Option.bind_some, ne_eq,
        not_true_eq_false, if_false, u16_roundtrip hm, Spec.msgStep]
      by_cases h0 : m.length = 0
      · have em : m = [] := List.length_eq_zero_iff.mp h0
        subst em
        refine ⟨adv s 2, by simp, hi2, hlen, by simpa using he2', ?_⟩
        intro x hx; exact hlt x (by simp [hx])
      · rw [if_neg (by omega)]
        have hrest : ∀ x ∈ rest, x.length < 65536 := fun x hx => hlt x (by simp [hx])
        by_cases hn : (m.length : Int) > n
        · rw [if_pos hn]
          rw [read_ok hi2 n true (by rw [he2']; simp; omega)]
          obtain ⟨hi3, he3⟩ := adv_spec hi2 (n := n) (by rw [he2']; simp; omega)
          have he3' : items (adv (adv s 2) n) = m.drop n ++ encode rest := by
            rw [he3, he2', List.drop_append_of_le_length (by omega)]
          simp only [Option.bind_some]
          rw [show ((m.length : Int) - n) = ((m.length - n : Nat) : Int) by omega]
          rw [read_ok hi3 _ false (by rw [he3']; simp)]
          obtain ⟨hi4, he4⟩ := adv_spec hi3 (n := m.length - n) (by rw [he3']; simp)
          refine ⟨adv (adv (adv s 2) n) (m.length - n), ?_, hi4, hlen, ?_, hrest⟩
          · have : (m.take n).length = n := by simp; omega
            simp [he2', this, List.take_append_of_le_length (show n ≤ m.length by omega)]
          · rw [he4, he3']; simp
        · rw [if_neg hn]
          rw [read_ok hi2 m.length true (by rw [he2']; simp)]
          obtain ⟨hi3, he3⟩ := adv_spec hi2 (n := m.length) (by rw [he2']; simp)
          refine ⟨adv (adv s 2) m.length, ?_, hi3, hlen, ?_, hrest⟩
          · rw [List.take_of_length_le (show m.length ≤ n by omega)]
            simp [he2']
          · rw [he3, he2']; simp
  | test =>
    cases q with
    | nil =>
      have e : items s = [] := by rw [hits]; rfl
      refine ⟨s, ?_, hi, hlen, hits, hlt⟩
      simp only [callMsg, testMsg, view_spec]
      rw [show (2 : Int) = ((2 : Nat) : Int) from rfl, read_spec hi, e]
      split
      · rfl
      · simp [Spec.msgStep]
    | cons m rest =>
      have e : items s = u16bytes m.length ++ (m ++ encode rest) := by
        rw [hits]; simp [encode]
      have hm : m.length < 65536 := hlt m (by simp)
      have h2 : read s true 2 = some (2, u16bytes m.length, adv s 2) := by
        have := read_ok hi 2 true (by rw [e]; simp [u16bytes_length])
        simpa [e, List.take_append, u16bytes_length, show ∀ n, List.take 2 (u16bytes n) = u16bytes n from fun _ => rfl] using this
      refine ⟨s, ?_, hi, hlen, hits, hlt⟩
      simp [callMsg, testMsg, view_spec, h2, u16_roundtrip hm, Spec.msgStep]

theorem runMsgs_refines (cap : Nat) (ops : List Spec.MsgOp) :
    ∀ {s : State} {q : List (List UInt8)}, MsgRep cap s q →
    (∀ m, Spec.MsgOp.write m ∈ ops → m.length < 65536) →
    runMsgs s ops = some (Spec.msgRun cap q ops) := by
  induction ops with
  | nil => intro s q h _; rfl
  | cons op ops ih =>
    intro s q h hl
    obtain ⟨s', h1, h2⟩ := callMsg_refines h op (fun m hm => hl m (by simp [hm]))
    simp only [runMsgs, h1, Option.bind_eq_bind, Option.bind_some,
      ih h2 (fun m hm => hl m (by simp [hm])), Spec.msgRun]
    rfl

/-- **C03.** Through the message calls, a queue is a FIFO of whole messages, as long as no
message is longer than the 16 bit length field can say. -/
theorem message_queue_is_fifo_partial (cap flags : Nat) (garbage : Mem)
    (hg : garbage.length = cap + 1) (ops : List Spec.MsgOp)
    (hl : ∀ m, Spec.MsgOp.write m ∈ ops → m.length < 65536) :
    runMsgs (init cap flags garbage) ops = some (Spec.msgRun cap [] ops) := by
  obtain ⟨h1, h2⟩ := init_spec cap flags garbage hg
  exact runMsgs_refines cap ops ⟨h1, rfl, h2, by simp⟩ hl

/-- Messages with the length field itself wrapping, a short reader and a refusal. -/
example : runMsgs (init 6 3 [9, 9, 9, 9, 9, 9, 9])
    [.write [1, 2, 3, 4], .write [5], .read 2, .write [6, 7], .test, .read 9, .read 9]
    = some [⟨4, []⟩, ⟨-1, []⟩, ⟨2, [1, 2]⟩, ⟨2, []⟩, ⟨2, []⟩, ⟨2, [6, 7]⟩, ⟨-1, []⟩] := by
  decide

/-- The 65535 limit is real: a message of 65536 bytes is accepted, with its full length
returned, but the reader gets an empty message (and the body stays in the queue, where the
next read takes its first bytes for a length). -/
theorem message_queue_fails_at_65536 (cap flags : Nat) (garbage : Mem)
    (hg : garbage.length = cap + 1) (m : List UInt8) (hm : m.length = 65536)
    (hcap : 65538 ≤ cap) (n : Nat) :
    runMsgs (init cap flags garbage) [.write m, .read n] = some [⟨65536, []⟩, ⟨0, []⟩] ∧
    Spec.msgRun cap [] [.write m, .read n] = [⟨65536, []⟩, ⟨(m.take n).length, m.take n⟩] := by
  obtain ⟨hi, he⟩ := init_spec cap flags garbage hg
  have hlen : (init cap flags garbage).len = cap + 1 := rfl
  have h1 : callMsg (init cap flags garbage) (.write m) =
      some (⟨65536, []⟩, put (init cap flags garbage) (u16bytes 0 ++ m)) := by
    simp only [callMsg, writeMsg_spec hi]
    rw [if_neg (by rw [he, hlen]; simp; omega)]
    simp [hm, toU16]
  have hp := put_spec hi (src := u16bytes 0 ++ m) (by rw [he, hlen]; simp [u16bytes_length]; omega)
  have h2 : ∃ s', callMsg (put (init cap flags garbage) (u16bytes 0 ++ m)) (.read n) =
      some (⟨0, []⟩, s') := by
    have hr := read_ok hp.1 2 true (by rw [hp.2, he]; simp [u16bytes_length])
    rw [hp.2, he] at hr
    have hr' : read (put (init cap flags garbage) (u16bytes 0 ++ m)) true 2 =
      some (2, u16bytes 0, adv (put (init cap flags garbage) (u16bytes 0 ++ m)) 2) := by
      simpa [List.take_append, u16bytes_length,
        show ∀ n, List.take 2 (u16bytes n) = u16bytes n from fun _ => rfl] using hr
    simp only [callMsg, readMsg, hr', Option.bind_eq_bind, Option.bind_some]
    exact ⟨_, rfl⟩
  obtain ⟨s', h2⟩ := h2
  constructor
  · simp [runMsgs, h1, h2]
  · simp [Spec.msgRun, Spec.msgStep, Spec.msgUsed, hm, hcap]

end Queue
