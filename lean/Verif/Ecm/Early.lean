import Verif.Ecm.Lossless

/-!
# An encoder which says too early that a page is complete

When the answer of `t4_tx_image_complete` is "yes" at the end of the first block, the call is the one which would send the first block
alone: what is left of the page is never looked at.
-/

namespace Ecm

def Tx.withRest (t : Tx) (x : List Nat) : Tx := { t with rest := x }

def Sys.withRest (s : Sys) (x : List Nat) : Sys := { s with tx := s.tx.withRest x }

/-- The last block of the last page. -/
def Tx.Last (t : Tx) : Prop := t.atEnd = true ∧ t.docs = []

/-- The two results are the same but for what is left of the page, and it is still the last block. -/
def SameTx {β : Type} (x : List Nat) (p q : Tx × β) : Prop := p = (q.1.withRest x, q.2) ∧ q.1.Last

theorem SameTx.ite {β : Type} {x : List Nat} {a a' b b' : Tx × β} {p q : Prop} [Decidable p] [Decidable q] (hpq : p ↔ q)
    (h1 : SameTx x a a') (h2 : SameTx x b b') : SameTx x (if p then a else b) (if q then a' else b') := by
  by_cases h : p
  · rw [if_pos h, if_pos (hpq.1 h)]; exact h1
  · rw [if_neg h, if_neg (fun h' => h (hpq.2 h'))]; exact h2

theorem sendNext_rest (t : Tx) (x : List Nat) (h : t.Last) : SameTx x (sendNext (t.withRest x)) (sendNext t) := by
  simp only [sendNext, Tx.withRest]
  cases nextFrame t.buf (t.frames - t.cur) t.cur with
  | some p => exact ⟨rfl, h⟩
  | none => exact SameTx.ite Iff.rfl ⟨rfl, h⟩ ⟨rfl, h⟩

theorem txStep_rest (t : Tx) (x : List Nat) (h : t.Last) : SameTx x (Ecm.txStep (t.withRest x)) (Ecm.txStep t) := by
  obtain ⟨e, hl⟩ := sendNext_rest t x h
  unfold Ecm.txStep
  refine SameTx.ite Iff.rfl ?_ ⟨rfl, h⟩
  rw [e]
  rcases hs : sendNext t with ⟨t', m⟩
  rw [hs] at hl
  cases m with
  | some m => exact ⟨rfl, hl⟩
  | none =>
    obtain ⟨h1, h2⟩ := hl
    dsimp only at h1 h2
    refine ⟨?_, ?_⟩
    · simp [txPps, Tx.withRest, h1, checkNext, h2, ppsFrame]
    · exact ⟨by simp [txPps, h1], by simp [txPps, h1, h2]⟩

theorem txRr_rest (t : Tx) (x : List Nat) (h : t.Last) : SameTx x (txRr (t.withRest x)) (txRr t) := by
  unfold txRr
  rw [show (t.withRest x).t5exp = t.t5exp from rfl]
  split <;> exact ⟨rfl, h⟩

theorem txDcn_rest (t : Tx) (x : List Nat) (h : t.Last) : SameTx x (txDcn (t.withRest x)) (txDcn t) := ⟨rfl, h⟩

theorem txMcf_rest (cfg cfg' : Cfg) (t : Tx) (x : List Nat) (h : t.Last) : SameTx x (txMcf cfg' (t.withRest x)) (txMcf cfg t) := by
  obtain ⟨h1, h2⟩ := h
  rw [txMcf_last (t := t.withRest x) h1, txMcf_last h1]
  have h2' : (t.withRest x).docs = [] := h2
  cases hs : t.step with
  | null => simp [SameTx, nextPage, Tx.withRest, hs, Tx.Last, h1, h2]
  | mps => simp [SameTx, nextPage, Tx.withRest, hs, Tx.Last, h1, h2]
  | eop => simp [SameTx, nextPage, Tx.withRest, hs, Tx.Last, h1, h2, txDcn]

theorem txPpr_rest (t : Tx) (map : List Nat) (x : List Nat) (h : t.Last) : SameTx x (txPpr (t.withRest x) map) (txPpr t map) := by
  unfold txPpr
  exact SameTx.ite Iff.rfl ⟨rfl, h⟩ (SameTx.ite Iff.rfl (SameTx.ite Iff.rfl ⟨rfl, h⟩ ⟨rfl, h⟩) ⟨rfl, h⟩)

theorem txRecv_rest (cfg cfg' : Cfg) (t : Tx) (m : Msg) (x : List Nat) (h : t.Last) :
    SameTx x (txRecv cfg' (t.withRest x) m) (txRecv cfg t m) := by
  have hst : (t.withRest x).st = t.st := rfl
  have pps : ∀ f, SameTx x (if f = t.step then (t.withRest x, []) else txDcn (t.withRest x)) (if f = t.step then (t, []) else txDcn t) := by
    intro f; split <;> exact ⟨rfl, h⟩
  cases hs : t.st <;> simp only [txRecv, hst, hs]
  · exact txDcn_rest t x h
  · cases m <;> first | exact txDcn_rest t x h | exact txMcf_rest cfg cfg' t x h | exact txPpr_rest t _ x h
                      | exact pps _ | exact txRr_rest { t with st := .ppsRnr } x h | exact ⟨rfl, h⟩
  · cases m <;> first | exact txDcn_rest t x h | exact txMcf_rest cfg cfg' t x h | exact txPpr_rest t _ x h
                      | exact pps _ | exact txRr_rest { t with st := .ppsRnr } x h | exact ⟨rfl, h⟩
  · cases m <;> first | exact txDcn_rest t x h | exact txMcf_rest cfg cfg' t x h
                      | exact pps _ | exact txRr_rest t x h | exact ⟨rfl, h⟩
  · cases m <;> first | exact txDcn_rest t x h | exact ⟨rfl, h⟩
  · cases m <;> first | exact txDcn_rest t x h | exact txRr_rest { t with st := .eorRnr } x h
  · cases m <;> first | exact txDcn_rest t x h | exact txRr_rest t x h | exact ⟨rfl, h⟩
  · exact ⟨rfl, h⟩

theorem txT4_rest (cfg cfg' : Cfg) (hc : cfg'.tries = cfg.tries) (t : Tx) (x : List Nat) (h : t.Last) :
    SameTx x (Ecm.txT4 cfg' (t.withRest x)) (Ecm.txT4 cfg t) := by
  unfold Ecm.txT4
  rw [hc]
  refine SameTx.ite Iff.rfl ⟨rfl, h⟩ (SameTx.ite Iff.rfl ⟨rfl, h⟩ ?_)
  have e : (t.withRest x).st = t.st := rfl
  cases hs : t.st <;> simp only [e, hs] <;>
    first | exact txRr_rest { t with st := .ppsRnr, retries := t.retries + 1 } x h
          | exact txRr_rest { t with st := .eorRnr, retries := t.retries + 1 } x h | exact ⟨rfl, h⟩

theorem step_rest (cfg cfg' : Cfg) (hc : cfg'.tries = cfg.tries) (s : Sys) (x : List Nat) (h : s.tx.Last) (e : Ev) :
    (s.withRest x).step cfg' e = (s.step cfg e).withRest x ∧ (s.step cfg e).tx.Last := by
  have key : ∀ (p q : Tx × List Msg) (bwd : List Msg), SameTx x p q →
      (⟨p.1, s.rx, s.fwd ++ p.2, bwd⟩ : Sys) = (⟨q.1, s.rx, s.fwd ++ q.2, bwd⟩ : Sys).withRest x ∧ q.1.Last := by
    intro p q bwd ⟨h1, h2⟩
    rw [h1]; exact ⟨rfl, h2⟩
  cases e with
  | txStep => exact key _ _ s.bwd (txStep_rest s.tx x h)
  | fwdDeliver =>
    obtain ⟨t, r, fwd, bwd⟩ := s
    cases fwd <;> exact ⟨rfl, h⟩
  | fwdLose => exact ⟨rfl, h⟩
  | bwdDeliver =>
    obtain ⟨t, r, fwd, bwd⟩ := s
    cases bwd with
    | nil => exact ⟨rfl, h⟩
    | cons m l => exact key _ _ l (txRecv_rest cfg cfg' t m x h)
  | bwdLose => exact ⟨rfl, h⟩
  | rxSent => exact ⟨rfl, h⟩
  | rxCarrier => exact ⟨rfl, h⟩
  | rxT2 => exact ⟨rfl, h⟩
  | rxT4 =>
    have e1 : Ecm.rxT4 cfg' s.rx = Ecm.rxT4 cfg s.rx := by simp only [Ecm.rxT4, hc]
    obtain ⟨t, r, fwd, bwd⟩ := s
    dsimp only [Sys.step, Sys.withRest]
    dsimp only at e1
    rw [e1]
    split <;> exact ⟨rfl, h⟩
  | txT4 =>
    have := key _ _ s.bwd (txT4_rest cfg cfg' hc s.tx x h)
    obtain ⟨t, r, fwd, bwd⟩ := s
    dsimp only [Sys.step]
    rw [show (Sys.withRest ⟨t, r, fwd, bwd⟩ x).fwd = fwd from rfl, show (Sys.withRest ⟨t, r, fwd, bwd⟩ x).bwd = bwd from rfl]
    split
    · exact this
    · exact ⟨rfl, h⟩
  | txT5 => exact ⟨rfl, h⟩
  | txT4Early => exact key _ _ s.bwd (txT4_rest cfg cfg' hc s.tx x h)

theorem run_rest (cfg cfg' : Cfg) (hc : cfg'.tries = cfg.tries) (x : List Nat) (evs : List Ev) : ∀ s : Sys, s.tx.Last →
    (s.withRest x).run cfg' evs = (s.run cfg evs).withRest x := by
  induction evs with
  | nil => intro s _; rfl
  | cons e evs ih =>
    intro s h
    obtain ⟨h1, h2⟩ := step_rest cfg cfg' hc s x h e
    show Sys.run cfg' ((s.withRest x).step cfg' e) evs = _
    rw [h1]
    exact ih _ h2

/-- The first `n` frames of a page which has more. -/
theorem fill_first (sz : Nat) (n : Nat) : ∀ (i : Nat) (rest : List Nat) (buf : Buf), 0 < sz → n * sz ≤ rest.length →
    (fill sz n i rest buf) = ((fill sz n i (rest.take (n * sz)) buf).1, i + n, false, rest.drop (n * sz)) ∧
    (fill sz n i (rest.take (n * sz)) buf).2 = (i + n, false, []) := by
  induction n with
  | zero => intro i rest buf _ _; simp [fill]
  | succ n ih =>
    intro i rest buf hs h
    have hm : (n + 1) * sz = sz + n * sz := by rw [Nat.succ_mul, Nat.add_comm]
    have h1 : ¬ (rest.take sz).length < sz := by simp; omega
    have h2 : ¬ ((rest.take ((n + 1) * sz)).take sz).length < sz := by simp; omega
    have h3 : (rest.take ((n + 1) * sz)).take sz = rest.take sz := by rw [List.take_take]; congr 1; omega
    have h4 : (rest.take ((n + 1) * sz)).drop sz = (rest.drop sz).take (n * sz) := by
      rw [List.drop_take]; congr 1; omega
    have e1 : fill sz (n + 1) i rest buf = fill sz n (i + 1) (rest.drop sz) (buf.set i (some (rest.take sz))) := by
      conv_lhs => rw [fill]
      exact if_neg h1
    have e2 : fill sz (n + 1) i (rest.take ((n + 1) * sz)) buf =
        fill sz n (i + 1) ((rest.drop sz).take (n * sz)) (buf.set i (some (rest.take sz))) := by
      conv_lhs => rw [fill]
      rw [if_neg h2, h3, h4]
    obtain ⟨a, b⟩ := ih (i + 1) (rest.drop sz) (buf.set i (some (rest.take sz))) hs (by simp; omega)
    rw [e1, e2]
    refine ⟨?_, ?_⟩
    · rw [a, List.drop_drop]
      congr 2
      · omega
      · congr 1; rw [hm]
    · rw [b]; congr 1; omega

theorem init_early (sz tries : Nat) (hs : 0 < sz) (d : List Nat) (hd : 256 * sz ≤ d.length) (fallback notReady : Nat) :
    Sys.init ⟨sz, fun _ => true, tries⟩ d [] fallback notReady =
      (Sys.init ⟨sz, List.isEmpty, tries⟩ (d.take (256 * sz)) [] fallback notReady).withRest (d.drop (256 * sz)) ∧
    (Sys.init ⟨sz, List.isEmpty, tries⟩ (d.take (256 * sz)) [] fallback notReady).tx.Last := by
  have key : ∀ (fill : Nat → List Nat → Buf → Buf × Nat × Bool × List Nat) (buf : Buf) (t : Tx) (n : Nat),
      fill 0 d buf = ((fill 0 (d.take n) buf).1, 0 + 256, false, d.drop n) → (fill 0 (d.take n) buf).2 = (0 + 256, false, []) →
      startBurst { t with
        pprCount := 0, progress := 0, buf := (fill 0 d buf).1, frames := (fill 0 d buf).2.1, rest := (fill 0 d buf).2.2.2
        atEnd := if (fill 0 d buf).2.2.1 then true else true } =
      (startBurst { t with
        pprCount := 0, progress := 0, buf := (fill 0 (d.take n) buf).1, frames := (fill 0 (d.take n) buf).2.1,
        rest := (fill 0 (d.take n) buf).2.2.2
        atEnd := if (fill 0 (d.take n) buf).2.2.1 then true else (fill 0 (d.take n) buf).2.2.2.isEmpty }).withRest (d.drop n) ∧
      (if (fill 0 (d.take n) buf).2.2.1 then true else (fill 0 (d.take n) buf).2.2.2.isEmpty) = true := by
    intro fill buf t n h1 h2
    rw [h1, h2]
    exact ⟨rfl, rfl⟩
  obtain ⟨a, b⟩ := fill_first sz 256 0 d (fun _ => none) hs hd
  obtain ⟨k1, k2⟩ := key (fun i => fill sz 256 i) (fun _ => none)
    { st := .iv, rest := d, docs := [], buf := fun _ => none, frames := 0, cur := 0, burst := 0, atEnd := false, page := 0,
      block := 0, step := .null, pprCount := 0, progress := 0, fallback := fallback, retries := 0, t5exp := false, ok := false }
    (256 * sz) a b
  exact ⟨congrArg (fun t : Tx => (⟨t, rxInit notReady, [], []⟩ : Sys)) k1, k2, rfl⟩

end Ecm
