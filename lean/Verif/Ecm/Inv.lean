import Verif.Ecm.Lemmas

/-!
# What holds of the two ends and the line throughout a call

`past` are the pages before the current one, `d` is the current page, `pre` is what its earlier blocks held, `F` are the frames of
the current block.
-/

namespace Ecm

/-- What is settled before a call for the theorems: a frame length which T.30 has, and an encoder which says that a page is complete
when it is. -/
structure Cfg.Ok (cfg : Cfg) : Prop where
  sz : cfg.sz = 64 ∨ cfg.sz = 256
  complete : ∀ r, cfg.complete r = true ↔ r = []

/-- The sender's block. -/
structure Blk (cfg : Cfg) (all : List (List Nat)) (t : Tx) (past : List (List Nat)) (d pre : List Nat) (F : List (List Nat)) : Prop where
  all : all = past ++ d :: t.docs
  page : t.page = past.length
  frames : F.length = t.frames
  pos : 0 < t.frames
  max : t.frames ≤ 256
  lens : ∀ f ∈ F, f.length = cfg.sz
  buf : ∀ i, i < t.frames → t.buf i = F[i]? ∨ t.buf i = none
  more : t.atEnd = false → t.rest ≠ [] ∧ d = pre ++ F.flatten ++ t.rest
  ends : t.atEnd = true → Padded cfg.sz d (pre ++ F.flatten)
  step : t.st ≠ .iv → t.atEnd = true → t.step = checkNext t
  docs : ∀ x ∈ t.docs, x ≠ []
  ok : t.ok = false
  pre : pre <+: d

/-- The states in which the sender waits for the answer to a PPS. -/
def TxSt.waits (s : TxSt) : Prop := s = .ppsNull ∨ s = .ppsQ ∨ s = .ppsRnr

/-- The receiver is at the block which the sender is sending. -/
structure Synced (cfg : Cfg) (t : Tx) (r : Rx) (past : List (List Nat)) (pre : List Nat) (F : List (List Nat)) : Prop where
  st : t.st.waits ∨ t.st = .iv ∨ t.st = .ctc
  page : r.page = t.page
  block : r.block = t.block
  pages : List.Forall₂ (Padded cfg.sz) past r.pages
  out : r.out = pre
  stored : ∀ i f, r.buf i = some f → F[i]? = some f
  count : r.frames = none ∨ r.frames = some t.frames
  ticked : ∀ i, i < t.frames → t.buf i = none → r.buf i ≠ none
  fresh : r.frames = none → (∀ i, i < t.frames → t.buf i ≠ none) ∧ (t.st = .iv → t.burst = min t.cur t.frames) ∧
    (t.st ≠ .iv → t.burst = t.frames)
  next : r.next = .mps
  rnr : r.st = .postRnr → r.blockOk = false ∧ r.map = frameMap r.buf ∧ r.frames ≠ none ∧ t.st.waits

/-- The receiver has the block which the sender is sending, and the sender does not know. -/
structure Ahead (cfg : Cfg) (t : Tx) (r : Rx) (past : List (List Nat)) (d pre : List Nat) (F : List (List Nat)) : Prop where
  st : t.st.waits
  buf : ∀ i, r.buf i = none
  frames : r.frames = none
  mid : t.atEnd = false → r.page = t.page ∧ r.block = t.block + 1 ∧ r.out = pre ++ F.flatten ∧
    List.Forall₂ (Padded cfg.sz) past r.pages ∧ r.next = .mps
  last : t.atEnd = true → r.page = t.page + 1 ∧ r.block = 0 ∧ r.out = [] ∧
    List.Forall₂ (Padded cfg.sz) (past ++ [d]) r.pages ∧ r.next = t.step
  rnr : r.st = .postRnr → r.blockOk = true

/-- A frame of a burst. -/
def InBurst (F : List (List Nat)) (m : Msg) : Prop := m = .rcp ∨ ∃ i f, m = .fcd i f ∧ F[i]? = some f

/-- A command at the end of a transmission, under way. -/
def Command (t : Tx) (frames : Option Nat) : Msg → Prop
  | .pps f p b c => (t.st = .ppsNull ∨ t.st = .ppsQ) ∧ f = (if t.atEnd then t.step else .null) ∧ p = t.page % 256 ∧
    b = t.block % 256 ∧ (frames = none → c + 1 = t.frames)
  | .rr => t.st = .ppsRnr
  | .ctc => t.st = .ctc
  | _ => False

/-- A response under way when the receiver is at the sender's block. -/
def ReplyS (r : Rx) : Msg → Prop
  | .ppr map => map = frameMap r.buf ∧ r.frames ≠ none ∧ r.st ≠ .postRnr
  | .mcf => False
  | .pps _ _ _ _ => False
  | _ => True

/-- A response under way when the receiver is ahead. -/
def ReplyA (r : Rx) : Msg → Prop
  | .mcf => r.st ≠ .postRnr
  | .ppr _ => False
  | .pps _ _ _ _ => False
  | _ => True

/-- What is under way when the receiver is at the sender's block. -/
def ChanS (t : Tx) (r : Rx) (fwd bwd : List Msg) (F : List (List Nat)) : Prop :=
  (bwd = [] ∧ ∃ l fin, fwd = l ++ fin ∧ (∀ m ∈ l, InBurst F m) ∧ (fin = [] ∨ ∃ m, fin = [m] ∧ Command t r.frames m)) ∨
  (t.st ≠ .iv ∧ fwd = [] ∧ ∃ m, bwd = [m] ∧ ReplyS r m)

/-- What is under way when the receiver is ahead. Here, a PPS may have any count. -/
def ChanA (t : Tx) (r : Rx) (fwd bwd : List Msg) : Prop :=
  (bwd = [] ∧ (fwd = [] ∨ ∃ m, fwd = [m] ∧ Command t (some 0) m)) ∨
  (fwd = [] ∧ ∃ m, bwd = [m] ∧ ReplyA r m)

/-- The transfer goes on. -/
def Live (cfg : Cfg) (all : List (List Nat)) (s : Sys) : Prop :=
  ∃ past d pre F, Blk cfg all s.tx past d pre F ∧
    ((Synced cfg s.tx s.rx past pre F ∧ ChanS s.tx s.rx s.fwd s.bwd F) ∨
     (Ahead cfg s.tx s.rx past d pre F ∧ ChanA s.tx s.rx s.fwd s.bwd))

/-- A frame which makes the receiver commit nothing. -/
def Harmless (m : Msg) : Prop := (∃ f, m = .eor f) ∨ m = .rr ∨ m = .dcn

/-- The sender has given up, or has finished. -/
structure Over (cfg : Cfg) (all : List (List Nat)) (s : Sys) : Prop where
  st : s.tx.st = .eor ∨ s.tx.st = .eorRnr ∨ s.tx.st = .done
  got : Prefix cfg.sz all s.rx.pages s.rx.out
  ok : s.tx.ok = true → s.tx.st = .done ∧ Whole cfg.sz all s.rx.pages
  fwd : ∀ m ∈ s.fwd, Harmless m

def Inv (cfg : Cfg) (all : List (List Nat)) (s : Sys) : Prop := Live cfg all s ∨ Over cfg all s

/-! ## Consequences -/

theorem Live.got {cfg all s} (h : Live cfg all s) : Prefix cfg.sz all s.rx.pages s.rx.out ∧ s.tx.ok = false := by
  obtain ⟨past, d, pre, F, hb, ⟨hs, _⟩ | ⟨ha, _⟩⟩ := h
  · exact ⟨⟨past, d :: s.tx.docs, hb.all, hs.pages, Or.inr ⟨d, _, rfl, hs.out ▸ hb.pre⟩⟩, hb.ok⟩
  · refine ⟨?_, hb.ok⟩
    cases he : s.tx.atEnd with
    | false =>
      obtain ⟨_, _, ho, hp, _⟩ := ha.mid he
      exact ⟨past, d :: s.tx.docs, hb.all, hp, Or.inr ⟨d, _, rfl, ho ▸ ⟨s.tx.rest, (hb.more he).2.symm⟩⟩⟩
    | true =>
      obtain ⟨_, _, ho, hp, _⟩ := ha.last he
      exact ⟨past ++ [d], s.tx.docs, by rw [hb.all]; simp, hp, Or.inl ho⟩

theorem Inv.got {cfg all s} (h : Inv cfg all s) :
    Prefix cfg.sz all s.rx.pages s.rx.out ∧ (s.tx.ok = true → Whole cfg.sz all s.rx.pages) := by
  rcases h with h | h
  · exact ⟨h.got.1, fun hk => by rw [h.got.2] at hk; cases hk⟩
  · exact ⟨h.got, fun hk => (h.ok hk).2⟩

/-- The sender gives up. -/
theorem Live.over {cfg all s} (h : Live cfg all s) {t : Tx} {fwd bwd : List Msg}
    (st : t.st = .eor ∨ t.st = .eorRnr ∨ t.st = .done) (ok : t.ok = false) (hf : ∀ m ∈ fwd, Harmless m) :
    Inv cfg all { tx := t, rx := s.rx, fwd := fwd, bwd := bwd } :=
  Or.inr ⟨st, h.got.1, fun hk => absurd (ok.symm.trans hk) (by decide), hf⟩

/-! ## Changes which do not matter -/

/-- The receiver changes its state. -/
theorem Synced.rxSt {cfg t r past pre F} (h : Synced cfg t r past pre F) (st : RxSt) (k : Nat)
    (hr : st = .postRnr → r.st = .postRnr) : Synced cfg t { r with st := st, retries := k } past pre F :=
  ⟨h.st, h.page, h.block, h.pages, h.out, h.stored, h.count, h.ticked, h.fresh, h.next, fun e => h.rnr (hr e)⟩

theorem Ahead.rxSt {cfg t r past d pre F} (h : Ahead cfg t r past d pre F) (st : RxSt) (k : Nat)
    (hr : st = .postRnr → r.st = .postRnr) : Ahead cfg t { r with st := st, retries := k } past d pre F :=
  ⟨h.st, h.buf, h.frames, h.mid, h.last, fun e => h.rnr (hr e)⟩

theorem ChanS.rxSt {t r fwd bwd F} (h : ChanS t r fwd bwd F) (st : RxSt) (k : Nat) (hr : st = .postRnr → r.st = .postRnr) :
    ChanS t { r with st := st, retries := k } fwd bwd F := by
  rcases h with h | ⟨a, b, m, c, e⟩
  · exact Or.inl h
  · refine Or.inr ⟨a, b, m, c, ?_⟩
    cases m <;> first | exact e | exact ⟨e.1, e.2.1, fun x => e.2.2 (hr x)⟩

theorem ChanA.rxSt {t r fwd bwd} (h : ChanA t r fwd bwd) (st : RxSt) (k : Nat) (hr : st = .postRnr → r.st = .postRnr) :
    ChanA t { r with st := st, retries := k } fwd bwd := by
  rcases h with h | ⟨a, m, c, e⟩
  · exact Or.inl h
  · refine Or.inr ⟨a, m, c, ?_⟩
    cases m <;> first | exact e | exact fun x => e (hr x)

theorem Live.rxSt {cfg all s} (h : Live cfg all s) (st : RxSt) (k : Nat) (hr : st = .postRnr → s.rx.st = .postRnr) :
    Live cfg all { s with rx := { s.rx with st := st, retries := k } } := by
  obtain ⟨past, d, pre, F, hb, ⟨hs, hc⟩ | ⟨ha, hc⟩⟩ := h
  · exact ⟨past, d, pre, F, hb, Or.inl ⟨hs.rxSt st k hr, hc.rxSt st k hr⟩⟩
  · exact ⟨past, d, pre, F, hb, Or.inr ⟨ha.rxSt st k hr, hc.rxSt st k hr⟩⟩

/-- The sender's counts of retries and its status change. -/
theorem Blk.txR {cfg all t past d pre F} (h : Blk cfg all t past d pre F) (k : Nat) (b : Bool) :
    Blk cfg all { t with retries := k, t5exp := b } past d pre F :=
  ⟨h.all, h.page, h.frames, h.pos, h.max, h.lens, h.buf, h.more, h.ends, h.step, h.docs, h.ok, h.pre⟩

theorem Synced.txR {cfg t r past pre F} (h : Synced cfg t r past pre F) (k : Nat) (b : Bool) :
    Synced cfg { t with retries := k, t5exp := b } r past pre F :=
  ⟨h.st, h.page, h.block, h.pages, h.out, h.stored, h.count, h.ticked, h.fresh, h.next, h.rnr⟩

theorem Ahead.txR {cfg t r past d pre F} (h : Ahead cfg t r past d pre F) (k : Nat) (b : Bool) :
    Ahead cfg { t with retries := k, t5exp := b } r past d pre F :=
  ⟨h.st, h.buf, h.frames, h.mid, h.last, h.rnr⟩

theorem Command.txR {t fr m} (h : Command t fr m) (k : Nat) (b : Bool) : Command { t with retries := k, t5exp := b } fr m := by
  cases m <;> exact h

theorem ChanS.txR {t r fwd bwd F} (h : ChanS t r fwd bwd F) (k : Nat) (b : Bool) :
    ChanS { t with retries := k, t5exp := b } r fwd bwd F := by
  rcases h with ⟨a, l, fin, e, f, g⟩ | h
  · refine Or.inl ⟨a, l, fin, e, f, ?_⟩
    rcases g with g | ⟨m, g, c⟩
    · exact Or.inl g
    · exact Or.inr ⟨m, g, c.txR k b⟩
  · exact Or.inr h

theorem ChanA.txR {t r fwd bwd} (h : ChanA t r fwd bwd) (k : Nat) (b : Bool) :
    ChanA { t with retries := k, t5exp := b } r fwd bwd := by
  rcases h with ⟨a, g⟩ | h
  · refine Or.inl ⟨a, ?_⟩
    rcases g with g | ⟨m, g, c⟩
    · exact Or.inl g
    · exact Or.inr ⟨m, g, c.txR k b⟩
  · exact Or.inr h

theorem Live.txR {cfg all s} (h : Live cfg all s) (k : Nat) (b : Bool) :
    Live cfg all { s with tx := { s.tx with retries := k, t5exp := b } } := by
  obtain ⟨past, d, pre, F, hb, ⟨hs, hc⟩ | ⟨ha, hc⟩⟩ := h
  · exact ⟨past, d, pre, F, hb.txR k b, Or.inl ⟨hs.txR k b, hc.txR k b⟩⟩
  · exact ⟨past, d, pre, F, hb.txR k b, Or.inr ⟨ha.txR k b, hc.txR k b⟩⟩

end Ecm
