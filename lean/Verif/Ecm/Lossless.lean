import Verif.Ecm.Steps

/-!
# When no more frames are lost, the transfer is finished
-/

namespace Ecm

/-- The events of a line which loses nothing, between stations which do not wait too long. -/
def Ev.clean (e : Ev) : Prop := e = .txStep ∨ e = .fwdDeliver ∨ e = .bwdDeliver ∨ e = .rxSent

def Reach (cfg : Cfg) (s s' : Sys) : Prop := ∃ evs, (∀ e ∈ evs, e.clean) ∧ s.run cfg evs = s'

theorem Reach.refl (cfg : Cfg) (s : Sys) : Reach cfg s s := ⟨[], by simp, rfl⟩

theorem Reach.trans {cfg : Cfg} {s s' s'' : Sys} (h : Reach cfg s s') (h' : Reach cfg s' s'') : Reach cfg s s'' := by
  obtain ⟨l, hl, rfl⟩ := h
  obtain ⟨l', hl', rfl⟩ := h'
  refine ⟨l ++ l', ?_, by simp [Sys.run]⟩
  intro e he
  rcases List.mem_append.1 he with h | h
  · exact hl e h
  · exact hl' e h

theorem Reach.head {cfg : Cfg} {s s' : Sys} (e : Ev) (he : e.clean) (h : Reach cfg (s.step cfg e) s') : Reach cfg s s' :=
  Reach.trans ⟨[e], by intro x hx; rw [List.mem_singleton.1 hx]; exact he, rfl⟩ h

theorem Reach.inv {cfg : Cfg} (ok : cfg.Ok) {all : List (List Nat)} {s s' : Sys} (h : Reach cfg s s') (hi : Inv cfg all s) :
    Inv cfg all s' := by
  obtain ⟨l, hl, rfl⟩ := h
  refine run_inv ok l s hi ?_
  intro e he h0
  rcases hl e he with h | h | h | h <;> rw [h] at h0 <;> cases h0

/-- A burst of frames, and what it leaves at the receiver. -/
theorem burst_run (cfg : Cfg) (k : Nat) : ∀ (t : Tx) (r : Rx), t.st = .iv → t.frames + 3 - t.cur ≤ k →
    (r.st = .docEcm ∨ (r.st = .postDoc ∧ t.frames < t.cur)) →
    (∀ i f, i < t.frames → t.buf i = some f → f.length ≤ 256) →
    (∀ i, i < t.frames → i < t.cur ∨ t.buf i = none → r.buf i ≠ none) →
    ∃ t' r', Reach cfg ⟨t, r, [], []⟩ ⟨t', r', [], []⟩ ∧ t'.st = .iv ∧ sendNext t' = (t', none) ∧ t'.frames = t.frames ∧
      t'.rest = t.rest ∧ t'.docs = t.docs ∧ t'.t5exp = t.t5exp ∧ r'.notReady = r.notReady ∧ (r'.st = .docEcm ∨ r'.st = .postDoc) ∧
      ∀ i, i < t.frames → r'.buf i ≠ none := by
  induction k with
  | zero =>
    intro t r hst hk hr hlen hbuf
    refine ⟨t, r, Reach.refl _ _, hst, ?_, rfl, rfl, rfl, rfl, rfl, by rcases hr with h | h <;> simp [h], ?_⟩
    · have : t.frames - t.cur = 0 := by omega
      have hge : ¬ t.cur < t.frames := by omega
      have hge3 : ¬ t.cur < t.frames + 3 := by omega
      simp only [sendNext, this, nextFrame, if_neg hge, if_neg hge3]
    · intro i hi; exact hbuf i hi (Or.inl (by omega))
  | succ k ih =>
    intro t r hst hk hr hlen hbuf
    cases hn : nextFrame t.buf (t.frames - t.cur) t.cur with
    | some p =>
      obtain ⟨i, f⟩ := p
      obtain ⟨h3, h1, h2, h4⟩ := nextFrame_some _ _ _ _ _ hn
      have hi : i < t.frames := by omega
      have hr' : r.st = .docEcm := by
        rcases hr with h | ⟨_, h⟩
        · exact h
        · omega
      have e : ((⟨t, r, [], []⟩ : Sys).step cfg .txStep).step cfg .fwdDeliver =
          ⟨{ t with cur := i + 1, burst := t.burst + 1 }, { r with buf := r.buf.set i (some f) }, [], []⟩ := by
        have hl := hlen i f hi h3
        simp [Sys.step, Ecm.txStep, hst, sendNext, hn, rxRecv, hr', rxDoc, rxFcd, hl]
      have hb' : ∀ j, j < t.frames → j < i + 1 ∨ t.buf j = none → Buf.set r.buf i (some f) j ≠ none := by
        intro j hj hor
        by_cases hji : j = i
        · subst hji; rw [set_same]; simp
        · rw [set_other _ _ hji]
          apply hbuf j hj
          rcases hor with h | h
          · by_cases hjc : j < t.cur
            · exact Or.inl hjc
            · exact Or.inr (h4 j (by omega) (by omega))
          · exact Or.inr h
      obtain ⟨t', r', a, b⟩ := ih { t with cur := i + 1, burst := t.burst + 1 } { r with buf := r.buf.set i (some f) } hst
        (by show t.frames + 3 - (i + 1) ≤ _; omega) (Or.inl hr') hlen hb'
      refine ⟨t', r', ?_, b⟩
      refine Reach.head .txStep (Or.inl rfl) (Reach.head .fwdDeliver (Or.inr (Or.inl rfl)) ?_)
      rw [e]; exact a
    | none =>
      have hnone := nextFrame_none _ _ _ hn
      have hall : ∀ i, i < t.frames → r.buf i ≠ none := by
        intro i hi
        apply hbuf i hi
        by_cases h : i < t.cur
        · exact Or.inl h
        · exact Or.inr (hnone i (by omega) (by omega))
      by_cases hc : t.cur < t.frames + 3
      · have hr' : rxRecv r .rcp = ({ r with st := .postDoc }, []) := by
          rcases hr with h | ⟨h, _⟩ <;> simp only [rxRecv, h, rxDoc, rxRcp]
          · simp
          · simp [← h]
        have hcur : (if t.cur < t.frames then t.frames else t.cur) < t.frames + 3 := by split <;> omega
        have e : ((⟨t, r, [], []⟩ : Sys).step cfg .txStep).step cfg .fwdDeliver =
            ⟨{ t with cur := (if t.cur < t.frames then t.frames else t.cur) + 1 }, { r with st := .postDoc }, [], []⟩ := by
          simp [Sys.step, Ecm.txStep, hst, sendNext, hn, hcur, hr']
        obtain ⟨t', r', a, b⟩ := ih { t with cur := (if t.cur < t.frames then t.frames else t.cur) + 1 } { r with st := .postDoc } hst
          (by show t.frames + 3 - ((if t.cur < t.frames then t.frames else t.cur) + 1) ≤ _; split <;> omega)
          (Or.inr ⟨rfl, by show t.frames < (if t.cur < t.frames then t.frames else t.cur) + 1; split <;> omega⟩) hlen
          (fun j hj _ => hall j hj)
        refine ⟨t', r', ?_, b⟩
        refine Reach.head .txStep (Or.inl rfl) (Reach.head .fwdDeliver (Or.inr (Or.inl rfl)) ?_)
        rw [e]; exact a
      · refine ⟨t, r, Reach.refl _ _, hst, ?_, rfl, rfl, rfl, rfl, rfl, by rcases hr with h | h <;> simp [h], hall⟩
        have : t.frames - t.cur = 0 := by omega
        have hge : ¬ t.cur < t.frames := by omega
        simp only [sendNext, this, nextFrame, if_neg hge, if_neg hc]

/-- A PPS at a receiver which has the whole block. -/
theorem rxPps_full {cfg : Cfg} (ok : cfg.Ok) {all past : List (List Nat)} {d pre : List Nat} {F : List (List Nat)} {t : Tx} {r : Rx}
    {f : Fcf2} {p b c : Nat} (hb : Blk cfg all t past d pre F) (hs : Synced cfg t r past pre F)
    (hc : Command t r.frames (.pps f p b c)) (hall : ∀ i, i < t.frames → r.buf i ≠ none) :
    ∃ r1, rxPps r f p b c = rxReply r1 ∧ r1.blockOk = true ∧ r1.notReady = r.notReady := by
  obtain ⟨hst, rfl, rfl, rfl, hcount⟩ := hc
  have hfr : r.frames.getD (c + 1) = t.frames := by
    rcases hs.count with h | h
    · rw [h]; exact hcount h
    · rw [h]; rfl
  have hlen : ∀ j g, r.buf j = some g → g.length = cfg.sz :=
    fun j g hj => hb.lens g (List.mem_of_getElem? (hs.stored j g hj))
  have hvet : vet t.frames 256 0 true 256 r.buf = r.buf :=
    vet_id cfg.sz ok.sz t.frames 256 0 true 256 r.buf hlen (Or.inl ⟨rfl, rfl⟩)
  have hmatch : ¬(r.page % 256 ≠ t.page % 256 ∨ r.block % 256 ≠ t.block % 256) := by
    rw [hs.page, hs.block]; simp
  have hfb : firstBad r.buf 256 0 ≥ t.frames := (firstBad_ge r.buf t.frames 256 0 rfl hb.max).2 (fun j _ hj => hall j hj)
  have e : rxPps r (if t.atEnd then t.step else .null) (t.page % 256) (t.block % 256) c =
      rxReply (rxCommit { r with last := (if t.atEnd then t.step else .null), frames := some t.frames, map := frameMap r.buf,
                                 blockOk := true } t.frames) := by
    simp only [rxPps, hfr, Option.getD_some, hvet, if_neg hmatch, decide_eq_true hfb, if_true]
  refine ⟨_, e, ?_, ?_⟩
  · rw [rxCommit]; dsimp only [rxEndPage]; generalize (if t.atEnd = true then t.step else Fcf2.null) = x; split <;> rfl
  · rw [rxCommit]; dsimp only [rxEndPage]; generalize (if t.atEnd = true then t.step else Fcf2.null) = x; split <;> rfl

/-- The receiver is not ready for some time. -/
theorem rr_run (cfg : Cfg) (k : Nat) : ∀ (t : Tx) (r : Rx), t.st.waits → t.t5exp = false → r.blockOk = true → r.notReady = k →
    ∃ st, st.waits ∧ Reach cfg ⟨t, (rxReply r).1, [], (rxReply r).2⟩
      ⟨{ t with st := st }, { r with notReady := 0, st := .postMcf }, [], [.mcf]⟩ := by
  induction k with
  | zero =>
    intro t r hw h5 hb hk
    have e : rxReply r = ({ r with notReady := 0, st := .postMcf }, [.mcf]) := by
      simp only [rxReply, hk, rxRespond, hb, if_true]
      rw [if_neg (by decide), ← hk]
    refine ⟨t.st, hw, ?_⟩
    rw [e]; exact Reach.refl _ _
  | succ k ih =>
    intro t r hw h5 hb hk
    have e : rxReply r = ({ r with notReady := k, st := .postRnr }, [.rnr]) := by
      simp only [rxReply, hk]
      rw [if_pos (by omega)]; rfl
    obtain ⟨st, hst, h⟩ := ih { t with st := .ppsRnr } { r with notReady := k, st := .postRnr } (Or.inr (Or.inr rfl)) h5 hb rfl
    refine ⟨st, hst, ?_⟩
    rw [e]
    refine Reach.head .bwdDeliver (Or.inr (Or.inr (Or.inl rfl))) (Reach.head .fwdDeliver (Or.inr (Or.inl rfl)) ?_)
    have e2 : ((⟨t, { r with notReady := k, st := .postRnr }, [], [.rnr]⟩ : Sys).step cfg .bwdDeliver) =
        ⟨{ t with st := .ppsRnr }, { r with notReady := k, st := .postRnr }, [.rr], []⟩ := by
      rcases hw with h | h | h <;> simp [Sys.step, txRecv, h, txPpsSent, txPpsRnr, txRr, h5]
      rw [← h, ← h5]
    rw [e2]
    exact h

theorem fill_rest (sz : Nat) (n : Nat) : ∀ i rest buf, (fill sz n i rest buf).2.2.2.length ≤ rest.length := by
  induction n with
  | zero => intro i rest buf; exact Nat.le_refl _
  | succ n ih =>
    intro i rest buf
    simp only [fill]
    split
    · split <;> simp
    · refine Nat.le_trans (ih _ _ _) ?_
      simp

theorem fill_rest_lt (sz : Nat) (hs : 0 < sz) (n i : Nat) (rest : List Nat) (buf : Buf) (h : rest ≠ []) :
    (fill sz (n + 1) i rest buf).2.2.2.length < rest.length := by
  have hp : 0 < rest.length := List.length_pos_of_ne_nil h
  simp only [fill]
  split
  · split <;> simp <;> omega
  · refine Nat.lt_of_le_of_lt (fill_rest _ _ _ _ _) ?_
    simp; omega

theorem getPartial_rest {cfg : Cfg} (ok : cfg.Ok) (t : Tx) (h : t.rest ≠ []) : (getPartial cfg t).rest.length < t.rest.length := by
  have hs : 0 < cfg.sz := by rcases ok.sz with h | h <;> omega
  exact fill_rest_lt cfg.sz hs 255 0 t.rest t.buf h

/-- What the sender has still to get. -/
def Tx.todo (t : Tx) : Nat := t.rest.length + (t.docs.map fun d => d.length + 1).sum

/-- The sender begins a burst, and the receiver waits for it. -/
structure Begun (s : Sys) : Prop where
  tx : s.tx.st = .iv
  cur : s.tx.cur = 0
  rx : s.rx.st = .docEcm
  t5 : s.tx.t5exp = false
  fwd : s.fwd = []
  bwd : s.bwd = []

/-- MCF when nothing is lost. -/
theorem mcf_run {cfg : Cfg} (ok : cfg.Ok) {all : List (List Nat)} {t : Tx} {r : Rx} (h : Live cfg all ⟨t, r, [], [.mcf]⟩)
    (hr : r.st = .postMcf) (h5 : t.t5exp = false) :
    ∃ s, Reach cfg ⟨t, r, [], [.mcf]⟩ s ∧ (s.tx.ok = true ∨ (Live cfg all s ∧ Begun s ∧ s.tx.todo < t.todo)) := by
  have h1 := live_step ok h .rxSent (by decide)
  have hrun : ∀ s', Reach cfg (((⟨t, r, [], [.mcf]⟩ : Sys).step cfg .rxSent).step cfg .bwdDeliver) s' → Reach cfg ⟨t, r, [], [.mcf]⟩ s' :=
    fun s' h => Reach.head .rxSent (Or.inr (Or.inr (Or.inr rfl))) (Reach.head .bwdDeliver (Or.inr (Or.inr (Or.inl rfl))) h)
  have h0 := h
  obtain ⟨past, d, pre, F, hb, ⟨hs, hc⟩ | ⟨ha, hc⟩⟩ := h
  · rcases hc with ⟨hc, _⟩ | ⟨_, _, m, hc, hm⟩
    · cases hc
    · cases hc; cases hm
  dsimp only at hb ha hc
  have hrec : txRecv cfg t .mcf = txMcf cfg t := by
    rcases ha.st with h | h | h <;> simp only [txRecv, h, txPpsSent, txPpsRnr]
  have e : ((⟨t, r, [], [.mcf]⟩ : Sys).step cfg .rxSent).step cfg .bwdDeliver = ⟨(txMcf cfg t).1, Ecm.rxSent r, (txMcf cfg t).2, []⟩ := by
    simp [Sys.step, hrec]
  have hmps : r.next = .mps → Ecm.rxSent r = { r with st := .docEcm } := by
    intro h; simp only [Ecm.rxSent, hr, h]; simp
  have hinv : Inv cfg all ⟨(txMcf cfg t).1, Ecm.rxSent r, (txMcf cfg t).2, []⟩ := by
    rw [← e]
    exact Reach.inv ok (hrun _ (Reach.refl _ _)) (Or.inl h0)
  have hiv : t.st ≠ .iv := by
    rcases ha.st with h | h | h <;> rw [h] <;> decide
  have nover : ∀ (t' : Tx) r' fwd bwd, Inv cfg all ⟨t', r', fwd, bwd⟩ → t'.st = .iv → Live cfg all ⟨t', r', fwd, bwd⟩ := by
    intro t' r' fwd bwd h hst
    rcases h with h | h
    · exact h
    · have := h.st
      simp [hst] at this
  refine ⟨_, hrun _ (Reach.refl _ _), ?_⟩
  rw [e]
  cases he : t.atEnd with
  | false =>
    right
    obtain ⟨hne, hd⟩ := hb.more he
    obtain ⟨F', g⟩ := getPartial_got ok { t with retries := 0 } d (pre ++ F.flatten) hd hne
    rw [txMcf_mid he g.pos] at hinv ⊢
    refine ⟨nover _ _ _ _ hinv rfl, ⟨rfl, rfl, ?_, h5, rfl, rfl⟩, ?_⟩
    · rw [hmps (ha.mid he).2.2.2.2]
    · have := getPartial_rest ok { t with retries := 0 } hne
      show (getPartial cfg { t with retries := 0 }).rest.length + _ < t.rest.length + _
      exact Nat.add_lt_add_right this _
  | true =>
    have hstep := hb.step hiv he
    obtain ⟨_, _, _, _, h5'⟩ := ha.last he
    cases hdocs : t.docs with
    | nil =>
      have hs : t.step = .eop := by rw [hstep, checkNext, hdocs]; rfl
      rw [txMcf_last he, nextPage_eop (t := { t with retries := 0 }) hs]
      exact Or.inl rfl
    | cons x xs =>
      right
      have hs : t.step = .mps := by rw [hstep, checkNext, hdocs]; rfl
      have hx : x ≠ [] := hb.docs x (by rw [hdocs]; simp)
      obtain ⟨F', g⟩ := getPartial_got ok
        { t with page := t.page + 1, block := 0, retries := 0, rest := x, docs := xs } x [] rfl hx
      rw [txMcf_last he, nextPage_mps (t := { t with retries := 0 }) hs hdocs g.pos] at hinv ⊢
      refine ⟨nover _ _ _ _ hinv rfl, ⟨rfl, rfl, ?_, h5, rfl, rfl⟩, ?_⟩
      · rw [hmps (h5'.trans hs)]
      · have := getPartial_rest ok { t with page := t.page + 1, block := 0, retries := 0, rest := x, docs := xs } hx
        have this' : (getPartial cfg { t with page := t.page + 1, block := 0, retries := 0, rest := x, docs := xs }).rest.length < x.length := this
        show (getPartial cfg { t with page := t.page + 1, block := 0, retries := 0, rest := x, docs := xs }).rest.length +
          (xs.map fun d => d.length + 1).sum < t.rest.length + (t.docs.map fun d => d.length + 1).sum
        rw [hdocs, List.map_cons, List.sum_cons]
        omega

/-- One block when nothing is lost. -/
theorem block_run {cfg : Cfg} (ok : cfg.Ok) {all : List (List Nat)} {s : Sys} (h : Live cfg all s) (hb : Begun s) :
    ∃ s', Reach cfg s s' ∧ (s'.tx.ok = true ∨ (Live cfg all s' ∧ Begun s' ∧ s'.tx.todo < s.tx.todo)) := by
  obtain ⟨t, r, fwd, bwd⟩ := s
  obtain ⟨htx, hcur, hrx, h5, hfwd, hbwd⟩ := hb
  dsimp only at htx hcur hrx h5 hfwd hbwd
  subst hfwd hbwd
  have h0 := h
  obtain ⟨past, d, pre, F, hb, ⟨hs, hc⟩ | ⟨ha, _⟩⟩ := h
  swap
  · have := ha.st
    simp [TxSt.waits, htx] at this
  dsimp only at hb hs hc
  obtain ⟨t1, r1, hreach, hst1, hsend, hfr, hrest, hdocs, ht5, hnr, hr1, hbuf⟩ := burst_run cfg _ t r htx (Nat.le_refl _) (Or.inl hrx)
    (by
      intro i f hi hf
      have hmem : f ∈ F := by
        rcases hb.buf i hi with h | h
        · rw [h] at hf; exact List.mem_of_getElem? hf
        · rw [h] at hf; cases hf
      have := hb.lens f hmem
      rcases ok.sz with h | h <;> omega)
    (by
      intro i hi hor
      rcases hor with h | h
      · omega
      · exact hs.ticked i hi h)
  have hl1 : Live cfg all ⟨t1, r1, [], []⟩ := by
    rcases hreach.inv ok (Or.inl h0) with h | h
    · exact h
    · have := h.st
      simp [hst1] at this
  -- the PPS
  have hl2 := txStep_live hl1
  have e2 : (⟨t1, r1, [], []⟩ : Sys).step cfg .txStep = ⟨(txPps t1).1, r1, (txPps t1).2, []⟩ := by
    simp [Sys.step, Ecm.txStep, hst1, hsend]
  rw [e2] at hl2
  have hp : ∃ t2 f p b c, txPps t1 = (t2, [.pps f p b c]) ∧ t2.frames = t1.frames ∧ t2.rest = t1.rest ∧ t2.docs = t1.docs ∧
      t2.t5exp = t1.t5exp := by
    refine ⟨(txPps t1).1, _, _, _, _, rfl, ?_⟩
    simp only [txPps]
    split <;> exact ⟨rfl, rfl, rfl, rfl⟩
  obtain ⟨t2, f, p, b, c, e3, hfr2, hrest2, hdocs2, h52⟩ := hp
  rw [e3] at hl2 e2
  obtain ⟨past, d, pre, F, hb2, ⟨hs2, hc2⟩ | ⟨ha2, _⟩⟩ := id hl2
  swap
  · exact absurd (ha2.buf 0) (hbuf 0 (by have := hb2.pos; dsimp only at this; omega))
  dsimp only at hb2 hs2 hc2
  have hcmd : Command t2 r1.frames (.pps f p b c) := by
    rcases hc2 with ⟨_, l, fin, e, hl, hfin⟩ | ⟨_, e, _⟩
    · rcases hfin with rfl | ⟨m, rfl, hm⟩
      · have := hl (.pps f p b c) (by rw [List.append_nil] at e; rw [← e]; simp)
        rcases this with h | ⟨i, g, h, _⟩ <;> cases h
      · have := congrArg List.getLast? e
        simp at this
        rw [this]; exact hm
    · cases e
  have hw2 : t2.st.waits := by
    rcases hcmd.1 with h | h
    · exact Or.inl h
    · exact Or.inr (Or.inl h)
  obtain ⟨r2, e4, hok2, hnr2⟩ := rxPps_full ok hb2 hs2 hcmd (fun i hi => hbuf i (by omega))
  have e5 : (⟨t2, r1, [.pps f p b c], []⟩ : Sys).step cfg .fwdDeliver = ⟨t2, (rxReply r2).1, [], (rxReply r2).2⟩ := by
    have : rxRecv r1 (.pps f p b c) = rxReply r2 := by
      rw [← e4]
      rcases hr1 with h | h <;> simp only [rxRecv, h, rxDoc]
    simp [Sys.step, this]
  obtain ⟨st, hst, hrr⟩ := rr_run cfg _ t2 r2 hw2 (by rw [h52, ht5, h5]) hok2 rfl
  have hto : Reach cfg ⟨t, r, [], []⟩ ⟨{ t2 with st := st }, { r2 with notReady := 0, st := .postMcf }, [], [.mcf]⟩ := by
    refine hreach.trans (Reach.head .txStep (Or.inl rfl) ?_)
    rw [e2]
    refine Reach.head .fwdDeliver (Or.inr (Or.inl rfl)) ?_
    rw [e5]; exact hrr
  have hl3 : Live cfg all ⟨{ t2 with st := st }, { r2 with notReady := 0, st := .postMcf }, [], [.mcf]⟩ := by
    rcases hto.inv ok (Or.inl h0) with h | h
    · exact h
    · have := h.st
      rcases hst with h | h | h <;> simp [h] at this
  obtain ⟨s', hs', hfin⟩ := mcf_run ok hl3 rfl (by show t2.t5exp = false; rw [h52, ht5, h5])
  refine ⟨s', hto.trans hs', ?_⟩
  rcases hfin with h | ⟨a, b, c⟩
  · exact Or.inl h
  · refine Or.inr ⟨a, b, ?_⟩
    have : t.todo = ({ t2 with st := st } : Tx).todo := by
      show t.rest.length + (t.docs.map _).sum = t2.rest.length + (t2.docs.map _).sum
      rw [hrest2, hrest, hdocs2, hdocs]
    show _ < t.todo
    rw [this]; exact c

/-- The whole of a transfer when nothing is lost from now on. -/
theorem finish_run {cfg : Cfg} (ok : cfg.Ok) {all : List (List Nat)} (n : Nat) : ∀ s, s.tx.todo ≤ n → Live cfg all s → Begun s →
    ∃ s', Reach cfg s s' ∧ s'.tx.ok = true := by
  induction n with
  | zero =>
    intro s hn h hb
    obtain ⟨s', hr, hk | ⟨_, _, hlt⟩⟩ := block_run ok h hb
    · exact ⟨s', hr, hk⟩
    · omega
  | succ n ih =>
    intro s hn h hb
    obtain ⟨s', hr, hk | ⟨hl, hb', hlt⟩⟩ := block_run ok h hb
    · exact ⟨s', hr, hk⟩
    · obtain ⟨s'', hr', hk⟩ := ih s' (by omega) hl hb'
      exact ⟨s'', hr.trans hr', hk⟩

/-- A PPS at a receiver which is at the sender's block, complete or not. -/
theorem rxPps_reply {cfg : Cfg} (ok : cfg.Ok) {all past : List (List Nat)} {d pre : List Nat} {F : List (List Nat)} {t : Tx} {r : Rx}
    {f : Fcf2} {p b c : Nat} (hb : Blk cfg all t past d pre F) (hs : Synced cfg t r past pre F)
    (hc : Command t r.frames (.pps f p b c)) (hn : r.notReady = 0) :
    ∃ r1 : Rx, rxPps r f p b c = ({ r1 with st := .postMcf }, [.mcf]) ∨
      rxPps r f p b c = ({ r1 with st := .postPpr }, [.ppr (frameMap r1.buf)]) ∧ r1.next = .mps := by
  obtain ⟨hst, rfl, rfl, rfl, hcount⟩ := hc
  have hfr : r.frames.getD (c + 1) = t.frames := by
    rcases hs.count with h | h
    · rw [h]; exact hcount h
    · rw [h]; rfl
  have hlen : ∀ j g, r.buf j = some g → g.length = cfg.sz :=
    fun j g hj => hb.lens g (List.mem_of_getElem? (hs.stored j g hj))
  have hvet : vet t.frames 256 0 true 256 r.buf = r.buf :=
    vet_id cfg.sz ok.sz t.frames 256 0 true 256 r.buf hlen (Or.inl ⟨rfl, rfl⟩)
  have hmatch : ¬(r.page % 256 ≠ t.page % 256 ∨ r.block % 256 ≠ t.block % 256) := by
    rw [hs.page, hs.block]; simp
  have hrep : ∀ r' : Rx, r'.notReady = 0 → rxReply r' = rxRespond r' := by
    intro r' h; rw [rxReply, if_neg (by omega)]
  by_cases hfb : firstBad r.buf 256 0 ≥ t.frames
  · have e : rxPps r (if t.atEnd then t.step else .null) (t.page % 256) (t.block % 256) c =
        rxReply (rxCommit { r with last := (if t.atEnd then t.step else .null), frames := some t.frames, map := frameMap r.buf,
                                   blockOk := true } t.frames) := by
      simp only [rxPps, hfr, Option.getD_some, hvet, if_neg hmatch, decide_eq_true hfb, if_true]
    have h1 : ∀ r0 : Rx, (rxCommit r0 t.frames).notReady = r0.notReady ∧ (rxCommit r0 t.frames).blockOk = r0.blockOk := by
      intro r0; rw [rxCommit]; dsimp only [rxEndPage]; split <;> exact ⟨rfl, rfl⟩
    have h2 : ∀ r0 : Rx, r0.notReady = 0 → r0.blockOk = true →
        rxReply (rxCommit r0 t.frames) = ({ rxCommit r0 t.frames with st := .postMcf }, [.mcf]) := by
      intro r0 a b
      rw [hrep _ ((h1 _).1.trans a), rxRespond, if_pos ((h1 _).2.trans b)]
    exact ⟨_, Or.inl (e.trans (h2 _ hn rfl))⟩
  · have e : rxPps r (if t.atEnd then t.step else .null) (t.page % 256) (t.block % 256) c =
        rxReply { r with last := (if t.atEnd then t.step else .null), frames := some t.frames, map := frameMap r.buf,
                         blockOk := false } := by
      simp only [rxPps, hfr, Option.getD_some, hvet, if_neg hmatch, decide_eq_false hfb, Bool.false_eq_true, if_false]
    refine ⟨{ r with last := (if t.atEnd then t.step else .null), frames := some t.frames, map := frameMap r.buf,
                     blockOk := false }, Or.inr ⟨?_, hs.next⟩⟩
    have h3 : ∀ r0 : Rx, r0.notReady = 0 → r0.blockOk = false → r0.map = frameMap r0.buf →
        rxReply r0 = ({ r0 with st := .postPpr }, [.ppr (frameMap r0.buf)]) := by
      intro r0 a b c
      rw [hrep r0 a, rxRespond, if_neg (by rw [b]; decide), c]
    exact e.trans (h3 _ (by exact hn) rfl rfl)

/-- The sender waits in vain, and nothing is lost after that. -/
theorem wait_run {cfg : Cfg} (ok : cfg.Ok) {all : List (List Nat)} {s : Sys} (h : Live cfg all s)
    (hst : s.tx.st = .ppsNull ∨ s.tx.st = .ppsQ) (hfwd : s.fwd = []) (hbwd : s.bwd = []) (hr : s.rx.st = .docEcm ∨ s.rx.st = .postDoc)
    (hn : s.rx.notReady = 0) (h5 : s.tx.t5exp = false) (hret : s.tx.retries + 1 < cfg.tries) (hppr : s.tx.pprCount < 3) :
    ∃ s', Reach cfg (s.step cfg .txT4) s' ∧ s'.tx.ok = true := by
  obtain ⟨t, r, fwd, bwd⟩ := s
  dsimp only at hst hfwd hbwd hr hn h5 hret hppr
  subst hfwd hbwd
  have h0 := h
  have hiv : t.st ≠ .iv := by rcases hst with h | h <;> rw [h] <;> decide
  have e1 : (⟨t, r, [], []⟩ : Sys).step cfg .txT4 = ⟨{ t with retries := t.retries + 1 }, r, [ppsFrame t], []⟩ := by
    have hlt : ¬ cfg.tries ≤ t.retries + 1 := by omega
    rcases hst with h | h <;> simp [Sys.step, Ecm.txT4, h, hlt, ppsFrame]
  have hl1 : Live cfg all ⟨{ t with retries := t.retries + 1 }, r, [ppsFrame t], []⟩ := by
    rcases live_step ok h .txT4 (by decide) with h | h
    · rw [e1] at h; exact h
    · rw [e1] at h
      have := h.st
      rcases hst with h | h <;> simp [h] at this
  rw [e1]
  have hcmd : ∃ f p b c, ppsFrame t = .pps f p b c := ⟨_, _, _, _, rfl⟩
  obtain ⟨f, p, b, c, ep⟩ := hcmd
  rw [ep] at hl1 ⊢
  have hrec : ∀ q, rxPps r f p b c = q → (⟨{ t with retries := t.retries + 1 }, r, [.pps f p b c], []⟩ : Sys).step cfg .fwdDeliver =
      ⟨{ t with retries := t.retries + 1 }, q.1, [], q.2⟩ := by
    intro q hq
    have : rxRecv r (.pps f p b c) = q := by rw [← hq]; rcases hr with h | h <;> simp only [rxRecv, h, rxDoc]
    simp [Sys.step, this]
  have hl2 := fwdDeliver_live ok hl1
  have fin : ∀ r1 : Rx, rxPps r f p b c = ({ r1 with st := .postMcf }, [.mcf]) →
      ∃ s', Reach cfg ⟨{ t with retries := t.retries + 1 }, r, [.pps f p b c], []⟩ s' ∧ s'.tx.ok = true := by
    intro r1 hq
    rw [hrec _ hq] at hl2
    obtain ⟨s1, hs1, h⟩ := mcf_run ok hl2 rfl h5
    have hto : Reach cfg ⟨{ t with retries := t.retries + 1 }, r, [.pps f p b c], []⟩ s1 := by
      refine Reach.head .fwdDeliver (Or.inr (Or.inl rfl)) ?_
      rw [hrec _ hq]; exact hs1
    rcases h with h | ⟨a, b, _⟩
    · exact ⟨s1, hto, h⟩
    · obtain ⟨s2, hs2, hk⟩ := finish_run ok _ s1 (Nat.le_refl _) a b
      exact ⟨s2, hto.trans hs2, hk⟩
  obtain ⟨past, d, pre, F, hb, ⟨hs, hc⟩ | ⟨ha, hc⟩⟩ := hl1
  · dsimp only at hb hs hc
    have hcmd : Command { t with retries := t.retries + 1 } r.frames (.pps f p b c) := by
      rcases hc with ⟨_, l, fin, e, hl, hfin⟩ | ⟨_, e, _⟩
      · rcases hfin with rfl | ⟨m, rfl, hm⟩
        · have := hl (.pps f p b c) (by rw [List.append_nil] at e; rw [← e]; simp)
          rcases this with h | ⟨i, g, h, _⟩ <;> cases h
        · have := congrArg List.getLast? e
          simp at this
          rw [this]; exact hm
      · cases e
    obtain ⟨r1, hq | ⟨hq, hnext⟩⟩ := rxPps_reply ok hb hs hcmd hn
    · exact fin r1 hq
    · -- PPR
      rw [hrec _ hq] at hl2
      have e3 : (⟨{ t with retries := t.retries + 1 }, { r1 with st := .postPpr }, [], [.ppr (frameMap r1.buf)]⟩ : Sys).step cfg .rxSent =
          ⟨{ t with retries := t.retries + 1 }, { r1 with st := .docEcm }, [], [.ppr (frameMap r1.buf)]⟩ := by
        simp [Sys.step, Ecm.rxSent, hnext]
      have hl3 := live_step ok hl2 .rxSent (by decide)
      dsimp only at hl3
      rw [e3] at hl3
      have hrx : ∀ t' : Tx, (t'.st = .ppsNull ∨ t'.st = .ppsQ) → t'.pprCount < 3 → t'.t5exp = false →
          ∃ t'', txRecv cfg t' (.ppr (frameMap r1.buf)) = (t'', []) ∧ t''.st = .iv ∧ t''.cur = 0 ∧ t''.t5exp = false := by
        intro t' h1 h2 h3
        have e : txRecv cfg t' (.ppr (frameMap r1.buf)) = txPpr t' (frameMap r1.buf) := by
          rcases h1 with h | h <;> simp only [txRecv, h, txPpsSent]
        rw [e]
        unfold txPpr
        rw [if_neg (by rw [frameMap_length]; decide)]
        dsimp only
        rw [if_neg (by omega)]
        exact ⟨_, rfl, rfl, rfl, h3⟩
      obtain ⟨t3, e4, h31, h32, h33⟩ := hrx { t with retries := t.retries + 1 } hst hppr h5
      have e5 : (⟨{ t with retries := t.retries + 1 }, { r1 with st := .docEcm }, [], [.ppr (frameMap r1.buf)]⟩ : Sys).step cfg .bwdDeliver =
          ⟨t3, { r1 with st := .docEcm }, [], []⟩ := by
        simp [Sys.step, e4]
      have hto : Reach cfg ⟨{ t with retries := t.retries + 1 }, r, [.pps f p b c], []⟩ ⟨t3, { r1 with st := .docEcm }, [], []⟩ := by
        refine Reach.head .fwdDeliver (Or.inr (Or.inl rfl)) ?_
        rw [hrec _ hq]
        refine Reach.head .rxSent (Or.inr (Or.inr (Or.inr rfl))) ?_
        dsimp only
        rw [e3]
        refine Reach.head .bwdDeliver (Or.inr (Or.inr (Or.inl rfl))) ?_
        rw [e5]; exact Reach.refl _ _
      have hl4 : Live cfg all ⟨t3, { r1 with st := .docEcm }, [], []⟩ := by
        have : Inv cfg all ⟨t3, { r1 with st := .docEcm }, [], []⟩ := by
          rcases hl3 with h | h
          · have := live_step ok h .bwdDeliver (by decide)
            rw [e5] at this; exact this
          · have := over_step h .bwdDeliver
            rw [e5] at this; exact Or.inr this
        rcases this with h | h
        · exact h
        · have := h.st
          simp [h31] at this
      obtain ⟨s2, hs2, hk⟩ := finish_run ok _ _ (Nat.le_refl _) hl4 ⟨h31, h32, rfl, h33, rfl, rfl⟩
      exact ⟨s2, hto.trans hs2, hk⟩
  · dsimp only at hb ha hc
    have hcmd : Command { t with retries := t.retries + 1 } (some 0) (.pps f p b c) := by
      rcases hc with ⟨_, e | ⟨m, e, hm⟩⟩ | ⟨e, _⟩
      · cases e
      · cases e; exact hm
      · cases e
    obtain ⟨_, hca⟩ := rxPps_ahead ha hcmd
    refine fin (rxPps r f p b c).1 ?_
    obtain ⟨hst', rfl, rfl, rfl, -⟩ := hcmd
    have hmis : r.page % 256 ≠ t.page % 256 ∨ r.block % 256 ≠ t.block % 256 := by
      cases he : t.atEnd with
      | false => right; rw [(ha.mid he).2.1]; dsimp only; omega
      | true => left; rw [(ha.last he).1]; dsimp only; omega
    have hrep : (r.page % 256 = t.page % 256 ∧ (r.block + 255) % 256 = t.block % 256) ∨
        ((r.page + 255) % 256 = t.page % 256 ∧ r.block = 0) := by
      cases he : t.atEnd with
      | false => left; rw [(ha.mid he).1, (ha.mid he).2.1]; exact ⟨rfl, by dsimp only; omega⟩
      | true => right; rw [(ha.last he).1, (ha.last he).2.1]; exact ⟨by dsimp only; omega, rfl⟩
    simp only [rxPps, if_pos hmis, if_pos hrep]

end Ecm
