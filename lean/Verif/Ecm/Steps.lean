import Verif.Ecm.Inv

/-!
# Every event keeps the invariant
-/

namespace Ecm

set_option linter.unusedSimpArgs false

/-- What `get_partial_ecm_page` puts into the buffer. -/
structure Got (cfg : Cfg) (d pre : List Nat) (t : Tx) (F : List (List Nat)) : Prop where
  frames : F.length = t.frames
  pos : 0 < t.frames
  max : t.frames ≤ 256
  lens : ∀ f ∈ F, f.length = cfg.sz
  buf : ∀ i, i < t.frames → t.buf i = F[i]?
  more : t.atEnd = false → t.rest ≠ [] ∧ d = pre ++ F.flatten ++ t.rest
  ends : t.atEnd = true → Padded cfg.sz d (pre ++ F.flatten)

theorem getPartial_got {cfg : Cfg} (ok : cfg.Ok) (t : Tx) (d pre : List Nat) (hd : d = pre ++ t.rest) (hne : t.rest ≠ []) :
    ∃ F, Got cfg d pre (getPartial cfg t) F := by
  have hs : 0 < cfg.sz := by rcases ok.sz with h | h <;> omega
  obtain ⟨F, hF⟩ := fill_filled cfg.sz hs 256 0 t.rest t.buf
  have hc := hF.count
  refine ⟨F, ?_, ?_, ?_, hF.lens, ?_, ?_, ?_⟩
  · show _ = (fill cfg.sz 256 0 t.rest t.buf).2.1
    omega
  · show 0 < (fill cfg.sz 256 0 t.rest t.buf).2.1
    rw [hc, Nat.zero_add]
    cases hsh : (fill cfg.sz 256 0 t.rest t.buf).2.2.1 with
    | false => have := (hF.more hsh).1; omega
    | true =>
      obtain ⟨k, hk, e⟩ := hF.ends hsh
      cases F with
      | nil => simp at e; exact absurd e.1 hne
      | cons f F => simp
  · show (fill cfg.sz 256 0 t.rest t.buf).2.1 ≤ 256
    have := hF.max
    omega
  · intro i hi
    have hi' : i < (fill cfg.sz 256 0 t.rest t.buf).2.1 := hi
    have := hF.at_ i (by omega)
    rwa [Nat.zero_add] at this
  · intro he
    have he' : (if (fill cfg.sz 256 0 t.rest t.buf).2.2.1 = true then true
      else cfg.complete (fill cfg.sz 256 0 t.rest t.buf).2.2.2) = false := he
    split at he'
    · cases he'
    · rename_i hsh
      refine ⟨?_, ?_⟩
      · intro h0
        have h0' : (fill cfg.sz 256 0 t.rest t.buf).2.2.2 = [] := h0
        rw [(ok.complete _).2 h0'] at he'
        cases he'
      · have := (hF.more (by simpa using hsh)).2
        show d = pre ++ F.flatten ++ (fill cfg.sz 256 0 t.rest t.buf).2.2.2
        rw [List.append_assoc, ← this, hd]
  · intro he
    have he' : (if (fill cfg.sz 256 0 t.rest t.buf).2.2.1 = true then true
      else cfg.complete (fill cfg.sz 256 0 t.rest t.buf).2.2.2) = true := he
    split at he'
    · rename_i hsh
      obtain ⟨k, hk, e⟩ := hF.ends hsh
      exact ⟨k, hk, by rw [← e, hd, List.append_assoc]⟩
    · rename_i hsh
      have h0 := (ok.complete _).1 he'
      have := (hF.more (by simpa using hsh)).2
      rw [h0, List.append_nil] at this
      exact ⟨0, hs, by rw [← this, hd]; simp⟩

/-- A new block begins, and the receiver is at it. -/
theorem live_start {cfg : Cfg} {all past : List (List Nat)} {d pre : List Nat} {F : List (List Nat)} {t : Tx} {r : Rx}
    (g : Got cfg d pre t F) (hall : all = past ++ d :: t.docs) (hpage : t.page = past.length) (hpre : pre <+: d)
    (hdocs : ∀ x ∈ t.docs, x ≠ []) (hok : t.ok = false)
    (rpage : r.page = t.page) (rblock : r.block = t.block) (rpages : List.Forall₂ (Padded cfg.sz) past r.pages) (rout : r.out = pre)
    (rbuf : ∀ i, r.buf i = none) (rframes : r.frames = none) (rnext : r.next = .mps) (rst : r.st ≠ .postRnr) :
    Live cfg all { tx := startBurst t, rx := r, fwd := [], bwd := [] } := by
  have hb : ∀ i, i < t.frames → t.buf i ≠ none := by
    intro i hi
    rw [g.buf i hi, List.getElem?_eq_getElem (by rw [g.frames]; exact hi)]
    simp
  refine ⟨past, d, pre, F, ?_, Or.inl ⟨?_, ?_⟩⟩
  · exact ⟨hall, hpage, g.frames, g.pos, g.max, g.lens, fun i hi => Or.inl (g.buf i hi), g.more, g.ends,
      fun h => absurd rfl h, hdocs, hok, hpre⟩
  · refine ⟨Or.inr (Or.inl rfl), rpage, rblock, rpages, rout, ?_, Or.inl rframes, ?_, ?_, rnext, fun h => absurd h rst⟩
    · intro i f h; rw [rbuf] at h; cases h
    · intro i hi h; exact absurd h (hb i hi)
    · intro _
      exact ⟨hb, fun _ => by show 0 = min 0 t.frames; omega, fun h => absurd rfl h⟩
  · exact Or.inl ⟨rfl, [], [], rfl, by simp, Or.inl rfl⟩

/-- A call begins well. -/
theorem init_live {cfg : Cfg} (ok : cfg.Ok) (d : List Nat) (docs : List (List Nat)) (fallback notReady : Nat)
    (hne : ∀ x ∈ d :: docs, x ≠ []) : Live cfg (d :: docs) (Sys.init cfg d docs fallback notReady) := by
  obtain ⟨F, g⟩ := getPartial_got ok
    { st := .iv, rest := d, docs := docs, buf := fun _ => none, frames := 0, cur := 0, burst := 0, atEnd := false, page := 0,
      block := 0, step := .null, pprCount := 0, progress := 0, fallback := fallback, retries := 0, t5exp := false, ok := false }
    d [] rfl (hne d (by simp))
  exact live_start (past := []) g rfl rfl (List.nil_prefix) (fun x hx => hne x (by simp [show x ∈ docs from hx])) rfl rfl rfl
    List.Forall₂.nil rfl (fun _ => rfl) rfl rfl (by simp [rxInit])

/-! ## The sender's frames -/

theorem txStep_live {cfg : Cfg} {all : List (List Nat)} {s : Sys} (h : Live cfg all s) :
    Live cfg all (s.step cfg .txStep) := by
  by_cases hst : s.tx.st = .iv
  swap
  · have e : s.step cfg .txStep = s := by
      simp [Sys.step, Ecm.txStep, hst]
    rw [e]; exact h
  obtain ⟨past, d, pre, F, hb, ⟨hs, hc⟩ | ⟨ha, hc⟩⟩ := h
  swap
  · have := ha.st
    simp [TxSt.waits, hst] at this
  obtain ⟨hbwd, l, fin, hf, hl, hfin⟩ : s.bwd = [] ∧ ∃ l fin, s.fwd = l ++ fin ∧ (∀ m ∈ l, InBurst F m) ∧
      (fin = [] ∨ ∃ m, fin = [m] ∧ Command s.tx s.rx.frames m) := by
    rcases hc with hc | ⟨hc, _⟩
    · exact hc
    · exact absurd hst hc
  have hfin0 : fin = [] := by
    rcases hfin with h | ⟨m, _, hm⟩
    · exact h
    · cases m <;> simp [Command, hst] at hm
  subst hfin0
  rw [List.append_nil] at hf
  obtain ⟨tx, rx, fwd, bwd⟩ := s
  dsimp only at *
  subst hf hbwd
  have k1 : ∀ t m, sendNext tx = (t, some m) → Ecm.txStep tx = (t, [m]) := by
    intro t m h; rw [Ecm.txStep, if_pos hst, h]
  have k2 : ∀ t, sendNext tx = (t, none) → Ecm.txStep tx = txPps t := by
    intro t h; rw [Ecm.txStep, if_pos hst, h]
  cases hnf : nextFrame tx.buf (tx.frames - tx.cur) tx.cur with
  | some p =>
    obtain ⟨i, f⟩ := p
    obtain ⟨hbi, hci, hin, hgap⟩ := nextFrame_some _ _ _ _ _ hnf
    have hiN : i < tx.frames := by omega
    have hFi : F[i]? = some f := by
      rcases hb.buf i hiN with h | h
      · rw [← h, hbi]
      · rw [h] at hbi; cases hbi
    simp only [Sys.step, k1 _ _ (show sendNext tx = _ by rw [sendNext, hnf])]
    refine ⟨past, d, pre, F, ?_, Or.inl ⟨?_, ?_⟩⟩
    · exact ⟨hb.all, hb.page, hb.frames, hb.pos, hb.max, hb.lens, hb.buf, hb.more, hb.ends, hb.step, hb.docs, hb.ok, hb.pre⟩
    · refine ⟨hs.st, hs.page, hs.block, hs.pages, hs.out, hs.stored, hs.count, hs.ticked, ?_, hs.next, hs.rnr⟩
      intro h0
      obtain ⟨f1, f2, f3⟩ := hs.fresh h0
      refine ⟨f1, fun _ => ?_, fun h => absurd hst h⟩
      have hb2 := f2 hst
      have : i = tx.cur := by
        apply Nat.le_antisymm _ hci
        apply Nat.le_of_not_lt
        intro hlt
        exact f1 tx.cur (by omega) (hgap tx.cur (Nat.le_refl _) hlt)
      show tx.burst + 1 = min (i + 1) tx.frames
      omega
    · refine Or.inl ⟨rfl, fwd ++ [.fcd i f], [], by simp, ?_, Or.inl rfl⟩
      intro m hm
      rcases List.mem_append.1 hm with hm | hm
      · exact hl m hm
      · rw [List.mem_singleton.1 hm]; exact Or.inr ⟨i, f, rfl, hFi⟩
  | none =>
    have hnone := nextFrame_none _ _ _ hnf
    have hcur : rx.frames = none → tx.frames ≤ tx.cur := by
      intro h0
      obtain ⟨f1, f2, f3⟩ := hs.fresh h0
      apply Nat.le_of_not_lt
      intro hlt
      exact f1 tx.cur hlt (hnone tx.cur (Nat.le_refl _) (by omega))
    generalize hcv : (if tx.cur < tx.frames then tx.frames else tx.cur) = c
    have hcN : tx.frames ≤ c := by rw [← hcv]; split <;> omega
    by_cases h3 : c < tx.frames + 3
    · simp only [Sys.step, k1 _ _ (show sendNext tx = _ by simp only [sendNext, hnf]; rw [hcv, if_pos h3])]
      refine ⟨past, d, pre, F, ?_, Or.inl ⟨?_, ?_⟩⟩
      · exact ⟨hb.all, hb.page, hb.frames, hb.pos, hb.max, hb.lens, hb.buf, hb.more, hb.ends, hb.step, hb.docs, hb.ok, hb.pre⟩
      · refine ⟨hs.st, hs.page, hs.block, hs.pages, hs.out, hs.stored, hs.count, hs.ticked, ?_, hs.next, hs.rnr⟩
        intro h0
        obtain ⟨f1, f2, f3⟩ := hs.fresh h0
        refine ⟨f1, fun _ => ?_, fun h => absurd hst h⟩
        have hb2 := f2 hst
        have := hcur h0
        show tx.burst = min (c + 1) tx.frames
        omega
      · refine Or.inl ⟨rfl, fwd ++ [.rcp], [], by simp, ?_, Or.inl rfl⟩
        intro m hm
        rcases List.mem_append.1 hm with hm | hm
        · exact hl m hm
        · rw [List.mem_singleton.1 hm]; exact Or.inl rfl
    · simp only [Sys.step, k2 _ (show sendNext tx = _ by simp only [sendNext, hnf]; rw [hcv, if_neg h3])]
      have hburst : rx.frames = none → tx.burst = tx.frames := by
        intro h0
        have := (hs.fresh h0).2.1 hst
        have := hcur h0
        omega
      -- the two cases only differ in the next step
      have gen : ∀ (stp : Fcf2) (st : TxSt), (tx.atEnd = true → stp = checkNext tx) → (st = .ppsNull ∨ st = .ppsQ) →
          Live cfg all ⟨{ tx with cur := c, step := stp, st := st }, rx, fwd ++ [ppsFrame { tx with cur := c, step := stp }], []⟩ := by
        intro stp st hstp hst2
        have hne : st ≠ .iv := by rcases hst2 with rfl | rfl <;> decide
        refine ⟨past, d, pre, F, ?_, Or.inl ⟨?_, ?_⟩⟩
        · exact ⟨hb.all, hb.page, hb.frames, hb.pos, hb.max, hb.lens, hb.buf, hb.more, hb.ends, fun _ => hstp, hb.docs, hb.ok, hb.pre⟩
        · have hw : TxSt.waits st := by rcases hst2 with rfl | rfl <;> simp [TxSt.waits]
          refine ⟨Or.inl hw, hs.page, hs.block, hs.pages, hs.out, hs.stored, hs.count, hs.ticked, ?_, hs.next,
            fun h => ⟨(hs.rnr h).1, (hs.rnr h).2.1, (hs.rnr h).2.2.1, hw⟩⟩
          · intro h0
            exact ⟨(hs.fresh h0).1, fun h => absurd h hne, fun _ => hburst h0⟩
        · refine Or.inl ⟨rfl, fwd, [_], rfl, hl, Or.inr ⟨_, rfl, ?_⟩⟩
          refine ⟨hst2, rfl, rfl, rfl, ?_⟩
          intro h0
          have := hburst h0
          have := hb.pos
          show (if tx.burst = 0 then 0 else tx.burst - 1) + 1 = tx.frames
          rw [if_neg (by omega)]; omega
      cases he : tx.atEnd with
      | true =>
        have := gen (checkNext { tx with cur := c }) (if (true && checkNext { tx with cur := c } != .null) = true then .ppsQ else .ppsNull)
          (fun _ => rfl) (by split <;> simp)
        simpa [txPps, he] using this
      | false =>
        have := gen tx.step .ppsNull (fun h => absurd (he.symm.trans h) (by decide)) (Or.inl rfl)
        simpa [txPps, he] using this

/-! ## The receiver -/

/-- A frame of a burst at the receiver. -/
theorem rx_burst {cfg : Cfg} (ok : cfg.Ok) {all past : List (List Nat)} {d pre : List Nat} {F : List (List Nat)} {t : Tx} {r : Rx} {m : Msg}
    (hb : Blk cfg all t past d pre F) (hs : Synced cfg t r past pre F) (hm : InBurst F m) :
    Synced cfg t (rxRecv r m).1 past pre F ∧ (rxRecv r m).2 = [] ∧ (rxRecv r m).1.frames = r.frames := by
  have same : (rxRecv r m) = (r, []) → Synced cfg t (rxRecv r m).1 past pre F ∧ (rxRecv r m).2 = [] ∧
      (rxRecv r m).1.frames = r.frames := by intro e; rw [e]; exact ⟨hs, rfl, rfl⟩
  rcases hm with rfl | ⟨i, f, rfl, hf⟩
  · by_cases h : r.st = .docEcm
    · have e : rxRecv r .rcp = ({ r with st := .postDoc }, []) := by simp [rxRecv, h, rxDoc, rxRcp]
      rw [e]
      exact ⟨hs.rxSt .postDoc r.retries (by intro h; cases h), rfl, rfl⟩
    · apply same
      cases hst : r.st <;> simp_all [rxRecv, rxDoc, rxPostMcf, rxPostPpr, rxPostRnr, rxRcp]
  · have hl : f.length ≤ 256 := by
      have := hb.lens f (List.mem_of_getElem? hf)
      rcases ok.sz with h | h <;> omega
    by_cases h : r.st = .docEcm
    · have e : rxRecv r (.fcd i f) = ({ r with buf := r.buf.set i (some f) }, []) := by simp [rxRecv, h, rxDoc, rxFcd, hl]
      rw [e]
      refine ⟨⟨hs.st, hs.page, hs.block, hs.pages, hs.out, ?_, hs.count, ?_, hs.fresh, hs.next, ?_⟩, rfl, rfl⟩
      · intro j g hj
        by_cases hji : j = i
        · subst hji
          have hj' : r.buf.set j (some f) j = some g := hj
          rw [set_same] at hj'
          rw [← hj']; exact hf
        · have hj' : r.buf.set i (some f) j = some g := hj
          rw [set_other _ _ hji] at hj'
          exact hs.stored j g hj'
      · intro j hj hn
        show r.buf.set i (some f) j ≠ none
        by_cases hji : j = i
        · subst hji; rw [set_same]; simp
        · rw [set_other _ _ hji]; exact hs.ticked j hj hn
      · intro h2
        have h2' : r.st = .postRnr := h2
        rw [h] at h2'; cases h2'
    · apply same
      cases hst : r.st <;> simp_all [rxRecv, rxDoc, rxPostMcf, rxPostPpr, rxPostRnr, rxFcd]

/-- The answer of a receiver which is at the sender's block and has not got all of it. -/
theorem rxReply_synced {cfg : Cfg} {past : List (List Nat)} {pre : List Nat} {F : List (List Nat)} {t : Tx} {r : Rx}
    (hs : Synced cfg t r past pre F) (h1 : r.blockOk = false) (h2 : r.map = frameMap r.buf) (h3 : r.frames ≠ none) (hst : t.st ≠ .iv) (hw : t.st.waits) :
    Synced cfg t (rxReply r).1 past pre F ∧ ChanS t (rxReply r).1 [] (rxReply r).2 F := by
  unfold rxReply
  split
  · refine ⟨⟨hs.st, hs.page, hs.block, hs.pages, hs.out, hs.stored, hs.count, hs.ticked, hs.fresh, hs.next, fun _ => ⟨h1, h2, h3, hw⟩⟩, ?_⟩
    exact Or.inr ⟨hst, rfl, _, rfl, trivial⟩
  · unfold rxRespond
    rw [h1]
    simp only [Bool.false_eq_true, if_false]
    refine ⟨⟨hs.st, hs.page, hs.block, hs.pages, hs.out, hs.stored, hs.count, hs.ticked, hs.fresh, hs.next, fun h => by cases h⟩, ?_⟩
    exact Or.inr ⟨hst, rfl, _, rfl, h2, h3, (fun h => by cases h)⟩

/-- The answer of a receiver which is ahead. -/
theorem rxReply_ahead {cfg : Cfg} {past : List (List Nat)} {d pre : List Nat} {F : List (List Nat)} {t : Tx} {r : Rx}
    (ha : Ahead cfg t r past d pre F) (h1 : r.blockOk = true) :
    Ahead cfg t (rxReply r).1 past d pre F ∧ ChanA t (rxReply r).1 [] (rxReply r).2 := by
  unfold rxReply
  split
  · exact ⟨⟨ha.st, ha.buf, ha.frames, ha.mid, ha.last, fun _ => h1⟩, Or.inr ⟨rfl, _, rfl, trivial⟩⟩
  · unfold rxRespond
    rw [h1]
    simp only [if_true]
    exact ⟨⟨ha.st, ha.buf, ha.frames, ha.mid, ha.last, fun h => by cases h⟩, Or.inr ⟨rfl, _, rfl, (fun h => by cases h)⟩⟩

/-- A PPS at a receiver which is at the sender's block. -/
theorem rxPps_synced {cfg : Cfg} (ok : cfg.Ok) {all past : List (List Nat)} {d pre : List Nat} {F : List (List Nat)} {t : Tx} {r : Rx}
    {f : Fcf2} {p b c : Nat} (hb : Blk cfg all t past d pre F) (hs : Synced cfg t r past pre F)
    (hc : Command t r.frames (.pps f p b c)) :
    Live cfg all ⟨t, (rxPps r f p b c).1, [], (rxPps r f p b c).2⟩ := by
  obtain ⟨hst, rfl, rfl, rfl, hcount⟩ := hc
  have hiv : t.st ≠ .iv := by rcases hst with h | h <;> rw [h] <;> decide
  have hw : t.st.waits := by rcases hst with h | h <;> simp [TxSt.waits, h]
  have hfr : r.frames.getD (c + 1) = t.frames := by
    rcases hs.count with h | h
    · rw [h]; exact hcount h
    · rw [h]; rfl
  have hlen : ∀ j g, r.buf j = some g → g.length = cfg.sz :=
    fun j g hj => hb.lens g (List.mem_of_getElem? (hs.stored j g hj))
  have hvet : vet t.frames 256 0 true 256 r.buf = r.buf :=
    vet_id cfg.sz ok.sz t.frames 256 0 true 256 r.buf hlen (Or.inl ⟨rfl, rfl⟩)
  have hmatch : ¬(r.page % 256 ≠ t.page % 256 ∨ r.block % 256 ≠ t.block % 256) := by
    rw [hs.page, hs.block]; simp
  have e : rxPps r (if t.atEnd then t.step else .null) (t.page % 256) (t.block % 256) c =
      (let r' : Rx := { r with last := (if t.atEnd then t.step else .null), frames := some t.frames, map := frameMap r.buf,
                               blockOk := decide (firstBad r.buf 256 0 ≥ t.frames) }
       rxReply (if r'.blockOk then rxCommit r' t.frames else r')) := by
    simp only [rxPps, hfr, Option.getD_some, hvet, if_neg hmatch]
  rw [e]
  dsimp only
  have hfb := firstBad_ge r.buf t.frames 256 0 rfl hb.max
  by_cases hall : firstBad r.buf 256 0 ≥ t.frames
  · -- the whole block is there
    rw [decide_eq_true hall]
    simp only [if_true]
    have hfull : ∀ i, i < F.length → r.buf i = F[i]? := by
      intro i hi
      cases hbi : r.buf i with
      | none => exact absurd hbi (hfb.1 hall i (Nat.zero_le _) (by rw [hb.frames] at hi; exact hi))
      | some g => rw [hs.stored i g hbi]
    have hflat : ((List.range t.frames).flatMap fun i => (r.buf i).getD []) = F.flatten := by
      rw [← hb.frames]; exact flatMap_block F r.buf hfull
    refine ⟨past, d, pre, F, hb, Or.inr ?_⟩
    cases he : t.atEnd with
    | false =>
      apply rxReply_ahead _ (by rfl)
      refine ⟨hw, fun _ => rfl, rfl, ?_, fun h => absurd (he.symm.trans h) (by decide), fun _ => rfl⟩
      intro _
      refine ⟨hs.page, ?_, ?_, hs.pages, hs.next⟩
      · show r.block + 1 = t.block + 1
        rw [hs.block]
      · show r.out ++ ((List.range t.frames).flatMap fun i => (r.buf i).getD []) = pre ++ F.flatten
        rw [hflat, hs.out]
    | true =>
      have hstep := hb.step hiv he
      have hnn : t.step ≠ .null := by rw [hstep]; unfold checkNext; split <;> decide
      simp only [if_true]
      have e2 : ∀ r1 : Rx, r1.last = t.step → rxCommit r1 t.frames = rxEndPage { r1 with
          out := r1.out ++ ((List.range t.frames).flatMap fun i => (r1.buf i).getD []), buf := fun _ => none, block := r1.block + 1,
          frames := none, next := t.step } := by
        intro r1 h1
        simp only [rxCommit, h1, if_neg hnn]
      rw [e2 _ rfl]
      apply rxReply_ahead _ (by rfl)
      refine ⟨hw, fun _ => rfl, rfl, fun h => absurd (he.symm.trans h) (by decide), ?_, fun _ => rfl⟩
      intro _
      refine ⟨?_, rfl, rfl, ?_, rfl⟩
      · show r.page + 1 = t.page + 1
        rw [hs.page]
      · show List.Forall₂ (Padded cfg.sz) (past ++ [d]) (r.pages ++ [r.out ++ ((List.range t.frames).flatMap fun i => (r.buf i).getD [])])
        rw [hflat, hs.out]
        exact List.rel_append hs.pages (List.Forall₂.cons (hb.ends he) List.Forall₂.nil)
  · rw [decide_eq_false hall]
    simp only [Bool.false_eq_true, if_false]
    refine ⟨past, d, pre, F, hb, Or.inl ?_⟩
    apply rxReply_synced _ rfl rfl (by simp) hiv hw
    exact ⟨hs.st, hs.page, hs.block, hs.pages, hs.out, hs.stored, Or.inr rfl, hs.ticked, (fun h => by cases h), hs.next,
      fun _ => ⟨rfl, rfl, by simp, hw⟩⟩

/-- A PPS at a receiver which is ahead. -/
theorem rxPps_ahead {cfg : Cfg} {past : List (List Nat)} {d pre : List Nat} {F : List (List Nat)} {t : Tx} {r : Rx}
    {f : Fcf2} {p b c : Nat} (ha : Ahead cfg t r past d pre F) (hc : Command t (some 0) (.pps f p b c)) :
    Ahead cfg t (rxPps r f p b c).1 past d pre F ∧ ChanA t (rxPps r f p b c).1 [] (rxPps r f p b c).2 := by
  obtain ⟨hst, rfl, rfl, rfl, -⟩ := hc
  have hmis : r.page % 256 ≠ t.page % 256 ∨ r.block % 256 ≠ t.block % 256 := by
    cases he : t.atEnd with
    | false => right; rw [(ha.mid he).2.1]; omega
    | true => left; rw [(ha.last he).1]; omega
  have hrep : (r.page % 256 = t.page % 256 ∧ (r.block + 255) % 256 = t.block % 256) ∨
      ((r.page + 255) % 256 = t.page % 256 ∧ r.block = 0) := by
    cases he : t.atEnd with
    | false => left; rw [(ha.mid he).1, (ha.mid he).2.1]; exact ⟨rfl, by omega⟩
    | true => right; rw [(ha.last he).1, (ha.last he).2.1]; exact ⟨by omega, rfl⟩
  have e : rxPps r (if t.atEnd then t.step else .null) (t.page % 256) (t.block % 256) c =
      ({ r with last := (if t.atEnd then t.step else .null), buf := fun _ => none, frames := none, st := .postMcf }, [.mcf]) := by
    simp only [rxPps, if_pos hmis, if_pos hrep]
  rw [e]
  exact ⟨⟨ha.st, fun _ => rfl, rfl, ha.mid, ha.last, fun h => by cases h⟩, Or.inr ⟨rfl, _, rfl, (fun h => by cases h)⟩⟩

/-- The receiver hangs up. -/
theorem Synced.dcn {cfg t r past pre F} (hs : Synced cfg t r past pre F) (hst : t.st ≠ .iv) :
    Synced cfg t (rxDcn r).1 past pre F ∧ ChanS t (rxDcn r).1 [] (rxDcn r).2 F :=
  ⟨hs.rxSt .done r.retries (by intro h; cases h), Or.inr ⟨hst, rfl, _, rfl, trivial⟩⟩

theorem Ahead.dcn {cfg t r past d pre F} (ha : Ahead cfg t r past d pre F) :
    Ahead cfg t (rxDcn r).1 past d pre F ∧ ChanA t (rxDcn r).1 [] (rxDcn r).2 :=
  ⟨ha.rxSt .done r.retries (by intro h; cases h), Or.inr ⟨rfl, _, rfl, trivial⟩⟩

theorem chanS_nil (t : Tx) (r : Rx) (F : List (List Nat)) : ChanS t r [] [] F := Or.inl ⟨rfl, [], [], rfl, by simp, Or.inl rfl⟩

theorem chanA_nil (t : Tx) (r : Rx) : ChanA t r [] [] := Or.inl ⟨rfl, Or.inl rfl⟩

/-- A command at a receiver which is at the sender's block. -/
theorem rx_command {cfg : Cfg} (ok : cfg.Ok) {all past : List (List Nat)} {d pre : List Nat} {F : List (List Nat)} {t : Tx} {r : Rx} {m : Msg}
    (hb : Blk cfg all t past d pre F) (hs : Synced cfg t r past pre F) (hc : Command t r.frames m) :
    Live cfg all ⟨t, (rxRecv r m).1, [], (rxRecv r m).2⟩ := by
  have mk : (Synced cfg t (rxRecv r m).1 past pre F ∧ ChanS t (rxRecv r m).1 [] (rxRecv r m).2 F) →
      Live cfg all ⟨t, (rxRecv r m).1, [], (rxRecv r m).2⟩ := fun h => ⟨past, d, pre, F, hb, Or.inl h⟩
  have none : rxRecv r m = (r, []) → Live cfg all ⟨t, (rxRecv r m).1, [], (rxRecv r m).2⟩ := by
    intro e; rw [e]; exact ⟨past, d, pre, F, hb, Or.inl ⟨hs, chanS_nil _ _ _⟩⟩
  have dcn : t.st ≠ .iv → rxRecv r m = rxDcn r → Live cfg all ⟨t, (rxRecv r m).1, [], (rxRecv r m).2⟩ := by
    intro h e; apply mk; rw [e]; exact hs.dcn h
  cases m with
  | pps f p b c =>
    have hiv : t.st ≠ .iv := by rcases hc.1 with h | h <;> rw [h] <;> decide
    cases h : r.st with
    | docEcm | postDoc =>
      have e : rxRecv r (.pps f p b c) = rxPps r f p b c := by simp only [rxRecv, h, rxDoc, rxPostRnr]
      rw [e]; exact rxPps_synced ok hb hs hc
    | postMcf | postPpr | postRnr => exact dcn hiv (by simp only [rxRecv, h, rxDoc, rxPostMcf, rxPostPpr, rxPostRnr])
    | done | gone => exact none (by simp only [rxRecv, h, rxDoc, rxPostMcf, rxPostPpr, rxPostRnr])
  | rr =>
    have hiv : t.st ≠ .iv := by rw [show t.st = _ from hc]; decide
    cases h : r.st with
    | docEcm | postDoc => exact none (by simp only [rxRecv, h, rxDoc, rxPostMcf, rxPostPpr, rxPostRnr])
    | postMcf | postPpr => exact dcn hiv (by simp only [rxRecv, h, rxDoc, rxPostMcf, rxPostPpr, rxPostRnr])
    | postRnr =>
      have e : rxRecv r .rr = rxReply r := by simp only [rxRecv, h, rxDoc, rxPostRnr]
      apply mk; rw [e]
      obtain ⟨a, b, c, hw⟩ := hs.rnr h
      exact rxReply_synced hs a b c hiv hw
    | done | gone => exact none (by simp only [rxRecv, h, rxDoc, rxPostMcf, rxPostPpr, rxPostRnr])
  | ctc =>
    have hiv : t.st ≠ .iv := by rw [show t.st = _ from hc]; decide
    cases h : r.st with
    | docEcm | postDoc =>
      have e : rxRecv r .ctc = ({ r with st := .docEcm }, [.ctr]) := by simp only [rxRecv, h, rxDoc, rxPostRnr]
      apply mk; rw [e]
      exact ⟨hs.rxSt .docEcm r.retries (by intro h; cases h), Or.inr ⟨hiv, rfl, _, rfl, trivial⟩⟩
    | postMcf | postPpr | postRnr => exact dcn hiv (by simp only [rxRecv, h, rxDoc, rxPostMcf, rxPostPpr, rxPostRnr])
    | done | gone => exact none (by simp only [rxRecv, h, rxDoc, rxPostMcf, rxPostPpr, rxPostRnr])
  | _ => exact absurd hc (by simp [Command])

/-- A command at a receiver which is ahead. -/
theorem rx_command_ahead {cfg : Cfg} {all past : List (List Nat)} {d pre : List Nat} {F : List (List Nat)} {t : Tx} {r : Rx} {m : Msg}
    (hb : Blk cfg all t past d pre F) (ha : Ahead cfg t r past d pre F) (hc : Command t (some 0) m) :
    Live cfg all ⟨t, (rxRecv r m).1, [], (rxRecv r m).2⟩ := by
  have mk : (Ahead cfg t (rxRecv r m).1 past d pre F ∧ ChanA t (rxRecv r m).1 [] (rxRecv r m).2) →
      Live cfg all ⟨t, (rxRecv r m).1, [], (rxRecv r m).2⟩ := fun h => ⟨past, d, pre, F, hb, Or.inr h⟩
  have none : rxRecv r m = (r, []) → Live cfg all ⟨t, (rxRecv r m).1, [], (rxRecv r m).2⟩ := by
    intro e; rw [e]; exact ⟨past, d, pre, F, hb, Or.inr ⟨ha, chanA_nil _ _⟩⟩
  have dcn : rxRecv r m = rxDcn r → Live cfg all ⟨t, (rxRecv r m).1, [], (rxRecv r m).2⟩ := by
    intro e; apply mk; rw [e]; exact ha.dcn
  cases m with
  | pps f p b c =>
    cases h : r.st with
    | docEcm | postDoc =>
      have e : rxRecv r (.pps f p b c) = rxPps r f p b c := by simp only [rxRecv, h, rxDoc, rxPostRnr]
      apply mk; rw [e]; exact rxPps_ahead ha hc
    | postMcf | postPpr | postRnr => exact dcn (by simp only [rxRecv, h, rxDoc, rxPostMcf, rxPostPpr, rxPostRnr])
    | done | gone => exact none (by simp only [rxRecv, h, rxDoc, rxPostMcf, rxPostPpr, rxPostRnr])
  | rr =>
    cases h : r.st with
    | docEcm | postDoc => exact none (by simp only [rxRecv, h, rxDoc, rxPostMcf, rxPostPpr, rxPostRnr])
    | postMcf | postPpr => exact dcn (by simp only [rxRecv, h, rxDoc, rxPostMcf, rxPostPpr, rxPostRnr])
    | postRnr =>
      have e : rxRecv r .rr = rxReply r := by simp only [rxRecv, h, rxDoc, rxPostRnr]
      apply mk; rw [e]
      exact rxReply_ahead ha (ha.rnr h)
    | done | gone => exact none (by simp only [rxRecv, h, rxDoc, rxPostMcf, rxPostPpr, rxPostRnr])
  | ctc =>
    have := ha.st
    rw [TxSt.waits, show t.st = _ from hc] at this
    simp at this
  | _ => exact absurd hc (by simp [Command])

theorem fwdDeliver_live {cfg : Cfg} (ok : cfg.Ok) {all : List (List Nat)} {s : Sys} (h : Live cfg all s) :
    Live cfg all (s.step cfg .fwdDeliver) := by
  obtain ⟨t, r, fwd, bwd⟩ := s
  cases fwd with
  | nil => exact h
  | cons m l =>
    obtain ⟨past, d, pre, F, hb, ⟨hs, hc⟩ | ⟨ha, hc⟩⟩ := h
    · rcases hc with ⟨hbwd, L, fin, hf, hL, hfin⟩ | ⟨_, hf, _⟩
      swap
      · cases hf
      dsimp only at hbwd hf hb hs hfin
      subst hbwd
      show Live cfg all ⟨t, (rxRecv r m).1, l, [] ++ (rxRecv r m).2⟩
      rw [List.nil_append]
      cases L with
      | cons a L =>
        rw [List.cons_append, List.cons.injEq] at hf
        obtain ⟨rfl, rfl⟩ := hf
        obtain ⟨h1, h2, h3⟩ := rx_burst ok hb hs (hL m (by simp))
        rw [h2]
        refine ⟨past, d, pre, F, hb, Or.inl ⟨h1, Or.inl ⟨rfl, L, fin, rfl, fun x hx => hL x (by simp [hx]), ?_⟩⟩⟩
        dsimp only
        rw [h3]; exact hfin
      | nil =>
        rw [List.nil_append] at hf
        rcases hfin with h | ⟨x, h, hx⟩
        · rw [h] at hf; cases hf
        · rw [h] at hf
          obtain ⟨rfl, rfl⟩ := List.cons.inj hf
          exact rx_command ok hb hs hx
    · rcases hc with ⟨hbwd, hf⟩ | ⟨hf, _⟩
      swap
      · cases hf
      rcases hf with hf | ⟨x, hf, hx⟩
      · cases hf
      · dsimp only at hbwd hf hb ha hx
        subst hbwd
        obtain ⟨rfl, rfl⟩ := List.cons.inj hf
        show Live cfg all ⟨t, (rxRecv r m).1, [], [] ++ (rxRecv r m).2⟩
        rw [List.nil_append]
        exact rx_command_ahead hb ha hx

theorem fwdLose_live {cfg : Cfg} {all : List (List Nat)} {s : Sys} (h : Live cfg all s) :
    Live cfg all (s.step cfg .fwdLose) := by
  obtain ⟨t, r, fwd, bwd⟩ := s
  obtain ⟨past, d, pre, F, hb, ⟨hs, hc⟩ | ⟨ha, hc⟩⟩ := h
  · refine ⟨past, d, pre, F, hb, Or.inl ⟨hs, ?_⟩⟩
    rcases hc with ⟨hbwd, L, fin, hf, hL, hfin⟩ | ⟨h1, hf, h2⟩
    · dsimp only at hf hbwd
      cases L with
      | cons a L =>
        refine Or.inl ⟨hbwd, L, fin, ?_, fun x hx => hL x (by simp [hx]), hfin⟩
        show fwd.tail = _
        rw [hf]; rfl
      | nil =>
        refine Or.inl ⟨hbwd, [], [], ?_, by simp, Or.inl rfl⟩
        show fwd.tail = _
        rcases hfin with h | ⟨x, h, _⟩ <;> rw [hf, h] <;> rfl
    · refine Or.inr ⟨h1, ?_, h2⟩
      show fwd.tail = []
      rw [show fwd = [] from hf]; rfl
  · refine ⟨past, d, pre, F, hb, Or.inr ⟨ha, ?_⟩⟩
    rcases hc with ⟨hbwd, hf⟩ | ⟨hf, h2⟩
    · refine Or.inl ⟨hbwd, Or.inl ?_⟩
      show fwd.tail = []
      rcases hf with h | ⟨x, h, _⟩
      · rw [show fwd = [] from h]; rfl
      · rw [show fwd = [x] from h]; rfl
    · refine Or.inr ⟨?_, h2⟩
      show fwd.tail = []
      rw [show fwd = [] from hf]; rfl

theorem bwdLose_live {cfg : Cfg} {all : List (List Nat)} {s : Sys} (h : Live cfg all s) :
    Live cfg all (s.step cfg .bwdLose) := by
  obtain ⟨t, r, fwd, bwd⟩ := s
  obtain ⟨past, d, pre, F, hb, ⟨hs, hc⟩ | ⟨ha, hc⟩⟩ := h
  · refine ⟨past, d, pre, F, hb, Or.inl ⟨hs, ?_⟩⟩
    rcases hc with ⟨hbwd, h⟩ | ⟨h1, hf, x, h2, _⟩
    · refine Or.inl ⟨?_, h⟩
      show bwd.tail = []
      rw [show bwd = [] from hbwd]; rfl
    · show ChanS t r fwd bwd.tail F
      rw [show bwd = [x] from h2, show fwd = [] from hf]
      exact chanS_nil _ _ _
  · refine ⟨past, d, pre, F, hb, Or.inr ⟨ha, ?_⟩⟩
    rcases hc with ⟨hbwd, h⟩ | ⟨hf, x, h2, _⟩
    · refine Or.inl ⟨?_, h⟩
      show bwd.tail = []
      rw [show bwd = [] from hbwd]; rfl
    · show ChanA t r fwd bwd.tail
      rw [show bwd = [x] from h2, show fwd = [] from hf]
      exact chanA_nil _ _

/-! ## The sender -/

/-- The sender gives up, with or without DCN. -/
theorem over_dcn {cfg all t r bwd bwd'} (h : Live cfg all ⟨t, r, [], bwd⟩) (t' : Tx) (hok : t'.ok = t.ok) :
    Inv cfg all ⟨(txDcn t').1, r, (txDcn t').2, bwd'⟩ :=
  h.over (Or.inr (Or.inr rfl)) (hok.trans h.got.2) (by
    intro m hm; rw [List.mem_singleton.1 hm]; exact Or.inr (Or.inr rfl))

theorem over_end {cfg all t r bwd bwd'} (h : Live cfg all ⟨t, r, [], bwd⟩) (t' : Tx) (hok : t'.ok = t.ok) :
    Inv cfg all ⟨{ t' with st := .done }, r, [], bwd'⟩ :=
  h.over (Or.inr (Or.inr rfl)) (hok.trans h.got.2) (by intro m hm; cases hm)

/-- RR, when there is a Live state to send it in. -/
theorem live_rr {cfg all t r bwd} (t' : Tx) (h : Live cfg all ⟨t, r, [], bwd⟩) (hok : t'.ok = t.ok)
    (h' : Live cfg all ⟨t', r, [.rr], []⟩) : Inv cfg all ⟨(txRr t').1, r, (txRr t').2, []⟩ := by
  unfold txRr
  split
  · exact over_dcn h t' hok
  · exact Or.inl h'

/-- The sender in another state of waiting. -/
theorem Blk.wait {cfg all t past d pre F} (h : Blk cfg all t past d pre F) (hst : t.st ≠ .iv) (st : TxSt) :
    Blk cfg all { t with st := st } past d pre F :=
  ⟨h.all, h.page, h.frames, h.pos, h.max, h.lens, h.buf, h.more, h.ends, fun _ => h.step hst, h.docs, h.ok, h.pre⟩

theorem Synced.rnr_wait {cfg t r past pre F} (h : Synced cfg t r past pre F) (hst : t.st ≠ .iv) :
    Synced cfg { t with st := .ppsRnr } r past pre F :=
  ⟨Or.inl (Or.inr (Or.inr rfl)), h.page, h.block, h.pages, h.out, h.stored, h.count, h.ticked,
    fun h0 => ⟨(h.fresh h0).1, fun h => (by cases h), fun _ => (h.fresh h0).2.2 hst⟩, h.next,
    fun e => ⟨(h.rnr e).1, (h.rnr e).2.1, (h.rnr e).2.2.1, Or.inr (Or.inr rfl)⟩⟩

theorem Ahead.rnr_wait {cfg t r past d pre F} (h : Ahead cfg t r past d pre F) :
    Ahead cfg { t with st := .ppsRnr } r past d pre F :=
  ⟨Or.inr (Or.inr rfl), h.buf, h.frames, h.mid, h.last, h.rnr⟩

/-- PPR at the sender. -/
theorem txPpr_live {cfg : Cfg} {all past : List (List Nat)} {d pre : List Nat} {F : List (List Nat)} {t : Tx} {r : Rx} {map : List Nat}
    (hb : Blk cfg all t past d pre F) (hs : Synced cfg t r past pre F) (hst : t.st ≠ .iv) (hm : ReplyS r (.ppr map)) :
    Inv cfg all ⟨(txPpr t map).1, r, (txPpr t map).2, []⟩ := by
  obtain ⟨rfl, hfr, hrn⟩ := hm
  have hlive : Live cfg all ⟨t, r, [], []⟩ := ⟨past, d, pre, F, hb, Or.inl ⟨hs, chanS_nil _ _ _⟩⟩
  -- whatever the counts and the state
  have hb' : ∀ (st : TxSt) (a b c cur burst rt : Nat), Blk cfg all { t with
      retries := rt, progress := a, pprCount := b, fallback := c, cur := cur, burst := burst, st := st,
      buf := fun i => if i < 256 && !mapBit (frameMap r.buf) i then none else t.buf i } past d pre F := by
    intro st a b c cur burst rt
    refine ⟨hb.all, hb.page, hb.frames, hb.pos, hb.max, hb.lens, ?_, hb.more, hb.ends, fun _ => hb.step hst, hb.docs, hb.ok, hb.pre⟩
    intro i hi
    show (if (i < 256 && !mapBit (frameMap r.buf) i) = true then none else t.buf i) = _ ∨ (if _ then none else t.buf i) = none
    split
    · right; rfl
    · exact hb.buf i hi
  have hs' : ∀ (st : TxSt) (a b c cur burst rt : Nat), (st = .iv ∨ st = .ctc) → Synced cfg { t with
      retries := rt, progress := a, pprCount := b, fallback := c, cur := cur, burst := burst, st := st,
      buf := fun i => if i < 256 && !mapBit (frameMap r.buf) i then none else t.buf i } r past pre F := by
    intro st a b c cur burst rt hst'
    refine ⟨Or.inr hst', hs.page, hs.block, hs.pages, hs.out, hs.stored, hs.count, ?_, fun h0 => absurd h0 hfr, hs.next, fun e => absurd e hrn⟩
    intro i hi hn
    have hn' : (if (i < 256 && !mapBit (frameMap r.buf) i) = true then none else t.buf i) = none := hn
    split at hn'
    · rename_i hc
      simp only [Bool.and_eq_true, decide_eq_true_eq, Bool.not_eq_true'] at hc
      rw [frameMap_bit _ _ hc.1] at hc
      intro h; rw [h] at hc; simp at hc
    · exact hs.ticked i hi hn'
  unfold txPpr
  rw [if_neg (by rw [frameMap_length]; simp)]
  dsimp only
  split
  · split
    · refine Or.inl ⟨past, d, pre, F, hb' .ctc _ _ _ _ _ _, Or.inl ⟨hs' .ctc _ _ _ _ _ _ (Or.inr rfl), ?_⟩⟩
      exact Or.inl ⟨rfl, [], [.ctc], rfl, by simp, Or.inr ⟨_, rfl, rfl⟩⟩
    · exact hlive.over (Or.inl rfl) hb.ok (by intro m hm; rw [List.mem_singleton.1 hm]; exact Or.inl ⟨_, rfl⟩)
  · exact Or.inl ⟨past, d, pre, F, hb' .iv _ _ _ _ _ _, Or.inl ⟨hs' .iv _ _ _ _ _ _ (Or.inl rfl), chanS_nil _ _ _⟩⟩

theorem txMcf_mid {cfg : Cfg} {t : Tx} (he : t.atEnd = false) (hp : 0 < (getPartial cfg { t with retries := 0 }).frames) :
    txMcf cfg t = (startBurst { getPartial cfg { t with retries := 0 } with block := t.block + 1 }, []) := by
  show (if t.atEnd = true then _ else if (getPartial cfg { t with retries := 0 }).frames > 0 then _ else _) = _
  rw [if_neg (by rw [he]; decide), if_pos hp]
  rfl

theorem nextPage_eop {cfg : Cfg} {t : Tx} (hs : t.step = .eop) :
    nextPage cfg t = txDcn { t with page := t.page + 1, block := 0, retries := 0, ok := true } := by
  unfold nextPage
  split
  · rename_i h; rw [hs] at h; cases h
  · rfl
  · rename_i h; rw [hs] at h; cases h

theorem nextPage_mps {cfg : Cfg} {t : Tx} (hs : t.step = .mps) {x : List Nat} {xs : List (List Nat)} (hd : t.docs = x :: xs)
    (hp : 0 < (getPartial cfg { t with page := t.page + 1, block := 0, retries := 0, rest := x, docs := xs }).frames) :
    nextPage cfg t = (startBurst (getPartial cfg { t with page := t.page + 1, block := 0, retries := 0, rest := x, docs := xs }), []) := by
  unfold nextPage
  split
  · split
    · rename_i h; rw [hd] at h; cases h
    · rename_i h; rw [hd] at h; cases h; exact if_pos hp
  · rename_i h; rw [hs] at h; cases h
  · rename_i h; rw [hs] at h; cases h

theorem txMcf_last {cfg : Cfg} {t : Tx} (he : t.atEnd = true) : txMcf cfg t = nextPage cfg { t with retries := 0 } := by
  show (if t.atEnd = true then _ else _) = _
  rw [if_pos he]

/-- MCF at the sender. -/
theorem txMcf_live {cfg : Cfg} (ok : cfg.Ok) {all past : List (List Nat)} {d pre : List Nat} {F : List (List Nat)} {t : Tx} {r : Rx}
    (hb : Blk cfg all t past d pre F) (ha : Ahead cfg t r past d pre F) (hrn : r.st ≠ .postRnr) :
    Inv cfg all ⟨(txMcf cfg t).1, r, (txMcf cfg t).2, []⟩ := by
  have hiv : t.st ≠ .iv := by
    rcases ha.st with h | h | h <;> rw [h] <;> decide
  cases he : t.atEnd with
  | false =>
    obtain ⟨hne, hd⟩ := hb.more he
    obtain ⟨h1, h2, h3, h4, h5⟩ := ha.mid he
    obtain ⟨F', g⟩ := getPartial_got ok { t with retries := 0 } d (pre ++ F.flatten) hd hne
    rw [txMcf_mid he g.pos]
    left
    refine live_start (past := past) (d := d) (pre := pre ++ F.flatten) (F := F')
      (t := { getPartial cfg { t with retries := 0 } with block := t.block + 1 })
      ⟨g.frames, g.pos, g.max, g.lens, g.buf, g.more, g.ends⟩ hb.all hb.page ⟨t.rest, hd.symm⟩ hb.docs hb.ok h1 h2 h4 h3 ha.buf
      ha.frames h5 hrn
  | true =>
    have hstep := hb.step hiv he
    obtain ⟨h1, h2, h3, h4, h5⟩ := ha.last he
    cases hdocs : t.docs with
    | nil =>
      have hs : t.step = .eop := by rw [hstep, checkNext, hdocs]; rfl
      rw [txMcf_last he, nextPage_eop (t := { t with retries := 0 }) hs]
      right
      have hall := hb.all
      rw [hdocs] at hall
      refine ⟨Or.inr (Or.inr rfl), ⟨past ++ [d], [], by rw [hall]; simp, h4, Or.inl h3⟩, fun _ => ⟨rfl, ?_⟩, ?_⟩
      · show List.Forall₂ (Padded cfg.sz) all r.pages
        rw [hall]; exact h4
      · intro m hm; rw [List.mem_singleton.1 hm]; exact Or.inr (Or.inr rfl)
    | cons x xs =>
      have hs : t.step = .mps := by rw [hstep, checkNext, hdocs]; rfl
      have hx : x ≠ [] := hb.docs x (by rw [hdocs]; simp)
      obtain ⟨F', g⟩ := getPartial_got ok
        { t with page := t.page + 1, block := 0, retries := 0, rest := x, docs := xs } x [] rfl hx
      rw [txMcf_last he, nextPage_mps (t := { t with retries := 0 }) hs hdocs g.pos]
      left
      have hall := hb.all
      rw [hdocs] at hall
      refine live_start (past := past ++ [d]) g (by rw [hall]; simp; rfl) ?_ List.nil_prefix ?_ hb.ok h1 h2 h4 h3 ha.buf ha.frames ?_ hrn
      · show t.page + 1 = _
        rw [hb.page]; simp
      · intro y hy; exact hb.docs y (by rw [hdocs]; simp [show y ∈ xs from hy])
      · rw [h5, hs]

theorem bwdDeliver_live {cfg : Cfg} (ok : cfg.Ok) {all : List (List Nat)} {s : Sys} (h : Live cfg all s) :
    Inv cfg all (s.step cfg .bwdDeliver) := by
  obtain ⟨t, r, fwd, bwd⟩ := s
  cases bwd with
  | nil => exact Or.inl h
  | cons m l =>
    have h0 := h
    obtain ⟨past, d, pre, F, hb, ⟨hs, hc⟩ | ⟨ha, hc⟩⟩ := h
    · rcases hc with ⟨hbwd, _⟩ | ⟨hst, hf, x, hx, hr⟩
      · cases hbwd
      dsimp only at hst hf hx hr hb hs
      subst hf
      obtain ⟨rfl, rfl⟩ := List.cons.inj hx
      show Inv cfg all ⟨(txRecv cfg t m).1, r, [] ++ (txRecv cfg t m).2, []⟩
      rw [List.nil_append]
      have dcn : txRecv cfg t m = txDcn t → Inv cfg all ⟨(txRecv cfg t m).1, r, (txRecv cfg t m).2, []⟩ := by
        intro e; rw [e]; exact over_dcn h0 t rfl
      have fin : txRecv cfg t m = ({ t with st := .done }, []) → Inv cfg all ⟨(txRecv cfg t m).1, r, (txRecv cfg t m).2, []⟩ := by
        intro e; rw [e]; exact over_end h0 t rfl
      have rr : txRecv cfg t m = txRr { t with st := .ppsRnr } → Inv cfg all ⟨(txRecv cfg t m).1, r, (txRecv cfg t m).2, []⟩ := by
        intro e; rw [e]
        refine live_rr { t with st := .ppsRnr } h0 rfl ⟨past, d, pre, F, hb.wait hst _, Or.inl ⟨hs.rnr_wait hst, ?_⟩⟩
        exact Or.inl ⟨rfl, [], [.rr], rfl, by simp, Or.inr ⟨_, rfl, rfl⟩⟩
      have sent : txRecv cfg t m = txPpsSent cfg t m → Inv cfg all ⟨(txRecv cfg t m).1, r, (txRecv cfg t m).2, []⟩ := by
        intro e
        cases m with
        | mcf => exact absurd hr id
        | pps => exact absurd hr id
        | ppr map => rw [e]; exact txPpr_live hb hs hst hr
        | rnr => exact rr e
        | dcn => exact fin e
        | _ => exact dcn e
      rcases hs.st with (h | h | h) | h | h
      · exact sent (by simp only [txRecv, h])
      · exact sent (by simp only [txRecv, h])
      · have e : txRecv cfg t m = txPpsRnr cfg t m := by simp only [txRecv, h]
        cases m with
        | mcf => exact absurd hr id
        | pps => exact absurd hr id
        | rnr => exact rr (by rw [e, ← h]; rfl)
        | dcn => exact fin e
        | _ => exact dcn e
      · exact absurd h hst
      · have e : txRecv cfg t m = txCtc t m := by simp only [txRecv, h]
        cases m with
        | mcf => exact absurd hr id
        | pps => exact absurd hr id
        | ctr =>
          rw [e]
          refine Or.inl ⟨past, d, pre, F, ?_, Or.inl ⟨?_, chanS_nil _ _ _⟩⟩
          · exact ⟨hb.all, hb.page, hb.frames, hb.pos, hb.max, hb.lens, hb.buf, hb.more, hb.ends, fun h => absurd rfl h, hb.docs, hb.ok, hb.pre⟩
          · refine ⟨Or.inr (Or.inl rfl), hs.page, hs.block, hs.pages, hs.out, hs.stored, hs.count, hs.ticked, ?_, hs.next, ?_⟩
            swap
            · intro e
              have := (hs.rnr e).2.2.2
              simp [TxSt.waits, h] at this
            intro h0
            refine ⟨(hs.fresh h0).1, fun _ => ?_, fun h => absurd rfl h⟩
            show 0 = min 0 t.frames
            omega
        | _ => exact dcn e
    · rcases hc with ⟨hbwd, _⟩ | ⟨hf, x, hx, hr⟩
      · cases hbwd
      dsimp only at hf hx hr hb ha
      subst hf
      obtain ⟨rfl, rfl⟩ := List.cons.inj hx
      have hst : t.st ≠ .iv := by rcases ha.st with h | h | h <;> rw [h] <;> decide
      show Inv cfg all ⟨(txRecv cfg t m).1, r, [] ++ (txRecv cfg t m).2, []⟩
      rw [List.nil_append]
      have dcn : txRecv cfg t m = txDcn t → Inv cfg all ⟨(txRecv cfg t m).1, r, (txRecv cfg t m).2, []⟩ := by
        intro e; rw [e]; exact over_dcn h0 t rfl
      have fin : txRecv cfg t m = ({ t with st := .done }, []) → Inv cfg all ⟨(txRecv cfg t m).1, r, (txRecv cfg t m).2, []⟩ := by
        intro e; rw [e]; exact over_end h0 t rfl
      have rr : txRecv cfg t m = txRr { t with st := .ppsRnr } → Inv cfg all ⟨(txRecv cfg t m).1, r, (txRecv cfg t m).2, []⟩ := by
        intro e; rw [e]
        refine live_rr { t with st := .ppsRnr } h0 rfl ⟨past, d, pre, F, hb.wait hst _, Or.inr ⟨ha.rnr_wait, ?_⟩⟩
        exact Or.inl ⟨rfl, Or.inr ⟨_, rfl, rfl⟩⟩
      have sent : txRecv cfg t m = txPpsSent cfg t m → Inv cfg all ⟨(txRecv cfg t m).1, r, (txRecv cfg t m).2, []⟩ := by
        intro e
        cases m with
        | mcf => rw [e]; exact txMcf_live ok hb ha hr
        | pps => exact absurd hr id
        | ppr map => exact absurd hr id
        | rnr => exact rr e
        | dcn => exact fin e
        | _ => exact dcn e
      rcases ha.st with h | h | h
      · exact sent (by simp only [txRecv, h])
      · exact sent (by simp only [txRecv, h])
      · have e : txRecv cfg t m = txPpsRnr cfg t m := by simp only [txRecv, h]
        cases m with
        | mcf => rw [e]; exact txMcf_live ok hb ha hr
        | pps => exact absurd hr id
        | ppr map => exact absurd hr id
        | rnr => exact rr (by rw [e, ← h]; rfl)
        | dcn => exact fin e
        | _ => exact dcn e

/-! ## The timers -/

theorem txT4_live {cfg : Cfg} {all : List (List Nat)} {s : Sys} (h : Live cfg all s) :
    Inv cfg all (s.step cfg .txT4) := by
  obtain ⟨t, r, fwd, bwd⟩ := s
  show Inv cfg all (if (fwd.isEmpty && bwd.isEmpty) = true then ⟨(Ecm.txT4 cfg t).1, r, fwd ++ (Ecm.txT4 cfg t).2, bwd⟩ else ⟨t, r, fwd, bwd⟩)
  split
  swap
  · exact Or.inl h
  rename_i hc
  simp only [Bool.and_eq_true, List.isEmpty_iff] at hc
  obtain ⟨rfl, rfl⟩ := hc
  rw [List.nil_append]
  by_cases h1 : t.st = .iv ∨ t.st = .done
  · have e : Ecm.txT4 cfg t = (t, []) := by simp only [Ecm.txT4, if_pos h1]
    rw [e]; exact Or.inl h
  have hst : t.st ≠ .iv := fun e => h1 (Or.inl e)
  by_cases h2 : t.retries + 1 ≥ cfg.tries
  · have e : Ecm.txT4 cfg t = txDcn { t with retries := t.retries + 1 } := by simp only [Ecm.txT4, if_neg h1, if_pos h2]
    rw [e]; exact over_dcn h _ rfl
  have hR : Live cfg all ⟨{ t with retries := t.retries + 1 }, r, [], []⟩ := h.txR (t.retries + 1) t.t5exp
  have pps : (t.st = .ppsNull ∨ t.st = .ppsQ) →
      Live cfg all ⟨{ t with retries := t.retries + 1 }, r, [ppsFrame { t with retries := t.retries + 1 }], []⟩ := by
    intro hp
    obtain ⟨past, d, pre, F, hb, ⟨hs, _⟩ | ⟨ha, _⟩⟩ := hR
    · refine ⟨past, d, pre, F, hb, Or.inl ⟨hs, Or.inl ⟨rfl, [], [_], rfl, by simp, Or.inr ⟨_, rfl, hp, rfl, rfl, rfl, ?_⟩⟩⟩⟩
      intro h0
      have hbu : t.burst = t.frames := (hs.fresh h0).2.2 hst
      have hpos : 0 < t.frames := hb.pos
      show (if t.burst = 0 then 0 else t.burst - 1) + 1 = t.frames
      rw [if_neg (by omega)]; omega
    · exact ⟨past, d, pre, F, hb, Or.inr ⟨ha, Or.inl ⟨rfl, Or.inr ⟨_, rfl, hp, rfl, rfl, rfl, (fun h => by cases h)⟩⟩⟩⟩
  have rr : t.st = .ppsRnr → Live cfg all ⟨{ t with retries := t.retries + 1 }, r, [.rr], []⟩ := by
    intro hp
    obtain ⟨past, d, pre, F, hb, ⟨hs, _⟩ | ⟨ha, _⟩⟩ := hR
    · exact ⟨past, d, pre, F, hb, Or.inl ⟨hs, Or.inl ⟨rfl, [], [.rr], rfl, by simp, Or.inr ⟨_, rfl, hp⟩⟩⟩⟩
    · exact ⟨past, d, pre, F, hb, Or.inr ⟨ha, Or.inl ⟨rfl, Or.inr ⟨_, rfl, hp⟩⟩⟩⟩
  have e0 : ∀ p, (match t.st with
      | .ppsNull | .ppsQ => (({ t with retries := t.retries + 1 } : Tx), [ppsFrame { t with retries := t.retries + 1 }])
      | .ppsRnr | .eorRnr => txRr { t with retries := t.retries + 1 }
      | _ => ({ t with retries := t.retries + 1 }, [])) = p → Ecm.txT4 cfg t = p := by
    intro p hp
    simp only [Ecm.txT4, if_neg h1, if_neg h2]
    exact hp
  cases h3 : t.st with
  | iv => exact absurd h3 hst
  | done => exact absurd (Or.inr h3) h1
  | ppsNull =>
    rw [e0 ({ t with retries := t.retries + 1 }, [ppsFrame { t with retries := t.retries + 1 }]) (by rw [h3])]
    exact Or.inl (pps (Or.inl h3))
  | ppsQ =>
    rw [e0 ({ t with retries := t.retries + 1 }, [ppsFrame { t with retries := t.retries + 1 }]) (by rw [h3])]
    exact Or.inl (pps (Or.inr h3))
  | ppsRnr =>
    rw [e0 (txRr { t with retries := t.retries + 1 }) (by rw [h3])]
    exact live_rr _ h rfl (rr h3)
  | ctc =>
    rw [e0 ({ t with retries := t.retries + 1 }, []) (by rw [h3])]
    exact Or.inl hR
  | eor | eorRnr =>
    exfalso
    obtain ⟨past, d, pre, F, hb, ⟨hs, _⟩ | ⟨ha, _⟩⟩ := h
    · rcases hs.st with (h | h | h) | h | h <;> rw [show t.st = _ from h3] at h <;> cases h
    · rcases ha.st with h | h | h <;> rw [show t.st = _ from h3] at h <;> cases h

theorem rxT4_live {cfg : Cfg} {all : List (List Nat)} {s : Sys} (h : Live cfg all s) :
    Live cfg all (s.step cfg .rxT4) := by
  obtain ⟨t, r, fwd, bwd⟩ := s
  show Live cfg all (if (fwd.isEmpty && bwd.isEmpty) = true then ⟨t, (Ecm.rxT4 cfg r).1, fwd, bwd ++ (Ecm.rxT4 cfg r).2⟩ else ⟨t, r, fwd, bwd⟩)
  split
  swap
  · exact h
  rename_i hc
  simp only [Bool.and_eq_true, List.isEmpty_iff] at hc
  obtain ⟨rfl, rfl⟩ := hc
  rw [List.nil_append]
  have e0 : ¬(r.st = .postMcf ∧ r.next = .eop) → r.st ≠ .postRnr → Ecm.rxT4 cfg r = (r, []) := by
    intro h1 h2
    simp only [Ecm.rxT4, if_neg h1, if_neg h2]
  have e1 : ¬(r.st = .postMcf ∧ r.next = .eop) → r.st = .postRnr → Ecm.rxT4 cfg r =
      if r.retries + 1 ≥ cfg.tries then rxDcn { r with retries := r.retries + 1 } else ({ r with retries := r.retries + 1 }, []) := by
    intro h1 h2
    simp only [Ecm.rxT4, if_neg h1, if_pos h2]
  have e2 : (r.st = .postMcf ∧ r.next = .eop) → Ecm.rxT4 cfg r =
      if r.retries + 1 ≥ cfg.tries then rxDcn { r with retries := r.retries + 1 } else ({ r with retries := r.retries + 1 }, [.mcf]) := by
    intro h1
    simp only [Ecm.rxT4, if_pos h1]
  have h0 := h
  obtain ⟨past, d, pre, F, hb, ⟨hs, _⟩ | ⟨ha, _⟩⟩ := h
  · have hn : ¬(r.st = .postMcf ∧ r.next = .eop) := by
      rintro ⟨_, h⟩
      have := hs.next
      rw [show r.next = _ from h] at this; cases this
    by_cases hr : r.st = .postRnr
    · have hst : t.st ≠ .iv := by
        rcases (hs.rnr hr).2.2.2 with h | h | h <;> rw [show t.st = _ from h] <;> decide
      rw [e1 hn hr]
      split
      · exact ⟨past, d, pre, F, hb, Or.inl (Synced.dcn (hs.rxSt r.st (r.retries + 1) id) hst)⟩
      · exact h0.rxSt r.st (r.retries + 1) id
    · rw [e0 hn hr]; exact h0
  · by_cases hn : r.st = .postMcf ∧ r.next = .eop
    · rw [e2 hn]
      split
      · exact ⟨past, d, pre, F, hb, Or.inr (Ahead.dcn (ha.rxSt r.st (r.retries + 1) id))⟩
      · refine ⟨past, d, pre, F, hb, Or.inr ⟨ha.rxSt r.st (r.retries + 1) id, Or.inr ⟨rfl, _, rfl, ?_⟩⟩⟩
        show r.st ≠ .postRnr
        rw [hn.1]; decide
    · by_cases hr : r.st = .postRnr
      · rw [e1 hn hr]
        split
        · exact ⟨past, d, pre, F, hb, Or.inr (Ahead.dcn (ha.rxSt r.st (r.retries + 1) id))⟩
        · exact h0.rxSt r.st (r.retries + 1) id
      · rw [e0 hn hr]; exact h0

/-- Any event during a transfer. -/
theorem live_step {cfg : Cfg} (ok : cfg.Ok) {all : List (List Nat)} {s : Sys} (h : Live cfg all s) (e : Ev) (he : e ≠ .txT4Early) :
    Inv cfg all (s.step cfg e) := by
  cases e with
  | txStep => exact Or.inl (txStep_live h)
  | fwdDeliver => exact Or.inl (fwdDeliver_live ok h)
  | fwdLose => exact Or.inl (fwdLose_live h)
  | bwdDeliver => exact bwdDeliver_live ok h
  | bwdLose => exact Or.inl (bwdLose_live h)
  | rxSent =>
    left
    show Live cfg all { s with rx := Ecm.rxSent s.rx }
    unfold Ecm.rxSent
    split
    · rename_i hst
      have hn : ∀ st : RxSt, st ≠ .postRnr → Live cfg all { s with rx := { s.rx with st := st } } :=
        fun st hne => h.rxSt st s.rx.retries (fun e => absurd e hne)
      split
      · exact hn .docEcm (by decide)
      · exact h
      · exact hn .done (by decide)
    · exact h
  | rxCarrier =>
    left
    show Live cfg all { s with rx := Ecm.rxCarrier s.rx }
    unfold Ecm.rxCarrier
    split
    · exact h.rxSt .postDoc s.rx.retries (by intro e; cases e)
    · exact h
  | rxT2 =>
    left
    show Live cfg all { s with rx := Ecm.rxT2 s.rx }
    unfold Ecm.rxT2
    split
    · exact h.rxSt .gone s.rx.retries (by intro e; cases e)
    · exact h
  | rxT4 => exact Or.inl (rxT4_live h)
  | txT4 => exact txT4_live h
  | txT5 => exact Or.inl (h.txR s.tx.retries true)
  | txT4Early => exact absurd rfl he

/-! ## After the end -/

/-- The receiver commits nothing when it gets one of the frames which a sender that has finished may still send. -/
theorem rx_harmless (r : Rx) (m : Msg) (hm : Harmless m) : (rxRecv r m).1.pages = r.pages ∧ (rxRecv r m).1.out = r.out := by
  have hreply : (rxReply r).1.pages = r.pages ∧ (rxReply r).1.out = r.out := by
    unfold rxReply rxRespond
    split
    · exact ⟨rfl, rfl⟩
    · split <;> exact ⟨rfl, rfl⟩
  rcases hm with ⟨f, rfl⟩ | rfl | rfl <;> cases h : r.st <;>
    simp [rxRecv, h, rxDoc, rxPostMcf, rxPostPpr, rxPostRnr, rxDcn, hreply]

theorem rxT4_same (cfg : Cfg) (r : Rx) : (Ecm.rxT4 cfg r).1.pages = r.pages ∧ (Ecm.rxT4 cfg r).1.out = r.out := by
  unfold Ecm.rxT4 rxDcn
  dsimp only
  split
  · split <;> exact ⟨rfl, rfl⟩
  · split
    · split <;> exact ⟨rfl, rfl⟩
    · exact ⟨rfl, rfl⟩

/-- A sender which has given up. -/
theorem tx_over (cfg : Cfg) (t : Tx) (m : Msg) (h : t.st = .eor ∨ t.st = .eorRnr ∨ t.st = .done) :
    ((txRecv cfg t m).1.st = .eor ∨ (txRecv cfg t m).1.st = .eorRnr ∨ (txRecv cfg t m).1.st = .done) ∧
    (txRecv cfg t m).1.ok = t.ok ∧ (t.st = .done → (txRecv cfg t m).1.st = .done) ∧ ∀ x ∈ (txRecv cfg t m).2, Harmless x := by
  have hdcn : ∀ x ∈ [Msg.dcn], Harmless x := by intro x hx; rw [List.mem_singleton.1 hx]; exact Or.inr (Or.inr rfl)
  have hrr : ∀ x ∈ [Msg.rr], Harmless x := by intro x hx; rw [List.mem_singleton.1 hx]; exact Or.inr (Or.inl rfl)
  have rr : ∀ t' : Tx, t'.st = .eorRnr → t'.ok = t.ok → t.st ≠ .done →
      ((txRr t').1.st = .eor ∨ (txRr t').1.st = .eorRnr ∨ (txRr t').1.st = .done) ∧
      (txRr t').1.ok = t.ok ∧ (t.st = .done → (txRr t').1.st = .done) ∧ ∀ x ∈ (txRr t').2, Harmless x := by
    intro t' h1 h2 h3
    unfold txRr
    split
    · exact ⟨Or.inr (Or.inr rfl), h2, fun _ => rfl, hdcn⟩
    · exact ⟨Or.inr (Or.inl h1), h2, fun h => absurd h h3, hrr⟩
  have dcn : ((txDcn t).1.st = .eor ∨ (txDcn t).1.st = .eorRnr ∨ (txDcn t).1.st = .done) ∧
      (txDcn t).1.ok = t.ok ∧ (t.st = .done → (txDcn t).1.st = .done) ∧ ∀ x ∈ (txDcn t).2, Harmless x :=
    ⟨Or.inr (Or.inr rfl), rfl, fun _ => rfl, hdcn⟩
  rcases h with h | h | h
  · have e : txRecv cfg t m = txEor t m := by simp only [txRecv, h]
    rw [e]
    cases m <;> first | exact dcn | exact rr { t with st := .eorRnr } rfl rfl (by rw [h]; decide)
  · have e : txRecv cfg t m = txEorRnr t m := by simp only [txRecv, h]
    rw [e]
    cases m <;> first
      | exact dcn
      | exact rr t h rfl (by rw [h]; decide)
      | exact ⟨Or.inr (Or.inr rfl), rfl, fun _ => rfl, (fun x hx => by cases hx)⟩
  · have e : txRecv cfg t m = (t, []) := by simp only [txRecv, h]
    rw [e]
    exact ⟨Or.inr (Or.inr h), rfl, fun _ => h, (fun x hx => by cases hx)⟩

theorem txT4_over (cfg : Cfg) (t : Tx) (h : t.st = .eor ∨ t.st = .eorRnr ∨ t.st = .done) :
    ((Ecm.txT4 cfg t).1.st = .eor ∨ (Ecm.txT4 cfg t).1.st = .eorRnr ∨ (Ecm.txT4 cfg t).1.st = .done) ∧
    (Ecm.txT4 cfg t).1.ok = t.ok ∧ (t.st = .done → (Ecm.txT4 cfg t).1.st = .done) ∧ ∀ x ∈ (Ecm.txT4 cfg t).2, Harmless x := by
  have hdcn : ∀ x ∈ [Msg.dcn], Harmless x := by intro x hx; rw [List.mem_singleton.1 hx]; exact Or.inr (Or.inr rfl)
  have hrr : ∀ x ∈ [Msg.rr], Harmless x := by intro x hx; rw [List.mem_singleton.1 hx]; exact Or.inr (Or.inl rfl)
  rcases h with h | h | h <;> simp only [Ecm.txT4, h] <;> by_cases h2 : t.retries + 1 ≥ cfg.tries <;>
    simp [h2, txDcn, txRr, Harmless] <;> (try split) <;> simp_all

theorem over_step {cfg : Cfg} {all : List (List Nat)} {s : Sys} (h : Over cfg all s) (e : Ev) : Over cfg all (s.step cfg e) := by
  obtain ⟨t, r, fwd, bwd⟩ := s
  obtain ⟨hst, hgot, hok, hf⟩ := h
  dsimp only at hst hgot hok hf
  have rxs : ∀ (r' : Rx) (fwd' bwd' : List Msg), r'.pages = r.pages → r'.out = r.out → (∀ m ∈ fwd', Harmless m) →
      Over cfg all ⟨t, r', fwd', bwd'⟩ := by
    intro r' fwd' bwd' h1 h2 h3
    refine ⟨hst, ?_, ?_, h3⟩
    · show Prefix cfg.sz all r'.pages r'.out
      rw [h1, h2]; exact hgot
    · intro hk
      show t.st = .done ∧ Whole cfg.sz all r'.pages
      rw [h1]; exact hok hk
  have txs : ∀ (p : Tx × List Msg) (bwd' : List Msg), (p.1.st = .eor ∨ p.1.st = .eorRnr ∨ p.1.st = .done) → p.1.ok = t.ok →
      (t.st = .done → p.1.st = .done) → (∀ x ∈ p.2, Harmless x) → Over cfg all ⟨p.1, r, fwd ++ p.2, bwd'⟩ := by
    intro p bwd' h1 h2 h3 h4
    refine ⟨h1, hgot, ?_, ?_⟩
    · intro hk
      have hk' : t.ok = true := h2.symm.trans hk
      exact ⟨h3 (hok hk').1, (hok hk').2⟩
    · intro m hm
      rcases List.mem_append.1 hm with hm | hm
      · exact hf m hm
      · exact h4 m hm
  cases e with
  | txStep =>
    have e : Ecm.txStep t = (t, []) := by
      rw [Ecm.txStep, if_neg]
      rcases hst with h | h | h <;> rw [h] <;> decide
    show Over cfg all ⟨(Ecm.txStep t).1, r, fwd ++ (Ecm.txStep t).2, bwd⟩
    rw [e]
    exact txs (t, []) bwd hst rfl id (fun x hx => by cases hx)
  | fwdDeliver =>
    cases fwd with
    | nil => exact rxs r [] bwd rfl rfl hf
    | cons m l =>
      obtain ⟨h1, h2⟩ := rx_harmless r m (hf m (by simp))
      exact rxs _ l _ h1 h2 (fun x hx => hf x (by simp [hx]))
  | fwdLose => exact rxs r _ bwd rfl rfl (fun x hx => hf x (List.mem_of_mem_tail hx))
  | bwdDeliver =>
    cases bwd with
    | nil => exact rxs r fwd [] rfl rfl hf
    | cons m l =>
      obtain ⟨h1, h2, h3, h4⟩ := tx_over cfg t m hst
      exact txs _ l h1 h2 h3 h4
  | bwdLose => exact rxs r fwd _ rfl rfl hf
  | rxSent =>
    refine rxs _ fwd bwd ?_ ?_ hf <;> (dsimp only [Ecm.rxSent]; split <;> [skip; rfl]) <;> split <;> rfl
  | rxCarrier => refine rxs _ fwd bwd ?_ ?_ hf <;> (dsimp only [Ecm.rxCarrier]; split <;> rfl)
  | rxT2 => refine rxs _ fwd bwd ?_ ?_ hf <;> (dsimp only [Ecm.rxT2]; split <;> rfl)
  | rxT4 =>
    show Over cfg all (if (fwd.isEmpty && bwd.isEmpty) = true then ⟨t, (Ecm.rxT4 cfg r).1, fwd, bwd ++ (Ecm.rxT4 cfg r).2⟩ else ⟨t, r, fwd, bwd⟩)
    split
    · exact rxs _ fwd _ (rxT4_same cfg r).1 (rxT4_same cfg r).2 hf
    · exact rxs r fwd bwd rfl rfl hf
  | txT4 =>
    obtain ⟨h1, h2, h3, h4⟩ := txT4_over cfg t hst
    show Over cfg all (if (fwd.isEmpty && bwd.isEmpty) = true then ⟨(Ecm.txT4 cfg t).1, r, fwd ++ (Ecm.txT4 cfg t).2, bwd⟩ else ⟨t, r, fwd, bwd⟩)
    split
    · exact txs _ bwd h1 h2 h3 h4
    · exact rxs r fwd bwd rfl rfl hf
  | txT5 => exact ⟨hst, hgot, hok, hf⟩
  | txT4Early =>
    obtain ⟨h1, h2, h3, h4⟩ := txT4_over cfg t hst
    exact txs _ bwd h1 h2 h3 h4

/-- Whatever happens. -/
theorem run_inv {cfg : Cfg} (ok : cfg.Ok) {all : List (List Nat)} (evs : List Ev) : ∀ s, Inv cfg all s → (∀ e ∈ evs, e ≠ .txT4Early) →
    Inv cfg all (s.run cfg evs) := by
  induction evs with
  | nil => intro s h _; exact h
  | cons e evs ih =>
    intro s h he
    apply ih
    · rcases h with h | h
      · exact live_step ok h e (he e (by simp))
      · exact Or.inr (over_step h e)
    · intro x hx; exact he x (by simp [hx])

end Ecm
