import Verif.Ecm.Peer
import Verif.Ecm.Early

/-!
# Fax transfers with error correction: C53, C54 and C55

The specification is in `Spec.lean`: `Padded`, `Prefix` and `Whole` speak of pages and octets only.
-/

namespace Ecm

/-- `n` times a frame which arrives. -/
def rounds (n : Nat) : List Ev := (List.replicate n [Ev.txStep, .fwdDeliver]).flatten

/-- `n` times a frame which is lost. -/
def losses (n : Nat) : List Ev := (List.replicate n [Ev.txStep, .fwdLose]).flatten

def c64 : Cfg := ⟨64, List.isEmpty, 3⟩

theorem c64_ok : c64.Ok := ⟨Or.inl rfl, fun r => by cases r <;> simp [c64]⟩

/-! ## C53: what the receiver is given -/

/-- Whatever frames the line loses, whichever timers run out and however often the receiver is busy: what the receiving application has
been given is the document from its start, whole pages in their order and then octets from the start of the next page, and when the
sending application is told that the document was sent, the receiving one has all of it.

What is missing: (1) the response timer must not run out while a response is under way (see `early_timer_loses_a_page`), and (2) the
encoder must say that a page is complete when it is, and only then (see `early_complete_truncates`, and C52). -/
theorem ecm_delivers_partial (cfg : Cfg) (hsz : cfg.sz = 64 ∨ cfg.sz = 256) (hcomplete : ∀ r, cfg.complete r = true ↔ r = [])
    (d : List Nat) (docs : List (List Nat)) (hne : ∀ x ∈ d :: docs, x ≠ []) (fallback notReady : Nat)
    (evs : List Ev) (hevs : Ev.txT4Early ∉ evs) :
    let s := (Sys.init cfg d docs fallback notReady).run cfg evs
    Prefix cfg.sz (d :: docs) s.rx.pages s.rx.out ∧ (s.tx.ok = true → Whole cfg.sz (d :: docs) s.rx.pages) :=
  (run_inv ⟨hsz, hcomplete⟩ evs _ (Or.inl (init_live ⟨hsz, hcomplete⟩ d docs fallback notReady hne))
    (fun _ he h => hevs (h ▸ he))).got

/-- Two pages. The only frame of the first one is lost at first, the receiver complains, the frame is sent again; then a response is
lost and the PPS is repeated. -/
def lossy : List Ev :=
  losses 1 ++ rounds 4 ++ [.rxSent, .bwdDeliver] ++ rounds 5 ++ [.rxSent, .bwdLose, .txT4, .fwdDeliver, .rxSent, .bwdDeliver] ++ rounds 5 ++
  [.rxSent, .bwdDeliver]

example : Ev.txT4Early ∉ lossy ∧
    ((Sys.init c64 [1, 2, 3] [[4]] 0 0).run c64 lossy).tx.ok = true ∧
    ((Sys.init c64 [1, 2, 3] [[4]] 0 0).run c64 lossy).rx.pages = [[1, 2, 3] ++ List.replicate 61 0, 4 :: List.replicate 63 0] := by
  decide +kernel

/-- In the middle: a page has been handed over, the next one has begun. -/
example : ((Sys.init c64 [1, 2, 3] [[4]] 0 0).run c64 (rounds 5)).rx.pages.length = 1 ∧
    ((Sys.init c64 [1, 2, 3] [[4]] 0 0).run c64 (rounds 5)).tx.ok = false := by
  decide +kernel

/-- The code does not have the property without the condition on the timer. When the sender's response timer runs out just before the
response comes, the PPS is sent a second time, and the receiver answers a second time; the sender takes the second answer for the
answer to its next page, which may be lost entirely. -/
theorem early_timer_loses_a_page :
    ∃ evs, let s := (Sys.init c64 [1] [[2]] 0 0).run c64 evs
      s.tx.ok = true ∧ s.fwd = [.dcn] ∧ s.bwd = [] ∧ s.rx.pages = [1 :: List.replicate 63 0] ∧ s.rx.out = [] :=
  ⟨rounds 5 ++ [.txT4Early, .rxSent, .bwdDeliver, .fwdDeliver, .rxSent] ++ losses 5 ++ [.bwdDeliver], by decide +kernel⟩

/-- Nor does it have it with an encoder which says too early that a page is complete: for every page of more than 256 frames there is a
call in which nothing is lost, at the end of which the sending application is told that the document was sent, and the receiving one
has been given one page which ends with the first 256 frames, and no more than a frame's worth of zeros. -/
theorem early_complete_truncates (sz tries : Nat) (hsz : sz = 64 ∨ sz = 256) (d : List Nat) (hd : 257 * sz ≤ d.length) (fallback notReady : Nat) :
    ∃ evs, (∀ e ∈ evs, e.clean) ∧
      let s := (Sys.init ⟨sz, fun _ => true, tries⟩ d [] fallback notReady).run ⟨sz, fun _ => true, tries⟩ evs
      s.tx.ok = true ∧ Whole sz [d.take (256 * sz)] s.rx.pages ∧ ¬ Whole sz [d] s.rx.pages := by
  have ok : (⟨sz, List.isEmpty, tries⟩ : Cfg).Ok := ⟨hsz, fun r => by cases r <;> simp⟩
  have hs : 0 < sz := by rcases hsz with h | h <;> omega
  have hlen : 256 * sz ≤ d.length := by omega
  have hne : ∀ x ∈ [d.take (256 * sz)], x ≠ [] := by
    intro x hx h0
    rw [List.mem_singleton.1 hx] at h0
    have := congrArg List.length h0
    rw [List.length_take, List.length_nil] at this
    omega
  obtain ⟨h1, h2⟩ := init_early sz tries hs d hlen fallback notReady
  have hlive := init_live ok (d.take (256 * sz)) [] fallback notReady hne
  obtain ⟨s', ⟨evs, hc, hrun⟩, hk⟩ := finish_run ok _ _ (Nat.le_refl _) hlive ⟨rfl, rfl, rfl, rfl, rfl, rfl⟩
  refine ⟨evs, hc, ?_⟩
  rw [h1, run_rest ⟨sz, List.isEmpty, tries⟩ ⟨sz, fun _ => true, tries⟩ rfl _ evs _ h2, hrun]
  have hw : Whole sz [d.take (256 * sz)] s'.rx.pages := by
    have : Reach ⟨sz, List.isEmpty, tries⟩ _ s' := ⟨evs, hc, hrun⟩
    exact (this.inv ok (Or.inl hlive)).got.2 hk
  refine ⟨hk, hw, ?_⟩
  intro hw'
  have hw'' : List.Forall₂ (Padded sz) [d] s'.rx.pages := hw'
  have hw3 : List.Forall₂ (Padded sz) [d.take (256 * sz)] s'.rx.pages := hw
  generalize s'.rx.pages = pages at hw'' hw3
  cases hw3 with
  | cons p1 p2 =>
    cases hw'' with
    | cons q1 q2 =>
      obtain ⟨k, hk1, e1⟩ := p1
      obtain ⟨j, hj1, e2⟩ := q1
      have := congrArg List.length (e1.symm.trans e2)
      simp only [List.length_append, List.length_take, List.length_replicate] at this
      omega

example : 257 * 64 ≤ (List.replicate 16500 (7 : Nat)).length := by rw [List.length_replicate]; decide

/-! ## C54: when the line recovers -/

/-- On a line which loses nothing, every document is sent: there is a run in which no timer runs out, at the end of which the sending
application is told so and the receiving one has everything. -/
theorem ecm_lossless (cfg : Cfg) (hsz : cfg.sz = 64 ∨ cfg.sz = 256) (hcomplete : ∀ r, cfg.complete r = true ↔ r = [])
    (d : List Nat) (docs : List (List Nat)) (hne : ∀ x ∈ d :: docs, x ≠ []) (fallback notReady : Nat) :
    ∃ evs, (∀ e ∈ evs, e.clean) ∧
      let s := (Sys.init cfg d docs fallback notReady).run cfg evs
      s.tx.ok = true ∧ Whole cfg.sz (d :: docs) s.rx.pages := by
  have hlive := init_live ⟨hsz, hcomplete⟩ d docs fallback notReady hne
  obtain ⟨s', ⟨evs, hc, rfl⟩, hk⟩ := finish_run ⟨hsz, hcomplete⟩ _ _ (Nat.le_refl _) hlive ⟨rfl, rfl, rfl, rfl, rfl, rfl⟩
  refine ⟨evs, hc, hk, ?_⟩
  have : Reach cfg (Sys.init cfg d docs fallback notReady) _ := ⟨evs, hc, rfl⟩
  exact (this.inv ⟨hsz, hcomplete⟩ (Or.inl hlive)).got.2 hk

/-- Whatever has happened so far: when the sender begins a burst (the first one of a block, or the repetition of the frames which the
receiver complained of) while the receiver waits for one, and nothing is lost from now on, the document is sent to its end. -/
theorem ecm_resumes_partial (cfg : Cfg) (hsz : cfg.sz = 64 ∨ cfg.sz = 256) (hcomplete : ∀ r, cfg.complete r = true ↔ r = [])
    (d : List Nat) (docs : List (List Nat)) (hne : ∀ x ∈ d :: docs, x ≠ []) (fallback notReady : Nat)
    (evs : List Ev) (hevs : Ev.txT4Early ∉ evs)
    (htx : ((Sys.init cfg d docs fallback notReady).run cfg evs).tx.st = .iv ∧ ((Sys.init cfg d docs fallback notReady).run cfg evs).tx.cur = 0)
    (h5 : ((Sys.init cfg d docs fallback notReady).run cfg evs).tx.t5exp = false)
    (hrx : ((Sys.init cfg d docs fallback notReady).run cfg evs).rx.st = .docEcm)
    (hline : ((Sys.init cfg d docs fallback notReady).run cfg evs).fwd = [] ∧ ((Sys.init cfg d docs fallback notReady).run cfg evs).bwd = []) :
    ∃ evs', (∀ e ∈ evs', e.clean) ∧
      let s := (Sys.init cfg d docs fallback notReady).run cfg (evs ++ evs')
      s.tx.ok = true ∧ Whole cfg.sz (d :: docs) s.rx.pages := by
  have hinv := run_inv ⟨hsz, hcomplete⟩ evs _ (Or.inl (init_live ⟨hsz, hcomplete⟩ d docs fallback notReady hne))
    (fun e he h => hevs (h ▸ he))
  have hlive : Live cfg (d :: docs) ((Sys.init cfg d docs fallback notReady).run cfg evs) := by
    rcases hinv with h | h
    · exact h
    · have := h.st
      simp [htx.1] at this
  obtain ⟨s', ⟨evs', hc, hr⟩, hk⟩ := finish_run ⟨hsz, hcomplete⟩ _ _ (Nat.le_refl _) hlive ⟨htx.1, htx.2, hrx, h5, hline.1, hline.2⟩
  refine ⟨evs', hc, ?_⟩
  rw [show (Sys.init cfg d docs fallback notReady).run cfg (evs ++ evs') = s' by rw [← hr]; simp [Sys.run]]
  refine ⟨hk, ?_⟩
  have : Reach cfg _ s' := ⟨evs', hc, hr⟩
  exact (this.inv ⟨hsz, hcomplete⟩ (Or.inl hlive)).got.2 hk

/-- The sender has been told that the only frame of the first page is missing, and begins again. -/
example : let s := (Sys.init c64 [1, 2, 3] [[4]] 0 0).run c64 (losses 1 ++ rounds 4 ++ [.rxSent, .bwdDeliver])
    s.tx.st = .iv ∧ s.tx.cur = 0 ∧ s.tx.t5exp = false ∧ s.rx.st = .docEcm ∧ s.fwd = [] ∧ s.bwd = [] ∧ (s.rx.buf 0).isNone = true := by
  decide +kernel

/-- Whatever has happened so far: when the sender waits for the answer to its PPS, the receiver waits for frames, and nothing is under
way, because the PPS or the answer was lost, then the response timer runs out, and when nothing is lost after that, the document is
sent to its end. -/
theorem ecm_timeout_recovers_partial (cfg : Cfg) (hsz : cfg.sz = 64 ∨ cfg.sz = 256) (hcomplete : ∀ r, cfg.complete r = true ↔ r = [])
    (d : List Nat) (docs : List (List Nat)) (hne : ∀ x ∈ d :: docs, x ≠ []) (fallback notReady : Nat)
    (evs : List Ev) (hevs : Ev.txT4Early ∉ evs) (s : Sys) (hs : (Sys.init cfg d docs fallback notReady).run cfg evs = s)
    (htx : s.tx.st = .ppsNull ∨ s.tx.st = .ppsQ) (hrx : s.rx.st = .docEcm ∨ s.rx.st = .postDoc) (hline : s.fwd = [] ∧ s.bwd = [])
    (hready : s.rx.notReady = 0) (h5 : s.tx.t5exp = false) (htries : s.tx.retries + 1 < cfg.tries) (hppr : s.tx.pprCount < 3) :
    ∃ evs', (∀ e ∈ evs', e.clean) ∧
      let s := (Sys.init cfg d docs fallback notReady).run cfg (evs ++ .txT4 :: evs')
      s.tx.ok = true ∧ Whole cfg.sz (d :: docs) s.rx.pages := by
  have hinv := run_inv ⟨hsz, hcomplete⟩ evs _ (Or.inl (init_live ⟨hsz, hcomplete⟩ d docs fallback notReady hne))
    (fun e he h => hevs (h ▸ he))
  rw [hs] at hinv
  have hlive : Live cfg (d :: docs) s := by
    rcases hinv with h | h
    · exact h
    · have := h.st
      rcases htx with h | h <;> simp [h] at this
  obtain ⟨s', ⟨evs', hc, hr⟩, hk⟩ := wait_run ⟨hsz, hcomplete⟩ hlive htx hline.1 hline.2 hrx hready h5 htries hppr
  refine ⟨evs', hc, ?_⟩
  have e : (Sys.init cfg d docs fallback notReady).run cfg (evs ++ .txT4 :: evs') = s' := by
    rw [← hr, ← hs]; simp [Sys.run]
  rw [e]
  refine ⟨hk, ?_⟩
  have : Reach cfg _ s' := ⟨evs', hc, hr⟩
  exact (this.inv ⟨hsz, hcomplete⟩ (live_step ⟨hsz, hcomplete⟩ hlive .txT4 (by decide))).got.2 hk

/-- The PPS after the first page was lost, and the frame before it too. -/
example : let s := (Sys.init c64 [1, 2, 3] [[4]] 0 0).run c64 (losses 5)
    s.tx.st = .ppsQ ∧ s.rx.st = .docEcm ∧ s.fwd = [] ∧ s.bwd = [] ∧ s.rx.notReady = 0 ∧ s.tx.t5exp = false ∧
    s.tx.retries + 1 < c64.tries ∧ s.tx.pprCount < 3 := by
  decide +kernel

/-- The response to the first page was lost. -/
example : let s := (Sys.init c64 [1, 2, 3] [[4]] 0 0).run c64 (rounds 5 ++ [.rxSent, .bwdLose])
    s.tx.st = .ppsQ ∧ s.rx.st = .docEcm ∧ s.fwd = [] ∧ s.bwd = [] ∧ s.rx.notReady = 0 ∧ s.tx.t5exp = false ∧
    s.tx.retries + 1 < c64.tries ∧ s.tx.pprCount < 3 ∧ s.rx.pages.length = 1 := by
  decide +kernel

/-- What is missing, and false. When the one frame that is lost is the confirmation of the last page, the receiver hangs up on the PPS
which the sender repeats: the call ends with an error at the sender although everything was received. -/
theorem lost_confirmation_fails :
    ∃ evs, evs.count .fwdLose = 0 ∧ evs.count .bwdLose = 1 ∧ Ev.txT4Early ∉ evs ∧
      let s := (Sys.init c64 [1] [] 0 0).run c64 evs
      s.rx.pages = [1 :: List.replicate 63 0] ∧ s.tx.st = .done ∧ s.tx.ok = false ∧ s.fwd = [] ∧ s.bwd = [] :=
  ⟨rounds 5 ++ [.rxSent, .bwdLose, .txT4, .fwdDeliver, .bwdDeliver], by decide +kernel⟩

/-- Nor does the sender get over a frame that was lost when the receiver is busy for a moment: after RNR and RR it does not accept the
complaint, and hangs up. -/
theorem busy_receiver_fails :
    ∃ evs, evs.count .fwdLose = 1 ∧ evs.count .bwdLose = 0 ∧ Ev.txT4Early ∉ evs ∧
      let s := (Sys.init c64 [1] [] 0 1).run c64 evs
      s.tx.st = .done ∧ s.tx.ok = false ∧ s.fwd = [.dcn] ∧ s.rx.pages = [] ∧ s.tx.retries = 0 :=
  ⟨losses 1 ++ rounds 4 ++ [.bwdDeliver, .fwdDeliver, .rxSent, .bwdDeliver], by decide +kernel⟩

/-! ## C55: complaints and repetitions, against any station -/

/-- Whatever the other station sends: a message makes the receiver hand over data only if it is a PPS for the page and block which the
receiver is at, and every frame of the block, as counted by the first PPS for it, is there. It hands over these frames, in the order
of their numbers, and ends the page when the PPS says so. -/
theorem rx_hands_over_whole_blocks (r : Rx) (m : Msg) :
    ((rxRecv r m).1.pages = r.pages ∧ (rxRecv r m).1.out = r.out) ∨
    ∃ f c, ∃ F : List (List Nat), m = .pps f (r.page % 256) (r.block % 256) c ∧ F.length = r.frames.getD (c + 1) ∧
      (∀ i, i < F.length → r.buf i = F[i]?) ∧
      (f = .null → (rxRecv r m).1.pages = r.pages ∧ (rxRecv r m).1.out = r.out ++ F.flatten) ∧
      (f ≠ .null → (rxRecv r m).1.pages = r.pages ++ [r.out ++ F.flatten] ∧ (rxRecv r m).1.out = []) := by
  rcases rxRecv_hands r m with h | ⟨f, p, b, c, rfl, he⟩
  · exact Or.inl h
  · rw [he]
    rcases rxPps_hands r f p b c with h | ⟨F, rfl, rfl, h1, h2, h3, h4⟩
    · exact Or.inl h
    · exact Or.inr ⟨f, c, F, rfl, h1, h2, h3, h4⟩

/-- The second alternative happens. -/
example : let r := ((rxRecv (rxRecv (rxInit 0) (.fcd 1 [3])).1 (.fcd 0 [1, 2])).1)
    (rxRecv r (.pps .null 0 0 1)).1.out = r.out ∧ (rxRecv r (.pps .null 0 0 0)).1.out = [1, 2] := by
  decide +kernel

/-- Whatever is sent to the receiver and whatever its timers do, it hands over nothing but the contents of frames which it received. -/
theorem rx_hands_over_only_received (cfg : Cfg) (notReady : Nat) (ins : List In) :
    ∃ (P : List (List (List Nat))) (O : List (List Nat)),
      (ins.foldl (Rx.feed cfg) (rxInit notReady)).pages = P.map List.flatten ∧
      (ins.foldl (Rx.feed cfg) (rxInit notReady)).out = O.flatten ∧
      ∀ x ∈ P.flatten ++ O, ∃ no, In.msg (.fcd no x) ∈ ins := by
  have := feed_only cfg ins (rxInit notReady) [] (fun i d h => by cases h) ⟨[], [], rfl, rfl, by simp⟩
  simpa using this

/-- The map of a complaint says exactly which of the 256 frames the receiver has not got. -/
theorem complaint_exact (r : Rx) (m : Msg) (map : List Nat) (h : (rxRecv r m).2 = [.ppr map]) (hr : r.st = .docEcm ∨ r.st = .postDoc) :
    map.length = 32 ∧ ∀ i, i < 256 → (mapBit map i = true ↔ (rxRecv r m).1.buf i = none) := by
  have e : rxRecv r m = rxDoc r m := by rcases hr with h | h <;> simp only [rxRecv, h]
  rw [e] at h ⊢
  cases m <;> simp only [rxDoc, rxDcn] at h <;> try cases h
  rename_i f p b c
  simp only [rxDoc]
  unfold rxPps at h ⊢
  dsimp only at h ⊢
  split at h
  · split at h <;> simp [rxDcn] at h
  · rename_i hm
    rw [if_neg hm]
    have key : ∀ r' : Rx, (r'.blockOk = false → r'.map = frameMap r'.buf) → (rxReply r').2 = [.ppr map] →
        map.length = 32 ∧ ∀ i, i < 256 → (mapBit map i = true ↔ (rxReply r').1.buf i = none) := by
      intro r' h1 h2
      unfold rxReply at h2 ⊢
      split at h2
      · simp at h2
      · rename_i hn
        rw [if_neg hn]
        unfold rxRespond at h2 ⊢
        split at h2
        · simp at h2
        · rename_i hb
          rw [if_neg hb]
          have hb' : r'.blockOk = false := by simpa using hb
          simp only [List.cons.injEq, Msg.ppr.injEq, and_true] at h2
          rw [← h2, h1 hb']
          refine ⟨frameMap_length _, fun i hi => ?_⟩
          rw [frameMap_bit _ _ hi]
          simp
    refine key _ ?_ h
    intro hb
    split at hb
    · rename_i h1
      rw [rxCommit] at hb
      dsimp only [rxEndPage] at hb
      split at hb <;> (rw [h1] at hb; cases hb)
    · rename_i h1
      rw [if_neg h1]

/-- Frame 0 of 3 is there, and frames 1 and 2 are not. -/
example : let r := (rxRecv (rxInit 0) (.fcd 0 (List.replicate 64 9))).1
    (rxRecv r (.pps .eop 0 0 2)).2 = [.ppr (0xFE :: List.replicate 31 0xFF)] := by
  decide +kernel

/-- The sender answers a complaint, until it has had four of them for a block, with exactly those of its frames which the receiver
complains of, in their order, unchanged, and then three RCP frames and a PPS which counts them. -/
theorem repetition_exact (t : Tx) (map : List Nat) (hmap : map.length = 32) (hppr : t.pprCount < 3) (hmax : t.frames ≤ 256) :
    (txPpr t map).2 = [] ∧ ∃ m f p b c, (txSteps m (txPpr t map).1).2 =
      ((List.range t.frames).filterMap fun i => if mapBit map i then (t.buf i).map (Msg.fcd i) else none) ++
        [.rcp, .rcp, .rcp] ++ [.pps f p b c] ∧
      c = ((List.range t.frames).filterMap fun i => if mapBit map i then (t.buf i).map (Msg.fcd i) else none).length - 1 := by
  have e : ∃ n, txPpr t map = (startBurst { t with
      retries := 0, progress := n, buf := fun i => if i < 256 && !mapBit map i then none else t.buf i, pprCount := t.pprCount + 1 }, []) := by
    refine ⟨t.progress + ((List.range 256).filter fun i => !mapBit map i && (t.buf i).isSome).length, ?_⟩
    unfold txPpr
    rw [if_neg (by rw [hmap]; decide)]
    dsimp only
    rw [if_neg (by omega)]
  obtain ⟨n, e⟩ := e
  rw [e]
  refine ⟨rfl, ?_⟩
  obtain ⟨m, cur, burst, h1, h2⟩ := burst_whole (startBurst { t with
      retries := 0, progress := n, buf := fun i => if i < 256 && !mapBit map i then none else t.buf i, pprCount := t.pprCount + 1 }) rfl rfl
  have hl : ((List.range t.frames).filterMap fun i => ((if i < 256 && !mapBit map i then none else t.buf i)).map (Msg.fcd i)) =
      ((List.range t.frames).filterMap fun i => if mapBit map i then (t.buf i).map (Msg.fcd i) else none) := by
    apply List.filterMap_congr
    intro i hi
    have : i < 256 := by
      have := List.mem_range.1 hi
      omega
    cases mapBit map i <;> simp [this]
  have h1' := h1
  change (txSteps m _).2 = ((List.range t.frames).filterMap fun i => ((if i < 256 && !mapBit map i then none else t.buf i)).map (Msg.fcd i)) ++
    [.rcp, .rcp, .rcp] ++ _ at h1'
  change burst = 0 + ((List.range t.frames).filterMap fun i => ((if i < 256 && !mapBit map i then none else t.buf i)).map (Msg.fcd i)).length at h2
  rw [hl] at h1' h2
  refine ⟨m, _, _, _, _, h1', ?_⟩
  show (if _ = 0 then 0 else _ - 1) = _
  have hb : ∀ t' : Tx, (if t'.atEnd = true then { t' with step := checkNext t' } else t').burst = t'.burst := by
    intro t'; split <;> rfl
  rw [hb]
  show (if burst = 0 then 0 else burst - 1) = _
  split <;> omega

/-- Of three frames, the receiver complains of the first and the last. -/
example : let t := { txInit c64 (List.replicate 192 7) [] 0 with st := .ppsQ }
    let map := 0xFD :: List.replicate 31 0xFF
    map.length = 32 ∧ t.pprCount < 3 ∧ t.frames = 3 ∧
    ((List.range t.frames).filterMap fun i => if mapBit map i then (t.buf i).map (Msg.fcd i) else none) =
      [.fcd 0 (List.replicate 64 7), .fcd 2 (List.replicate 64 7)] := by
  decide +kernel

end Ecm
