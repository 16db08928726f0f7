import Verif.Sprt.Frame

/-!
# What a timer sends again, and what comes of it
-/

namespace Sprt

set_option linter.unusedSimpArgs false
set_option linter.unusedVariables false

/-- When nobody is busy and nothing is about to be delivered, the head of each buffer is free. -/
def Idle (e : Ep) : Prop := e.immediate = false → ∀ c, Rel c → Free (e.rx c)

theorem Idle.still {e e' : Ep} (h : Idle e) (hs : Still e e') : Idle e' := by
  unfold Idle
  rw [hs.rx, hs.imm]; exact h

/-- What comes of `sprt_rx_packet`. -/
structure RxFrm (e e' : Ep) (pkt : List Nat) : Prop where
  frm : Frm no e e'
  imm : e'.immediate = e.immediate
  sub : e'.rxSub = e.rxSub ∨ (e.rxSub = 255 ∧ e'.rxSub = (pkt[0]?.getD 0) % 128)
  idle : Idle e → Idle e'

theorem rxNext_frm {e e' : Ep} {c seq now : Nat} {p : List Nat} {app : List Bool} (hr : rxNext e c seq p now app = some e') :
    Frm no e e' ∧ e'.immediate = e.immediate ∧ e'.rxSub = e.rxSub ∧ (Idle e → Idle e') := by
  unfold rxNext at hr
  simp only at hr
  obtain ⟨k1, k2⟩ := queueAck_frm e c seq now
  split at hr
  · split at hr
    · next hb =>
      cases hr
      refine ⟨k1.trans (Frm.setRx _ c rfl), k2.imm, k2.sub, ?_⟩
      intro hi him d hd
      by_cases hdc : d = c
      · subst hdc
        intro hbusy
        rw [show ((queueAck e d seq now).setRx d _).rx d = _ from upd_eq _ _ _] at hbusy
        rw [show (queueAck e d seq now).rx d = _ from rfl] at hb
        simp only at hbusy
        rw [hb] at hbusy; cases hbusy
      · rw [show ((queueAck e c seq now).setRx c _).rx d = _ from upd_ne _ _ hdc]
        exact (hi.still k2) him d hd
    · generalize hz : deliverChan _ c _ app.tail = z at hr
      rcases z with _ | r
      · cases hr
      · simp only [Option.bind_some] at hr
        cases hr
        obtain ⟨m1, m2, m3, m4, m5, m6⟩ := deliverChan_frm hz
        refine ⟨((k1.trans (Frm.setRx _ c (by rfl))).trans (Frm.delivered _ _ _ _)).trans m1, m2.trans k2.imm, m3.trans k2.sub, ?_⟩
        intro hi him d hd
        by_cases hdc : d = c
        · subst hdc; exact m6
        · rw [m4 d hdc]
          show Free (upd (queueAck e c seq now).rx c _ d)
          rw [upd_ne _ _ hdc]
          exact (hi.still k2) (m2 ▸ him) d hd
  · cases hr

theorem rxOther_frm {e e' : Ep} {c seq now : Nat} {p : List Nat} (hc : Rel c) (hok : ROk c (e.rx c)) (hseq : seq < 16384)
    (hne : seq ≠ (e.rx c).baseSeq) (hr : rxOther e c seq p now = some e') :
    Frm no e e' ∧ e'.immediate = e.immediate ∧ e'.rxSub = e.rxSub ∧ (Idle e → Idle e') := by
  unfold rxOther at hr
  simp only at hr
  obtain ⟨k1, k2⟩ := queueAck_frm e c seq now
  have hbase := hok.base
  have hinp := hok.inp
  split at hr
  · next hdiff =>
    generalize hi : (if (e.rx c).inPtr + (seq + 16384 - (e.rx c).baseSeq) % 16384 ≥ (e.rx c).window then
        (e.rx c).inPtr + (seq + 16384 - (e.rx c).baseSeq) % 16384 - (e.rx c).window
      else (e.rx c).inPtr + (seq + 16384 - (e.rx c).baseSeq) % 16384) = i at hr
    have hni : i ≠ (e.rx c).inPtr := by
      split at hi <;> omega
    split at hr
    · cases hr
      refine ⟨k1.trans (Frm.setRx _ c rfl), k2.imm, k2.sub, ?_⟩
      intro hid him d hd
      by_cases hdc : d = c
      · subst hdc
        have h1 := (hid.still k2) him d hd
        intro hbusy
        rw [show ((queueAck e d seq now).setRx d _).rx d = _ from upd_eq _ _ _] at hbusy ⊢
        show upd _ i _ _ = none
        rw [upd_ne]
        · exact h1 hbusy
        · rw [k2.rx]; exact fun h => hni h.symm
      · rw [show ((queueAck e c seq now).setRx c _).rx d = _ from upd_ne _ _ hdc]
        exact (hid.still k2) him d hd
    · cases hr
  · split at hr
    · cases hr
      exact ⟨k1.trans (Frm.status _ 3), k2.imm, k2.sub, fun h => (h.still k2).still (Still.emit _ _)⟩
    · cases hr
      exact ⟨Frm.refl _, rfl, rfl, id⟩

theorem rxPayload_frm {e e' : Ep} {c seq now : Nat} {p : List Nat} {app : List Bool} (hok : ∀ c, Rel c → ROk c (e.rx c)) (hseq : seq < 16384)
    (hr : rxPayload e c seq p now app = some e') : Frm no e e' ∧ e'.immediate = e.immediate ∧ e'.rxSub = e.rxSub ∧ (Idle e → Idle e') := by
  unfold rxPayload at hr
  split at hr
  · cases hr; exact ⟨Frm.refl _, rfl, rfl, id⟩
  · split at hr
    · next hc =>
      split at hr
      · exact rxNext_frm hr
      · next hne => exact rxOther_frm hc (hok c hc) hseq hne hr
    · next hc =>
      cases hr
      exact ⟨Frm.delivered _ _ _ _, rfl, rfl, fun h => h.still (Still.emit _ _ hc)⟩

theorem rxBody_frm {e : Ep} {pkt : List Nat} {now : Nat} {app : List Bool} {r : Ep × Bool} (hok : ∀ c, Rel c → ROk c (e.rx c))
    (hr : rxBody e pkt now app = some r) : Frm no e r.1 ∧ r.1.immediate = e.immediate ∧ r.1.rxSub = e.rxSub ∧ (Idle e → Idle r.1) := by
  unfold rxBody at hr
  simp only at hr
  have h0 : Frm no e (e.setTx (get16 pkt 2 / 16384 % 4) { e.tx (get16 pkt 2 / 16384 % 4) with baseSeq := get16 pkt 4 % 16384 }) := Frm.setTx e _ rfl
  have s0 : Still e (e.setTx (get16 pkt 2 / 16384 % 4) { e.tx (get16 pkt 2 / 16384 % 4) with baseSeq := get16 pkt 4 % 16384 }) := Still.setTx e _ _
  split at hr
  · cases hr; exact ⟨h0, s0.imm, s0.sub, fun h => h.still s0⟩
  · generalize hz : processAcks _ _ = z at hr
    rcases z with _ | e1
    · cases hr
    · simp only [Option.bind_some] at hr
      obtain ⟨h1, s1⟩ := processAcks_frm _ hz
      have s2 := s0.trans s1
      generalize hy : rxPayload _ _ _ _ _ _ = y at hr
      rcases y with _ | e2
      · cases hr
      · simp only [Option.bind_some] at hr
        cases hr
        obtain ⟨m1, m2, m3, m4⟩ := rxPayload_frm (by rw [s2.rx]; exact hok) (Nat.mod_lt _ (by decide)) hy
        exact ⟨(h0.trans h1).trans m1, m2.trans s2.imm, m3.trans s2.sub, fun h => m4 (h.still s2)⟩

theorem rxPacket_frm {e : Ep} {pkt : List Nat} {now : Nat} {app : List Bool} {r : Ep × Bool} (hok : ∀ c, Rel c → ROk c (e.rx c))
    (hr : rxPacket e pkt now app = some r) : RxFrm e r.1 pkt := by
  rw [rxPacket_eq] at hr; unfold rxPlain at hr
  simp only at hr
  split at hr
  · cases hr; exact ⟨Frm.refl _, rfl, Or.inl rfl, id⟩
  split at hr
  · cases hr; exact ⟨Frm.refl _, rfl, Or.inl rfl, id⟩
  split at hr
  · cases hr; exact ⟨Frm.refl _, rfl, Or.inl rfl, id⟩
  split at hr
  · next h255 =>
    obtain ⟨m1, m2, m3, m4⟩ := rxBody_frm (by exact hok) hr
    refine ⟨Frm.trans ?_ m1, m2, Or.inr ⟨h255, m3⟩, fun h => m4 h⟩
    exact Frm.of rfl rfl rfl (fun _ => rfl) (fun _ => rfl) rfl
  split at hr
  · cases hr; exact ⟨Frm.status _ _, rfl, Or.inl rfl, fun h => h.still (Still.emit _ _)⟩
  · obtain ⟨m1, m2, m3, m4⟩ := rxBody_frm hok hr
    exact ⟨m1, m2, Or.inl m3, m4⟩

theorem deliver_frm {e : Ep} {app : List Bool} {r : Ep × List Bool} (h : deliver e app = some r) :
    Frm no e r.1 ∧ r.1.immediate = e.immediate ∧ r.1.rxSub = e.rxSub ∧ ∀ c, Rel c → Free (r.1.rx c) := by
  unfold deliver at h
  rcases hq : deliverChan e 1 (e.rx 1).inPtr app with _ | r1
  · rw [hq] at h; cases h
  · rw [hq] at h
    simp only [Option.bind_some] at h
    obtain ⟨k1, k2, k3, k4, k5, k6⟩ := deliverChan_frm hq
    obtain ⟨m1, m2, m3, m4, m5, m6⟩ := deliverChan_frm h
    refine ⟨k1.trans m1, m2.trans k2, m3.trans k3, ?_⟩
    rintro c (rfl | rfl)
    · rw [m4 1 (by decide)]; exact k6
    · exact m6

theorem timerExpired_frm {e e' : Ep} {now : Nat} {app : List Bool} (h : timerExpired e now app = some e') :
    Frm no e e' ∧ e'.rxSub = e.rxSub ∧ (Idle e → Idle e') := by
  unfold timerExpired at h
  split at h
  · cases h; exact ⟨Frm.refl _, rfl, id⟩
  · unfold timerDue at h
    generalize hz : (if e.immediate = true then (deliver { e with immediate := false } app).bind fun r => some r.1 else some e) = z at h
    rcases z with _ | e1
    · cases h
    · simp only [Option.bind_some] at h
      have h1 : Frm no e e1 ∧ e1.rxSub = e.rxSub ∧ (Idle e → Idle e1) := by
        split at hz
        · next him =>
          rcases hd : deliver { e with immediate := false } app with _ | r
          · rw [hd] at hz; cases hz
          · rw [hd] at hz
            cases hz
            obtain ⟨k1, k2, k3, k4⟩ := deliver_frm hd
            refine ⟨Frm.trans ?_ k1, k3, fun _ _ => k4⟩
            exact Frm.of rfl rfl rfl (fun _ => rfl) (fun _ => rfl) rfl
        · cases hz; exact ⟨Frm.refl _, rfl, id⟩
      rcases hq : timerChan e1 1 now with _ | r1
      · rw [hq] at h; cases h
      · rw [hq] at h
        simp only [Option.bind_some] at h
        rcases hq2 : timerChan r1.1 2 now with _ | r2
        · rw [hq2] at h; cases h
        · rw [hq2] at h
          simp only [Option.bind_some] at h
          obtain ⟨m1, m2⟩ := timerChan_frm hq
          obtain ⟨n1, n2⟩ := timerChan_frm hq2
          cases h
          have hl : ∀ b : Bool, Frm no r2.1 (updateTimer (if b = true then buildSend r2.1 0 0 [] else r2.1))
              ∧ Still r2.1 (updateTimer (if b = true then buildSend r2.1 0 0 [] else r2.1)) := by
            intro b
            split
            · exact ⟨(Frm.buildSend _ _ _ _).trans (Frm.updateTimer _), (Still.buildSend _ _ _ _).trans (Still.updateTimer _)⟩
            · exact ⟨Frm.updateTimer _, Still.updateTimer _⟩
          exact ⟨((h1.1.trans m1).trans n1).trans (hl _).1, ((m2.trans n2).trans (hl _).2).sub.trans h1.2.1,
            fun h => (h1.2.2 h).still ((m2.trans n2).trans (hl _).2)⟩

theorem setBusy_frm (e : Ep) (c : Nat) (b : Bool) : Frm no e (setBusy e c b) ∧ (setBusy e c b).rxSub = e.rxSub ∧ (Idle e → Idle (setBusy e c b)) := by
  unfold setBusy
  split
  · next hc =>
    simp only
    have hf : Frm no e (e.setRx c { e.rx c with busy := b }) := Frm.setRx e c rfl
    split
    · refine ⟨(hf.trans ?_).trans (Frm.updateTimer _), (Still.updateTimer _).sub, ?_⟩
      · exact Frm.of rfl rfl rfl (fun _ => rfl) (fun _ => rfl) rfl
      intro _ him
      rw [(Still.updateTimer _).imm] at him
      cases him
    · next hb =>
      refine ⟨hf, rfl, ?_⟩
      intro hi him d hd
      by_cases hdc : d = c
      · subst hdc
        rw [show (e.setRx d _).rx d = _ from upd_eq _ _ _]
        intro hbb
        refine hi him d hd ?_
        have hbb : b = false := hbb
        subst hbb
        simpa using hb
      · rw [show (e.setRx c _).rx d = _ from upd_ne _ _ hdc]
        exact hi him d hd
  · exact ⟨Frm.refl _, rfl, id⟩

/-! ## Histories keep what an endpoint is set up with -/

/-- What both endpoints were set up with, `q`, stays. -/
structure KInv (q : Bool → Ep) (s : Sys) : Prop where
  sub : ∀ y, (s.ep y).txSub = (q y).txSub
  typ : ∀ y, (s.ep y).txType = (q y).txType
  rtyp : ∀ y, (s.ep y).rxType = (q y).rxType
  tp : ∀ y c, ((s.ep y).tx c).maxPayload = ((q y).tx c).maxPayload
  rp : ∀ y c, ((s.ep y).rx c).maxPayload = ((q y).rx c).maxPayload
  sent : ∀ y pkt, (y, .sent pkt) ∈ s.log → pkt[0]? = some (q y).txSub ∧ pkt[1]? = some (q y).txType
  acc : ∀ y c p, (y, .accepted c p) ∈ s.log → 1 ≤ p.length ∧ p.length ≤ ((q y).tx c).maxPayload
  rsub : ∀ y, (s.ep y).rxSub = 255 ∨ (s.ep y).rxSub = (q !y).txSub % 128
  idle : ∀ y, Idle (s.ep y)

theorem KInv.put {q : Bool → Ep} {s : Sys} (h : KInv q s) {x : Bool} {e : Ep} (ha : (s.ep x).acts = [])
    (hf : Frm (fun d p => 1 ≤ p.length ∧ p.length ≤ ((s.ep x).tx d).maxPayload) (s.ep x) e)
    (hs : e.rxSub = 255 ∨ e.rxSub = (q !x).txSub % 128) (hi : Idle e) : KInv q (s.put x e) := by
  obtain ⟨new, h1, h2, h3⟩ := hf.acts
  rw [ha, List.nil_append] at h1
  constructor
  · refine two x ?_ ?_
    · rw [put_ep_same]; exact hf.sub.trans (h.sub x)
    · rw [put_ep_other]; exact h.sub _
  · refine two x ?_ ?_
    · rw [put_ep_same]; exact hf.typ.trans (h.typ x)
    · rw [put_ep_other]; exact h.typ _
  · refine two x ?_ ?_
    · rw [put_ep_same]; exact hf.rtyp.trans (h.rtyp x)
    · rw [put_ep_other]; exact h.rtyp _
  · refine two x ?_ ?_
    · rw [put_ep_same]; exact fun c => (hf.tp c).trans (h.tp x c)
    · rw [put_ep_other]; exact h.tp _
  · refine two x ?_ ?_
    · rw [put_ep_same]; exact fun c => (hf.rp c).trans (h.rp x c)
    · rw [put_ep_other]; exact h.rp _
  · intro y pkt hm
    rw [put_log] at hm
    unfold logOf at hm
    rcases List.mem_append.mp hm with hm | hm
    · exact h.sent y pkt hm
    · obtain ⟨a, ha, hq⟩ := List.mem_map.mp hm
      cases hq
      rw [h1] at ha
      rw [← h.sub, ← h.typ]
      exact h2 pkt ha
  · intro y c p hm
    rw [put_log] at hm
    unfold logOf at hm
    rcases List.mem_append.mp hm with hm | hm
    · exact h.acc y c p hm
    · obtain ⟨a, ha, hq⟩ := List.mem_map.mp hm
      cases hq
      rw [h1] at ha
      rw [← h.tp]
      exact h3 c p ha
  · refine two x ?_ ?_
    · rw [put_ep_same]; exact hs
    · rw [put_ep_other]; exact h.rsub _
  · refine two x ?_ ?_
    · rw [put_ep_same]; exact hi
    · rw [put_ep_other]; exact h.idle _

theorem KInv.start {a b : Ep} (ha : Opened a) (hb : Opened b) : KInv (Sys.start a b).ep (Sys.start a b) := by
  have h255 : ∀ e, Opened e → e.rxSub = 255 := by
    rintro e ⟨sub, rt, tt, parms, e0, sets, h0, rfl⟩
    have he : e0.rxSub = 255 := by
      unfold init at h0
      cases parms with
      | none => rw [← Option.some.inj h0]
      | some p =>
        simp only at h0
        split at h0
        · rw [← Option.some.inj h0]
        · cases h0
    clear h0
    induction sets generalizing e0 with
    | nil => exact he
    | cons s l ih =>
      refine ih _ ?_
      rw [← he]
      cases s with
      | localWindow c n => show ((setLocalWindow e0 c n).getD e0).rxSub = _; unfold setLocalWindow; split <;> rfl
      | farWindow c n => show ((setFarWindow e0 c n).getD e0).rxSub = _; unfold setFarWindow; split <;> rfl
      | localPayload c n => show ((setLocalPayload e0 c n).getD e0).rxSub = _; unfold setLocalPayload; split <;> rfl
      | farPayload c n => show ((setFarPayload e0 c n).getD e0).rxSub = _; unfold setFarPayload; split <;> rfl
      | maxTries c n => show ((setMaxTries e0 c n).getD e0).rxSub = _; unfold setMaxTries; split <;> rfl
      | ta01 n => rfl
      | ta02 c n => show (if c = 1 ∨ c = 2 then _ else e0 : Ep).rxSub = _; split <;> rfl
      | tr03 c n => show (if c = 1 ∨ c = 2 then _ else e0 : Ep).rxSub = _; split <;> rfl
  have ho : ∀ y, Opened ((Sys.start a b).ep y) := by intro y; cases y <;> assumption
  refine ⟨fun _ => rfl, fun _ => rfl, fun _ => rfl, fun _ _ => rfl, fun _ _ => rfl, ?_, ?_, fun y => Or.inl (h255 _ (ho y)), ?_⟩
  · intro y pkt hm; cases hm
  · intro y c p hm; cases hm
  · intro y _ c _ _
    exact (ho y).new.rbuf c _

theorem KInv.step {q : Bool → Ep} {s s' : Sys} (h : KInv q s) (hi : SInv s) (hw : WInv s) {ev : Ev} (hs : s.step ev = some s') : KInv q s' := by
  cases ev with
  | tx x c p now =>
    rcases hq : Sprt.tx (s.ep x) c p now with _ | r
    · simp [Sys.step, hq] at hs
    · simp [Sys.step, hq] at hs
      subst hs
      obtain ⟨k1, k2⟩ := tx_frm hq
      exact h.put (hi.acts x) k1 (by rw [k2.sub]; exact h.rsub x) ((h.idle x).still k2)
  | timer x now app =>
    rcases hq : Sprt.timerExpired (s.ep x) now app with _ | r
    · simp [Sys.step, hq] at hs
    · simp [Sys.step, hq] at hs
      subst hs
      obtain ⟨k1, k2, k3⟩ := timerExpired_frm hq
      exact h.put (hi.acts x) k1.none (by rw [k2]; exact h.rsub x) (k3 (h.idle x))
  | busy x c b =>
    cases hs
    obtain ⟨k1, k2, k3⟩ := setBusy_frm (s.ep x) c b
    exact h.put (hi.acts x) k1.none (by rw [k2]; exact h.rsub x) (k3 (h.idle x))
  | arrive k now app =>
    unfold Sys.step at hs
    simp only at hs
    split at hs
    · next x pkt hk =>
      split at hs
      · next hf =>
        rcases hq : Sprt.rxPacket (s.ep !x) pkt now app with _ | r
        · rw [hq] at hs; cases hs
        · rw [hq] at hs
          cases hs
          have hr := rxPacket_frm (fun c hc => ((hw.ep (!x)).rx c hc)) hq
          refine h.put (hi.acts _) hr.frm.none ?_ (hr.idle (h.idle _))
          rcases hr.sub with h1 | ⟨_, h1⟩
          · rw [h1]; exact h.rsub _
          · right
            rw [h1, (h.sent x pkt (List.mem_of_getElem? hk)).1, Bool.not_not]
            rfl
      · cases hs; exact h
    · cases hs; exact h

/-- All that is known of a history of two endpoints. -/
structure AInv (q : Bool → Ep) (s : Sys) : Prop where
  k : KInv q s
  i : SInv s
  w : WInv s

theorem AInv.step {q : Bool → Ep} {s s' : Sys} (h : AInv q s) {ev : Ev} (hs : s.step ev = some s') : AInv q s' := by
  refine ⟨h.k.step h.i h.w hs, h.i.step hs, ?_⟩
  rcases h.w.step h.i.acts ev with ⟨_, hn⟩ | ⟨s1, h1, h2⟩
  · rw [hn] at hs; cases hs
  · rw [h1] at hs; cases hs; exact h2

theorem AInv.run {q : Bool → Ep} : ∀ evs {s s' : Sys}, AInv q s → s.run evs = some s' → AInv q s'
  | [], s, s', h, hs => by cases hs; exact h
  | ev :: l, s, s', h, hs => by
    unfold Sys.run at hs
    rcases hq : s.step ev with _ | s1
    · rw [hq] at hs; cases hs
    · rw [hq] at hs
      exact AInv.run l (h.step hq) hs

theorem AInv.start {a b : Ep} (ha : Opened a) (hb : Opened b) : AInv (Sys.start a b).ep (Sys.start a b) :=
  ⟨KInv.start ha hb, SInv.start ha.new hb.new, WInv.start ha.new hb.new⟩

/-! ## What a timer sends -/

/-- The acknowledgements which wait are what a datagram can take. -/
def AckOk (q : List Nat) : Prop := q.length ≤ 3 ∧ ∀ v ∈ q, v < 65536

/-- The payload of slot `i` of channel `c` is among what was sent. -/
def Sent (ch : TxChan) (c i : Nat) (acts : List Act) : Prop :=
  ∀ p, ch.buf i = some p → ∃ pkt, .sent pkt ∈ acts ∧ pktChan pkt = c ∧ pktSeq pkt = slotSeq ch i % 16384 ∧ pktPay pkt = p

/-- A channel is the same but for its timers. -/
def SameBuf (s s' : TxChan) : Prop := s'.window = s.window ∧ s'.buf = s.buf ∧ s'.queueSeq = s.queueSeq ∧ s'.inPtr = s.inPtr

theorem SameBuf.slotSeq {s s' : TxChan} (h : SameBuf s s') (i : Nat) : slotSeq s' i = slotSeq s i := by
  unfold Sprt.slotSeq
  rw [h.1, h.2.2.1, h.2.2.2]

theorem Sent.same {s s' : TxChan} (h : SameBuf s s') {c i : Nat} {acts : List Act} (k : Sent s' c i acts) : Sent s c i acts := by
  intro p hp
  obtain ⟨pkt, h1, h2, h3, h4⟩ := k p (by rw [h.2.1]; exact hp)
  exact ⟨pkt, h1, h2, by rw [h3, h.slotSeq], h4⟩

theorem Sent.more {s : TxChan} {c i : Nat} {acts acts' : List Act} (k : Sent s c i acts) (hm : ∀ a ∈ acts, a ∈ acts') : Sent s c i acts' := by
  intro p hp
  obtain ⟨pkt, h1, h2⟩ := k p hp
  exact ⟨pkt, hm _ h1, h2⟩

theorem Frm.mem {A : Nat → List Nat → Prop} {e e' : Ep} (h : Frm A e e') : ∀ a ∈ e.acts, a ∈ e'.acts := by
  obtain ⟨new, h1, _⟩ := h.acts
  intro a ha
  rw [h1]; exact List.mem_append_left _ ha

/-- The first slot in the queue of timers goes to its end, or out of it. -/
theorem requeue_list {e e' : Ep} {c i : Nat} {l : List Nat} (hl : Lst (e.tx c) (i :: l)) (hlt : ∀ j ∈ i :: l, j < 96) (hnd : (i :: l).Nodup)
    (hr : requeue e c i = some e') : (∃ m, Lst (e'.tx c) (l ++ m) ∧ ∀ j ∈ m, j = i ∧ m.length ≤ 1) ∧ SameBuf (e.tx c) (e'.tx c)
      ∧ (∀ j, j ≠ i → (e'.tx c).timer j = (e.tx c).timer j) ∧ e'.ackQueue = e.ackQueue := by
  unfold requeue at hr
  obtain ⟨ch, hd, hl1⟩ := delTimer_ok (u := []) hl hlt hnd
  rw [hd] at hr
  obtain ⟨fi, la, pr, ne, rfl⟩ := delTimer_frame hd
  rw [List.nil_append] at hl1
  simp only [Option.bind_some] at hr
  split at hr
  · cases hr
    refine ⟨⟨[], ?_, by intro j hj; cases hj⟩, ?_, ?_, rfl⟩
    · rw [List.append_nil]
      rw [show (((e.setTx c _).emit _).tx c) = _ from upd_eq _ _ _]
      exact ⟨hl1.first, hl1.last, hl1.links, hl1.out⟩
    · rw [show (((e.setTx c _).emit _).tx c) = _ from upd_eq _ _ _]
      exact ⟨rfl, rfl, rfl, rfl⟩
    · intro j hj
      rw [show (((e.setTx c _).emit _).tx c) = _ from upd_eq _ _ _]
  · have hin : i ∉ l := (List.nodup_cons.mp hnd).1
    obtain ⟨ch2, ha, hl2⟩ := addTimer_ok (s := { e.tx c with
          first := fi, last := la, prev := pr, next := ne
          tries := upd (e.tx c).tries i (((e.tx c).tries i + 255) % 256)
          timer := upd (e.tx c).timer i ((e.tx c).timer i + (e.tx c).tr03Timeout) }) (l := l) (i := i)
        ⟨hl1.first, hl1.last, hl1.links, hl1.out⟩ (fun j hj => hlt j (List.mem_cons_of_mem _ hj)) (List.nodup_cons.mp hnd).2
        (hlt i List.mem_cons_self) hin
    rw [ha] at hr
    obtain ⟨fi2, la2, pr2, ne2, rfl⟩ := addTimer_frame ha
    cases hr
    refine ⟨⟨[i], ?_, by intro j hj; exact ⟨List.mem_singleton.mp hj, by simp⟩⟩, ?_, ?_, rfl⟩
    · rw [show (e.setTx c _).tx c = _ from upd_eq _ _ _]; exact hl2
    · rw [show (e.setTx c _).tx c = _ from upd_eq _ _ _]; exact ⟨rfl, rfl, rfl, rfl⟩
    · intro j hj
      rw [show (e.setTx c _).tx c = _ from upd_eq _ _ _]
      exact upd_ne _ _ hj

/-- What is first in the queue, and due, is sent. -/
theorem retransmit_sends {c now : Nat} (hc : Rel c) : ∀ (u v : List Nat) (n : Nat) (e : Ep) (b : Bool) (r : Ep × Bool),
    Lst (e.tx c) (u ++ v) → (∀ j ∈ u ++ v, j < 96 ∧ j < cap c ∧ ((e.tx c).buf j).isSome) → (u ++ v).Nodup →
    (∀ j ∈ u, (e.tx c).timer j ≤ now) → AckOk e.ackQueue → (e.rx c).baseSeq < 16384 → retransmit c now n e b = some r →
    ∀ i ∈ u, Sent (e.tx c) c i r.1.acts := by
  intro u
  induction u with
  | nil => intro v n e b r _ _ _ _ _ _ _ i hi; cases hi
  | cons j u ih =>
    intro v n e b r hl hm hnd ht hq hb hr i hi
    cases n with
    | zero => cases hr
    | succ n =>
      unfold retransmit at hr
      have hfirst : (e.tx c).first = j := by rw [hl.first]; rfl
      obtain ⟨hj96, hjc, hjb⟩ := hm j (by simp)
      simp only at hr
      rw [hfirst, if_neg (by omega), if_pos hjc, if_pos (ht j List.mem_cons_self)] at hr
      obtain ⟨p, hp⟩ := Option.isSome_iff_exists.mp hjb
      rw [hp] at hr
      simp only at hr
      rcases hrq : requeue (buildSend e c (slotSeq (e.tx c) j) p) c j with _ | e1
      · rw [hrq] at hr; cases hr
      · rw [hrq] at hr
        simp only [Option.bind_some] at hr
        have htx : (buildSend e c (slotSeq (e.tx c) j) p).tx = e.tx := buildSend_tx _ _ _ _
        obtain ⟨⟨m, hl1, hm1⟩, hsame, htim, hack⟩ := requeue_list (e := buildSend e c (slotSeq (e.tx c) j) p) (c := c) (i := j) (l := u ++ v)
          (by rw [htx]; exact hl) (fun k hk => (hm k hk).1) hnd hrq
        rw [htx] at hsame htim
        have hj : j ∉ u ++ v := (List.nodup_cons.mp hnd).1
        rw [List.append_assoc] at hl1
        have hfr := retransmit_frm _ hr
        have hc3 : c ≤ 3 := by rcases hc with h | h <;> omega
        rcases List.mem_cons.mp hi with rfl | hi
        · obtain ⟨f1, f2, -, -, f5, -⟩ := packet_fields e c (slotSeq (e.tx c) i) p hc3 hq.2 hq.1 hb
          intro p' hp'
          rw [hp] at hp'
          cases hp'
          refine ⟨packet e c (slotSeq (e.tx c) i) p, ?_, f1, f2, f5⟩
          refine hfr.1.mem _ ((requeue_frm hrq).1.mem _ ?_)
          rw [buildSend_acts]; simp
        · refine (ih (v ++ m) n e1 true r hl1 ?_ ?_ ?_ ?_ ?_ hr i hi).same hsame
          · intro k hk
            rw [hsame.2.1]
            rw [← List.append_assoc] at hk
            rcases List.mem_append.mp hk with hk | hk
            · exact hm k (List.mem_cons_of_mem _ hk)
            · rw [(hm1 k hk).1]; exact ⟨hj96, hjc, hjb⟩
          · rw [← List.append_assoc]
            refine List.nodup_append.mpr ⟨(List.nodup_cons.mp hnd).2, ?_, ?_⟩
            · rcases m with _ | ⟨k, _ | ⟨k', m⟩⟩
              · exact List.nodup_nil
              · simp
              · have := (hm1 k (by simp)).2; simp at this
            · intro a ha b hb hab
              rw [(hm1 b hb).1] at hab
              exact hj (hab ▸ ha)
          · intro k hk
            rw [htim k (fun h => hj (h ▸ List.mem_append_left _ hk))]
            exact ht k (List.mem_cons_of_mem _ hk)
          · rw [hack, buildSend_q]; exact ⟨by simp, by simp⟩
          · rw [(requeue_frm hrq).2.rx, buildSend_rx]; exact hb

/-- Another channel is left alone. -/
theorem requeue_other {e e' : Ep} {c d i : Nat} (hcd : c ≠ d) (hr : requeue e d i = some e') : e'.tx c = e.tx c ∧ e'.ackQueue = e.ackQueue := by
  unfold Sprt.requeue at hr
  rcases hd : delTimer (e.tx d) i with _ | ch
  · rw [hd] at hr; cases hr
  · rw [hd] at hr
    simp only [Option.bind_some] at hr
    split at hr
    · cases hr; exact ⟨upd_ne _ _ hcd, rfl⟩
    · generalize hz : addTimer _ i = z at hr
      rcases z with _ | ch2
      · cases hr
      · cases hr; exact ⟨upd_ne _ _ hcd, rfl⟩

theorem buildSend_ack (e : Ep) (c seq : Nat) (p : List Nat) : AckOk (buildSend e c seq p).ackQueue := by
  rw [buildSend_q]; exact ⟨by simp, by simp⟩

theorem retransmit_other {c d now : Nat} (hcd : c ≠ d) : ∀ n {e : Ep} {b : Bool} {r : Ep × Bool}, retransmit d now n e b = some r →
    AckOk e.ackQueue → r.1.tx c = e.tx c ∧ AckOk r.1.ackQueue := by
  intro n
  induction n with
  | zero => intro e b r h; cases h
  | succ n ih =>
    intro e b r h hq
    unfold retransmit at h
    simp only at h
    split at h
    · cases h; exact ⟨rfl, hq⟩
    · split at h
      · split at h
        · split at h
          · next p hp =>
            generalize hz : requeue _ d _ = z at h
            rcases z with _ | e1
            · cases h
            · obtain ⟨k1, k2⟩ := requeue_other hcd hz
              obtain ⟨k3, k4⟩ := ih h (by rw [k2]; exact buildSend_ack _ _ _ _)
              exact ⟨k3.trans (k1.trans (by rw [buildSend_tx])), k4⟩
          · generalize hz : requeue _ d _ = z at h
            rcases z with _ | e1
            · cases h
            · obtain ⟨k1, k2⟩ := requeue_other hcd hz
              obtain ⟨k3, k4⟩ := ih h (by rw [k2]; exact hq)
              exact ⟨k3.trans k1, k4⟩
        · cases h; exact ⟨rfl, hq⟩
      · cases h

theorem timerChan_other {c d now : Nat} (hcd : c ≠ d) {e : Ep} {r : Ep × Bool} (h : timerChan e d now = some r) (hq : AckOk e.ackQueue) :
    r.1.tx c = e.tx c ∧ AckOk r.1.ackQueue := by
  unfold timerChan at h
  rcases hz : retransmit d now 30000 e false with _ | ⟨e1, b⟩
  · rw [hz] at h; cases h
  · rw [hz] at h
    obtain ⟨k1, k2⟩ := retransmit_other hcd _ hz hq
    simp only [Option.bind_some] at h
    have hk : ∀ (keep : Bool), (if keep = true then buildSend e1 d 0 [] else e1).tx = e1.tx ∧ AckOk (if keep = true then buildSend e1 d 0 [] else e1).ackQueue := by
      intro keep
      split
      · exact ⟨buildSend_tx _ _ _ _, buildSend_ack _ _ _ _⟩
      · exact ⟨rfl, k2⟩
    split at h
    · split at h
      · cases h
        refine ⟨?_, (hk _).2⟩
        rw [show (Ep.setTx _ d _).tx c = _ from upd_ne _ _ hcd, (hk _).1]
        exact k1
      · cases h
        exact ⟨by rw [(hk _).1]; exact k1, (hk _).2⟩
    · cases h; exact ⟨k1, k2⟩

/-- The part of a timer for one channel. -/
theorem timerChan_sends {c now : Nat} (hc : Rel c) {e : Ep} {r : Ep × Bool} {l : List Nat} (hl : Lst (e.tx c) l)
    (hm : ∀ j ∈ l, j < 96 ∧ j < cap c ∧ ((e.tx c).buf j).isSome) (hnd : l.Nodup) (ht : ∀ j ∈ l, (e.tx c).timer j ≤ now)
    (hq : AckOk e.ackQueue) (hb : (e.rx c).baseSeq < 16384) (h : timerChan e c now = some r) : ∀ i ∈ l, Sent (e.tx c) c i r.1.acts := by
  intro i hi
  unfold timerChan at h
  rcases hz : retransmit c now 30000 e false with _ | ⟨e1, b⟩
  · rw [hz] at h; cases h
  · rw [hz] at h
    have h1 := retransmit_sends hc l [] _ e false _ (by rw [List.append_nil]; exact hl) (by rw [List.append_nil]; exact hm)
      (by rw [List.append_nil]; exact hnd) ht hq hb hz i hi
    simp only [Option.bind_some] at h
    have hk : ∀ (keep : Bool), Frm no e1 (if keep = true then buildSend e1 c 0 [] else e1) := by
      intro keep
      split
      · exact Frm.buildSend _ _ _ _
      · exact Frm.refl _
    split at h
    · split at h
      · cases h; exact h1.more (hk _).mem
      · cases h; exact h1.more (hk _).mem
    · cases h; exact h1

end Sprt
