import Verif.Sprt.Recover

/-!
# Recovery: after the timers, what was sent brings everything that is missing
-/

namespace Sprt

set_option linter.unusedSimpArgs false
set_option linter.unusedVariables false

/-! ## Nothing is given up when a datagram comes -/

/-- An application is not told that a payload is given up. -/
def Quiet (e e' : Ep) : Prop := .status 1 ∈ e'.acts → .status 1 ∈ e.acts

theorem Quiet.refl (e : Ep) : Quiet e e := id
theorem Quiet.trans {a b c : Ep} (h : Quiet a b) (k : Quiet b c) : Quiet a c := fun hh => h (k hh)
theorem Quiet.of {e e' : Ep} (h : e'.acts = e.acts) : Quiet e e' := by unfold Quiet; rw [h]; exact id
theorem Quiet.emit (e : Ep) {a : Act} (ha : a ≠ .status 1) : Quiet e (e.emit a) := by
  intro h
  rcases List.mem_append.mp h with h | h
  · exact h
  · exact absurd (List.mem_singleton.mp h).symm ha
theorem Quiet.buildSend (e : Ep) (c seq : Nat) (p : List Nat) : Quiet e (buildSend e c seq p) := by
  unfold Quiet
  rw [buildSend_acts]
  intro h
  rcases List.mem_append.mp h with h | h
  · exact h
  · cases List.mem_singleton.mp h
theorem Quiet.updateTimer (e : Ep) : Quiet e (updateTimer e) := by
  refine Quiet.of ?_
  unfold Sprt.updateTimer; split <;> rfl

theorem Quiet.queueAck (e : Ep) (c seq now : Nat) : Quiet e (queueAck e c seq now) := by
  have h1 : ∀ e : Ep, Quiet e (queueAckEntry e c seq now) := by
    intro e
    unfold queueAckEntry
    split
    · exact Quiet.refl _
    · simp only
      split
      · exact Quiet.trans (Quiet.of (by rfl)) (Quiet.updateTimer _)
      · split
        · exact Quiet.trans (Quiet.of (by rfl)) (Quiet.buildSend _ _ _ _)
        · exact Quiet.of rfl
  unfold Sprt.queueAck
  split
  · exact (Quiet.buildSend _ _ _ _).trans (h1 _)
  · exact h1 e

theorem Quiet.processAck {e e' : Ep} {c sqn : Nat} (h : processAck e c sqn = some e') : Quiet e e' := by
  refine Quiet.of ?_
  unfold Sprt.processAck at h
  simp only at h
  split at h
  · split at h
    · generalize (if (e.tx c).inPtr < ((e.tx c).queueSeq + 16384 - sqn) % 16384 then
          (e.tx c).inPtr + (e.tx c).window - ((e.tx c).queueSeq + 16384 - sqn) % 16384
        else (e.tx c).inPtr - ((e.tx c).queueSeq + 16384 - sqn) % 16384) = slot at h
      split at h
      · split at h
        · generalize delTimer _ _ = z at h
          rcases z with _ | ch
          · cases h
          · simp only [Option.bind_some] at h
            cases h; rfl
        · cases h; rfl
      · cases h
    · cases h; rfl
  · cases h; rfl

theorem Quiet.processAcks : ∀ l {e e' : Ep}, processAcks e l = some e' → Quiet e e'
  | [], e, e', h => by cases h; exact Quiet.refl _
  | a :: l, e, e', h => by
    unfold Sprt.processAcks at h
    rcases hq : Sprt.processAck e (a / 16384 % 4) (a % 16384) with _ | e1
    · rw [hq] at h; cases h
    · rw [hq] at h
      exact (Quiet.processAck hq).trans (Quiet.processAcks l h)

theorem Quiet.deliverLoop {c : Nat} : ∀ n {e : Ep} {i : Nat} {app : List Bool} {r : Ep × Nat × List Bool}, deliverLoop c n e i app = some r → Quiet e r.1 := by
  intro n
  induction n with
  | zero => intro e i app r h; cases h
  | succ n ih =>
    intro e i app r h
    unfold Sprt.deliverLoop at h
    simp only at h
    split at h
    · split at h
      · cases h; exact Quiet.refl _
      · split at h
        · cases h; exact Quiet.refl _
        · refine Quiet.trans ?_ (ih h)
          exact Quiet.trans (Quiet.of (by rfl)) (Quiet.emit _ (by intro hh; cases hh))
    · cases h

theorem Quiet.deliverChan {c : Nat} {e : Ep} {i : Nat} {app : List Bool} {r : Ep × List Bool} (h : deliverChan e c i app = some r) : Quiet e r.1 := by
  unfold Sprt.deliverChan at h
  rcases hq : Sprt.deliverLoop c 98 e i app with _ | r1
  · rw [hq] at h; cases h
  · rw [hq] at h
    cases h
    exact (Quiet.deliverLoop 98 hq).trans (Quiet.of rfl)

theorem Quiet.rxPayload {e e' : Ep} {c seq now : Nat} {p : List Nat} {app : List Bool} (h : rxPayload e c seq p now app = some e') : Quiet e e' := by
  unfold Sprt.rxPayload at h
  split at h
  · cases h; exact Quiet.refl _
  · split at h
    · split at h
      · unfold rxNext at h
        simp only at h
        split at h
        · split at h
          · cases h
            exact (Quiet.queueAck e c seq now).trans (Quiet.of rfl)
          · generalize hz : Sprt.deliverChan _ c _ app.tail = z at h
            rcases z with _ | r
            · cases h
            · cases h
              refine Quiet.trans ?_ (Quiet.deliverChan hz)
              refine (Quiet.queueAck e c seq now).trans ?_
              exact Quiet.trans (Quiet.of (by rfl)) (Quiet.emit _ (by intro hh; cases hh))
        · cases h
      · unfold rxOther at h
        simp only at h
        split at h
        · generalize (if (e.rx c).inPtr + (seq + 16384 - (e.rx c).baseSeq) % 16384 ≥ (e.rx c).window then
              (e.rx c).inPtr + (seq + 16384 - (e.rx c).baseSeq) % 16384 - (e.rx c).window
            else (e.rx c).inPtr + (seq + 16384 - (e.rx c).baseSeq) % 16384) = i at h
          split at h
          · cases h
            exact (Quiet.queueAck e c seq now).trans (Quiet.of rfl)
          · cases h
        · split at h
          · cases h
            exact (Quiet.queueAck e c seq now).trans (Quiet.emit _ (by intro hh; cases hh))
          · cases h; exact Quiet.refl _
    · cases h; exact Quiet.emit _ (by intro hh; cases hh)

theorem Quiet.rxBody {e : Ep} {pkt : List Nat} {now : Nat} {app : List Bool} {r : Ep × Bool} (h : rxBody e pkt now app = some r) : Quiet e r.1 := by
  unfold Sprt.rxBody at h
  simp only at h
  split at h
  · cases h; exact Quiet.of rfl
  · generalize hz : Sprt.processAcks _ _ = z at h
    rcases z with _ | e1
    · cases h
    · simp only [Option.bind_some] at h
      generalize hy : Sprt.rxPayload _ _ _ _ _ _ = y at h
      rcases y with _ | e2
      · cases h
      · cases h
        refine Quiet.trans ?_ ((Quiet.processAcks _ hz).trans (Quiet.rxPayload hy))
        exact Quiet.of rfl

theorem Quiet.rxPacket {e : Ep} {pkt : List Nat} {now : Nat} {app : List Bool} {r : Ep × Bool} (h : rxPacket e pkt now app = some r) : Quiet e r.1 := by
  rw [rxPacket_eq] at h; unfold rxPlain at h
  simp only at h
  split at h
  · cases h; exact Quiet.refl _
  split at h
  · cases h; exact Quiet.refl _
  split at h
  · cases h; exact Quiet.refl _
  split at h
  · refine Quiet.trans ?_ (Quiet.rxBody h)
    exact Quiet.of rfl
  split at h
  · cases h; exact Quiet.emit _ (by intro hh; cases hh)
  · exact Quiet.rxBody h

/-! ## Delivering leaves the sender alone -/

theorem deliverLoop_tx {c : Nat} : ∀ n {e : Ep} {i : Nat} {app : List Bool} {r : Ep × Nat × List Bool}, deliverLoop c n e i app = some r →
    r.1.tx = e.tx ∧ r.1.ackQueue = e.ackQueue := by
  intro n
  induction n with
  | zero => intro e i app r h; cases h
  | succ n ih =>
    intro e i app r h
    unfold deliverLoop at h
    simp only at h
    split at h
    · split at h
      · cases h; exact ⟨rfl, rfl⟩
      · split at h
        · cases h; exact ⟨rfl, rfl⟩
        · have := ih h; exact this
    · cases h

theorem deliverChan_tx {c : Nat} {e : Ep} {i : Nat} {app : List Bool} {r : Ep × List Bool} (h : deliverChan e c i app = some r) :
    r.1.tx = e.tx ∧ r.1.ackQueue = e.ackQueue := by
  unfold deliverChan at h
  rcases hq : deliverLoop c 98 e i app with _ | r1
  · rw [hq] at h; cases h
  · rw [hq] at h
    cases h
    exact deliverLoop_tx 98 hq

theorem deliver_tx {e : Ep} {app : List Bool} {r : Ep × List Bool} (h : deliver e app = some r) : r.1.tx = e.tx ∧ r.1.ackQueue = e.ackQueue := by
  unfold deliver at h
  rcases hq : deliverChan e 1 (e.rx 1).inPtr app with _ | r1
  · rw [hq] at h; cases h
  · rw [hq] at h
    simp only [Option.bind_some] at h
    exact ⟨(deliverChan_tx h).1.trans (deliverChan_tx hq).1, (deliverChan_tx h).2.trans (deliverChan_tx hq).2⟩

theorem deliver_busy {e : Ep} {r : Ep × List Bool} (h : deliver e [] = some r) {c : Nat} (hc : Rel c) (hb : (e.rx c).busy = false) :
    (r.1.rx c).busy = false := by
  unfold deliver at h
  rcases hq : deliverChan e 1 (e.rx 1).inPtr [] with _ | r1
  · rw [hq] at h; cases h
  · rw [hq] at h
    simp only [Option.bind_some] at h
    obtain ⟨-, -, -, k4, k5, -⟩ := deliverChan_frm hq
    obtain ⟨-, -, -, m4, m5, -⟩ := deliverChan_frm h
    have hnil : r1.2 = [] := by
      have hl : ∀ n {e : Ep} {i : Nat} {r : Ep × Nat × List Bool}, deliverLoop 1 n e i [] = some r → r.2.2 = [] := by
        intro n
        induction n with
        | zero => intro e i r h; cases h
        | succ n ih =>
          intro e i r h
          unfold deliverLoop at h
          simp only at h
          split at h
          · split at h
            · cases h; rfl
            · split at h
              · cases h; rfl
              · exact ih h
          · cases h
      unfold deliverChan at hq
      rcases hq' : deliverLoop 1 98 e (e.rx 1).inPtr [] with _ | r2
      · rw [hq'] at hq; cases hq
      · rw [hq'] at hq
        cases hq
        exact hl 98 hq'
    rcases hc with rfl | rfl
    · rw [m4 1 (by decide)]; exact k5 rfl hb
    · exact m5 hnil (by rw [k4 2 (by decide)]; exact hb)

/-! ## The timers -/

/-- When the time has come, what waits is delivered and everything which is due is sent. -/
theorem timer_all {g : Prop} {e e' : Ep} {now : Nat} (h : LInv g e) (hack : AckOk e.ackQueue) (hnow : e.latest ≤ now) (ht : timerExpired e now [] = some e') :
    e'.immediate = false ∧ (∀ c, Rel c → (e.rx c).busy = false → (e'.rx c).busy = false)
      ∧ (¬ (g ∨ .status 1 ∈ e.acts) → (∀ c, Rel c → ∀ i, i < 96 → (e.tx c).timer i ≤ now) → ∀ c, Rel c → ∀ i, Sent (e.tx c) c i e'.acts) := by
  unfold timerExpired at ht
  rw [if_neg (by omega)] at ht
  unfold timerDue at ht
  generalize hz : (if e.immediate = true then (deliver { e with immediate := false } []).bind fun r => some r.1 else some e) = z at ht
  rcases z with _ | e1
  · cases ht
  · simp only [Option.bind_some] at ht
    have h1 : e1.immediate = false ∧ (∀ c, Rel c → (e.rx c).busy = false → (e1.rx c).busy = false) ∧ e1.tx = e.tx ∧ e1.ackQueue = e.ackQueue ∧ LInv g e1 := by
      split at hz
      · rcases hd : deliver { e with immediate := false } [] with _ | r
        · rw [hd] at hz; cases hz
        · rw [hd] at hz
          cases hz
          obtain ⟨r', hr', hL⟩ := (h.congr (e' := { e with immediate := false }) rfl rfl h.queue rfl).deliver []
          rw [hd] at hr'
          cases hr'
          exact ⟨(deliver_frm hd).2.1, fun c hc hb => deliver_busy hd hc hb, (deliver_tx hd).1, (deliver_tx hd).2, hL⟩
      · next hi => cases hz; exact ⟨by simpa using hi, fun _ _ h => h, rfl, rfl, h⟩
    obtain ⟨i1, b1, t1, q1, l1⟩ := h1
    rcases hq : timerChan e1 1 now with _ | r1
    · rw [hq] at ht; cases ht
    · rw [hq] at ht
      simp only [Option.bind_some] at ht
      rcases hq2 : timerChan r1.1 2 now with _ | r2
      · rw [hq2] at ht; cases ht
      · rw [hq2] at ht
        simp only [Option.bind_some] at ht
        obtain ⟨m1, m2⟩ := timerChan_frm hq
        obtain ⟨n1, n2⟩ := timerChan_frm hq2
        cases ht
        have hl : ∀ b : Bool, Frm no r2.1 (updateTimer (if b = true then buildSend r2.1 0 0 [] else r2.1))
            ∧ Still r2.1 (updateTimer (if b = true then buildSend r2.1 0 0 [] else r2.1)) := by
          intro b
          split
          · exact ⟨(Frm.buildSend _ _ _ _).trans (Frm.updateTimer _), (Still.buildSend _ _ _ _).trans (Still.updateTimer _)⟩
          · exact ⟨Frm.updateTimer _, Still.updateTimer _⟩
        refine ⟨((m2.trans n2).trans (hl _).2).imm.trans i1, ?_, ?_⟩
        · intro c hc hb
          rw [((m2.trans n2).trans (hl _).2).rx]; exact b1 c hc hb
        · intro hg htim
          have hqc : ∀ c, Rel c → ∃ l, Lst (e.tx c) l ∧ (∀ j ∈ l, j < 96 ∧ j < cap c ∧ ((e.tx c).buf j).isSome) ∧ l.Nodup
              ∧ (∀ j ∈ l, (e.tx c).timer j ≤ now) ∧ ∀ i, ((e.tx c).buf i).isSome → i ∈ l := by
            intro c hc
            obtain ⟨l, hl⟩ := h.que c hc
            have hw := (h.tx c hc).win
            have hcap := hc.cap
            refine ⟨l, hl.lst, ?_, hl.nodup, ?_, hl.all hg⟩
            · intro j hj
              have := hl.mem j hj
              exact ⟨by omega, by omega, this.2.1⟩
            · intro j hj
              have := (hl.mem j hj).1
              exact htim c hc j (by omega)
          have hsend : ∀ c, Rel c → ∀ i, ((e.tx c).buf i).isSome → Sent (e.tx c) c i (r2.1).acts := by
            rintro c (rfl | rfl) i hi
            · obtain ⟨l, q2, q3, q4, q5, q6⟩ := hqc 1 (Or.inl rfl)
              have := timerChan_sends (e := e1) (Or.inl rfl) (by rw [t1]; exact q2) (by rw [t1]; exact q3) q4 (by rw [t1]; exact q5)
                (by rw [q1]; exact hack) ((l1.rx 1 (Or.inl rfl)).base) hq i (q6 i hi)
              rw [t1] at this
              exact this.more n1.mem
            · obtain ⟨l, q2, q3, q4, q5, q6⟩ := hqc 2 (Or.inr rfl)
              obtain ⟨o1, o2⟩ := timerChan_other (c := 2) (d := 1) (by decide) hq (by rw [q1]; exact hack)
              rw [t1] at o1
              have := timerChan_sends (e := r1.1) (Or.inr rfl) (by rw [o1]; exact q2) (by rw [o1]; exact q3) q4 (by rw [o1]; exact q5)
                o2 (by rw [m2.rx]; exact (l1.rx 2 (Or.inr rfl)).base) hq2 i (q6 i hi)
              rw [o1] at this
              exact this
          intro c hc i p hp
          exact (hsend c hc i (by rw [hp]; rfl)).more (hl _).1.mem p hp

/-! ## A timer leaves the payloads where they are -/

theorem SameBuf.refl (s : TxChan) : SameBuf s s := ⟨rfl, rfl, rfl, rfl⟩
theorem SameBuf.trans {a b c : TxChan} (h : SameBuf a b) (k : SameBuf b c) : SameBuf a c :=
  ⟨k.1.trans h.1, k.2.1.trans h.2.1, k.2.2.1.trans h.2.2.1, k.2.2.2.trans h.2.2.2⟩

theorem requeue_same {e e' : Ep} {c i : Nat} (hr : requeue e c i = some e') (d : Nat) : SameBuf (e.tx d) (e'.tx d) := by
  by_cases hd : d = c
  · subst hd
    unfold Sprt.requeue at hr
    rcases hq : delTimer (e.tx d) i with _ | ch
    · rw [hq] at hr; cases hr
    · rw [hq] at hr
      obtain ⟨fi, la, pr, ne, rfl⟩ := delTimer_frame hq
      simp only [Option.bind_some] at hr
      split at hr
      · cases hr
        rw [show (Ep.emit (Ep.setTx _ d _) _).tx d = _ from upd_eq _ _ _]
        exact ⟨rfl, rfl, rfl, rfl⟩
      · generalize hz : addTimer _ i = z at hr
        rcases z with _ | ch2
        · cases hr
        · obtain ⟨fi, la, pr, ne, rfl⟩ := addTimer_frame hz
          cases hr
          rw [show (Ep.setTx _ d _).tx d = _ from upd_eq _ _ _]
          exact ⟨rfl, rfl, rfl, rfl⟩
  · rw [(requeue_other hd hr).1]; exact SameBuf.refl _

theorem retransmit_same {c now : Nat} : ∀ n {e : Ep} {b : Bool} {r : Ep × Bool}, retransmit c now n e b = some r → ∀ d, SameBuf (e.tx d) (r.1.tx d) := by
  intro n
  induction n with
  | zero => intro e b r h; cases h
  | succ n ih =>
    intro e b r h d
    unfold retransmit at h
    simp only at h
    split at h
    · cases h; exact SameBuf.refl _
    · split at h
      · split at h
        · split at h
          · generalize hz : requeue _ c _ = z at h
            rcases z with _ | e1
            · cases h
            · have := requeue_same hz d
              rw [buildSend_tx] at this
              exact this.trans (ih h d)
          · generalize hz : requeue _ c _ = z at h
            rcases z with _ | e1
            · cases h
            · exact (requeue_same hz d).trans (ih h d)
        · cases h; exact SameBuf.refl _
      · cases h

theorem timerChan_same {c now : Nat} {e : Ep} {r : Ep × Bool} (h : timerChan e c now = some r) (d : Nat) : SameBuf (e.tx d) (r.1.tx d) := by
  unfold timerChan at h
  rcases hz : retransmit c now 30000 e false with _ | ⟨e1, b⟩
  · rw [hz] at h; cases h
  · rw [hz] at h
    have h1 := retransmit_same _ hz d
    simp only [Option.bind_some] at h
    have hk : ∀ (keep : Bool), (if keep = true then buildSend e1 c 0 [] else e1).tx = e1.tx := by
      intro keep
      split
      · exact buildSend_tx _ _ _ _
      · rfl
    split at h
    · split at h
      · cases h
        refine h1.trans ?_
        by_cases hd : d = c
        · subst hd
          rw [show (Ep.setTx _ d _).tx d = _ from upd_eq _ _ _, hk]
          exact ⟨rfl, rfl, rfl, rfl⟩
        · rw [show (Ep.setTx _ c _).tx d = _ from upd_ne _ _ hd, hk]
          exact SameBuf.refl _
      · cases h
        rw [hk]; exact h1
    · cases h; exact h1

theorem timer_same {e e' : Ep} {now : Nat} {app : List Bool} (h : timerExpired e now app = some e') (d : Nat) : SameBuf (e.tx d) (e'.tx d) := by
  unfold timerExpired at h
  split at h
  · cases h; exact SameBuf.refl _
  · unfold timerDue at h
    generalize hz : (if e.immediate = true then (deliver { e with immediate := false } app).bind fun r => some r.1 else some e) = z at h
    rcases z with _ | e1
    · cases h
    · simp only [Option.bind_some] at h
      have h1 : e1.tx = e.tx := by
        split at hz
        · rcases hd : deliver { e with immediate := false } app with _ | r
          · rw [hd] at hz; cases hz
          · rw [hd] at hz
            cases hz
            exact (deliver_tx hd).1
        · cases hz; rfl
      rcases hq : timerChan e1 1 now with _ | r1
      · rw [hq] at h; cases h
      · rw [hq] at h
        simp only [Option.bind_some] at h
        rcases hq2 : timerChan r1.1 2 now with _ | r2
        · rw [hq2] at h; cases h
        · rw [hq2] at h
          simp only [Option.bind_some] at h
          have hs := (timerChan_same hq d).trans (timerChan_same hq2 d)
          rw [h1] at hs
          cases h
          rw [updateTimer_tx]
          split
          · rw [buildSend_tx]; exact hs
          · exact hs

/-! ## A datagram which brings what is next -/

theorem rxPacket_next {e : Ep} {pkt : List Nat} {now : Nat} {r : Ep × Bool} {c : Nat} (hc : Rel c) (hlen : 6 ≤ pkt.length) {b0 b1 : Nat}
    (h0 : pkt[0]? = some b0) (h1 : pkt[1]? = some b1) (hb0 : b0 < 128) (hb1 : b1 < 128) (ht : b1 = e.rxType) (hs : e.rxSub = 255 ∨ e.rxSub = b0)
    (hch : pktChan pkt = c) (hseq : pktSeq pkt = (e.rx c).baseSeq) (hp1 : 1 ≤ (pktPay pkt).length) (hp2 : (pktPay pkt).length ≤ (e.rx c).maxPayload)
    (hbusy : (e.rx c).busy = false) (hr : rxPacket e pkt now [] = some r) :
    (∃ n p, .delivered c n p ∈ r.1.acts) ∧ (r.1.rx c).busy = false := by
  have hbody : ∀ e : Ep, pktSeq pkt = (e.rx c).baseSeq → (pktPay pkt).length ≤ (e.rx c).maxPayload → (e.rx c).busy = false →
      rxBody e pkt now [] = some r → (∃ n p, .delivered c n p ∈ r.1.acts) ∧ (r.1.rx c).busy = false := by
    intro e hseq hp2 hbusy hr
    unfold rxBody at hr
    simp only at hr
    rw [if_neg (by
      have : (pktPay pkt).length = pkt.length - (6 + 2 * pktNoa pkt) := by unfold pktPay; rw [List.length_drop]
      show ¬ pkt.length < 6 + 2 * pktNoa pkt
      omega)] at hr
    generalize hz : processAcks _ _ = z at hr
    rcases z with _ | e1
    · cases hr
    · simp only [Option.bind_some] at hr
      have hst : Still e e1 := (Still.setTx e _ _).trans (processAcks_frm _ hz).2
      generalize hy : rxPayload _ _ _ _ _ _ = y at hr
      rcases y with _ | e2
      · cases hr
      · cases hr
        have hy : rxPayload e1 (pktChan pkt) (pktSeq pkt) (pktPay pkt) now [] = some e2 := hy
        rw [hch] at hy
        unfold rxPayload at hy
        rw [hst.rx, if_neg (by omega), if_pos (show c = 1 ∨ c = 2 from hc), if_pos hseq] at hy
        unfold rxNext at hy
        simp only at hy
        split at hy
        · rw [(queueAck_frm e1 c (pktSeq pkt) now).2.rx, hst.rx, hbusy] at hy
          simp only [Bool.false_eq_true, if_false] at hy
          generalize hd : deliverChan _ c _ _ = d at hy
          rcases d with _ | r1
          · cases hy
          · cases hy
            obtain ⟨m1, -, -, -, m5, -⟩ := deliverChan_frm hd
            refine ⟨⟨pktSeq pkt, pktPay pkt, m1.mem _ ?_⟩, m5 rfl ?_⟩
            · exact List.mem_append_right _ (List.mem_singleton.mpr rfl)
            · rw [show (Ep.emit (Ep.setRx _ c _) _).rx c = _ from upd_eq _ _ _]; rfl
        · cases hy
  rw [rxPacket_eq] at hr; unfold rxPlain at hr
  simp only [h0, h1, Option.getD_some] at hr
  rw [if_neg (by omega), if_neg (by omega), if_neg (by omega)] at hr
  split at hr
  · exact hbody { e with rxSub := b0 % 128 } hseq hp2 hbusy hr
  · next h255 =>
    rw [if_neg (by omega)] at hr
    exact hbody e hseq hp2 hbusy hr

/-- The number of what is in a slot. -/
theorem Snd.slotOf {s : TxChan} {L : List (List Nat)} {O : Nat} (h : Snd s L O) {a : Nat} (h1 : O ≤ a) (h2 : a < L.length) :
    Sprt.slotSeq s (a % s.window) % 16384 = a % 16384 := by
  have hw := h.w
  have hroom := h.room
  have hm := Nat.mod_lt L.length (show 0 < s.window by omega)
  have hma := Nat.mod_lt a (show 0 < s.window by omega)
  have hi := sub_mod (q := L.length) (d := L.length - a) (w := s.window) (by omega) (by omega)
  rw [show L.length - (L.length - a) = a by omega] at hi
  unfold Sprt.slotSeq
  simp only [h.inp, h.seq]
  generalize a % s.window = i at *
  generalize hM : L.length % s.window = M at *
  split at hi <;> split <;> omega

/-! ## One datagram after another -/

/-- What stays the same while datagrams come to the receiver, since the timers at `s1`. -/
structure Go (q : Bool → Ep) (x : Bool) (c : Nat) (s1 t : Sys) : Prop where
  all : AInv q t
  snd : t.ep x = s1.ep x
  log : ∃ m, t.log = s1.log ++ m
  giv : ∀ y d, given y d t.log = given y d s1.log
  busy : ((t.ep !x).rx c).busy = false
  imm : (t.ep !x).immediate = false
  up : ¬ gaveUp (!x) t.log

/-- Nothing was accepted. -/
theorem Frm.given {e e' : Ep} (h : Frm no e e') (ha : e.acts = []) (x y : Bool) (d : Nat) (g : Log) : given y d (logOf x g e') = given y d g := by
  obtain ⟨new, h1, -, h3⟩ := h.acts
  rw [ha, List.nil_append] at h1
  unfold logOf
  rw [given_append, h1]
  have : Sprt.given y d (new.map fun a => (x, a)) = [] := by
    unfold Sprt.given
    rw [List.filterMap_eq_nil_iff]
    intro r hr
    obtain ⟨a, ha, rfl⟩ := List.mem_map.mp hr
    cases a with
    | accepted d p => exact (h3 d p ha).elim
    | _ => rfl
  rw [this, List.append_nil]

/-- A datagram which was sent since is fresh. -/
theorem fresh_of {s0 t : Log} {k : Nat} (hk : s0.length ≤ k) (hp : ∃ m, t = s0 ++ m) (hg : ∀ y d, given y d t = given y d s0) : fresh t k = true := by
  obtain ⟨m, rfl⟩ := hp
  have h0 : ∀ y d, accepts y d ((s0 ++ m).drop k) = 0 := by
    intro y d
    have h1 := accepts_split y d (s0 ++ m) k
    have h2 : accepts y d ((s0 ++ m).take k) = accepts y d s0 + accepts y d (m.take (k - s0.length)) := by
      rw [List.take_append, List.take_of_length_le hk, accepts_eq, accepts_eq, accepts_eq, given_append, List.length_append]
    have h3 : accepts y d (s0 ++ m) = accepts y d s0 := by rw [accepts_eq, accepts_eq, hg]
    omega
  unfold fresh
  simp [h0]

theorem Go.next {q : Bool → Ep} {x : Bool} {c : Nat} {s s1 t : Sys} {now : Nat} (hc : Rel c) (hcompat : (q x).txSub < 128 ∧ (q x).txType < 128
      ∧ (q x).txType = (q !x).rxType ∧ ((q x).tx c).maxPayload ≤ ((q !x).rx c).maxPayload) (h : Go q x c s1 t)
    (hlog : ∃ m, s1.log = s.log ++ m) (hgiv : ∀ y d, given y d s1.log = given y d s.log)
    (hsent : ∀ i, ∀ p, ((s1.ep x).tx c).buf i = some p → ∃ k pkt, s.log.length ≤ k ∧ s1.log[k]? = some (x, .sent pkt) ∧ pktChan pkt = c
      ∧ pktSeq pkt = slotSeq ((s1.ep x).tx c) i % 16384 ∧ pktPay pkt = p)
    (hlt : (got (!x) c t.log).length < (given x c t.log).length) :
    ∃ k t', s.log.length ≤ k ∧ t.step (.arrive k now []) = some t' ∧ Go q x c s1 t' ∧ (got (!x) c t.log).length < (got (!x) c t'.log).length := by
  have hdir := h.all.i.inv.dir x c hc
  obtain ⟨O, hs, hrec⟩ := hdir.snd
  have hrw := hdir.rcv.w
  generalize hR : (got (!x) c t.log).length = R at *
  have hfree : ((t.ep !x).rx c).buf (R % ((t.ep !x).rx c).window) = none := by
    have := h.all.k.idle (!x) h.imm c hc h.busy
    rw [hdir.rcv.inp, hR] at this
    exact this
  have hnot : ¬ (R < O ∨ ((t.ep x).tx c).buf (R % ((t.ep x).tx c).window) = none) := by
    intro hh
    rcases hrec R hlt hh with h1 | ⟨-, h1⟩
    · omega
    · rw [hfree] at h1; cases h1
  have hO : O ≤ R := by
    rcases Nat.lt_or_ge R O with h1 | h1
    · exact absurd (Or.inl h1) hnot
    · exact h1
  obtain ⟨p, hp⟩ : ∃ p, ((t.ep x).tx c).buf (R % ((t.ep x).tx c).window) = some p := by
    rcases hz : ((t.ep x).tx c).buf (R % ((t.ep x).tx c).window) with _ | p
    · exact absurd (Or.inr hz) hnot
    · exact ⟨p, rfl⟩
  obtain ⟨k, pkt, hk, hpk, hch, hseq, hpay⟩ := hsent _ p (by rw [← h.snd]; exact hp)
  rw [← h.snd, hs.slotOf hO hlt] at hseq
  have hL := hs.slot R hO hlt p hp
  have htk : t.log[k]? = some (x, .sent pkt) := by
    obtain ⟨m, hm⟩ := h.log
    rw [hm, List.getElem?_append_left (List.getElem?_eq_some_iff.mp hpk).1]; exact hpk
  have hfr : fresh t.log k = true := by
    refine fresh_of hk ?_ ?_
    · obtain ⟨m, hm⟩ := h.log
      obtain ⟨m', hm'⟩ := hlog
      exact ⟨m' ++ m, by rw [hm, hm', List.append_assoc]⟩
    · intro y d; rw [h.giv, hgiv]
  rcases h.all.w.step h.all.i.acts (.arrive k now []) with ⟨⟨k', now', app', hev, x', a, hk', hg⟩, -⟩ | ⟨t', ht', -⟩
  · cases hev
    rw [htk] at hk'
    cases hk'
    exact absurd hg h.up
  · have hall := h.all.step ht'
    have hcopy := ht'
    unfold Sys.step at ht'
    simp only [htk, hfr, if_true] at ht'
    rcases hr : rxPacket (t.ep !x) pkt now [] with _ | r
    · rw [hr] at ht'; cases ht'
    · rw [hr] at ht'
      simp only [Option.bind_some, Option.some.injEq] at ht'
      subst ht'
      have hacts := h.all.i.acts (!x)
      obtain ⟨s0, s1'⟩ := h.all.k.sent x pkt (List.mem_of_getElem? htk)
      have hmem : (x, .accepted c p) ∈ t.log := by
        have := List.mem_of_getElem? hL
        unfold given at this
        obtain ⟨⟨y, a⟩, ha, hf⟩ := List.mem_filterMap.mp this
        cases a with
        | accepted d p' =>
          simp only at hf
          split at hf
          · next hy => cases hf; obtain ⟨rfl, rfl⟩ := hy; exact ha
          · cases hf
        | _ => cases hf
      have hacc := h.all.k.acc x c p hmem
      have hfrm := rxPacket_frm (fun d hd => (h.all.w.ep (!x)).rx d hd) hr
      have hq := Quiet.rxPacket hr
      obtain ⟨⟨n, p', hdel⟩, hb⟩ := rxPacket_next hc (h.all.w.sent x pkt (List.mem_of_getElem? htk)).1 s0 s1' hcompat.1 hcompat.2.1
        (by rw [h.all.k.rtyp]; exact hcompat.2.2.1)
        (by
          have := h.all.k.rsub (!x)
          rw [Bool.not_not, Nat.mod_eq_of_lt hcompat.1] at this
          exact this)
        hch (by rw [hseq, ← hR]; exact hdir.rcv.seq.symm) (by rw [hpay]; exact hacc.1) (by rw [hpay, h.all.k.rp]; exact Nat.le_trans hacc.2 hcompat.2.2.2)
        h.busy hr
      refine ⟨k, t.put (!x) r.1, hk, hcopy, ⟨hall, ?_, ?_, ?_, ?_, ?_, ?_⟩, ?_⟩
      · have := put_ep_other t (!x) r.1
        rw [Bool.not_not] at this
        rw [this]; exact h.snd
      · obtain ⟨m, hm⟩ := h.log
        exact ⟨m ++ r.1.acts.map fun a => (!x, a), by rw [put_log]; unfold logOf; rw [hm, List.append_assoc]⟩
      · intro y d
        rw [put_log, hfrm.frm.given hacts, h.giv]
      · rw [put_ep_same]; exact hb
      · rw [put_ep_same]; exact hfrm.imm.trans h.imm
      · intro hg
        rw [put_log] at hg
        unfold gaveUp logOf at hg
        rcases List.mem_append.mp hg with hg | hg
        · exact h.up hg
        · obtain ⟨a, ha, hh⟩ := List.mem_map.mp hg
          cases hh
          have := hq ha
          rw [hacts] at this
          cases this
      · rw [put_log]
        unfold logOf
        rw [got_append, List.length_append, hR]
        have : (n, p') ∈ got (!x) c (r.1.acts.map fun a => (!x, a)) := by
          unfold got
          exact List.mem_filterMap.mpr ⟨(!x, .delivered c n p'), List.mem_map.mpr ⟨_, hdel, rfl⟩, by simp⟩
        have := List.length_pos_of_mem this
        omega

theorem Go.finish {q : Bool → Ep} {x : Bool} {c : Nat} {s s1 : Sys} {now : Nat} (hc : Rel c) (hcompat : (q x).txSub < 128 ∧ (q x).txType < 128
      ∧ (q x).txType = (q !x).rxType ∧ ((q x).tx c).maxPayload ≤ ((q !x).rx c).maxPayload)
    (hlog : ∃ m, s1.log = s.log ++ m) (hgiv : ∀ y d, given y d s1.log = given y d s.log)
    (hsent : ∀ i, ∀ p, ((s1.ep x).tx c).buf i = some p → ∃ k pkt, s.log.length ≤ k ∧ s1.log[k]? = some (x, .sent pkt) ∧ pktChan pkt = c
      ∧ pktSeq pkt = slotSeq ((s1.ep x).tx c) i % 16384 ∧ pktPay pkt = p) :
    ∀ n t, Go q x c s1 t → (given x c t.log).length ≤ (got (!x) c t.log).length + n →
      ∃ (ks : List Nat) (t' : Sys), (∀ k ∈ ks, s.log.length ≤ k) ∧ t.run (ks.map fun k => .arrive k now []) = some t' ∧ Go q x c s1 t'
        ∧ (given x c t'.log).length = (got (!x) c t'.log).length := by
  intro n
  induction n with
  | zero =>
    intro t h hn
    exact ⟨[], t, by simp, rfl, h, by have := (h.all.i.inv.dir x c hc).rcv.le; omega⟩
  | succ n ih =>
    intro t h hn
    rcases Nat.lt_or_ge (got (!x) c t.log).length (given x c t.log).length with hlt | hge
    · obtain ⟨k, t1, h1, h2, h3, h4⟩ := h.next (now := now) hc hcompat hlog hgiv hsent hlt
      obtain ⟨ks, t', k1, k2, k3, k4⟩ := ih t1 h3 (by
        have := h3.giv x c
        have := h.giv x c
        rw [h3.giv, ← h.giv]; omega)
      refine ⟨k :: ks, t', ?_, ?_, k3, k4⟩
      · intro j hj
        rcases List.mem_cons.mp hj with rfl | hj
        · exact h1
        · exact k1 j hj
      · simp only [List.map_cons, Sys.run, h2, Option.bind_some]
        exact k2
    · exact ⟨[], t, by simp, rfl, h, by have := (h.all.i.inv.dir x c hc).rcv.le; omega⟩

theorem AInv.recover {q : Bool → Ep} {s : Sys} (h : AInv q s) (x : Bool) {c : Nat} (hc : Rel c) (hcompat : (q x).txSub < 128 ∧ (q x).txType < 128
      ∧ (q x).txType = (q !x).rxType ∧ ((q x).tx c).maxPayload ≤ ((q !x).rx c).maxPayload) (hup : ¬ gaveUp x s.log)
    (hbusy : ((s.ep !x).rx c).busy = false) {now : Nat} (t1 : (s.ep !x).latest ≤ now) (t2 : (s.ep x).latest ≤ now)
    (t3 : ∀ d, Rel d → ∀ i, i < 96 → ((s.ep x).tx d).timer i ≤ now) :
    ∃ s1 : Sys, s.run [.timer (!x) now [], .timer x now []] = some s1 ∧ (gaveUp (!x) s1.log ∨
      ∃ (ks : List Nat) (s2 : Sys), (∀ k ∈ ks, s.log.length ≤ k) ∧ s1.run (ks.map fun k => .arrive k now []) = some s2
        ∧ given x c s2.log = given x c s.log ∧ (got (!x) c s2.log).length = (given x c s2.log).length) := by
  have hack : ∀ y, AckOk (s.ep y).ackQueue := by
    intro y
    refine ⟨h.i.inv.short y, ?_⟩
    intro v hv
    obtain ⟨j, hj⟩ := List.mem_iff_getElem?.mp hv
    obtain ⟨hr, -⟩ := h.i.inv.queue y j v hj
    unfold Rel at hr
    omega
  obtain ⟨e1, he1, -⟩ := (h.w.ep (!x)).timerExpired now []
  obtain ⟨e2, he2, -⟩ := (h.w.ep x).timerExpired now []
  have st1 : s.step (.timer (!x) now []) = some (s.put (!x) e1) := by simp [Sys.step, he1]
  have hother : (s.put (!x) e1).ep x = s.ep x := by
    have := put_ep_other s (!x) e1
    rwa [Bool.not_not] at this
  have st2 : (s.put (!x) e1).step (.timer x now []) = some ((s.put (!x) e1).put x e2) := by simp [Sys.step, hother, he2]
  have hall := (h.step st1).step st2
  refine ⟨(s.put (!x) e1).put x e2, by simp [Sys.run, st1, st2], ?_⟩
  by_cases hg : gaveUp (!x) ((s.put (!x) e1).put x e2).log
  · exact Or.inl hg
  right
  obtain ⟨a1, a2, -⟩ := timer_all (h.w.ep (!x)) (hack _) (by omega) he1
  obtain ⟨-, -, b3⟩ := timer_all (h.w.ep x) (hack _) (by omega) he2
  have hacts := h.i.acts
  have b3 := b3 (by rintro (hh | hh); exact hup hh; rw [hacts] at hh; cases hh) (fun d hd i hi => by have := t3 d hd i hi; omega) c hc
  have hsame := timer_same he2 c
  have hrx : ((s.put (!x) e1).put x e2).ep (!x) = { e1 with acts := [] } := by rw [put_ep_other, put_ep_same]
  have hlog : ((s.put (!x) e1).put x e2).log = s.log ++ (e1.acts.map fun a => (!x, a)) ++ (e2.acts.map fun a => (x, a)) := by
    rw [put_log]; unfold logOf; rw [put_log]; rfl
  have hgiv : ∀ y d, given y d ((s.put (!x) e1).put x e2).log = given y d s.log := by
    intro y d
    rw [put_log, (timerExpired_frm he2).1.given (hacts x), put_log, (timerExpired_frm he1).1.given (hacts _)]
  obtain ⟨ks, s2, k1, k2, k3, k4⟩ := Go.finish (s := s) (s1 := (s.put (!x) e1).put x e2) (now := now) hc hcompat
    ⟨_, by rw [hlog, List.append_assoc]⟩ hgiv (by
      intro i p hp
      rw [put_ep_same] at hp ⊢
      obtain ⟨pkt, h1, h2, h3, h4⟩ := b3 i p (by rw [← hsame.2.1]; exact hp)
      obtain ⟨j, hj⟩ := List.mem_iff_getElem?.mp h1
      refine ⟨(s.log ++ (e1.acts.map fun a => (!x, a))).length + j, pkt, by rw [List.length_append]; omega, ?_, h2, ?_, h4⟩
      · rw [hlog, List.getElem?_append_right (by omega), Nat.add_sub_cancel_left, List.getElem?_map, hj]; rfl
      · rw [h3]
        show _ = slotSeq (e2.tx c) i % 16384
        rw [hsame.slotSeq]) _ ((s.put (!x) e1).put x e2)
    ⟨hall, rfl, ⟨[], by simp⟩, fun _ _ => rfl, by rw [hrx]; exact a2 c hc hbusy, by rw [hrx]; exact a1, hg⟩ (Nat.le_add_left _ _)
  exact ⟨ks, s2, k1, k2, by rw [k3.giv, hgiv], k4.symm⟩

end Sprt
