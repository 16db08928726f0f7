import Verif.Sprt.Run

/-!
# What does not change
-/

namespace Sprt

set_option linter.unusedSimpArgs false
set_option linter.unusedVariables false

/-- What an endpoint is set up with stays, and what it does is consistent with it; payloads which are taken have the property `A`. -/
structure Frm (A : Nat → List Nat → Prop) (e e' : Ep) : Prop where
  sub : e'.txSub = e.txSub
  typ : e'.txType = e.txType
  rtyp : e'.rxType = e.rxType
  tp : ∀ c, (e'.tx c).maxPayload = (e.tx c).maxPayload
  rp : ∀ c, (e'.rx c).maxPayload = (e.rx c).maxPayload
  acts : ∃ new, e'.acts = e.acts ++ new ∧ (∀ pkt, .sent pkt ∈ new → pkt[0]? = some e.txSub ∧ pkt[1]? = some e.txType)
    ∧ ∀ c p, .accepted c p ∈ new → A c p

/-- No payload is taken. -/
def no : Nat → List Nat → Prop := fun _ _ => False

variable {A : Nat → List Nat → Prop}

/-- Not a delivery from a reliable channel. -/
def Act.quiet : Act → Prop
  | .delivered c _ _ => ¬ (c = 1 ∨ c = 2)
  | _ => True

/-- The receiver is left alone. -/
structure Still (e e' : Ep) : Prop where
  rx : e'.rx = e.rx
  imm : e'.immediate = e.immediate
  sub : e'.rxSub = e.rxSub
  acts : ∃ new, e'.acts = e.acts ++ new ∧ ∀ a ∈ new, a.quiet

theorem no_acts {e e' : Ep} (h : e'.acts = e.acts) : ∃ new, e'.acts = e.acts ++ new ∧ ∀ a ∈ new, Act.quiet a :=
  ⟨[], (by rw [h]; simp), (by intro _ h; cases h)⟩

theorem Frm.refl (e : Ep) : Frm A e e :=
  ⟨rfl, rfl, rfl, fun _ => rfl, fun _ => rfl, [], (by simp), (by intro _ h; cases h), (by intro _ _ h; cases h)⟩

theorem Still.refl (e : Ep) : Still e e := ⟨rfl, rfl, rfl, no_acts rfl⟩

theorem Frm.trans {a b c : Ep} (h : Frm A a b) (k : Frm A b c) : Frm A a c := by
  refine ⟨k.sub.trans h.sub, k.typ.trans h.typ, k.rtyp.trans h.rtyp, fun c => (k.tp c).trans (h.tp c), fun c => (k.rp c).trans (h.rp c), ?_⟩
  obtain ⟨n1, h1, h2, h3⟩ := h.acts
  obtain ⟨n2, k1, k2, k3⟩ := k.acts
  refine ⟨n1 ++ n2, by rw [k1, h1, List.append_assoc], ?_, ?_⟩
  · intro pkt hm
    rcases List.mem_append.mp hm with hm | hm
    · exact h2 pkt hm
    · rw [← h.sub, ← h.typ]; exact k2 pkt hm
  · intro c p hm
    rcases List.mem_append.mp hm with hm | hm
    · exact h3 c p hm
    · exact k3 c p hm

theorem Frm.mono {B : Nat → List Nat → Prop} {e e' : Ep} (h : Frm A e e') (hm : ∀ c p, A c p → B c p) : Frm B e e' := by
  obtain ⟨n1, h1, h2, h3⟩ := h.acts
  exact ⟨h.sub, h.typ, h.rtyp, h.tp, h.rp, n1, h1, h2, fun c p k => hm c p (h3 c p k)⟩

theorem Frm.none {e e' : Ep} (h : Frm no e e') : Frm A e e' := h.mono (fun _ _ h => h.elim)

theorem Still.trans {a b c : Ep} (h : Still a b) (k : Still b c) : Still a c :=
  ⟨k.rx.trans h.rx, k.imm.trans h.imm, k.sub.trans h.sub, by
    obtain ⟨n1, h1, h2⟩ := h.acts
    obtain ⟨n2, k1, k2⟩ := k.acts
    exact ⟨n1 ++ n2, by rw [k1, h1, List.append_assoc], fun a ha => (List.mem_append.mp ha).elim (h2 a) (k2 a)⟩⟩

theorem Frm.of {e e' : Ep} (h1 : e'.txSub = e.txSub) (h2 : e'.txType = e.txType) (h3 : e'.rxType = e.rxType)
    (h4 : ∀ c, (e'.tx c).maxPayload = (e.tx c).maxPayload) (h5 : ∀ c, (e'.rx c).maxPayload = (e.rx c).maxPayload)
    (h6 : e'.acts = e.acts) : Frm A e e' :=
  ⟨h1, h2, h3, h4, h5, [], (by rw [h6]; simp), (by intro _ h; cases h), (by intro _ _ h; cases h)⟩

theorem Frm.setTx (e : Ep) (c : Nat) {s : TxChan} (h : s.maxPayload = (e.tx c).maxPayload) : Frm A e (e.setTx c s) := by
  refine Frm.of rfl rfl rfl ?_ (fun _ => rfl) rfl
  intro d
  show (upd e.tx c s d).maxPayload = _
  by_cases hd : d = c
  · subst hd; rw [upd_eq]; exact h
  · rw [upd_ne _ _ hd]

theorem Frm.setRx (e : Ep) (c : Nat) {s : RxChan} (h : s.maxPayload = (e.rx c).maxPayload) : Frm A e (e.setRx c s) := by
  refine Frm.of rfl rfl rfl (fun _ => rfl) ?_ rfl
  intro d
  show (upd e.rx c s d).maxPayload = _
  by_cases hd : d = c
  · subst hd; rw [upd_eq]; exact h
  · rw [upd_ne _ _ hd]

theorem Still.setTx (e : Ep) (c : Nat) (s : TxChan) : Still e (e.setTx c s) := ⟨rfl, rfl, rfl, no_acts rfl⟩

theorem Frm.emit (e : Ep) {a : Act} (hs : ∀ pkt, a = .sent pkt → pkt[0]? = some e.txSub ∧ pkt[1]? = some e.txType)
    (hp : ∀ c p, a = .accepted c p → A c p) : Frm A e (e.emit a) := by
  refine ⟨rfl, rfl, rfl, fun _ => rfl, fun _ => rfl, [a], rfl, ?_, ?_⟩
  · intro pkt hm; rw [List.mem_singleton] at hm; exact hs pkt hm.symm
  · intro c p hm; rw [List.mem_singleton] at hm; exact hp c p hm.symm

theorem Frm.status (e : Ep) (n : Nat) : Frm A e (e.emit (.status n)) := Frm.emit e (by intro _ h; cases h) (by intro _ _ h; cases h)
theorem Frm.delivered (e : Ep) (c n : Nat) (p : List Nat) : Frm A e (e.emit (.delivered c n p)) :=
  Frm.emit e (by intro _ h; cases h) (by intro _ _ h; cases h)

theorem Still.emit (e : Ep) (a : Act) (h : a.quiet := by exact True.intro) : Still e (e.emit a) :=
  ⟨rfl, rfl, rfl, [a], rfl, (by intro b hb; rw [List.mem_singleton] at hb; rw [hb]; exact h)⟩

theorem Frm.updateTimer (e : Ep) : Frm no e (updateTimer e) := by
  unfold Sprt.updateTimer
  split <;> exact Frm.of rfl rfl rfl (fun _ => rfl) (fun _ => rfl) rfl

theorem Still.updateTimer (e : Ep) : Still e (updateTimer e) := by
  unfold Sprt.updateTimer
  split <;> exact ⟨rfl, rfl, rfl, no_acts rfl⟩

theorem packet_head (e : Ep) (c seq : Nat) (p : List Nat) : (packet e c seq p)[0]? = some e.txSub ∧ (packet e c seq p)[1]? = some e.txType := by
  unfold packet
  simp

theorem Frm.buildSend (e : Ep) (c seq : Nat) (p : List Nat) : Frm no e (buildSend e c seq p) := by
  unfold Sprt.buildSend
  refine Frm.trans ?_ (Frm.updateTimer _)
  have h1 : Frm no e (if e.ackQueue.length > 0 then { e with ackQueue := [], ta01Timer := 0 } else e) := by
    split
    · exact Frm.of rfl rfl rfl (fun _ => rfl) (fun _ => rfl) rfl
    · exact Frm.refl e
  refine h1.trans (Frm.emit _ ?_ (by intro _ _ h; cases h))
  intro pkt hp
  cases hp
  rw [h1.sub, h1.typ]
  exact packet_head e c seq p

theorem Still.buildSend (e : Ep) (c seq : Nat) (p : List Nat) : Still e (buildSend e c seq p) := by
  unfold Sprt.buildSend
  refine Still.trans ?_ (Still.updateTimer _)
  refine Still.trans ?_ (Still.emit _ _)
  split <;> exact ⟨rfl, rfl, rfl, no_acts rfl⟩

theorem queueAck_frm (e : Ep) (c seq now : Nat) : Frm no e (queueAck e c seq now) ∧ Still e (queueAck e c seq now) := by
  have h1 : ∀ e : Ep, Frm no e (queueAckEntry e c seq now) ∧ Still e (queueAckEntry e c seq now) := by
    intro e
    unfold queueAckEntry
    split
    · exact ⟨Frm.refl _, Still.refl _⟩
    · simp only
      have hf : Frm no e { e with ackQueue := e.ackQueue ++ [c * 16384 + seq] } := Frm.of rfl rfl rfl (fun _ => rfl) (fun _ => rfl) rfl
      have hs : Still e { e with ackQueue := e.ackQueue ++ [c * 16384 + seq] } := ⟨rfl, rfl, rfl, no_acts rfl⟩
      split
      · refine ⟨Frm.trans ?_ (Frm.updateTimer _), Still.trans ?_ (Still.updateTimer _)⟩
        · exact Frm.of rfl rfl rfl (fun _ => rfl) (fun _ => rfl) rfl
        · exact ⟨rfl, rfl, rfl, no_acts rfl⟩
      · split
        · exact ⟨hf.trans (Frm.buildSend _ _ _ _), hs.trans (Still.buildSend _ _ _ _)⟩
        · exact ⟨hf, hs⟩
  unfold queueAck
  split
  · exact ⟨(Frm.buildSend _ _ _ _).trans (h1 _).1, (Still.buildSend _ _ _ _).trans (h1 _).2⟩
  · exact h1 e

theorem requeue_frm {e e' : Ep} {c i : Nat} (hr : requeue e c i = some e') : Frm no e e' ∧ Still e e' := by
  unfold Sprt.requeue at hr
  rcases hd : delTimer (e.tx c) i with _ | ch
  · rw [hd] at hr; cases hr
  · rw [hd] at hr
    obtain ⟨fi, la, pr, ne, rfl⟩ := delTimer_frame hd
    simp only [Option.bind_some] at hr
    split at hr
    · cases hr
      exact ⟨(Frm.setTx e c (by rfl)).trans (Frm.status _ 1), (Still.setTx e c _).trans (Still.emit _ _)⟩
    · rcases ha : addTimer { e.tx c with
          first := fi, last := la, prev := pr, next := ne
          tries := upd (e.tx c).tries i (((e.tx c).tries i + 255) % 256)
          timer := upd (e.tx c).timer i ((e.tx c).timer i + (e.tx c).tr03Timeout) } i with _ | ch2
      · rw [ha] at hr; cases hr
      · rw [ha] at hr
        obtain ⟨fi2, la2, pr2, ne2, rfl⟩ := addTimer_frame ha
        cases hr
        exact ⟨Frm.setTx e c (by rfl), Still.setTx e c _⟩

theorem retransmit_frm {c now : Nat} : ∀ n {e : Ep} {b : Bool} {r : Ep × Bool}, retransmit c now n e b = some r → Frm no e r.1 ∧ Still e r.1 := by
  intro n
  induction n with
  | zero => intro e b r h; cases h
  | succ n ih =>
    intro e b r h
    unfold retransmit at h
    simp only at h
    split at h
    · cases h; exact ⟨Frm.refl _, Still.refl _⟩
    · split at h
      · split at h
        · split at h
          · next p hp =>
            rcases hq : requeue (buildSend e c (slotSeq (e.tx c) (e.tx c).first) p) c (e.tx c).first with _ | e1
            · rw [hq] at h; cases h
            · rw [hq] at h
              obtain ⟨k1, k2⟩ := requeue_frm hq
              obtain ⟨k3, k4⟩ := ih h
              exact ⟨((Frm.buildSend _ _ _ _).trans k1).trans k3, ((Still.buildSend _ _ _ _).trans k2).trans k4⟩
          · rcases hq : requeue e c (e.tx c).first with _ | e1
            · rw [hq] at h; cases h
            · rw [hq] at h
              obtain ⟨k1, k2⟩ := requeue_frm hq
              obtain ⟨k3, k4⟩ := ih h
              exact ⟨k1.trans k3, k2.trans k4⟩
        · cases h; exact ⟨Frm.refl _, Still.refl _⟩
      · cases h

theorem timerChan_frm {e : Ep} {c now : Nat} {r : Ep × Bool} (h : timerChan e c now = some r) : Frm no e r.1 ∧ Still e r.1 := by
  unfold timerChan at h
  rcases hq : retransmit c now 30000 e false with _ | ⟨e1, b⟩
  · rw [hq] at h; cases h
  · rw [hq] at h
    obtain ⟨k1, k2⟩ := retransmit_frm _ hq
    simp only [Option.bind_some] at h
    have hk : ∀ (keep : Bool), Frm no e1 (if keep = true then buildSend e1 c 0 [] else e1) ∧ Still e1 (if keep = true then buildSend e1 c 0 [] else e1) := by
      intro keep
      split
      · exact ⟨Frm.buildSend _ _ _ _, Still.buildSend _ _ _ _⟩
      · exact ⟨Frm.refl _, Still.refl _⟩
    split at h
    · split at h
      · cases h
        exact ⟨(k1.trans (hk _).1).trans (Frm.setTx _ c rfl), (k2.trans (hk _).2).trans (Still.setTx _ c _)⟩
      · cases h
        exact ⟨k1.trans (hk _).1, k2.trans (hk _).2⟩
    · cases h; exact ⟨k1, k2⟩

theorem processAck_frm {e e' : Ep} {c sqn : Nat} (h : processAck e c sqn = some e') : Frm no e e' ∧ Still e e' := by
  unfold processAck at h
  simp only at h
  split at h
  · split at h
    · generalize (if (e.tx c).inPtr < ((e.tx c).queueSeq + 16384 - sqn) % 16384 then
          (e.tx c).inPtr + (e.tx c).window - ((e.tx c).queueSeq + 16384 - sqn) % 16384
        else (e.tx c).inPtr - ((e.tx c).queueSeq + 16384 - sqn) % 16384) = slot at h
      split at h
      · split at h
        · rcases hd : delTimer { e.tx c with buf := upd (e.tx c).buf slot none, timer := upd (e.tx c).timer slot 0 } slot with _ | ch
          · rw [hd] at h; cases h
          · rw [hd] at h
            obtain ⟨fi, la, pr, ne, rfl⟩ := delTimer_frame hd
            simp only [Option.bind_some] at h
            cases h
            refine ⟨Frm.setTx e c ?_, Still.setTx e c _⟩
            split <;> rfl
        · cases h; exact ⟨Frm.refl _, Still.refl _⟩
      · cases h
    · cases h; exact ⟨Frm.refl _, Still.refl _⟩
  · cases h; exact ⟨Frm.refl _, Still.refl _⟩

theorem processAcks_frm : ∀ l {e e' : Ep}, processAcks e l = some e' → Frm no e e' ∧ Still e e'
  | [], e, e', h => by cases h; exact ⟨Frm.refl _, Still.refl _⟩
  | a :: l, e, e', h => by
    unfold processAcks at h
    rcases hq : processAck e (a / 16384 % 4) (a % 16384) with _ | e1
    · rw [hq] at h; cases h
    · rw [hq] at h
      obtain ⟨k1, k2⟩ := processAck_frm hq
      obtain ⟨k3, k4⟩ := processAcks_frm l h
      exact ⟨k1.trans k3, k2.trans k4⟩

theorem tx_frm {e : Ep} {c now : Nat} {p : List Nat} {r : Ep × Bool} (h : tx e c p now = some r) : Frm (fun d q => 1 ≤ q.length ∧ q.length ≤ (e.tx d).maxPayload) e r.1 ∧ Still e r.1 := by
  unfold tx at h
  split at h
  · cases h; exact ⟨Frm.refl _, Still.refl _⟩
  · split at h
    · cases h; exact ⟨Frm.refl _, Still.refl _⟩
    · next hp =>
      have hacc : ∀ e' : Ep, (e'.tx c).maxPayload = (e.tx c).maxPayload → Frm (fun d q => 1 ≤ q.length ∧ q.length ≤ (e.tx d).maxPayload) e' (e'.emit (.accepted c p)) := by
        intro e' he
        refine Frm.emit _ (by intro _ h; cases h) ?_
        intro d q hq
        cases hq
        omega
      split at h
      · unfold txReliable at h
        simp only at h
        by_cases hroom : (if (e.tx c).outPtr < (e.tx c).inPtr + 1 then (e.tx c).outPtr + (e.tx c).window - ((e.tx c).inPtr + 1)
            else (e.tx c).outPtr - ((e.tx c).inPtr + 1)) < 1
        · rw [if_pos hroom] at h
          cases h; exact ⟨Frm.refl _, Still.refl _⟩
        · rw [if_neg hroom] at h
          split at h
          · rcases ha : addTimer { e.tx c with
                buf := upd (e.tx c).buf (e.tx c).inPtr (some p), queueSeq := ((e.tx c).queueSeq + 1) % 16384
                timer := upd (e.tx c).timer (e.tx c).inPtr (now + (e.tx c).tr03Timeout)
                tries := upd (e.tx c).tries (e.tx c).inPtr (e.tx c).maxTries } (e.tx c).inPtr with _ | ch
            · rw [ha] at h; cases h
            · rw [ha] at h
              obtain ⟨fi, la, pr, ne, rfl⟩ := addTimer_frame ha
              simp only [Option.bind_some] at h
              cases h
              refine ⟨((Frm.setTx e c (by rfl)).trans (hacc _ ?_)).trans (Frm.buildSend _ _ _ _).none,
                ((Still.setTx e c _).trans (Still.emit _ _)).trans (Still.buildSend _ _ _ _)⟩
              show (upd e.tx c _ c).maxPayload = _
              rw [upd_eq]
          · cases h
      · split at h
        · cases h
          exact ⟨(hacc e rfl).trans (Frm.buildSend _ _ _ _).none, (Still.emit _ _).trans (Still.buildSend _ _ _ _)⟩
        · simp only at h
          cases h
          exact ⟨((hacc e rfl).trans (Frm.buildSend _ _ _ _).none).trans (Frm.setTx _ c rfl),
            ((Still.emit _ _).trans (Still.buildSend _ _ _ _)).trans (Still.setTx _ c _)⟩

theorem deliverLoop_frm {c : Nat} : ∀ n {e : Ep} {i : Nat} {app : List Bool} {r : Ep × Nat × List Bool}, deliverLoop c n e i app = some r →
    Frm no e r.1 ∧ r.1.immediate = e.immediate ∧ r.1.rxSub = e.rxSub ∧ (∀ d, d ≠ c → r.1.rx d = e.rx d) ∧ (app = [] → (e.rx c).busy = false → (r.1.rx c).busy = false)
      ∧ ((r.1.rx c).busy = false → (r.1.rx c).buf r.2.1 = none) := by
  intro n
  induction n with
  | zero => intro e i app r h; cases h
  | succ n ih =>
    intro e i app r h
    unfold deliverLoop at h
    simp only at h
    split at h
    · split at h
      · next hb => cases h; exact ⟨Frm.refl _, rfl, rfl, fun _ _ => rfl, fun _ h => h, fun _ => hb⟩
      · next p hb =>
        split at h
        · next hbusy => cases h; exact ⟨Frm.refl _, rfl, rfl, fun _ _ => rfl, fun _ h => h, fun h => by rw [hbusy] at h; cases h⟩
        · obtain ⟨k1, k2, k3, k4, k5, k6⟩ := ih h
          refine ⟨((Frm.setRx e c (by rfl)).trans (Frm.delivered _ _ _ _)).trans k1, k2, k3, ?_, ?_, k6⟩
          · intro d hd
            rw [k4 d hd]
            exact upd_ne _ _ hd
          · intro ha _
            subst ha
            refine k5 rfl ?_
            show (upd e.rx c _ c).busy = false
            rw [upd_eq]; rfl
    · cases h

/-- The head of the buffer is free, or the application is busy. -/
def Free (r : RxChan) : Prop := r.busy = false → r.buf r.inPtr = none

theorem deliverChan_frm {c : Nat} {e : Ep} {i : Nat} {app : List Bool} {r : Ep × List Bool} (h : deliverChan e c i app = some r) :
    Frm no e r.1 ∧ r.1.immediate = e.immediate ∧ r.1.rxSub = e.rxSub ∧ (∀ d, d ≠ c → r.1.rx d = e.rx d) ∧ (app = [] → (e.rx c).busy = false → (r.1.rx c).busy = false)
      ∧ Free (r.1.rx c) := by
  unfold deliverChan at h
  rcases hq : deliverLoop c 98 e i app with _ | r1
  · rw [hq] at h; cases h
  · rw [hq] at h
    simp only [Option.bind_some] at h
    cases h
    obtain ⟨k1, k2, k3, k4, k5, k6⟩ := deliverLoop_frm 98 hq
    refine ⟨k1.trans (Frm.setRx _ c rfl), k2, k3, ?_, ?_, ?_⟩
    · intro d hd
      rw [← k4 d hd]
      exact upd_ne _ _ hd
    · intro ha hb
      show (upd r1.1.rx c _ c).busy = false
      rw [upd_eq]; exact k5 ha hb
    · unfold Free
      show (upd r1.1.rx c _ c).busy = false → (upd r1.1.rx c _ c).buf (upd r1.1.rx c _ c).inPtr = none
      rw [upd_eq]; exact k6

end Sprt
