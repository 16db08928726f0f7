import Verif.V8.Props

/-!
# What a V.8 answerer sends
-/

namespace V8

/-- Whole JMs, one after the other, with capabilities other than modulations which meet `q`. -/
def Jms (q : Msg → Prop) (b : List Bool) : Prop :=
  ∃ ms : List (List Bool), (∀ x ∈ ms, ∃ m c n, q c ∧ x = cmBits m c n) ∧ b = ms.flatten

theorem Jms.nil (q : Msg → Prop) : Jms q [] := ⟨[], by simp, rfl⟩

theorem Jms.snoc {q : Msg → Prop} {b : List Bool} (h : Jms q b) (m c : Msg) (n : Nat) (hc : q c) :
    Jms q (b ++ cmBits m c n) := by
  obtain ⟨ms, h1, rfl⟩ := h
  refine ⟨ms ++ [cmBits m c n], ?_, by simp⟩
  intro x hx
  rcases List.mem_append.mp hx with hx | hx
  · exact h1 x hx
  · rw [List.mem_singleton] at hx
    exact ⟨m, c, n, hc, hx⟩

structure Answers (q : Msg → Prop) (s : V8) (o : List Bool) : Prop where
  parms : q s.parms.cm
  quiet : s.st = .cmWait ∨ s.st = .postCmWait → o = [] ∧ s.queue = [] ∧ s.sending = false
  jm : s.st = .jmOn → Jms q (o ++ s.queue) ∧ s.queue.length ≤ 110
  all : ∃ rest, Jms q (o ++ s.queue ++ rest)

theorem answers_jm (q : Msg → Prop) (s : V8) (o : List Bool) (hp : q s.parms.cm) (h : Jms q (o ++ s.queue))
    (hl : s.queue.length < 10) (hst : s.st = .jmOn) : Answers q (sendCmJm s) o := by
  have hc := cmBits_length s.rx.msg s.parms.cm s.rx.modBytes
  have hj := h.snoc s.rx.msg s.parms.cm s.rx.modBytes hp
  unfold sendCmJm
  rw [enqueue_all _ _ (by unfold room; omega)]
  rw [List.append_assoc] at hj
  refine ⟨hp, ?_, fun _ => ⟨hj, ?_⟩, [], ?_⟩
  · intro h; simp only [hst] at h; rcases h with h | h <;> cases h
  · simp only [List.length_append]; omega
  · simp only [List.append_nil]; exact hj

theorem answers_over (q : Msg → Prop) (s : V8) (o rest : List Bool) (hp : q s.parms.cm) (h : Jms q (o ++ s.queue ++ rest))
    (hst : s.st = .parked ∨ s.st = .siga) : Answers q s o := by
  refine ⟨hp, ?_, ?_, rest, h⟩
  · intro h; rcases hst with hst | hst <;> rw [hst] at h <;> rcases h with h | h <;> cases h
  · intro h; rcases hst with hst | hst <;> rw [hst] at h <;> cases h

theorem answers_start (q : Msg → Prop) (s : V8) (hp : q s.parms.cm) (hq : s.queue = []) :
    Answers q (startJm s) [] := by
  have := answers_jm q { s with timer := ms 5000, st := .jmOn } [] hp (by rw [hq]; exact Jms.nil q) (by simp [hq]) rfl
  obtain ⟨h1, h2, h3, h4⟩ := this
  exact ⟨h1, fun h => by unfold startJm sendCmJm enqueue at h; simp at h, h3, h4⟩

theorem answers_rx (q : Msg → Prop) (s s' : V8) (o : List Bool) (len : Nat) (bits : List Bool) (edit : Msg → Msg)
    (ha : s.st.answerer = true) (h : Answers q s o) (hs : rxStep s len none bits edit = some s') : Answers q s' o := by
  unfold rxStep at hs
  cases hst : s.st with
  | wait1s => rw [hst] at ha; cases ha
  | awaitAnsam => rw [hst] at ha; cases ha
  | ciOn => rw [hst] at ha; cases ha
  | ciOff => rw [hst] at ha; cases ha
  | heardAnsam => rw [hst] at ha; cases ha
  | cmOn => rw [hst] at ha; cases ha
  | cjOn => rw [hst] at ha; cases ha
  | cmWait =>
    obtain ⟨q1, q2, q3⟩ := h.quiet (Or.inl hst)
    subst q1
    simp only [hst, Option.map_eq_some_iff] at hs
    obtain ⟨rx, -, hs⟩ := hs
    have hall : Jms q ([] ++ s.queue ++ []) := by rw [q2]; exact Jms.nil q
    split at hs
    · split at hs
      · subst hs
        exact ⟨h.parms, fun _ => ⟨rfl, q2, q3⟩, by simp [report], [], hall⟩
      · subst hs
        exact answers_start q _ h.parms q2
    · split at hs
      · subst hs
        exact answers_over q _ [] [] h.parms hall (Or.inl rfl)
      · subst hs
        exact ⟨h.parms, fun _ => ⟨rfl, q2, q3⟩, by simp, [], hall⟩
  | postCmWait =>
    obtain ⟨q1, q2, q3⟩ := h.quiet (Or.inr hst)
    subst q1
    simp only [hst] at hs
    split at hs
    · cases hs
      exact answers_start q _ h.parms q2
    · cases hs; exact h
  | jmOn =>
    obtain ⟨j1, j2⟩ := h.jm hst
    simp only [hst, Option.map_eq_some_iff] at hs
    obtain ⟨rx, -, hs⟩ := hs
    split at hs
    · subst hs
      exact answers_over q _ o s.queue h.parms (by simpa using j1) (Or.inr rfl)
    · split at hs
      · subst hs
        exact answers_over q _ o [] h.parms (by simpa [report] using j1) (Or.inl rfl)
      · split at hs
        · rename_i hl
          subst hs
          exact answers_jm q _ o h.parms j1 hl rfl
        · subst hs
          exact ⟨h.parms, fun h => by simp at h, fun _ => ⟨j1, j2⟩, [], by simpa using j1⟩
  | siga =>
    obtain ⟨rest, hr⟩ := h.all
    simp only [hst] at hs
    split at hs
    · cases hs
      exact answers_over q _ o rest h.parms hr (Or.inl rfl)
    · cases hs; exact h
  | parked => simp only [hst] at hs; cases hs; exact h

theorem answers_run (q : Msg → Prop) : ∀ (es : List Event) (s s' : V8) (o : List Bool),
    (∀ e ∈ es, e.toneless) → ((∀ e ∈ es, e.plain) ∨ ∀ c, q c) → Answerer s → Answers q s o → run s es = some s' →
    Answers q s' (o ++ sent s es) := by
  intro es
  induction es with
  | nil => intro s s' o _ _ _ h hs; cases hs; simpa [sent] using h
  | cons e es ih =>
    intro s s' o ht hp hA h hs
    simp only [run, Option.bind_eq_some_iff] at hs
    obtain ⟨a, ha, hs⟩ := hs
    have ht1 := ht e (List.mem_cons_self ..)
    have hA' := answerer_step s a e ht1 hA ha
    have hts := fun x hx => ht x (List.mem_cons_of_mem _ hx)
    have hps : (∀ e ∈ es, e.plain) ∨ ∀ c, q c := hp.imp (fun h x hx => h x (List.mem_cons_of_mem _ hx)) id
    unfold sent
    rw [ha]
    cases e with
    | rx len tone bits edit =>
      simp only [Event.toneless] at ht1
      subst ht1
      have := ih a s' o hts hps hA' (answers_rx q s a o len bits edit hA.st h ha) hs
      simpa using this
    | bit =>
      simp only [step, Option.some.injEq] at ha
      have key : Answers q a (o ++ if s.sending = true then s.queue.take 1 else []) := by
        subst ha
        by_cases hsd : s.sending = true
        · rw [if_pos hsd, if_pos hsd]
          have hq : o ++ s.queue.take 1 ++ s.queue.tail = o ++ s.queue := by
            rw [List.append_assoc]
            cases s.queue <;> simp
          obtain ⟨rest, hr⟩ := h.all
          refine ⟨h.parms, ?_, ?_, rest, ?_⟩
          · intro hx; have := (h.quiet hx).2.2; rw [hsd] at this; cases this
          · intro hx
            obtain ⟨j1, j2⟩ := h.jm hx
            refine ⟨by simp only; rw [hq]; exact j1, ?_⟩
            simp only [List.length_tail]; omega
          · simp only; rw [hq]; exact hr
        · rw [if_neg hsd, if_neg hsd, List.append_nil]; exact h
      have := ih a s' _ hts hps hA' key hs
      simpa using this
    | dry =>
      simp only [step, Option.some.injEq] at ha
      have key : Answers q a o := by
        subst ha
        split
        · exact ⟨h.parms, fun hx => ⟨(h.quiet hx).1, (h.quiet hx).2.1, rfl⟩, h.jm, h.all⟩
        · exact h
      have := ih a s' o hts hps hA' key hs
      simpa using this
    | cont p =>
      simp only [step, Option.some.injEq] at ha
      have hq : ∀ c, q c := hp.resolve_left (fun h => h (.cont p) (List.mem_cons_self ..))
      have key : Answers q a o := by
        subst ha
        exact ⟨hq _, h.quiet, h.jm, h.all⟩
      have := ih a s' o hts hps hA' key hs
      simpa using this

theorem answers_init (q : Msg → Prop) (p : Parms) (h : q p.cm) : Answers q (v8Init false p) [] :=
  ⟨h, fun _ => ⟨rfl, rfl, rfl⟩, fun h => by simp [v8Init] at h, [], Jms.nil q⟩

/-- Whatever happens, an answerer sends nothing but whole JMs with its own capabilities, of which the last may be cut
short when a CJ has come; until then nothing is lost for want of room. -/
theorem answerer_sends (p : Parms) (es : List Event) (s : V8) (ht : ∀ e ∈ es, e.toneless) (hp : ∀ e ∈ es, e.plain)
    (h : run (v8Init false p) es = some s) :
    (∃ rest, Jms (· = p.cm) (sent (v8Init false p) es ++ rest)) ∧
    (s.st = .jmOn → Jms (· = p.cm) (sent (v8Init false p) es ++ s.queue)) ∧
    (s.st = .cmWait → sent (v8Init false p) es = []) := by
  have := answers_run (· = p.cm) es _ s [] ht (Or.inl hp) (answerer_init p) (answers_init _ p rfl) h
  rw [List.nil_append] at this
  obtain ⟨rest, hr⟩ := this.all
  exact ⟨⟨_, by rw [List.append_assoc] at hr; exact hr⟩, fun hs => (this.jm hs).1, fun hs => (this.quiet (Or.inl hs)).1⟩

/-- The same if the application goes on with other parameters, but for the capabilities. -/
theorem answerer_sends_on (p : Parms) (es : List Event) (s : V8) (ht : ∀ e ∈ es, e.toneless)
    (h : run (v8Init false p) es = some s) :
    (∃ rest, Jms (fun _ => True) (sent (v8Init false p) es ++ rest)) ∧
    (s.st = .jmOn → Jms (fun _ => True) (sent (v8Init false p) es ++ s.queue)) ∧
    (s.st = .cmWait ∨ s.st = .postCmWait → sent (v8Init false p) es = []) := by
  have := answers_run (fun _ => True) es _ s [] ht (Or.inr fun _ => trivial) (answerer_init p) (answers_init _ p trivial) h
  rw [List.nil_append] at this
  obtain ⟨rest, hr⟩ := this.all
  exact ⟨⟨_, by rw [List.append_assoc] at hr; exact hr⟩, fun hs => (this.jm hs).1, fun hs => (this.quiet hs).1⟩

/-- When a CM has come, an answerer which is no gateway sends a JM at once, with what the application made of what
it was told, and waits 5 s for CJ. -/
theorem jm_sent (p : Parms) (es : List Event) (s s' : V8) (len : Nat) (bits : List Bool) (edit : Msg → Msg)
    (ht : ∀ e ∈ es, e.toneless) (h : run (v8Init false p) es = some s) (hw : s.st = .cmWait)
    (hg : s.parms.gateway = false) (hr : step s (.rx len none bits edit) = some s') (hc : s'.rx.gotCmJm = true) :
    s'.st = .jmOn ∧ s'.sending = true ∧ s'.timer = 40000 ∧
    ∃ rx, puts s.rx bits = some rx ∧ s'.queue = cmBits (edit rx.msg) s.parms.cm rx.modBytes := by
  have ha := answers_run (fun _ => True) es _ s [] ht (Or.inr fun _ => trivial) (answerer_init p) (answers_init _ p trivial) h
  obtain ⟨-, hq, -⟩ := ha.quiet (Or.inl hw)
  simp only [step, rxStep, hw, Option.map_eq_some_iff] at hr
  obtain ⟨rx, hrx, hr⟩ := hr
  have hgot : rx.gotCmJm = true := by
    by_cases hx : rx.gotCmJm = true
    · exact hx
    · rw [if_neg hx] at hr
      split at hr
      · subst hr; exact hc
      · subst hr; exact hc
  rw [if_pos hgot, if_neg (by simp [report, hg])] at hr
  have hl := cmBits_length (edit rx.msg) s.parms.cm rx.modBytes
  have e : s'.queue = cmBits (edit rx.msg) s.parms.cm rx.modBytes := by
    subst hr
    simp only [startJm, sendCmJm, enqueue, report, hq, List.nil_append, List.length_nil]
    rw [List.take_of_length_le (by unfold room; omega)]
  subst hr
  exact ⟨rfl, rfl, rfl, rx, hrx, e⟩

/-- The same for a gateway, when its application goes on. -/
theorem jm_sent_on (p : Parms) (es : List Event) (s s' : V8) (len : Nat) (tone : Option Tone) (bits : List Bool)
    (edit : Msg → Msg) (ht : ∀ e ∈ es, e.toneless) (h : run (v8Init false p) es = some s) (hw : s.st = .postCmWait)
    (hg : s.proceed = true) (hr : step s (.rx len tone bits edit) = some s') :
    s'.st = .jmOn ∧ s'.sending = true ∧ s'.timer = 40000 ∧ s'.queue = cmBits s.rx.msg s.parms.cm s.rx.modBytes := by
  have ha := answers_run (fun _ => True) es _ s [] ht (Or.inr fun _ => trivial) (answerer_init p) (answers_init _ p trivial) h
  obtain ⟨-, hq, -⟩ := ha.quiet (Or.inr hw)
  simp only [step, rxStep, hw, hg, if_true, Option.some.injEq] at hr
  have hl := cmBits_length s.rx.msg s.parms.cm s.rx.modBytes
  have e : s'.queue = cmBits s.rx.msg s.parms.cm s.rx.modBytes := by
    subst hr
    simp only [startJm, sendCmJm, enqueue, hq, List.nil_append, List.length_nil]
    rw [List.take_of_length_le (by unfold room; omega)]
  subst hr
  exact ⟨rfl, rfl, rfl, e⟩

/-- A gateway sends nothing before its application goes on. -/
theorem gateway_waits (p : Parms) (hg : p.gateway = true) (es : List Event) (s : V8) (ht : ∀ e ∈ es, e.toneless)
    (hp : ∀ e ∈ es, e.plain) (h : run (v8Init false p) es = some s) : sent (v8Init false p) es = [] ∧ s.sending = false := by
  have key : ∀ (es : List Event) (s s' : V8), (∀ e ∈ es, e.toneless) → (∀ e ∈ es, e.plain) → s.parms.gateway = true →
      s.proceed = false → s.sending = false → (s.st = .cmWait ∨ s.st = .postCmWait ∨ s.st = .parked) →
      run s es = some s' → sent s es = [] ∧ s'.sending = false := by
    intro es
    induction es with
    | nil => intro s s' _ _ _ _ h3 _ hs; cases hs; exact ⟨rfl, h3⟩
    | cons e es ih =>
      intro s s' ht hp h1 h2 h3 h4 hs
      simp only [run, Option.bind_eq_some_iff] at hs
      obtain ⟨a, ha, hs⟩ := hs
      have ht1 := ht e (List.mem_cons_self ..)
      have hp1 := hp e (List.mem_cons_self ..)
      have hts := fun x hx => ht x (List.mem_cons_of_mem _ hx)
      have hps := fun x hx => hp x (List.mem_cons_of_mem _ hx)
      unfold sent
      rw [ha]
      cases e with
      | cont p => cases hp1
      | bit =>
        simp only [step, h3] at ha
        cases ha
        simpa [h3] using ih s s' hts hps h1 h2 h3 h4 hs
      | dry =>
        simp only [step, h3] at ha
        cases ha
        simpa using ih s s' hts hps h1 h2 h3 h4 hs
      | rx len tone bits edit =>
        simp only [Event.toneless] at ht1
        subst ht1
        simp only [List.nil_append]
        simp only [step, rxStep] at ha
        rcases h4 with h4 | h4 | h4
        · simp only [h4, Option.map_eq_some_iff] at ha
          obtain ⟨rx, -, ha⟩ := ha
          split at ha
          · rw [if_pos (by exact h1)] at ha
            subst ha
            exact ih _ s' hts hps h1 h2 h3 (Or.inr (Or.inl rfl)) hs
          · split at ha
            · subst ha
              exact ih _ s' hts hps h1 h2 h3 (Or.inr (Or.inr rfl)) hs
            · subst ha
              exact ih _ s' hts hps h1 h2 h3 (Or.inl rfl) hs
        · simp only [h4, h2] at ha
          cases ha
          exact ih s s' hts hps h1 h2 h3 (Or.inr (Or.inl h4)) hs
        · simp only [h4] at ha
          cases ha
          exact ih s s' hts hps h1 h2 h3 (Or.inr (Or.inr h4)) hs
  exact key es _ s ht hp hg rfl rfl (Or.inl rfl) h

example : (run (v8Init false exParms) (exAnswer.take 1)).map (fun s => (s.st, s.sending, s.timer)) = some (.jmOn, true, 40000) ∧
    (run (v8Init false { exParms with gateway := true }) (exAnswer.take 1 ++ [.cont exParms])).map
      (fun s => (s.st, s.proceed)) = some (.postCmWait, true) ∧
    sent (v8Init false exParms) exAnswer = cmBits { exMsg with modulations := 0x0200#32 } exMsg 3 := by decide +kernel

end V8
