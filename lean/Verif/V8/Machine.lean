import Verif.V8.Receive

/-! Lemmas: the states of a negotiation. -/

namespace V8

theorem putBit_mono (r r' : Rx) (b : Bool) (h : putBit r b = some r') :
    (r.gotCmJm = true → r'.gotCmJm = true) ∧ (r.gotCj = true → r'.gotCj = true) := by
  have hs : ∀ (r : Rx) (o : Byte), (store r o).gotCmJm = r.gotCmJm ∧
      (r.gotCj = true → (store r o).gotCj = true) := by
    intro r o
    unfold store
    by_cases h0 : o = 0#8 <;> by_cases hl : r.data.length < 63 <;> simp [h0, hl] <;> intro h <;> simp [h]
  have hp : ∀ r : Rx, (parse r).gotCmJm = r.gotCmJm ∧ (r.gotCj = true → (parse r).gotCj = true) := by
    intro r
    unfold parse
    by_cases h1 : r.sync = .unknown
    · rw [if_pos h1]; exact ⟨rfl, id⟩
    · rw [if_neg h1]
      simp only
      split
      · exact hs _ _
      · exact ⟨rfl, id⟩
  have hf : ∀ r x : Rx, finish r = some x →
      (r.gotCmJm = true → x.gotCmJm = true) ∧ (r.gotCj = true → x.gotCj = true) := by
    intro r x hx
    unfold finish at hx
    split at hx
    · simp only [Option.some.injEq] at hx
      subst hx
      unfold ciDecode
      by_cases h1 : r.gotCi = true
      · rw [if_pos h1]; exact ⟨id, id⟩
      · rw [if_neg h1]
        by_cases h2 : r.first &&& 0x1F#8 = 0x01#8
        · rw [if_pos h2]; exact ⟨id, id⟩
        · rw [if_neg h2]; exact ⟨id, id⟩
    · unfold cmJmDecode at hx
      split at hx
      · cases hx; exact ⟨id, id⟩
      · split at hx
        · cases hx; exact ⟨id, id⟩
        · split at hx
          · cases hx; exact ⟨fun _ => rfl, id⟩
          · cases hx
    · cases hx; exact ⟨id, id⟩
  rw [putBit_eq] at h
  split at h
  · rw [Option.map_eq_some_iff] at h
    obtain ⟨x, hx, rfl⟩ := h
    have a := hf _ _ hx
    have b := hp { x with sync := syncOf (push r.stream b), cnt := 0, data := [] }
    rw [b.1]
    exact ⟨a.1, fun h => b.2 (a.2 h)⟩
  · cases h
    have b := hp { r with stream := push r.stream b }
    rw [b.1]
    exact ⟨id, b.2⟩

theorem puts_mono (l : List Bool) (r r' : Rx) (h : puts r l = some r') :
    (r.gotCmJm = true → r'.gotCmJm = true) ∧ (r.gotCj = true → r'.gotCj = true) := by
  induction l generalizing r with
  | nil => cases h; exact ⟨id, id⟩
  | cons b l ih =>
    simp only [puts, Option.bind_eq_some_iff] at h
    obtain ⟨a, ha, h⟩ := h
    have h1 := putBit_mono _ _ _ ha
    have h2 := ih a h
    exact ⟨fun h => h2.1 (h1.1 h), fun h => h2.2 (h1.2 h)⟩

/-! ### The caller -/

/-- The states of a caller. -/
def St.caller : St → Bool
  | .wait1s | .awaitAnsam | .ciOn | .ciOff | .heardAnsam | .cmOn | .cjOn | .parked => true
  | _ => false

structure Caller (s : V8) : Prop where
  st : s.st.caller = true
  rep : (s.st = .parked ∧ finals s = 1) ∨ (s.st ≠ .parked ∧ s.reports = [])
  cj : s.st = .cjOn → s.rx.gotCmJm = true
  ok : .v8Call ∈ s.reports → s.rx.gotCmJm = true ∧ s.queue = []
  dry : s.st = .cjOn → s.sending = false → s.queue = []

theorem enqueue_fields (s : V8) (l : List Bool) :
    (enqueue s l).st = s.st ∧ (enqueue s l).reports = s.reports ∧ (enqueue s l).rx = s.rx ∧
    (enqueue s l).timer = s.timer ∧ (enqueue s l).ciTimer = s.ciTimer ∧ (enqueue s l).sending = s.sending ∧
    (enqueue s l).parms = s.parms := ⟨rfl, rfl, rfl, rfl, rfl, rfl, rfl⟩

theorem finals_report (s : V8) (x : Status) (h : x.final = true) (hr : s.reports = []) :
    finals (report s x) = 1 := by
  unfold finals report
  simp only
  rw [hr, List.filter_cons_of_pos h]; rfl

theorem caller_init (p : Parms) : Caller (v8Init true p) := by
  have h : (v8Init true p).st = .wait1s ∨ (v8Init true p).st = .awaitAnsam := by
    unfold v8Init
    simp only [if_true]
    split
    · exact Or.inl rfl
    · exact Or.inr rfl
  refine ⟨?_, Or.inr ⟨?_, rfl⟩, ?_, ?_, ?_⟩
  · rcases h with h | h <;> rw [h] <;> rfl
  · rcases h with h | h <;> rw [h] <;> simp
  · rcases h with h | h <;> rw [h] <;> simp
  · intro h; cases h
  · rcases h with h | h <;> rw [h] <;> simp

/-- A state of a caller which is not the last but one, and has reported nothing. -/
theorem caller_mid (s : V8) (h : s.st.caller = true) (h1 : s.st ≠ .parked) (h2 : s.st ≠ .cjOn)
    (h3 : s.reports = []) : Caller s :=
  ⟨h, Or.inr ⟨h1, h3⟩, fun h => absurd h h2, by rw [h3]; simp, fun h => absurd h h2⟩

theorem caller_failed (s : V8) (x : Status) (hx : x.final = true) (hx2 : x ≠ .v8Call) (h : s.st = .parked)
    (hr : s.reports = [x]) : Caller s := by
  refine ⟨by rw [h]; rfl, Or.inl ⟨h, ?_⟩, ?_, ?_, ?_⟩
  · unfold finals; rw [hr, List.filter_cons_of_pos hx]; rfl
  · rw [h]; simp
  · rw [hr, List.mem_singleton]; exact fun h => absurd h.symm hx2
  · rw [h]; simp

theorem caller_tone (s : V8) (t : Tone) (h : s.reports = []) : Caller (callerTone s t) := by
  unfold callerTone
  by_cases ht : t = .ansam
  · rw [if_pos ht]
    exact caller_mid _ rfl (by simp) (by simp) h
  · rw [if_neg ht]
    exact caller_failed _ .nonV8 rfl (by simp) rfl (by simp [report, h])

theorem caller_queue (s : V8) (q : List Bool) (h : Caller s) (h1 : s.st ≠ .cjOn)
    (h2 : .v8Call ∉ s.reports) : Caller { s with queue := q } :=
  ⟨h.st, h.rep, h.cj, fun h => absurd h h2, fun h => absurd h h1⟩

theorem caller_cmOn (s s' : V8) (len : Nat) (bits : List Bool) (hst : s.st = .heardAnsam ∨ s.st = .cmOn)
    (h : s.reports = []) (hs : runCmOn s len bits = some s') : Caller s' := by
  unfold runCmOn at hs
  rw [Option.map_eq_some_iff] at hs
  obtain ⟨rx, -, rfl⟩ := hs
  simp only
  by_cases hg : rx.gotCmJm = true
  · rw [if_pos hg]
    refine ⟨rfl, Or.inr ⟨by simp, h⟩, fun _ => hg, ?_, fun _ h => by cases h⟩
    intro hm
    simp only [enqueue] at hm
    rw [h] at hm; cases hm
  · rw [if_neg hg]
    have hq : ∀ t : V8, Caller t → t.st ≠ .cjOn → .v8Call ∉ t.reports →
        Caller (if t.queue.length < 10 then sendCmJm t else t) := by
      intro t ht h1 h2
      split
      · exact caller_queue t _ ht h1 h2
      · exact ht
    by_cases ht : s.timer - len ≤ 0
    · rw [if_pos ht]
      apply hq
      · exact caller_failed _ .failed rfl (by simp) rfl (by simp [report, h])
      · simp [report]
      · simp [report, h]
    · rw [if_neg ht]
      apply hq
      · refine caller_mid _ ?_ ?_ ?_ h
        · show s.st.caller = true
          rcases hst with h | h <;> rw [h] <;> rfl
        · show s.st ≠ .parked
          rcases hst with h | h <;> rw [h] <;> simp
        · show s.st ≠ .cjOn
          rcases hst with h | h <;> rw [h] <;> simp
      · show s.st ≠ .cjOn
        rcases hst with h | h <;> rw [h] <;> simp
      · show _ ∉ s.reports
        rw [h]; simp

theorem caller_step (s s' : V8) (e : Event) (h : Caller s) (hs : step s e = some s') : Caller s' := by
  have hrep : s.st ≠ .parked → s.reports = [] := by
    intro hp
    rcases h.rep with h | h
    · exact absurd h.1 hp
    · exact h.2
  cases e with
  | bit =>
    simp only [step, Option.some.injEq] at hs
    subst hs
    split
    · refine ⟨h.st, h.rep, h.cj, fun hm => ⟨(h.ok hm).1, ?_⟩, fun a b => ?_⟩
      · show s.queue.tail = []
        rw [(h.ok hm).2]; rfl
      · show s.queue.tail = []
        rw [h.dry a b]; rfl
    · exact h
  | dry =>
    simp only [step, Option.some.injEq] at hs
    subst hs
    split
    · next hq => exact ⟨h.st, h.rep, h.cj, h.ok, fun _ _ => hq.2⟩
    · exact h
  | cont p =>
    simp only [step, Option.some.injEq] at hs
    subst hs
    exact ⟨h.st, h.rep, h.cj, h.ok, h.dry⟩
  | rx len tone bits edit =>
    simp only [step] at hs
    unfold rxStep at hs
    have hc := h.st
    cases hst : s.st with
    | wait1s =>
      simp only [hst] at hs
      have hr := hrep (by rw [hst]; simp)
      split at hs <;> simp only [Option.some.injEq] at hs <;> subst hs
      · exact caller_mid _ rfl (by simp)
          (by simp) hr
      · exact caller_mid _ rfl (by simp) (by simp) hr
    | ciOn =>
      simp only [hst] at hs
      have hr := hrep (by rw [hst]; simp)
      split at hs
      · simp only [Option.some.injEq] at hs; subst hs; exact caller_tone _ _ hr
      · split at hs <;> simp only [Option.some.injEq] at hs <;> subst hs
        · exact caller_mid _ rfl (by simp) (by simp) hr
        · exact h
    | ciOff =>
      simp only [hst] at hs
      have hr := hrep (by rw [hst]; simp)
      split at hs
      · simp only [Option.some.injEq] at hs; subst hs; exact caller_tone _ _ hr
      · split at hs
        · split at hs <;> simp only [Option.some.injEq] at hs <;> subst hs
          · exact caller_failed _ .failed rfl (by simp) rfl (by simp [report, hr])
          · exact caller_mid _ rfl (by simp) (by simp) hr
        · simp only [Option.some.injEq] at hs; subst hs
          exact caller_mid _ rfl (by simp)
            (by simp) hr
    | awaitAnsam =>
      simp only [hst] at hs
      have hr := hrep (by rw [hst]; simp)
      split at hs <;> simp only [Option.some.injEq] at hs <;> subst hs
      · exact caller_tone _ _ hr
      · exact h
    | heardAnsam =>
      simp only [hst] at hs
      have hr := hrep (by rw [hst]; simp)
      refine caller_cmOn _ s' len bits ?_ ?_ hs
      · split
        · exact Or.inr rfl
        · exact Or.inl rfl
      · split
        · exact hr
        · exact hr
    | cmOn =>
      simp only [hst] at hs
      exact caller_cmOn s s' len bits (Or.inr hst) (hrep (by rw [hst]; simp)) hs
    | cjOn =>
      simp only [hst] at hs
      have hr := hrep (by rw [hst]; simp)
      rw [Option.map_eq_some_iff] at hs
      obtain ⟨rx, hrx, rfl⟩ := hs
      have hg := (puts_mono _ _ _ hrx).1 (h.cj hst)
      by_cases hsd : s.sending = true
      · simp only [hsd]
        rw [if_neg (by simp)]
        exact ⟨rfl, Or.inr ⟨by simp, hr⟩, fun _ => hg, by show _ ∈ s.reports → _; rw [hr]; simp, by simp⟩
      · have hsd : s.sending = false := by simpa using hsd
        simp only [hsd]
        rw [if_pos (by simp)]
        exact ⟨rfl, Or.inl ⟨rfl, finals_report _ _ rfl hr⟩, by simp [report],
          fun _ => ⟨hg, h.dry hst hsd⟩, by simp [report]⟩
    | parked =>
      simp only [hst, Option.some.injEq] at hs
      subst hs; exact h
    | cmWait => rw [hst] at hc; cases hc
    | postCmWait => rw [hst] at hc; cases hc
    | jmOn => rw [hst] at hc; cases hc
    | siga => rw [hst] at hc; cases hc

theorem caller_run (es : List Event) (s s' : V8) (h : Caller s) (hs : run s es = some s') : Caller s' := by
  induction es generalizing s with
  | nil => cases hs; exact h
  | cons e es ih =>
    simp only [run, Option.bind_eq_some_iff] at hs
    obtain ⟨a, ha, hs⟩ := hs
    exact ih a (caller_step _ _ _ h ha) hs

/-! ### The answerer -/

def St.answerer : St → Bool
  | .cmWait | .postCmWait | .jmOn | .siga | .parked => true
  | _ => false

structure Answerer (s : V8) : Prop where
  st : s.st.answerer = true
  rep : (s.st = .parked ∧ finals s = 1) ∨ (s.st ≠ .parked ∧ finals s = 0)
  got : s.st = .postCmWait ∨ s.st = .jmOn ∨ s.st = .siga → s.rx.gotCmJm = true ∧ .offered ∈ s.reports
  cj : s.st = .siga → s.rx.gotCj = true
  ok : .v8Call ∈ s.reports → s.rx.gotCmJm = true ∧ s.rx.gotCj = true
  off : .offered ∈ s.reports → s.rx.gotCmJm = true
  wait : s.st = .cmWait → s.reports = []

theorem answerer_init (p : Parms) : Answerer (v8Init false p) := by
  have h : (v8Init false p).st = .cmWait := rfl
  refine ⟨rfl, Or.inr ⟨by rw [h]; simp, rfl⟩, ?_, ?_, ?_, ?_, fun _ => rfl⟩
  · rw [h]; simp
  · rw [h]; simp
  · intro h; cases h
  · intro h; cases h

/-- No tone is reported while there is an answer to be given. -/
def Event.toneless : Event → Prop
  | .rx _ tone _ _ => tone = none
  | _ => True

theorem finals_report' (s : V8) (x : Status) (h : x.final = true) (hr : finals s = 0) :
    finals (report s x) = 1 := by
  unfold finals report at *
  simp only
  rw [List.filter_cons_of_pos h, List.length_cons, hr]

theorem finals_v8Call (s : V8) (h : finals s = 0) : .v8Call ∉ s.reports := by
  intro hm
  unfold finals at h
  have := List.length_eq_zero_iff.mp h
  have hf : Status.v8Call ∈ s.reports.filter Status.final := List.mem_filter.mpr ⟨hm, rfl⟩
  rw [this] at hf; cases hf

theorem answerer_startJm (s : V8) (h : finals s = 0) (hg : s.rx.gotCmJm = true)
    (ho : .offered ∈ s.reports) : Answerer (startJm s) :=
  ⟨rfl, Or.inr ⟨by simp [startJm, sendCmJm, enqueue], h⟩, fun _ => ⟨hg, ho⟩,
    by simp [startJm, sendCmJm, enqueue], fun hm => absurd hm (finals_v8Call s h), fun _ => hg,
    by simp [startJm, sendCmJm, enqueue]⟩

theorem answerer_failed (s : V8) (l : List Status) (h : s.st = .parked) (hr : s.reports = .failed :: l)
    (hf : (l.filter Status.final).length = 0) (ho : .offered ∈ l → s.rx.gotCmJm = true) : Answerer s := by
  refine ⟨by rw [h]; rfl, Or.inl ⟨h, ?_⟩, ?_, ?_, ?_, ?_, ?_⟩
  · unfold finals; rw [hr, List.filter_cons_of_pos rfl, List.length_cons, hf]
  · rw [h]; simp
  · rw [h]; simp
  · intro hm
    rw [hr, List.mem_cons] at hm
    rcases hm with hm | hm
    · cases hm
    · have := List.length_eq_zero_iff.mp hf
      have hq : Status.v8Call ∈ l.filter Status.final := List.mem_filter.mpr ⟨hm, rfl⟩
      rw [this] at hq; cases hq
  · intro hm
    rw [hr, List.mem_cons] at hm
    rcases hm with hm | hm
    · cases hm
    · exact ho hm
  · rw [h]; simp

theorem answerer_step (s s' : V8) (e : Event) (he : e.toneless) (h : Answerer s) (hs : step s e = some s') :
    Answerer s' := by
  have hrep : s.st ≠ .parked → finals s = 0 := by
    intro hp
    rcases h.rep with h | h
    · exact absurd h.1 hp
    · exact h.2
  cases e with
  | bit =>
    simp only [step, Option.some.injEq] at hs
    subst hs
    split
    · exact ⟨h.st, h.rep, h.got, h.cj, h.ok, h.off, h.wait⟩
    · exact h
  | dry =>
    simp only [step, Option.some.injEq] at hs
    subst hs
    split
    · exact ⟨h.st, h.rep, h.got, h.cj, h.ok, h.off, h.wait⟩
    · exact h
  | cont p =>
    simp only [step, Option.some.injEq] at hs
    subst hs
    exact ⟨h.st, h.rep, h.got, h.cj, h.ok, h.off, h.wait⟩
  | rx len tone bits edit =>
    have he : tone = none := he
    subst he
    simp only [step] at hs
    unfold rxStep at hs
    have hc := h.st
    cases hst : s.st with
    | cmWait =>
      simp only [hst] at hs
      have hr := h.wait hst
      have hf : finals s = 0 := hrep (by rw [hst]; simp)
      rw [Option.map_eq_some_iff] at hs
      obtain ⟨rx, hrx, rfl⟩ := hs
      by_cases hg : rx.gotCmJm = true
      · rw [if_pos hg]
        have hf2 : finals { s with
            rx := { rx with msg := edit rx.msg }, reports := .offered :: s.reports } = 0 := by
          unfold finals; simp only; rw [List.filter_cons_of_neg (by simp [Status.final])]; exact hf
        split
        · exact ⟨rfl, Or.inr ⟨by simp, hf2⟩, fun _ => ⟨hg, List.mem_cons_self⟩, by simp,
            fun hm => absurd hm (finals_v8Call _ hf2), fun _ => hg, by simp⟩
        · exact answerer_startJm _ hf2 hg List.mem_cons_self
      · rw [if_neg hg]
        split
        · exact answerer_failed _ s.reports rfl rfl hf (by rw [hr]; simp)
        · exact ⟨rfl, Or.inr ⟨by simp, hf⟩,
            by simp,
            by simp, by show _ ∈ s.reports → _; rw [hr]; simp,
            by show _ ∈ s.reports → _; rw [hr]; simp, fun _ => hr⟩
    | postCmWait =>
      simp only [hst] at hs
      have hf : finals s = 0 := hrep (by rw [hst]; simp)
      have hg := h.got (Or.inl hst)
      split at hs <;> simp only [Option.some.injEq] at hs <;> subst hs
      · exact answerer_startJm s hf hg.1 hg.2
      · exact h
    | jmOn =>
      simp only [hst] at hs
      have hf : finals s = 0 := hrep (by rw [hst]; simp)
      have hg := h.got (Or.inr (Or.inl hst))
      rw [Option.map_eq_some_iff] at hs
      obtain ⟨rx, hrx, rfl⟩ := hs
      have hg2 := (puts_mono _ _ _ hrx).1 hg.1
      by_cases hcj : rx.gotCj = true
      · rw [if_pos hcj]
        exact ⟨rfl, Or.inr ⟨by simp, hf⟩, fun _ => ⟨hg2, hg.2⟩, fun _ => hcj, fun _ => ⟨hg2, hcj⟩,
          fun _ => hg2, by simp⟩
      · rw [if_neg hcj]
        have mid : ∀ q, Answerer { s with st := .jmOn, rx := rx, timer := s.timer - len, queue := q } := fun q =>
          ⟨rfl, Or.inr ⟨by simp, hf⟩,
            fun _ => ⟨hg2, hg.2⟩, by simp,
            fun hm => absurd hm (finals_v8Call s hf), fun _ => hg2, by simp⟩
        split
        · exact answerer_failed _ s.reports rfl rfl hf (fun _ => hg2)
        · split
          · exact mid _
          · exact mid _
    | siga =>
      simp only [hst] at hs
      have hf : finals s = 0 := hrep (by rw [hst]; simp)
      have hg := h.got (Or.inr (Or.inr hst))
      split at hs <;> simp only [Option.some.injEq] at hs <;> subst hs
      · exact ⟨rfl, Or.inl ⟨rfl, finals_report' _ _ rfl hf⟩, by simp [report], by simp [report],
          fun _ => ⟨hg.1, h.cj hst⟩, fun _ => hg.1, by simp [report]⟩
      · exact h
    | parked =>
      simp only [hst, Option.some.injEq] at hs
      subst hs; exact h
    | wait1s => rw [hst] at hc; cases hc
    | awaitAnsam => rw [hst] at hc; cases hc
    | ciOn => rw [hst] at hc; cases hc
    | ciOff => rw [hst] at hc; cases hc
    | heardAnsam => rw [hst] at hc; cases hc
    | cmOn => rw [hst] at hc; cases hc
    | cjOn => rw [hst] at hc; cases hc

theorem answerer_run (es : List Event) (s s' : V8) (he : ∀ e ∈ es, e.toneless) (h : Answerer s)
    (hs : run s es = some s') : Answerer s' := by
  induction es generalizing s with
  | nil => cases hs; exact h
  | cons e es ih =>
    simp only [run, Option.bind_eq_some_iff] at hs
    obtain ⟨a, ha, hs⟩ := hs
    exact ih a (fun x hx => he x (by simp [hx])) (answerer_step _ _ _ (he e (by simp)) h ha) hs

end V8
