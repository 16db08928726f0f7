import Verif.V8.Machine

/-! Lemmas: how long things take, and what is sent. -/

namespace V8

/-! ### Time limits -/

/-- The caller is done within `b` samples. -/
def CallerLeft (b : Int) (s : V8) : Prop :=
  (s.st = .heardAnsam ∧ 0 < s.ciTimer ∧ s.ciTimer + 40000 ≤ b) ∨ (s.st = .cmOn ∧ 0 < s.timer ∧ s.timer ≤ b) ∨
  s.st = .cjOn ∨ s.st = .parked

theorem left_cmOn (s s' : V8) (len : Nat) (bits : List Bool) (hs : runCmOn s len bits = some s') :
    s'.st = .cjOn ∨ s'.st = .parked ∨
    (s'.st = s.st ∧ s'.timer = s.timer - len ∧ 0 < s'.timer ∧ s'.ciTimer = s.ciTimer) := by
  unfold runCmOn at hs
  rw [Option.map_eq_some_iff] at hs
  obtain ⟨rx, -, rfl⟩ := hs
  simp only
  by_cases hg : rx.gotCmJm = true
  · rw [if_pos hg]; exact Or.inl rfl
  · rw [if_neg hg]
    right
    by_cases ht : s.timer - len ≤ 0
    · rw [if_pos ht]
      left
      split <;> rfl
    · rw [if_neg ht]
      right
      split
      · exact ⟨rfl, rfl, by show 0 < s.timer - len; omega, rfl⟩
      · exact ⟨rfl, rfl, by show 0 < s.timer - len; omega, rfl⟩

theorem left_step (s s' : V8) (e : Event) (b : Int) (h : CallerLeft b s) (hs : step s e = some s') :
    CallerLeft (b - samples [e]) s' := by
  cases e with
  | bit =>
    simp only [step, Option.some.injEq] at hs
    subst hs
    simp only [samples]
    split
    · simpa [CallerLeft] using h
    · simpa using h
  | dry =>
    simp only [step, Option.some.injEq] at hs
    subst hs
    simp only [samples]
    split
    · simpa [CallerLeft] using h
    · simpa using h
  | cont p =>
    simp only [step, Option.some.injEq] at hs
    subst hs
    simp only [samples]
    simpa [CallerLeft, continue_] using h
  | rx len tone bits edit =>
    simp only [step, samples] at hs ⊢
    unfold rxStep at hs
    rcases h with ⟨hst, h1, h2⟩ | ⟨hst, h1, h2⟩ | hst | hst
    · simp only [hst] at hs
      have hl := left_cmOn _ s' len bits hs
      rcases hl with hl | hl | ⟨l1, l2, l3, l4⟩
      · exact Or.inr (Or.inr (Or.inl hl))
      · exact Or.inr (Or.inr (Or.inr hl))
      · by_cases hc : s.ciTimer - len ≤ 0
        · rw [if_pos hc] at l1 l2 l4
          right; left
          have l2 : s'.timer = 8*5000 - len := l2
          exact ⟨l1, l3, by omega⟩
        · rw [if_neg hc] at l1 l2 l4
          left
          have l4 : s'.ciTimer = s.ciTimer - len := l4
          exact ⟨l1, by omega, by omega⟩
    · simp only [hst] at hs
      have hl := left_cmOn _ s' len bits hs
      rcases hl with hl | hl | ⟨l1, l2, l3, l4⟩
      · exact Or.inr (Or.inr (Or.inl hl))
      · exact Or.inr (Or.inr (Or.inr hl))
      · right; left
        exact ⟨l1.trans hst, l3, by omega⟩
    · simp only [hst] at hs
      rw [Option.map_eq_some_iff] at hs
      obtain ⟨rx, -, rfl⟩ := hs
      split
      · exact Or.inr (Or.inr (Or.inr rfl))
      · exact Or.inr (Or.inr (Or.inl rfl))
    · simp only [hst, Option.some.injEq] at hs
      subst hs
      exact Or.inr (Or.inr (Or.inr hst))

theorem samples_cons (e : Event) (es : List Event) : samples (e :: es) = samples [e] + samples es := by
  cases e <;> simp [samples]

theorem left_run (es : List Event) (s s' : V8) (b : Int) (h : CallerLeft b s) (hs : run s es = some s') :
    CallerLeft (b - samples es) s' := by
  induction es generalizing s b with
  | nil =>
    cases hs
    simpa [samples] using h
  | cons e es ih =>
    simp only [run, Option.bind_eq_some_iff] at hs
    obtain ⟨a, ha, hs⟩ := hs
    have := ih a (b - samples [e]) (left_step _ _ _ _ h ha) hs
    rw [samples_cons]
    rw [show b - ((samples [e] + samples es : Nat) : Int) = b - (samples [e] : Int) - (samples es : Int) by
      push_cast; omega]
    exact this

/-- The states of an answerer after it has left a state with a limit. -/
def St.later : St → St → Bool
  | .cmWait, .postCmWait | .cmWait, .jmOn | .cmWait, .siga | .cmWait, .parked => true
  | .jmOn, .siga | .jmOn, .parked => true
  | _, _ => false

/-- The answerer leaves the state `w` within `b` samples. -/
def AnswererLeft (w : St) (b : Int) (s : V8) : Prop :=
  (s.st = w ∧ 0 < s.timer ∧ s.timer ≤ b) ∨ w.later s.st = true

theorem aleft_step (w : St) (hw : w = .cmWait ∨ w = .jmOn) (s s' : V8) (e : Event) (b : Int)
    (h : AnswererLeft w b s) (hs : step s e = some s') : AnswererLeft w (b - samples [e]) s' := by
  cases e with
  | bit =>
    simp only [step, Option.some.injEq] at hs
    subst hs
    simp only [samples]
    split
    · simpa [AnswererLeft] using h
    · simpa using h
  | dry =>
    simp only [step, Option.some.injEq] at hs
    subst hs
    simp only [samples]
    split
    · simpa [AnswererLeft] using h
    · simpa using h
  | cont p =>
    simp only [step, Option.some.injEq] at hs
    subst hs
    simp only [samples]
    simpa [AnswererLeft, continue_] using h
  | rx len tone bits edit =>
    simp only [step, samples] at hs ⊢
    unfold rxStep at hs
    have lat : ∀ x, w.later x = true → s'.st = x → AnswererLeft w (b - ((len + 0 : Nat) : Int)) s' := by
      intro x h1 h2; right; rw [h2]; exact h1
    rcases h with ⟨hst, h1, h2⟩ | h
    · rcases hw with rfl | rfl
      · simp only [hst] at hs
        rw [Option.map_eq_some_iff] at hs
        obtain ⟨rx, -, hs⟩ := hs
        have key : ∀ t : V8, (t.st = .cmWait ∨ t.st = .parked) → t.timer = s.timer →
            (if ({ t with rx := rx } : V8).rx.gotCmJm = true then
              if (report { t with rx := rx } .offered).parms.gateway = true then
                { report { t with rx := rx } .offered with
                  rx := { (report { t with rx := rx } .offered).rx with
                    msg := edit (report { t with rx := rx } .offered).rx.msg }, st := .postCmWait }
              else startJm { report { t with rx := rx } .offered with
                rx := { (report { t with rx := rx } .offered).rx with
                  msg := edit (report { t with rx := rx } .offered).rx.msg } }
            else if t.timer - len ≤ 0 then report { t with rx := rx, timer := t.timer - len, st := .parked } .failed
            else { t with rx := rx, timer := t.timer - len }) = s' →
            AnswererLeft .cmWait (b - ((len + 0 : Nat) : Int)) s' := by
          intro t ht htm e
          split at e
          · split at e
            · exact lat .postCmWait rfl (by rw [← e])
            · exact lat .jmOn rfl (by rw [← e]; rfl)
          · split at e
            · exact lat .parked rfl (by rw [← e]; rfl)
            · next hc =>
              rcases ht with ht | ht
              · left
                rw [← e]
                refine ⟨ht, ?_, ?_⟩
                · show 0 < t.timer - len; omega
                · show t.timer - len ≤ b - _; omega
              · exact lat .parked rfl (by rw [← e]; exact ht)
        cases tone with
        | none => exact key s (Or.inl hst) rfl hs
        | some t => exact key (answererTone s t) (Or.inr rfl) rfl hs
      · simp only [hst] at hs
        rw [Option.map_eq_some_iff] at hs
        obtain ⟨rx, -, rfl⟩ := hs
        by_cases hg : rx.gotCj = true
        · rw [if_pos hg] at lat ⊢; exact lat .siga rfl rfl
        · rw [if_neg hg] at lat ⊢
          split at lat
          · next hc => rw [if_pos hc]; exact lat .parked rfl rfl
          · next hc =>
            rw [if_neg hc]
            left
            split
            · refine ⟨rfl, ?_, ?_⟩
              · show 0 < s.timer - len; omega
              · show s.timer - len ≤ b - _; omega
            · refine ⟨rfl, ?_, ?_⟩
              · show 0 < s.timer - len; omega
              · show s.timer - len ≤ b - _; omega
    · cases hst : s.st with
      | postCmWait =>
        rw [hst] at h
        have hw : w = .cmWait := by
          rcases hw with rfl | rfl
          · rfl
          · cases h
        subst hw
        simp only [hst] at hs
        split at hs <;> simp only [Option.some.injEq] at hs <;> subst hs
        · exact lat .jmOn rfl rfl
        · exact lat .postCmWait rfl hst
      | jmOn =>
        rw [hst] at h
        have hw : w = .cmWait := by
          rcases hw with rfl | rfl
          · rfl
          · cases h
        subst hw
        simp only [hst] at hs
        rw [Option.map_eq_some_iff] at hs
        obtain ⟨rx, -, rfl⟩ := hs
        right
        repeat' split
        all_goals rfl
      | siga =>
        rw [hst] at h
        simp only [hst] at hs
        have hp : w.later .parked = true := by rcases hw with rfl | rfl <;> rfl
        split at hs <;> simp only [Option.some.injEq] at hs <;> subst hs
        · exact lat .parked hp rfl
        · exact lat .siga h hst
      | parked =>
        rw [hst] at h
        simp only [hst, Option.some.injEq] at hs
        subst hs
        exact lat .parked h hst
      | _ =>
        rw [hst] at h
        rcases hw with rfl | rfl <;> cases h

theorem aleft_run (w : St) (hw : w = .cmWait ∨ w = .jmOn) (es : List Event) (s s' : V8) (b : Int)
    (h : AnswererLeft w b s) (hs : run s es = some s') : AnswererLeft w (b - samples es) s' := by
  induction es generalizing s b with
  | nil =>
    cases hs
    simpa [samples] using h
  | cons e es ih =>
    simp only [run, Option.bind_eq_some_iff] at hs
    obtain ⟨a, ha, hs⟩ := hs
    have := ih a (b - samples [e]) (aleft_step w hw _ _ _ _ h ha) hs
    rw [samples_cons]
    rw [show b - ((samples [e] + samples es : Nat) : Int) = b - (samples [e] : Int) - (samples es : Int) by
      push_cast; omega]
    exact this

/-! ### What a caller sends -/

/-- While no CM or JM has been recognised, only the call function of the result can change. -/
theorem puts_keep (l : List Bool) (r r' : Rx) (h : puts r l = some r') (hg : r'.gotCmJm = false) :
    r.gotCmJm = false ∧ r'.msg.modulations = r.msg.modulations ∧ r'.modBytes = r.modBytes := by
  have hs : ∀ (r : Rx) (o : Byte), (store r o).gotCmJm = r.gotCmJm ∧ (store r o).msg = r.msg ∧
      (store r o).modBytes = r.modBytes := by
    intro r o
    unfold store
    by_cases h0 : o = 0#8 <;> by_cases hl : r.data.length < 63 <;> simp [h0, hl]
  have hp : ∀ r : Rx, (parse r).gotCmJm = r.gotCmJm ∧ (parse r).msg = r.msg ∧
      (parse r).modBytes = r.modBytes := by
    intro r
    unfold parse
    by_cases h1 : r.sync = .unknown
    · rw [if_pos h1]; exact ⟨rfl, rfl, rfl⟩
    · rw [if_neg h1]
      simp only
      split
      · exact hs _ _
      · exact ⟨rfl, rfl, rfl⟩
  have hf : ∀ r x : Rx, finish r = some x → x.gotCmJm = false →
      r.gotCmJm = false ∧ x.msg.modulations = r.msg.modulations ∧ x.modBytes = r.modBytes := by
    intro r x hx hg
    unfold finish at hx
    split at hx
    · simp only [Option.some.injEq] at hx
      subst hx
      unfold ciDecode at hg ⊢
      by_cases h1 : r.gotCi = true
      · rw [if_pos h1] at hg ⊢; exact ⟨hg, rfl, rfl⟩
      · rw [if_neg h1] at hg ⊢
        by_cases h2 : r.first &&& 0x1F#8 = 0x01#8
        · rw [if_pos h2] at hg ⊢; exact ⟨hg, rfl, rfl⟩
        · rw [if_neg h2] at hg ⊢; exact ⟨hg, rfl, rfl⟩
    · unfold cmJmDecode at hx
      split at hx
      · cases hx; exact ⟨hg, rfl, rfl⟩
      · split at hx
        · cases hx; exact ⟨hg, rfl, rfl⟩
        · split at hx
          · cases hx; cases hg
          · cases hx
    · cases hx; exact ⟨hg, rfl, rfl⟩
  induction l generalizing r with
  | nil => cases h; exact ⟨hg, rfl, rfl⟩
  | cons b l ih =>
    simp only [puts, Option.bind_eq_some_iff] at h
    obtain ⟨a, ha, h⟩ := h
    obtain ⟨i1, i2, i3⟩ := ih a h
    rw [putBit_eq] at ha
    split at ha
    · rw [Option.map_eq_some_iff] at ha
      obtain ⟨x, hx, rfl⟩ := ha
      have e := hp { x with sync := syncOf (push r.stream b), cnt := 0, data := [] }
      rw [e.1] at i1
      have f := hf _ _ hx i1
      rw [i2, i3, e.2.1, e.2.2]
      exact f
    · cases ha
      have e := hp { r with stream := push r.stream b }
      rw [e.1] at i1
      rw [i2, i3, e.2.1, e.2.2]
      exact ⟨i1, rfl, rfl⟩

theorem frames_length (l : List Byte) : (l.flatMap frame).length = 10*l.length := by
  induction l with
  | nil => rfl
  | cons o l ih => rw [List.flatMap_cons, List.length_append, ih, frame_length, List.length_cons]; omega

theorem message_length (o : Byte) (l : List Byte) : (message o l).length = 20 + 10*l.length := by
  unfold message
  rw [List.length_append, frames_length]
  simp [preamble]; omega

theorem cmBits_length (result parms : Msg) (n : Nat) : (cmBits result parms n).length ≤ 100 := by
  have := cmOctets_length result parms n
  unfold cmBits
  rw [message_length]; omega

theorem ciBits_length (result : Msg) : (ciBits result).length = 120 := by
  unfold ciBits
  rw [show List.replicate 4 (message 0x00#8 [octet result.call 0x01#8]) =
    [message 0x00#8 [octet result.call 0x01#8], message 0x00#8 [octet result.call 0x01#8],
     message 0x00#8 [octet result.call 0x01#8], message 0x00#8 [octet result.call 0x01#8]] from rfl]
  simp only [List.flatten_cons, List.flatten_nil, List.length_append, message_length, List.length_cons,
    List.length_nil]

theorem v92Bits_length (v : BitVec 32) : (v92Bits v).length ≤ 60 := by
  unfold v92Bits
  split
  · rw [show List.replicate 2 (message 0x55#8 [v.setWidth 8]) =
      [message 0x55#8 [v.setWidth 8], message 0x55#8 [v.setWidth 8]] from rfl]
    simp only [List.flatten_cons, List.flatten_nil, List.length_append, message_length, List.length_cons,
      List.length_nil]
    omega
  · simp

theorem enqueue_all (s : V8) (l : List Bool) (h : s.queue.length + l.length ≤ room) :
    enqueue s l = { s with queue := s.queue ++ l } := by
  unfold enqueue
  rw [List.take_of_length_le (by omega)]

/-- What a caller with parameters `p` has sent and is about to send. -/
structure Sends (p : Parms) (s : V8) (out : List Bool) : Prop where
  parms : s.parms = p
  msg : s.st ≠ .cjOn → s.st ≠ .parked →
    s.rx.gotCmJm = false ∧ s.rx.msg.modulations = p.cm.modulations ∧ s.rx.modBytes = 3
  idle : s.st = .wait1s ∨ s.st = .awaitAnsam ∨ s.st = .ciOff → s.queue = []
  ci : s.st = .ciOn → s.queue.length ≤ 120 ∧ (s.sending = false → s.queue = [])
  heard : s.st = .heardAnsam → s.queue.length ≤ 120
  cm : s.st = .cmOn → s.queue.length ≤ 280
  len : s.queue.length ≤ 310
  ringing : s.st = .wait1s ∨ s.st = .awaitAnsam ∨ s.st = .ciOff ∨ s.st = .ciOn → Ringing out
  early : s.st = .heardAnsam → Early p out
  offering : s.st = .cmOn → Offering p out
  accepted : s.st = .cjOn ∨ .v8Call ∈ s.reports → Accepted p out
  any : Ringing out ∨ Early p out ∨ Offering p out ∨ Accepted p out

theorem sends_init (p : Parms) : Sends p (v8Init true p) [] := by
  have h : (v8Init true p).st = .wait1s ∨ (v8Init true p).st = .awaitAnsam := by
    unfold v8Init
    simp only [if_true]
    split
    · exact Or.inl rfl
    · exact Or.inr rfl
  have hr : Ringing [] := ⟨[], by simp, rfl⟩
  refine ⟨rfl, fun _ _ => ⟨rfl, rfl, rfl⟩, fun _ => rfl, ?_, ?_, ?_, by simp [v8Init], fun _ => hr, ?_, ?_, ?_,
    Or.inl hr⟩
  all_goals (rcases h with h | h <;> rw [h] <;> simp [v8Init])

theorem Ringing.snoc {b m : List Bool} (h : Ringing b) (hm : IsCi m) : Ringing (b ++ m) := by
  obtain ⟨l, hl, rfl⟩ := h
  refine ⟨l ++ [m], ?_, by simp⟩
  intro x hx
  rw [List.mem_append, List.mem_singleton] at hx
  rcases hx with h | rfl
  · exact hl x h
  · exact hm

theorem Ringing.early {b : List Bool} (p : Parms) (h : Ringing b) : Early p b := ⟨b, [], h, by simp, by simp⟩

theorem Early.snoc {p : Parms} {b m : List Bool} (h : Early p b) (hm : IsCm p m) : Early p (b ++ m) := by
  obtain ⟨b1, l, h1, hl, rfl⟩ := h
  refine ⟨b1, l ++ [m], h1, ?_, by simp⟩
  intro x hx
  rw [List.mem_append, List.mem_singleton] at hx
  rcases hx with h | rfl
  · exact hl x h
  · exact hm

theorem Early.offer {p : Parms} {b m : List Bool} (h : Early p b) (hm : IsCm p m) :
    Offering p (b ++ v92Bits p.v92 ++ m) := ⟨b, [m], h, by simp, by simpa using hm, by simp⟩

theorem Offering.snoc {p : Parms} {b m : List Bool} (h : Offering p b) (hm : IsCm p m) :
    Offering p (b ++ m) := by
  obtain ⟨b1, l, h1, h2, hl, rfl⟩ := h
  refine ⟨b1, l ++ [m], h1, by simp, ?_, by simp⟩
  intro x hx
  rw [List.mem_append, List.mem_singleton] at hx
  rcases hx with h | rfl
  · exact hl x h
  · exact hm

/-- Building `Sends` for the several states. -/
theorem sends_ring (p : Parms) (s : V8) (out : List Bool) (h1 : s.parms = p)
    (hst : s.st = .wait1s ∨ s.st = .awaitAnsam ∨ s.st = .ciOff)
    (h2 : s.rx.gotCmJm = false ∧ s.rx.msg.modulations = p.cm.modulations ∧ s.rx.modBytes = 3)
    (h3 : s.queue = []) (h4 : s.reports = []) (h5 : Ringing out) : Sends p s out := by
  refine ⟨h1, fun _ _ => h2, fun _ => h3, ?_, ?_, ?_, by rw [h3]; simp, fun _ => h5, ?_, ?_, ?_, Or.inl h5⟩
  all_goals (rcases hst with h | h | h <;> rw [h] <;> simp [h4])

theorem sends_ciOn (p : Parms) (s : V8) (out : List Bool) (h1 : s.parms = p) (hst : s.st = .ciOn)
    (h2 : s.rx.gotCmJm = false ∧ s.rx.msg.modulations = p.cm.modulations ∧ s.rx.modBytes = 3)
    (h3 : s.queue.length ≤ 120 ∧ (s.sending = false → s.queue = [])) (h4 : s.reports = [])
    (h5 : Ringing out) : Sends p s out := by
  refine ⟨h1, fun _ _ => h2, ?_, fun _ => h3, ?_, ?_, by omega, fun _ => h5, ?_, ?_, ?_, Or.inl h5⟩
  all_goals simp [hst, h4]

theorem sends_heard (p : Parms) (s : V8) (out : List Bool) (h1 : s.parms = p) (hst : s.st = .heardAnsam)
    (h2 : s.rx.gotCmJm = false ∧ s.rx.msg.modulations = p.cm.modulations ∧ s.rx.modBytes = 3)
    (h3 : s.queue.length ≤ 120) (h4 : s.reports = []) (h5 : Early p out) : Sends p s out := by
  refine ⟨h1, fun _ _ => h2, ?_, ?_, fun _ => h3, ?_, by omega, ?_, fun _ => h5, ?_, ?_, Or.inr (Or.inl h5)⟩
  all_goals simp [hst, h4]

theorem sends_cmOn (p : Parms) (s : V8) (out : List Bool) (h1 : s.parms = p) (hst : s.st = .cmOn)
    (h2 : s.rx.gotCmJm = false ∧ s.rx.msg.modulations = p.cm.modulations ∧ s.rx.modBytes = 3)
    (h3 : s.queue.length ≤ 280) (h4 : s.reports = []) (h5 : Offering p out) : Sends p s out := by
  refine ⟨h1, fun _ _ => h2, ?_, ?_, ?_, fun _ => h3, by omega, ?_, ?_, fun _ => h5, ?_,
    Or.inr (Or.inr (Or.inl h5))⟩
  all_goals simp [hst, h4]

theorem sends_cjOn (p : Parms) (s : V8) (out : List Bool) (h1 : s.parms = p) (hst : s.st = .cjOn)
    (h3 : s.queue.length ≤ 310) (h5 : Accepted p out) : Sends p s out := by
  refine ⟨h1, by simp [hst], ?_, ?_, ?_, ?_, h3, ?_, ?_, ?_, fun _ => h5, Or.inr (Or.inr (Or.inr h5))⟩
  all_goals simp [hst]

theorem sends_parked (p : Parms) (s : V8) (out : List Bool) (h1 : s.parms = p) (hst : s.st = .parked)
    (h3 : s.queue.length ≤ 310) (h4 : .v8Call ∈ s.reports → Accepted p out)
    (h5 : Ringing out ∨ Early p out ∨ Offering p out ∨ Accepted p out) : Sends p s out := by
  refine ⟨h1, by simp [hst], ?_, ?_, ?_, ?_, h3, ?_, ?_, ?_, ?_, h5⟩
  all_goals simp [hst]
  exact h4

theorem isCm_of (p : Parms) (s : V8) (hp : s.parms = p)
    (h2 : s.rx.msg.modulations = p.cm.modulations ∧ s.rx.modBytes = 3) :
    IsCm p (cmBits s.rx.msg s.parms.cm s.rx.modBytes) := ⟨s.rx.msg, h2.1, by rw [hp, h2.2]⟩

theorem sends_tone (p : Parms) (s : V8) (o : List Bool) (t : Tone) (h1 : s.parms = p)
    (h2 : s.rx.gotCmJm = false ∧ s.rx.msg.modulations = p.cm.modulations ∧ s.rx.modBytes = 3)
    (h3 : s.queue.length ≤ 120) (h4 : s.reports = []) (h5 : Ringing (o ++ s.queue)) :
    Sends p (callerTone s t) (o ++ (callerTone s t).queue) := by
  unfold callerTone
  by_cases ht : t = .ansam
  · rw [if_pos ht]
    exact sends_heard p _ _ h1 rfl ⟨rfl, h2.2⟩ h3 h4 (h5.early p)
  · rw [if_neg ht]
    exact sends_parked p _ _ h1 rfl (by show s.queue.length ≤ 310; omega) (by simp [report, h4]) (Or.inl h5)

theorem sends_run_cmOn (p : Parms) (s s' : V8) (o : List Bool) (len : Nat) (bits : List Bool)
    (hst : s.st = .heardAnsam ∨ s.st = .cmOn) (h4 : s.reports = []) (h : Sends p s (o ++ s.queue))
    (hs : runCmOn s len bits = some s') : Sends p s' (o ++ s'.queue) := by
  have h2 := h.msg (by rcases hst with h | h <;> rw [h] <;> simp) (by rcases hst with h | h <;> rw [h] <;> simp)
  have hlen : s.queue.length ≤ 280 := by
    rcases hst with e | e
    · have := h.heard e; omega
    · exact h.cm e
  unfold runCmOn at hs
  rw [Option.map_eq_some_iff] at hs
  obtain ⟨rx, hrx, rfl⟩ := hs
  simp only
  by_cases hg : rx.gotCmJm = true
  · rw [if_pos hg, enqueue_all _ _ (by show s.queue.length + _ ≤ _; rw [cjBits, frames_length]; simp [room]; omega)]
    refine sends_cjOn p _ _ h.parms rfl ?_ ?_
    · show (s.queue ++ cjBits).length ≤ 310
      rw [List.length_append, cjBits, frames_length]; simp; omega
    · refine ⟨o ++ s.queue, ?_, by show o ++ (s.queue ++ cjBits) = _; simp⟩
      rcases hst with e | e
      · exact Or.inl (h.early e)
      · exact Or.inr (h.offering e)
  · rw [if_neg hg]
    have hk := puts_keep _ _ _ hrx (by simpa using hg)
    have hm : rx.gotCmJm = false ∧ rx.msg.modulations = p.cm.modulations ∧ rx.modBytes = 3 :=
      ⟨by simpa using hg, hk.2.1.trans h2.2.1, hk.2.2.trans h2.2.2⟩
    have hany : Early p (o ++ s.queue) ∨ Offering p (o ++ s.queue) := by
      rcases hst with e | e
      · exact Or.inl (h.early e)
      · exact Or.inr (h.offering e)
    -- with or without one more CM
    have hq : ∀ t : V8, t.queue = s.queue → t.rx = rx → t.parms = p →
        ∃ q, (if t.queue.length < 10 then sendCmJm t else t) = { t with queue := s.queue ++ q } ∧
          (q = [] ∨ (IsCm p q ∧ s.queue.length < 10 ∧ q.length ≤ 100)) := by
      intro t e1 e2 e3
      by_cases hc : t.queue.length < 10
      · rw [if_pos hc]
        unfold sendCmJm
        have hl := cmBits_length t.rx.msg t.parms.cm t.rx.modBytes
        rw [enqueue_all _ _ (by unfold room; omega)]
        refine ⟨cmBits t.rx.msg t.parms.cm t.rx.modBytes, by rw [e1], Or.inr ⟨?_, by rw [← e1]; exact hc, hl⟩⟩
        exact isCm_of p t e3 (by rw [e2]; exact hm.2)
      · rw [if_neg hc]
        exact ⟨[], by rw [List.append_nil, ← e1], Or.inl rfl⟩
    by_cases ht : s.timer - len ≤ 0
    · rw [if_pos ht]
      obtain ⟨q, eq, hqq⟩ := hq (report { s with rx := rx, timer := s.timer - len, st := .parked } .failed) rfl
        rfl h.parms
      rw [eq]
      refine sends_parked p _ _ h.parms rfl ?_ ?_ ?_
      · show (s.queue ++ q).length ≤ 310
        rw [List.length_append]
        rcases hqq with rfl | ⟨-, q1, q2⟩
        · simp; omega
        · omega
      · simp [report, h4]
      · show _ ∨ Early p (o ++ (s.queue ++ q)) ∨ Offering p (o ++ (s.queue ++ q)) ∨ _
        right
        rw [← List.append_assoc]
        rcases hqq with rfl | ⟨q0, -, -⟩
        · rw [List.append_nil]
          rcases hany with a | a
          · exact Or.inl a
          · exact Or.inr (Or.inl a)
        · rcases hany with a | a
          · exact Or.inl (a.snoc q0)
          · exact Or.inr (Or.inl (a.snoc q0))
    · rw [if_neg ht]
      obtain ⟨q, eq, hqq⟩ := hq { s with rx := rx, timer := s.timer - len } rfl rfl h.parms
      rw [eq]
      have hl2 : (s.queue ++ q).length ≤ s.queue.length ∨ (s.queue ++ q).length ≤ 110 := by
        rw [List.length_append]
        rcases hqq with rfl | ⟨-, q1, q2⟩
        · left; simp
        · right; omega
      rcases hst with e | e
      · refine sends_heard p _ _ h.parms e hm ?_ h4 ?_
        · show (s.queue ++ q).length ≤ 120
          have := h.heard e
          omega
        · show Early p (o ++ (s.queue ++ q))
          rw [← List.append_assoc]
          rcases hqq with rfl | ⟨q0, -, -⟩
          · rw [List.append_nil]; exact h.early e
          · exact (h.early e).snoc q0
      · refine sends_cmOn p _ _ h.parms e hm ?_ h4 ?_
        · show (s.queue ++ q).length ≤ 280
          omega
        · show Offering p (o ++ (s.queue ++ q))
          rw [← List.append_assoc]
          rcases hqq with rfl | ⟨q0, -, -⟩
          · rw [List.append_nil]; exact h.offering e
          · exact (h.offering e).snoc q0

theorem isCi_ciBits (m : Msg) : IsCi (ciBits m) := ⟨m.call, rfl⟩

/-- The application does not go on of itself: that is for the answerer. -/
def Event.plain : Event → Prop
  | .cont _ => False
  | _ => True

theorem sends_rx (p : Parms) (s s' : V8) (o : List Bool) (len : Nat) (tone : Option Tone) (bits : List Bool)
    (edit : Msg → Msg) (hc : Caller s) (h : Sends p s (o ++ s.queue))
    (hs : rxStep s len tone bits edit = some s') : Sends p s' (o ++ s'.queue) := by
  have hrep : s.st ≠ .parked → s.reports = [] := by
    intro hp
    rcases hc.rep with h | h
    · exact absurd h.1 hp
    · exact h.2
  unfold rxStep at hs
  have hc2 := hc.st
  cases hst : s.st with
  | wait1s =>
    simp only [hst] at hs
    have hr := hrep (by rw [hst]; simp)
    have hm := h.msg (by rw [hst]; simp) (by rw [hst]; simp)
    have hq := h.idle (Or.inl hst)
    have hri := h.ringing (Or.inl hst)
    split at hs <;> simp only [Option.some.injEq] at hs <;> subst hs
    · exact sends_ring p _ _ h.parms (Or.inl rfl) hm hq hr hri
    · rw [enqueue_all _ _ (by show s.queue.length + _ ≤ _; rw [hq, ciBits_length]; simp [room])]
      refine sends_ciOn p _ _ h.parms rfl hm ⟨?_, by simp⟩ hr ?_
      · show (s.queue ++ ciBits s.rx.msg).length ≤ 120
        rw [hq, List.nil_append, ciBits_length]; simp
      · show Ringing (o ++ (s.queue ++ ciBits s.rx.msg))
        rw [← List.append_assoc]; exact hri.snoc (isCi_ciBits _)
  | ciOn =>
    simp only [hst] at hs
    have hr := hrep (by rw [hst]; simp)
    have hm := h.msg (by rw [hst]; simp) (by rw [hst]; simp)
    have hq := h.ci hst
    have hri := h.ringing (Or.inr (Or.inr (Or.inr hst)))
    split at hs
    · simp only [Option.some.injEq] at hs; subst hs
      exact sends_tone p s o _ h.parms hm hq.1 hr hri
    · split at hs <;> simp only [Option.some.injEq] at hs <;> subst hs
      · next hsd => exact sends_ring p _ _ h.parms (Or.inr (Or.inr rfl)) hm (hq.2 (by simpa using hsd)) hr hri
      · exact h
  | ciOff =>
    simp only [hst] at hs
    have hr := hrep (by rw [hst]; simp)
    have hm := h.msg (by rw [hst]; simp) (by rw [hst]; simp)
    have hq := h.idle (Or.inr (Or.inr hst))
    have hri := h.ringing (Or.inr (Or.inr (Or.inl hst)))
    split at hs
    · simp only [Option.some.injEq] at hs; subst hs
      exact sends_tone p s o _ h.parms hm (by rw [hq]; simp) hr hri
    · split at hs
      · split at hs <;> simp only [Option.some.injEq] at hs <;> subst hs
        · exact sends_parked p _ _ h.parms rfl (by show s.queue.length ≤ _; rw [hq]; simp)
            (by simp [report, hr]) (Or.inl hri)
        · rw [enqueue_all _ _ (by show s.queue.length + _ ≤ _; rw [hq, ciBits_length]; simp [room])]
          refine sends_ciOn p _ _ h.parms rfl hm ⟨?_, by simp⟩ hr ?_
          · show (s.queue ++ ciBits s.rx.msg).length ≤ 120
            rw [hq, List.nil_append, ciBits_length]; simp
          · show Ringing (o ++ (s.queue ++ ciBits s.rx.msg))
            rw [← List.append_assoc]; exact hri.snoc (isCi_ciBits _)
      · simp only [Option.some.injEq] at hs; subst hs
        exact sends_ring p _ _ h.parms (Or.inr (Or.inr rfl)) hm hq hr hri
  | awaitAnsam =>
    simp only [hst] at hs
    have hr := hrep (by rw [hst]; simp)
    have hm := h.msg (by rw [hst]; simp) (by rw [hst]; simp)
    have hq := h.idle (Or.inr (Or.inl hst))
    have hri := h.ringing (Or.inr (Or.inl hst))
    split at hs <;> simp only [Option.some.injEq] at hs <;> subst hs
    · exact sends_tone p s o _ h.parms hm (by rw [hq]; simp) hr hri
    · exact h
  | heardAnsam =>
    simp only [hst] at hs
    have hr := hrep (by rw [hst]; simp)
    have hm := h.msg (by rw [hst]; simp) (by rw [hst]; simp)
    have hq := h.heard hst
    have he := h.early hst
    by_cases hci : s.ciTimer - len ≤ 0
    · rw [if_pos hci] at hs
      refine sends_run_cmOn p _ s' o len bits ?_ ?_ ?_ hs
      · exact Or.inr rfl
      · exact hr
      have hv := v92Bits_length p.v92
      have hcm := cmBits_length s.rx.msg p.cm s.rx.modBytes
      have e : ∀ t : V8, t.queue = s.queue → t.parms = p → t.rx.msg = s.rx.msg → t.rx.modBytes = s.rx.modBytes →
          sendCmJm (enqueue t (v92Bits t.parms.v92)) = { t with
            queue := s.queue ++ v92Bits p.v92 ++ cmBits s.rx.msg p.cm s.rx.modBytes } := by
        intro t e1 e2 e3 e4
        rw [enqueue_all _ _ (by rw [e1, e2]; unfold room; omega)]
        unfold sendCmJm
        rw [enqueue_all _ _ (by
          simp only
          rw [e1, e2, e3, e4, List.length_append]; unfold room; omega)]
        simp only
        rw [e1, e2, e3, e4]
      have e := e { s with st := .heardAnsam, ciTimer := s.ciTimer - len, rx := decodeInit s.rx, timer := ms 5000 }
        rfl h.parms rfl rfl
      simp only at e
      rw [e]
      refine sends_cmOn p _ _ h.parms rfl ⟨rfl, hm.2⟩ ?_ hr ?_
      · show (s.queue ++ v92Bits p.v92 ++ cmBits s.rx.msg p.cm s.rx.modBytes).length ≤ 280
        rw [List.length_append, List.length_append]; omega
      · show Offering p (o ++ (s.queue ++ v92Bits p.v92 ++ cmBits s.rx.msg p.cm s.rx.modBytes))
        rw [← List.append_assoc, ← List.append_assoc]
        have := isCm_of p s h.parms hm.2
        rw [h.parms] at this
        exact he.offer this
    · rw [if_neg hci] at hs
      refine sends_run_cmOn p _ s' o len bits ?_ ?_ ?_ hs
      · exact Or.inl rfl
      · exact hr
      exact sends_heard p _ _ h.parms rfl hm hq hr he
  | cmOn =>
    simp only [hst] at hs
    exact sends_run_cmOn p s s' o len bits (Or.inr hst) (hrep (by rw [hst]; simp)) h hs
  | cjOn =>
    simp only [hst] at hs
    rw [Option.map_eq_some_iff] at hs
    obtain ⟨rx, hrx, rfl⟩ := hs
    have ha := h.accepted (Or.inl hst)
    split
    · exact sends_parked p _ _ h.parms rfl h.len (fun _ => ha) (Or.inr (Or.inr (Or.inr ha)))
    · exact sends_cjOn p _ _ h.parms rfl h.len ha
  | parked =>
    simp only [hst, Option.some.injEq] at hs
    subst hs; exact h
  | cmWait => rw [hst] at hc2; cases hc2
  | postCmWait => rw [hst] at hc2; cases hc2
  | jmOn => rw [hst] at hc2; cases hc2
  | siga => rw [hst] at hc2; cases hc2

theorem sends_run (p : Parms) (es : List Event) (s s' : V8) (o : List Bool) (he : ∀ e ∈ es, e.plain)
    (hc : Caller s) (h : Sends p s (o ++ s.queue)) (hs : run s es = some s') :
    Sends p s' (o ++ sent s es ++ s'.queue) := by
  induction es generalizing s o with
  | nil => cases hs; simpa [sent] using h
  | cons e es ih =>
    simp only [run, Option.bind_eq_some_iff] at hs
    obtain ⟨a, ha, hs⟩ := hs
    have hca := caller_step _ _ _ hc ha
    have he1 := he e (by simp)
    have hes := fun x hx => he x (List.mem_cons_of_mem _ hx)
    unfold sent
    rw [ha]
    cases e with
    | bit =>
      simp only [step, Option.some.injEq] at ha
      have key : Sends p a ((o ++ if s.sending = true then s.queue.take 1 else []) ++ a.queue) := by
        subst ha
        by_cases hsd : s.sending = true
        · rw [if_pos hsd, if_pos hsd]
          have hq : o ++ s.queue.take 1 ++ s.queue.tail = o ++ s.queue := by
            rw [List.append_assoc]
            cases s.queue <;> simp
          have hl : s.queue.tail.length ≤ s.queue.length := by simp
          have hnil : s.queue = [] → s.queue.tail = [] := by intro h; rw [h]; rfl
          show Sends p { s with queue := s.queue.tail } (o ++ s.queue.take 1 ++ s.queue.tail)
          rw [hq]
          exact ⟨h.parms, h.msg, fun x => hnil (h.idle x), fun x => ⟨Nat.le_trans hl (h.ci x).1,
            fun y => hnil ((h.ci x).2 y)⟩, fun x => Nat.le_trans hl (h.heard x),
            fun x => Nat.le_trans hl (h.cm x), Nat.le_trans hl h.len, h.ringing, h.early, h.offering, h.accepted,
            h.any⟩
        · rw [if_neg hsd, if_neg hsd, List.append_nil]; exact h
      have := ih a _ hes hca key hs
      simpa using this
    | dry =>
      simp only [step, Option.some.injEq] at ha
      have key : Sends p a (o ++ a.queue) := by
        subst ha
        by_cases hsd : s.sending = true ∧ s.queue = []
        · rw [if_pos hsd]
          exact ⟨h.parms, h.msg, h.idle, fun x => ⟨(h.ci x).1, fun _ => hsd.2⟩, h.heard, h.cm, h.len, h.ringing,
            h.early, h.offering, h.accepted, h.any⟩
        · rw [if_neg hsd]; exact h
      have := ih a _ hes hca key hs
      simpa using this
    | cont q => exact absurd he1 (by simp [Event.plain])
    | rx len tone bits edit =>
      have key := sends_rx p s a o len tone bits edit hc h ha
      have := ih a _ hes hca key hs
      simpa using this

end V8
