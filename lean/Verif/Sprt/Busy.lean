import Verif.Sprt.Recover

/-!
# A busy application
-/

namespace Sprt

set_option linter.unusedSimpArgs false
set_option linter.unusedVariables false

theorem walk_append {b : Nat → Bool} {app : List Bool} : ∀ (l m : List Act), walk b app (l ++ m) = (walk b app l).bind fun r => walk r.1 r.2 m := by
  intro l
  induction l generalizing b app with
  | nil => intro m; rfl
  | cons a l ih =>
    intro m
    cases a with
    | delivered c n p =>
      rw [List.cons_append, walk, walk]
      split
      · split
        · rfl
        · exact ih m
      · exact ih m
    | sent _ => exact ih m
    | status _ => exact ih m
    | accepted _ _ => exact ih m

theorem walk_quiet {b : Nat → Bool} {app : List Bool} : ∀ (l : List Act), (∀ a ∈ l, a.quiet) → walk b app l = some (b, app) := by
  intro l
  induction l with
  | nil => intro _; rfl
  | cons a l ih =>
    intro h
    have hl := ih (fun a ha => h a (List.mem_cons_of_mem _ ha))
    cases a with
    | delivered c n p =>
      unfold walk
      rw [if_neg (show ¬ (c = 1 ∨ c = 2) from h _ List.mem_cons_self)]
      exact hl
    | sent _ => exact hl
    | status _ => exact hl
    | accepted _ _ => exact hl

/-- Which channels are busy. -/
def Ep.busies (e : Ep) : Nat → Bool := fun c => (e.rx c).busy

/-- From `e` to `e'`, with what the application does in its callbacks. -/
def Minds (e : Ep) (app : List Bool) (e' : Ep) (app' : List Bool) : Prop :=
  ∃ new, e'.acts = e.acts ++ new ∧ walk e.busies app new = some (e'.busies, app')

theorem Minds.trans {a b c : Ep} {k l m : List Bool} (h : Minds a k b l) (g : Minds b l c m) : Minds a k c m := by
  obtain ⟨n1, h1, h2⟩ := h
  obtain ⟨n2, g1, g2⟩ := g
  exact ⟨n1 ++ n2, by rw [g1, h1, List.append_assoc], by rw [walk_append, h2]; exact g2⟩

theorem Minds.of {e e' : Ep} {app : List Bool} (hb : e'.busies = e.busies) (ha : ∃ new, e'.acts = e.acts ++ new ∧ ∀ a ∈ new, a.quiet) : Minds e app e' app := by
  obtain ⟨n, h1, h2⟩ := ha
  exact ⟨n, h1, by rw [walk_quiet n h2, hb]⟩

theorem Still.minds {e e' : Ep} (h : Still e e') (app : List Bool) : Minds e app e' app :=
  Minds.of (by unfold Ep.busies; rw [h.rx]) h.acts

theorem Minds.setRx (e : Ep) (c : Nat) {s : RxChan} (h : s.busy = (e.rx c).busy) (app : List Bool) : Minds e app (e.setRx c s) app := by
  refine Minds.of ?_ (no_acts rfl)
  funext d
  show (upd e.rx c s d).busy = (e.rx d).busy
  by_cases hd : d = c
  · subst hd; rw [upd_eq]; exact h
  · rw [upd_ne _ _ hd]

theorem Minds.give (e : Ep) {c n : Nat} {p : List Nat} (hc : c = 1 ∨ c = 2) (hb : (e.rx c).busy = false) (app : List Bool) {s : RxChan}
    (hs : s.busy = app.headD false) : Minds e app ((e.setRx c s).emit (.delivered c n p)) app.tail := by
  refine ⟨[.delivered c n p], rfl, ?_⟩
  unfold walk
  rw [if_pos hc, if_neg (by rw [show e.busies c = (e.rx c).busy from rfl, hb]; decide)]
  unfold walk
  congr 2
  funext d
  show upd e.busies c _ d = (upd e.rx c s d).busy
  by_cases hd : d = c
  · subst hd; rw [upd_eq, upd_eq, hs]
  · rw [upd_ne _ _ hd, upd_ne _ _ hd]; rfl

theorem Minds.deliverLoop {c : Nat} (hc : c = 1 ∨ c = 2) : ∀ n {e : Ep} {i : Nat} {app : List Bool} {r : Ep × Nat × List Bool},
    Sprt.deliverLoop c n e i app = some r → Minds e app r.1 r.2.2 := by
  intro n
  induction n with
  | zero => intro e i app r h; cases h
  | succ n ih =>
    intro e i app r h
    unfold Sprt.deliverLoop at h
    simp only at h
    split at h
    · split at h
      · cases h; exact (Still.refl _).minds _
      · split at h
        · cases h; exact (Still.refl _).minds _
        · next hb =>
          have := ih h
          refine Minds.trans ?_ this
          exact Minds.give e hc (by simpa using hb) app rfl
    · cases h

theorem Minds.deliverChan {c i : Nat} (hc : c = 1 ∨ c = 2) {e : Ep} {app : List Bool} {r : Ep × List Bool}
    (h : Sprt.deliverChan e c i app = some r) : Minds e app r.1 r.2 := by
  unfold Sprt.deliverChan at h
  rcases hq : Sprt.deliverLoop c 98 e i app with _ | r1
  · rw [hq] at h; cases h
  · rw [hq] at h
    cases h
    exact (Minds.deliverLoop hc 98 hq).trans (Minds.setRx _ _ (by rfl) _)

theorem Minds.deliver {e : Ep} {app : List Bool} {r : Ep × List Bool} (h : Sprt.deliver e app = some r) : Minds e app r.1 r.2 := by
  unfold Sprt.deliver at h
  rcases hq : Sprt.deliverChan e 1 (e.rx 1).inPtr app with _ | r1
  · rw [hq] at h; cases h
  · rw [hq] at h
    exact (Minds.deliverChan (Or.inl rfl) hq).trans (Minds.deliverChan (Or.inr rfl) h)

theorem Minds.rxNext {e e' : Ep} {c seq now : Nat} {p : List Nat} {app : List Bool} (hc : c = 1 ∨ c = 2)
    (h : Sprt.rxNext e c seq p now app = some e') : ∃ app', Minds e app e' app' := by
  unfold Sprt.rxNext at h
  simp only at h
  have h1 := (queueAck_frm e c seq now).2.minds app
  split at h
  · split at h
    · cases h
      exact ⟨_, h1.trans (Minds.setRx _ _ (by rfl) _)⟩
    · next hb =>
      generalize hz : Sprt.deliverChan _ _ _ _ = z at h
      rcases z with _ | r
      · cases h
      · cases h
        refine ⟨_, (h1.trans ?_).trans (Minds.deliverChan hc hz)⟩
        exact Minds.give _ hc (by simpa using hb) app rfl
  · cases h

theorem Minds.rxOther {e e' : Ep} {c seq now : Nat} {p : List Nat} (app : List Bool)
    (h : Sprt.rxOther e c seq p now = some e') : Minds e app e' app := by
  unfold Sprt.rxOther at h
  simp only at h
  have h1 := (queueAck_frm e c seq now).2.minds app
  split at h
  · generalize (if (e.rx c).inPtr + _ ≥ _ then _ else _) = i at h
    split at h
    · cases h
      exact h1.trans (Minds.setRx _ _ (by rfl) _)
    · cases h
  · split at h
    · cases h
      exact h1.trans ((Still.emit _ _).minds _)
    · cases h; exact (Still.refl _).minds _

theorem Minds.rxPayload {e e' : Ep} {c seq now : Nat} {p : List Nat} {app : List Bool}
    (h : Sprt.rxPayload e c seq p now app = some e') : ∃ app', Minds e app e' app' := by
  unfold Sprt.rxPayload at h
  split at h
  · cases h; exact ⟨_, (Still.refl _).minds _⟩
  · split at h
    · next hc =>
      split at h
      · exact Minds.rxNext hc h
      · exact ⟨_, Minds.rxOther app h⟩
    · next hc =>
      cases h
      exact ⟨_, (Still.emit e (.delivered c seq p) hc).minds app⟩

theorem Minds.rxBody {e : Ep} {pkt : List Nat} {now : Nat} {app : List Bool} {r : Ep × Bool}
    (h : Sprt.rxBody e pkt now app = some r) : ∃ app', Minds e app r.1 app' := by
  unfold Sprt.rxBody at h
  simp only at h
  split at h
  · cases h; exact ⟨_, (Still.setTx e _ _).minds _⟩
  · generalize hz : processAcks _ _ = z at h
    rcases z with _ | e1
    · cases h
    · simp only [Option.bind_some] at h
      generalize hy : Sprt.rxPayload _ _ _ _ _ _ = y at h
      rcases y with _ | e2
      · cases h
      · cases h
        obtain ⟨app', m⟩ := Minds.rxPayload hy
        exact ⟨app', Minds.trans (((Still.setTx e _ _).trans (processAcks_frm _ hz).2).minds _) m⟩

theorem Minds.rxPacket {e : Ep} {pkt : List Nat} {now : Nat} {app : List Bool} {r : Ep × Bool}
    (h : Sprt.rxPacket e pkt now app = some r) : ∃ app', Minds e app r.1 app' := by
  rw [rxPacket_eq] at h
  unfold rxPlain at h
  simp only at h
  split at h
  · cases h; exact ⟨_, (Still.refl _).minds _⟩
  split at h
  · cases h; exact ⟨_, (Still.refl _).minds _⟩
  split at h
  · cases h; exact ⟨_, (Still.refl _).minds _⟩
  split at h
  · obtain ⟨app', m⟩ := Minds.rxBody h
    exact ⟨app', m⟩
  split at h
  · cases h; exact ⟨_, (Still.emit _ _).minds _⟩
  · exact Minds.rxBody h

theorem Minds.timerExpired {e e' : Ep} {now : Nat} {app : List Bool} (h : Sprt.timerExpired e now app = some e') : ∃ app', Minds e app e' app' := by
  unfold Sprt.timerExpired at h
  split at h
  · cases h; exact ⟨_, (Still.refl _).minds _⟩
  · unfold timerDue at h
    generalize hz : (if e.immediate = true then (Sprt.deliver { e with immediate := false } app).bind fun r => some r.1 else some e) = z at h
    rcases z with _ | e1
    · cases h
    · simp only [Option.bind_some] at h
      have h1 : ∃ app', Minds e app e1 app' := by
        split at hz
        · rcases hd : Sprt.deliver { e with immediate := false } app with _ | r
          · rw [hd] at hz; cases hz
          · rw [hd] at hz
            cases hz
            have := Minds.deliver hd
            exact ⟨_, this⟩
        · cases hz; exact ⟨_, (Still.refl _).minds _⟩
      obtain ⟨app', h1⟩ := h1
      rcases h2 : timerChan e1 1 now with _ | r1
      · rw [h2] at h; cases h
      · rw [h2] at h
        simp only [Option.bind_some] at h
        rcases h3 : timerChan r1.1 2 now with _ | r2
        · rw [h3] at h; cases h
        · rw [h3] at h
          simp only [Option.bind_some, Option.some.injEq] at h
          generalize (!(r1.2 || r2.2) && _ && _ && _) = b at h
          have hk : Still r2.1 e' := by
            rw [← h]
            cases b
            · exact Still.updateTimer _
            · exact (Still.buildSend _ _ _ _).trans (Still.updateTimer _)
          exact ⟨app', h1.trans ((((timerChan_frm h2).2.trans (timerChan_frm h3).2).trans hk).minds _)⟩

theorem walk_busy {c : Nat} (hc : c = 1 ∨ c = 2) : ∀ (l : List Act) {b b' : Nat → Bool} {app app' : List Bool}, b c = true → walk b app l = some (b', app') →
    b' c = true ∧ ∀ n p, Act.delivered c n p ∉ l := by
  intro l
  induction l with
  | nil => intro b b' app app' hb h; cases h; exact ⟨hb, by simp⟩
  | cons a l ih =>
    intro b b' app app' hb h
    cases a with
    | delivered d n p =>
      rw [walk] at h
      split at h
      · split at h
        · cases h
        · next hd =>
          have hne : c ≠ d := by rintro rfl; exact hd hb
          obtain ⟨h1, h2⟩ := ih (by rw [upd_ne _ _ hne]; exact hb) h
          refine ⟨h1, ?_⟩
          intro n' p' hm
          rcases List.mem_cons.mp hm with hm | hm
          · cases hm; exact hne rfl
          · exact h2 n' p' hm
      · next hd =>
        obtain ⟨h1, h2⟩ := ih hb h
        refine ⟨h1, ?_⟩
        intro n' p' hm
        rcases List.mem_cons.mp hm with hm | hm
        · cases hm; exact hd hc
        · exact h2 n' p' hm
    | sent _ =>
      obtain ⟨h1, h2⟩ := ih hb h
      exact ⟨h1, fun n p hm => (List.mem_cons.mp hm).elim (fun h => by cases h) (h2 n p)⟩
    | status _ =>
      obtain ⟨h1, h2⟩ := ih hb h
      exact ⟨h1, fun n p hm => (List.mem_cons.mp hm).elim (fun h => by cases h) (h2 n p)⟩
    | accepted _ _ =>
      obtain ⟨h1, h2⟩ := ih hb h
      exact ⟨h1, fun n p hm => (List.mem_cons.mp hm).elim (fun h => by cases h) (h2 n p)⟩

theorem setBusy_acts (e : Ep) (c : Nat) (b : Bool) : (setBusy e c b).acts = e.acts := by
  unfold setBusy
  simp only
  split
  · split
    · unfold updateTimer
      split <;> rfl
    · rfl
  · rfl

theorem setBusy_busy (e : Ep) (c : Nat) (b : Bool) (d : Nat) : ((setBusy e c b).rx d).busy = if (c = 1 ∨ c = 2) ∧ d = c then b else (e.rx d).busy := by
  have hk : ((e.setRx c { e.rx c with busy := b }).rx d).busy = if d = c then b else (e.rx d).busy := by
    show (upd e.rx c _ d).busy = _
    by_cases hd : d = c
    · subst hd; rw [upd_eq, if_pos rfl]
    · rw [upd_ne _ _ hd, if_neg hd]
  unfold setBusy
  simp only
  split
  · next hc =>
    simp only [hc, true_and]
    split
    · rw [(Still.updateTimer _).rx]; exact hk
    · exact hk
  · next hc => simp only [hc, false_and, if_false]

end Sprt
