import Verif.Playout.Lemmas

namespace Playout
open Spec

/-! ## No stray pointers -/

def NoPtr {α : Type} (m : M α) : Prop := m ≠ .error .pointer

theorem NoPtr.pure {α : Type} (a : α) : NoPtr (Pure.pure a : M α) := by simp [NoPtr, Pure.pure, Except.pure]

theorem NoPtr.int (x : Int) : NoPtr (int x) := by unfold NoPtr Playout.int; split <;> simp

theorem NoPtr.bind {α β : Type} {m : M α} {f : α → M β} (h : NoPtr m) (hf : ∀ a, m = .ok a → NoPtr (f a)) : NoPtr (m >>= f) := by
  unfold NoPtr at *
  cases m with
  | error e => simpa [Bind.bind, Except.bind] using h
  | ok a => exact hf a rfl

theorem int_ok {x y : Int} (h : int x = .ok y) : y = x ∧ -2147483648 ≤ x ∧ x ≤ 2147483647 := by
  unfold int at h
  split at h
  · rename_i hx
    simp only [Except.ok.injEq] at h
    exact ⟨h.symm, hx⟩
  · simp at h

theorem int_eq {x : Int} (h : -2147483648 ≤ x) (h' : x ≤ 2147483647) : int x = .ok x := by
  unfold int; rw [if_pos ⟨h, h'⟩]

theorem bind_ok {α β : Type} {m : M α} {f : α → M β} {b : β} (h : m >>= f = .ok b) : ∃ a, m = .ok a ∧ f a = .ok b := by
  cases m with
  | error e => simp [Bind.bind, Except.bind] at h
  | ok a => exact ⟨a, rfl, h⟩

theorem NoPtr.ok {α : Type} (a : α) : NoPtr (.ok a : M α) := by simp [NoPtr]

theorem assess_noPtr (m : Nums) (f : Frame) : NoPtr (assess m f) := by
  unfold assess
  split
  · refine NoPtr.bind ?_ fun m _ => NoPtr.bind ?_ fun m _ => NoPtr.bind ?_ fun m _ => NoPtr.bind (NoPtr.int _) fun _ _ => NoPtr.pure _
    · unfold prime
      split
      · exact NoPtr.ok _
      · exact NoPtr.bind (NoPtr.int _) fun _ _ => NoPtr.pure _
    · unfold integrate
      refine NoPtr.bind (NoPtr.int _) fun _ _ => ?_
      refine NoPtr.bind (NoPtr.int _) fun _ _ => ?_
      refine NoPtr.bind (NoPtr.int _) fun _ _ => ?_
      refine NoPtr.bind (NoPtr.int _) fun _ _ => ?_
      refine NoPtr.bind (NoPtr.int _) fun _ _ => ?_
      exact NoPtr.bind (NoPtr.int _) fun _ _ => NoPtr.pure _
    · unfold adapt
      split
      · split
        · refine NoPtr.bind (NoPtr.int _) fun _ _ => ?_
          split
          · exact NoPtr.bind (NoPtr.int _) fun _ _ => NoPtr.bind (NoPtr.int _) fun _ _ => NoPtr.bind (NoPtr.int _) fun _ _ => NoPtr.bind (NoPtr.int _) fun _ _ =>
              NoPtr.bind (NoPtr.int _) fun _ _ => NoPtr.pure _
          · exact NoPtr.pure _
        · split
          · exact NoPtr.bind (NoPtr.int _) fun _ _ => NoPtr.bind (NoPtr.int _) fun _ _ => NoPtr.bind (NoPtr.int _) fun _ _ => NoPtr.pure _
          · exact NoPtr.ok _
      · split
        · split
          · exact NoPtr.bind (NoPtr.int _) fun _ _ => NoPtr.bind (NoPtr.int _) fun _ _ => NoPtr.bind (NoPtr.int _) fun _ _ => NoPtr.pure _
          · exact NoPtr.ok _
        · exact NoPtr.ok _
  · exact NoPtr.ok _

theorem judge_noPtr (m : Nums) (f : Frame) : NoPtr (judge m f) := by
  unfold judge
  refine NoPtr.bind (assess_noPtr m f) fun m _ => ?_
  split
  · exact NoPtr.bind (NoPtr.int _) fun _ _ => NoPtr.bind (NoPtr.int _) fun _ _ => NoPtr.pure _
  · split
    · exact NoPtr.bind (NoPtr.int _) fun _ _ => NoPtr.bind (NoPtr.int _) fun _ _ => NoPtr.bind (NoPtr.int _) fun _ _ => NoPtr.bind (NoPtr.int _) fun _ _ => NoPtr.pure _
    · exact NoPtr.bind (NoPtr.int _) fun _ _ => NoPtr.pure _

theorem noted_noPtr (m : Nums) (oos : Bool) (f : Frame) : NoPtr (noted m oos f) := by
  unfold noted
  refine NoPtr.bind (NoPtr.int _) fun _ _ => ?_
  simp only
  split
  · exact NoPtr.bind (NoPtr.int _) fun _ _ => NoPtr.bind (NoPtr.int _) fun _ _ => NoPtr.pure _
  · exact NoPtr.pure _

theorem judge_code (m m' : Nums) (f : Frame) (c : Code) (h : judge m f = .ok (m', c)) : c = .ok ∨ c = .drop := by
  unfold judge at h
  obtain ⟨m1, _, h⟩ := bind_ok h
  split at h
  · obtain ⟨_, _, h⟩ := bind_ok h
    obtain ⟨_, _, h⟩ := bind_ok h
    simp only [pure, Except.pure, Except.ok.injEq, Prod.mk.injEq] at h
    exact .inl h.2.symm
  · split at h
    · obtain ⟨_, _, h⟩ := bind_ok h
      obtain ⟨_, _, h⟩ := bind_ok h
      obtain ⟨_, _, h⟩ := bind_ok h
      obtain ⟨_, _, h⟩ := bind_ok h
      simp only [pure, Except.pure, Except.ok.injEq, Prod.mk.injEq] at h
      exact .inr h.2.symm
    · obtain ⟨_, _, h⟩ := bind_ok h
      simp only [pure, Except.pure, Except.ok.injEq, Prod.mk.injEq] at h
      exact .inl h.2.symm

/-! ## The calls -/

/-- The change an event makes to the queue. -/
def Trans : Event → List Frame → List Frame → Prop
  | .put f c, q, q' => (c = .ok ∧ q' = place f q) ∨ (c = .error ∧ q' = q)
  | .get c (some f), q, q' => (c = .ok ∨ c = .drop) ∧ q = f :: q'
  | .get c none, q, q' => c = .fillin ∧ q' = q
  | .take (some f), q, q' => q = f :: q'
  | .take none, q, q' => q' = q

theorem put_ok {s : State} {q : List (Nat × Frame)} {fr : List Nat} (h : Inv s.links q fr) (mem : Bool) (f : Frame) :
    NoPtr (put s mem f) ∧ ∀ s' c, put s mem f = .ok (s', c) → (c = .error → mem = false) ∧ ∃ q' fr', Inv s'.links q' fr' ∧ Trans (.put f c) (q.map (·.2)) (q'.map (·.2)) := by
  unfold put
  rcases acquire_ok h mem with ⟨ha, hm⟩ | ⟨l', a, fr', ha, hp⟩
  · rw [ha]
    constructor
    · exact NoPtr.bind (NoPtr.int _) fun _ _ => NoPtr.pure _
    · intro s' c he
      obtain ⟨i, _, he⟩ := bind_ok he
      simp only [bind, Except.bind, pure, Except.pure, Except.ok.injEq, Prod.mk.injEq] at he
      obtain ⟨rfl, rfl⟩ := he
      exact ⟨fun _ => hm, q, fr, h, .inr ⟨rfl, rfl⟩⟩
  · obtain ⟨l2, q', hq, hinv, hpl⟩ := queuePut_ok hp f
    rw [ha]
    constructor
    · refine NoPtr.bind (NoPtr.int _) fun i _ => ?_
      show NoPtr (queuePut l' a f >>= _)
      rw [hq]
      exact NoPtr.bind (NoPtr.ok _) fun _ _ => NoPtr.bind (noted_noPtr _ _ _) fun _ _ => NoPtr.pure _
    · intro s' c he
      obtain ⟨i, _, he⟩ := bind_ok he
      obtain ⟨_, e, he⟩ := bind_ok he
      cases e
      simp only at he
      rw [hq] at he
      obtain ⟨_, e, he⟩ := bind_ok he
      cases e
      obtain ⟨m, _, he⟩ := bind_ok he
      simp only [pure, Except.pure, Except.ok.injEq, Prod.mk.injEq] at he
      obtain ⟨rfl, rfl⟩ := he
      exact ⟨by simp, q', fr', hinv, .inl ⟨rfl, hpl⟩⟩

theorem get_ok {s : State} {q : List (Nat × Frame)} {fr : List Nat} (h : Inv s.links q fr) :
    NoPtr (get s) ∧ ∀ s' c f, get s = .ok (s', c, f) → ∃ q' fr' due, Inv s'.links q' fr' ∧ Trans (.get c f) (q.map (·.2)) (q'.map (·.2)) ∧ nextDue s = .ok due ∧
      (∀ g, f = some g → g.senderStamp ≤ due) ∧ (f = none → ∀ g, (q.map (·.2)).head? = some g → due < g.senderStamp) := by
  unfold get nextDue
  cases hi : int (s.nums.lastStamp + s.nums.lastLen) with
  | error e =>
    have := NoPtr.int (s.nums.lastStamp + s.nums.lastLen); rw [hi] at this
    refine ⟨NoPtr.bind this fun _ h => by simp at h, ?_⟩
    intro s' c f h; simp [bind, Except.bind] at h
  | ok ls =>
    show NoPtr (queueGet s.links ls >>= fun x => deliver x.1 _ x.2) ∧ ∀ s' c f, (queueGet s.links ls >>= fun x => deliver x.1 _ x.2) = _ → _
    have none_case : queueGet s.links ls = .ok (s.links, none) → (∀ g, (q.map (·.2)).head? = some g → ls < g.senderStamp) →
        NoPtr (queueGet s.links ls >>= fun x => deliver x.1 { s.nums with lastStamp := ls } x.2) ∧
        ∀ s' c f, (queueGet s.links ls >>= fun x => deliver x.1 { s.nums with lastStamp := ls } x.2) = .ok (s', c, f) →
        ∃ q' fr' due, Inv s'.links q' fr' ∧ Trans (.get c f) (q.map (·.2)) (q'.map (·.2)) ∧ (.ok ls : M Int) = .ok due ∧
          (∀ g, f = some g → g.senderStamp ≤ due) ∧ (f = none → ∀ g, (q.map (·.2)).head? = some g → due < g.senderStamp) := by
      intro e hh
      rw [e]
      constructor
      · refine NoPtr.bind (NoPtr.ok _) fun x e => ?_
        cases e
        exact NoPtr.bind (NoPtr.int _) fun _ _ => NoPtr.pure _
      · intro s' c f he
        obtain ⟨x, _, he⟩ := bind_ok (m := int (s.nums.framesMissing + 1)) he
        simp only [pure, Except.pure, Except.ok.injEq, Prod.mk.injEq] at he
        obtain ⟨rfl, rfl, rfl⟩ := he
        exact ⟨q, fr, ls, h, ⟨rfl, rfl⟩, rfl, by simp, fun _ => hh⟩
    cases q with
    | nil => exact none_case (queueGet_empty h ls) (by simp)
    | cons x q =>
      obtain ⟨a, f⟩ := x
      by_cases hd : f.senderStamp ≤ ls
      · obtain ⟨l', n, h1, h2, h3, l'', h4, h5, _⟩ := queueGet_due h ls hd
        rw [h1]
        constructor
        · show NoPtr (deref l'.heap (some a) >>= _)
          rw [h2]
          refine NoPtr.bind (NoPtr.ok _) fun _ e => ?_
          cases e
          refine NoPtr.bind (judge_noPtr _ _) fun _ _ => ?_
          show NoPtr (release l' a >>= _)
          rw [h4]
          exact NoPtr.pure _
        · intro s' c g he
          obtain ⟨n', e, he⟩ := bind_ok (m := deref l'.heap (some a)) he
          rw [h2] at e
          cases e
          obtain ⟨⟨m, c'⟩, hj, he⟩ := bind_ok he
          obtain ⟨l3, e, he⟩ := bind_ok (m := release l' a) he
          rw [h4] at e
          cases e
          simp only [pure, Except.pure, Except.ok.injEq, Prod.mk.injEq] at he
          obtain ⟨rfl, rfl, rfl⟩ := he
          refine ⟨q, a :: fr, ls, h5, ⟨judge_code _ _ _ _ hj, by rw [h3]; rfl⟩, rfl, ?_, by simp⟩
          intro g hg
          simp only [Option.some.injEq] at hg
          rw [← hg, h3]; exact hd
      · exact none_case (queueGet_early h ls (by omega)) (by intro g hg; simp at hg; rw [← hg]; omega)

theorem take_empty {s : State} {fr : List Nat} (h : Inv s.links [] fr) : getUnconditional s = .ok (s, none) := by
  unfold getUnconditional; rw [queueGet_empty h]; rfl

theorem take_early {s : State} {a : Nat} {f : Frame} {q : List (Nat × Frame)} {fr : List Nat} (h : Inv s.links ((a, f) :: q) fr) (hf : ¬ f.senderStamp ≤ 2147483647) :
    getUnconditional s = .ok (s, none) := by
  unfold getUnconditional; rw [queueGet_early h _ (by omega)]; rfl

theorem take_due {s : State} {a : Nat} {f : Frame} {q : List (Nat × Frame)} {fr : List Nat} (h : Inv s.links ((a, f) :: q) fr) (hf : f.senderStamp ≤ 2147483647) :
    ∃ s', getUnconditional s = .ok (s', some f) ∧ Inv s'.links q (a :: fr) := by
  obtain ⟨l', n, h1, h2, h3, l'', h4, h5, h6⟩ := queueGet_due h 0x7FFFFFFF hf
  unfold getUnconditional
  rw [h1]
  refine ⟨{ s with links := l'' }, ?_, h5⟩
  simp only [bind, Except.bind]
  rw [h4]
  simp only
  rw [h6]
  simp only [h3]
  rfl

theorem step_ok {s : State} {q : List (Nat × Frame)} {fr : List Nat} (h : Inv s.links q fr) (o : Op) :
    NoPtr (step s o) ∧ ∀ s' e, step s o = .ok (s', e) → ∃ q' fr', Inv s'.links q' fr' ∧ Trans e (q.map (·.2)) (q'.map (·.2)) := by
  cases o with
  | put mem f =>
    obtain ⟨h1, h2⟩ := put_ok h mem f
    refine ⟨NoPtr.bind h1 fun _ _ => NoPtr.pure _, ?_⟩
    intro s' e he
    obtain ⟨⟨s1, c⟩, h3, he⟩ := bind_ok he
    simp only [pure, Except.pure, Except.ok.injEq, Prod.mk.injEq] at he
    obtain ⟨rfl, rfl⟩ := he
    exact (h2 _ _ h3).2
  | get =>
    obtain ⟨h1, h2⟩ := get_ok h
    refine ⟨NoPtr.bind h1 fun _ _ => NoPtr.pure _, ?_⟩
    intro s' e he
    obtain ⟨⟨s1, c, f⟩, h3, he⟩ := bind_ok he
    simp only [pure, Except.pure, Except.ok.injEq, Prod.mk.injEq] at he
    obtain ⟨rfl, rfl⟩ := he
    obtain ⟨q', fr', due, a, b, _⟩ := h2 _ _ _ h3
    exact ⟨q', fr', a, b⟩
  | take =>
    simp only [step]
    cases q with
    | nil =>
      rw [take_empty h]
      refine ⟨NoPtr.pure _, ?_⟩
      intro s' e he
      simp only [bind, Except.bind, pure, Except.pure, Except.ok.injEq, Prod.mk.injEq] at he
      obtain ⟨rfl, rfl⟩ := he
      exact ⟨[], fr, h, rfl⟩
    | cons x q =>
      obtain ⟨a, f⟩ := x
      by_cases hf : f.senderStamp ≤ 2147483647
      · obtain ⟨s1, h1, h2⟩ := take_due h hf
        rw [h1]
        refine ⟨NoPtr.pure _, ?_⟩
        intro s' e he
        simp only [bind, Except.bind, pure, Except.pure, Except.ok.injEq, Prod.mk.injEq] at he
        obtain ⟨rfl, rfl⟩ := he
        exact ⟨q, a :: fr, h2, rfl⟩
      · rw [take_early h hf]
        refine ⟨NoPtr.pure _, ?_⟩
        intro s' e he
        simp only [bind, Except.bind, pure, Except.pure, Except.ok.injEq, Prod.mk.injEq] at he
        obtain ⟨rfl, rfl⟩ := he
        exact ⟨_, fr, h, rfl⟩

/-- The changes made by a sequence of events. -/
def TransAll : List Event → List Frame → List Frame → Prop
  | [], q, q' => q' = q
  | e :: es, q, q' => ∃ q1, Trans e q q1 ∧ TransAll es q1 q'

theorem run_ok (ops : List Op) : ∀ {s : State} {q : List (Nat × Frame)} {fr : List Nat}, Inv s.links q fr →
    NoPtr (run s ops) ∧ ∀ s' es, run s ops = .ok (s', es) → ∃ q' fr', Inv s'.links q' fr' ∧ TransAll es (q.map (·.2)) (q'.map (·.2)) := by
  induction ops with
  | nil =>
    intro s q fr h
    refine ⟨NoPtr.ok _, ?_⟩
    intro s' es he
    simp only [run, Except.ok.injEq, Prod.mk.injEq] at he
    obtain ⟨rfl, rfl⟩ := he
    exact ⟨q, fr, h, rfl⟩
  | cons o ops ih =>
    intro s q fr h
    obtain ⟨h1, h2⟩ := step_ok h o
    constructor
    · refine NoPtr.bind h1 fun ⟨s1, e⟩ hs => ?_
      obtain ⟨q', fr', h3, _⟩ := h2 _ _ hs
      exact NoPtr.bind (ih h3).1 fun _ _ => NoPtr.pure _
    · intro s' es he
      obtain ⟨⟨s1, e⟩, hs, he⟩ := bind_ok he
      obtain ⟨⟨s2, es2⟩, hr, he⟩ := bind_ok he
      simp only [pure, Except.pure, Except.ok.injEq, Prod.mk.injEq] at he
      obtain ⟨rfl, rfl⟩ := he
      obtain ⟨q1, fr1, h3, h4⟩ := h2 _ _ hs
      obtain ⟨q2, fr2, h5, h6⟩ := (ih h3).2 _ _ hr
      exact ⟨q2, fr2, h5, _, h4, h6⟩

theorem place_perm (f : Frame) (q : List Frame) : (place f q).Perm (f :: q) := by
  unfold place
  split
  · exact List.Perm.refl _
  · unfold Spec.insert
    refine List.perm_middle.trans ?_
    rw [before_laterRun]

theorem init_inv {mn mx : Int} {s : State} (h : init mn mx = .ok s) : Inv s.links [] [] := by
  obtain ⟨m, _, h⟩ := bind_ok h
  simp only [pure, Except.pure, Except.ok.injEq] at h
  subst h
  exact ⟨trivial, trivial, rfl, rfl, rfl, by simp, rfl, by simp, fun _ _ => rfl⟩

theorem holds_inv (q : List (Nat × Frame)) : ∀ {s : State} {fr : List Nat}, Inv s.links q fr → (∀ x ∈ q, x.2.senderStamp ≤ 2147483647) → Holds s (q.map (·.2)) := by
  induction q with
  | nil =>
    intro s fr h _
    refine ⟨s, ?_⟩
    simp [run, step, take_empty h, bind, Except.bind, pure, Except.pure]
  | cons x q ih =>
    intro s fr h hq
    obtain ⟨a, f⟩ := x
    obtain ⟨s1, h1, h2⟩ := take_due h (hq (a, f) (by simp))
    obtain ⟨s2, h3⟩ := ih h2 (fun x hx => hq x (by simp [hx]))
    refine ⟨s2, ?_⟩
    simp only [List.map_cons, List.length_cons, List.cons_append]
    rw [List.replicate_succ]
    simp only [run, step, h1, bind, Except.bind, pure, Except.pure]
    rw [h3]

/-- What a buffer holds is one thing only. -/
theorem holds_unique (q1 : List Frame) : ∀ {s : State} (q2 : List Frame), Holds s q1 → Holds s q2 → q1 = q2 := by
  induction q1 with
  | nil =>
    intro s q2 h1 h2
    cases q2 with
    | nil => rfl
    | cons f q2 =>
      obtain ⟨s1, h1⟩ := h1
      obtain ⟨s2, h2⟩ := h2
      simp only [List.length_nil, List.length_cons] at h1 h2
      rw [List.replicate_succ] at h1 h2
      obtain ⟨⟨t, e⟩, hs, h1⟩ := bind_ok h1
      obtain ⟨⟨t', e'⟩, hs', h2⟩ := bind_ok h2
      rw [hs] at hs'
      cases hs'
      obtain ⟨_, _, h1⟩ := bind_ok h1
      obtain ⟨_, _, h2⟩ := bind_ok h2
      simp [pure, Except.pure] at h1 h2
      have := h1.2.1.symm.trans h2.2.1
      simp at this
  | cons f q1 ih =>
    intro s q2 h1 h2
    obtain ⟨s1, h1⟩ := h1
    obtain ⟨s2, h2⟩ := h2
    simp only [List.length_cons] at h1 h2
    rw [List.replicate_succ] at h1 h2
    obtain ⟨⟨t, e⟩, hs, h1⟩ := bind_ok h1
    obtain ⟨⟨t', e'⟩, hs', h2⟩ := bind_ok h2
    rw [hs] at hs'
    cases hs'
    obtain ⟨⟨u, es⟩, hr, h1⟩ := bind_ok h1
    obtain ⟨⟨u', es'⟩, hr', h2⟩ := bind_ok h2
    simp only [pure, Except.pure, Except.ok.injEq, Prod.mk.injEq, List.map_cons, List.cons_append, List.cons.injEq] at h1 h2
    cases q2 with
    | nil =>
      simp only [List.map_nil, List.nil_append, List.cons.injEq] at h2
      have := h1.2.1.symm.trans h2.2.1
      simp at this
    | cons g q2 =>
      simp only [List.map_cons, List.cons_append, List.cons.injEq] at h2
      have e := h1.2.1.symm.trans h2.2.1
      simp only [Event.take.injEq, Option.some.injEq] at e
      subst e
      rw [ih q2 ⟨u, by rw [hr, h1.2.2]⟩ ⟨u', by rw [show q2.length + 1 = (f :: q2).length from rfl, hr', h2.2.2]⟩]

/-- The stamps in the queue are those of frames which were put. -/
theorem stamps_ok (ops : List Op) : ∀ {s : State} {q : List (Nat × Frame)} {fr : List Nat}, Inv s.links q fr → (∀ x ∈ q, x.2.senderStamp ≤ 2147483647) →
    (∀ o ∈ ops, ∀ mem f, o = Op.put mem f → f.senderStamp ≤ 2147483647) → ∀ s' es, run s ops = .ok (s', es) →
    ∃ q' fr', Inv s'.links q' fr' ∧ TransAll es (q.map (·.2)) (q'.map (·.2)) ∧ ∀ x ∈ q', x.2.senderStamp ≤ 2147483647 := by
  induction ops with
  | nil =>
    intro s q fr h hq _ s' es he
    simp only [run, Except.ok.injEq, Prod.mk.injEq] at he
    obtain ⟨rfl, rfl⟩ := he
    exact ⟨q, fr, h, rfl, hq⟩
  | cons o ops ih =>
    intro s q fr h hq ho s' es he
    obtain ⟨⟨s1, e⟩, hs, he⟩ := bind_ok he
    obtain ⟨⟨s2, es2⟩, hr, he⟩ := bind_ok he
    simp only [pure, Except.pure, Except.ok.injEq, Prod.mk.injEq] at he
    obtain ⟨rfl, rfl⟩ := he
    obtain ⟨q1, fr1, h3, h4⟩ := (step_ok h o).2 _ _ hs
    have hq' : ∀ f ∈ q.map (·.2), f.senderStamp ≤ 2147483647 := by
      intro f hf; obtain ⟨x, hx, rfl⟩ := List.mem_map.1 hf; exact hq x hx
    have hq1 : ∀ x ∈ q1, x.2.senderStamp ≤ 2147483647 := by
      intro x hx
      have hx' : x.2 ∈ q1.map (·.2) := List.mem_map_of_mem hx
      cases o with
      | put mem f =>
        obtain ⟨⟨s3, c⟩, _, he⟩ := bind_ok hs
        simp only [pure, Except.pure, Except.ok.injEq, Prod.mk.injEq] at he
        obtain ⟨rfl, rfl⟩ := he
        rcases h4 with ⟨_, h4⟩ | ⟨_, h4⟩
        · rw [h4, (place_perm f _).mem_iff] at hx'
          rcases List.mem_cons.1 hx' with e | hx'
          · rw [e]; exact ho _ (by simp) mem f rfl
          · exact hq' _ hx'
        · rw [h4] at hx'; exact hq' _ hx'
      | get =>
        obtain ⟨⟨s3, c, f⟩, _, he⟩ := bind_ok hs
        simp only [pure, Except.pure, Except.ok.injEq, Prod.mk.injEq] at he
        obtain ⟨rfl, rfl⟩ := he
        cases f with
        | none => obtain ⟨_, h4⟩ := h4; rw [h4] at hx'; exact hq' _ hx'
        | some f => obtain ⟨_, h4⟩ := h4; exact hq' _ (by rw [h4]; simp only [List.mem_cons]; exact .inr hx')
      | take =>
        obtain ⟨⟨s3, f⟩, _, he⟩ := bind_ok hs
        simp only [pure, Except.pure, Except.ok.injEq, Prod.mk.injEq] at he
        obtain ⟨rfl, rfl⟩ := he
        cases f with
        | none => have h4 : q1.map (·.2) = q.map (·.2) := h4; rw [h4] at hx'; exact hq' _ hx'
        | some f => have h4 : q.map (·.2) = f :: q1.map (·.2) := h4; exact hq' _ (by rw [h4]; simp only [List.mem_cons]; exact .inr hx')
    obtain ⟨q2, fr2, h5, h6, h7⟩ := ih h3 hq1 (fun o h => ho o (by simp [h])) _ _ hr
    exact ⟨q2, fr2, h5, ⟨_, h4, h6⟩, h7⟩

theorem reachable_inv {s : State} (h : Reachable s) : ∃ q fr, Inv s.links q fr ∧ ∀ x ∈ q, x.2.senderStamp ≤ 2147483647 := by
  obtain ⟨mn, mx, s0, ops, es, h0, hst, hr⟩ := h
  obtain ⟨q, fr, h1, _, h2⟩ := stamps_ok ops (init_inv h0) (by simp) hst _ _ hr
  exact ⟨q, fr, h1, h2⟩

theorem transAll_perm (es : List Event) : ∀ (q q' : List Frame), TransAll es q q' → (q ++ es.flatMap Event.accepted).Perm (es.flatMap Event.handed ++ q') := by
  induction es with
  | nil => intro q q' h; simp only [TransAll] at h; subst h; simp
  | cons e es ih =>
    intro q q' h
    obtain ⟨q1, h1, h2⟩ := h
    have := ih _ _ h2
    simp only [List.flatMap_cons]
    cases e with
    | put f c =>
      rcases h1 with ⟨rfl, rfl⟩ | ⟨rfl, rfl⟩
      · simp only [Event.accepted, Event.handed, List.nil_append, List.singleton_append]
        refine List.Perm.trans ?_ this
        refine List.perm_middle.trans ?_
        exact ((place_perm f q).symm.append_right _)
      · exact this
    | get c f =>
      cases f with
      | none => obtain ⟨_, rfl⟩ := h1; exact this
      | some f =>
        obtain ⟨_, rfl⟩ := h1
        simp only [Event.accepted, Event.handed, List.nil_append, List.cons_append]
        exact this.cons f
    | take f =>
      cases f with
      | none => have h1 : q1 = q := h1; subst h1; exact this
      | some f =>
        have h1 : q = f :: q1 := h1
        subst h1
        simp only [Event.accepted, Event.handed, List.nil_append, List.cons_append]
        exact this.cons f

/-! ## Releasing everything -/

theorem freeChain_ok (xs : List Nat) : ∀ (g : Nat → Option Node) (fuel : Nat), Chain g xs → xs.Nodup → xs.length < fuel →
    freeChain g fuel xs.head? = .ok (fun b => if b ∈ xs then none else g b) := by
  induction xs with
  | nil => intro g fuel _ _ _; unfold freeChain; simp
  | cons a xs ih =>
    intro g fuel hc hn hf
    obtain ⟨fl, rfl⟩ : ∃ fl, fuel = fl + 1 := ⟨fuel - 1, by omega⟩
    obtain ⟨⟨n, h1, h2⟩, h3⟩ := hc
    rw [List.nodup_cons] at hn
    simp only [List.length_cons] at hf
    simp only [List.head?_cons, freeChain]
    rw [deref_some h1]
    simp only [bind, Except.bind]
    rw [h2, ih (store g a none) fl (Chain.frame xs (fun x hx => store_other _ _ _ _ (fun e => hn.1 (e ▸ hx))) h3) hn.2 (by omega)]
    congr 1
    funext b
    by_cases hb : b = a
    · subst hb; simp [store]
    · simp [store, hb]

theorem Seg.chain {h : Nat → Option Node} (q : List (Nat × Frame)) : ∀ {prev : Option Nat}, Seg h none prev q → Chain h (q.map (·.1)) := by
  induction q with
  | nil => intro _ _; trivial
  | cons x q ih =>
    intro prev hs
    exact ⟨⟨_, hs.1, by simp⟩, ih hs.2⟩

theorem releaseAll_ok {s : State} {q : List (Nat × Frame)} {fr : List Nat} (h : Inv s.links q fr) : releaseAll s = .ok (fun _ => none) := by
  obtain ⟨h1, h2, h3⟩ := List.nodup_append.1 h.nodup
  have ht := h.total
  unfold releaseAll
  rw [h.first, ← List.head?_map, freeChain_ok (q.map (·.1)) _ _ (Seg.chain q h.seg) h1 (by rw [List.length_map]; omega)]
  simp only [bind, Except.bind]
  rw [h.free, freeChain_ok fr _ _ (Chain.frame fr (fun x hx => by
    rw [if_neg (fun hm => h3 x hm x hx rfl)]) h.chain) h2 (by omega)]
  congr 1
  funext b
  by_cases hb : b ∈ fr
  · rw [if_pos hb]
  · rw [if_neg hb]
    by_cases hb' : b ∈ q.map (·.1)
    · rw [if_pos hb']
    · rw [if_neg hb']; exact h.outside b (by simp only [List.mem_append, not_or]; exact ⟨hb', hb⟩)

/-! ## Frames in order -/

theorem place_end (f : Frame) (q : List Frame) (h : ∀ g ∈ q, g.senderStamp ≤ f.senderStamp) : place f q = q ++ [f] := by
  obtain ⟨h1, h2⟩ := run_unique f q [] (by simp) (fun p hp => h p (List.mem_of_getLast? hp))
  rw [List.append_nil] at h1 h2
  unfold place Spec.insert
  rw [h1, h2, if_neg (by simp)]

theorem transAll_fifo (es : List Event) : ∀ (q q' : List Frame), TransAll es q q' → (q ++ es.flatMap Event.accepted).Pairwise (fun f g => f.senderStamp ≤ g.senderStamp) →
    q ++ es.flatMap Event.accepted = es.flatMap Event.handed ++ q' := by
  induction es with
  | nil => intro q q' h _; simp only [TransAll] at h; subst h; simp
  | cons e es ih =>
    intro q q' h hp
    obtain ⟨q1, h1, h2⟩ := h
    simp only [List.flatMap_cons] at hp ⊢
    cases e with
    | put f c =>
      rcases h1 with ⟨rfl, rfl⟩ | ⟨rfl, rfl⟩
      · simp only [Event.accepted, Event.handed, List.nil_append, List.singleton_append] at hp ⊢
        have hle : ∀ g ∈ q, g.senderStamp ≤ f.senderStamp := fun g hg => (List.pairwise_append.1 hp).2.2 g hg f (by simp)
        rw [place_end f q hle] at h2
        have := ih _ _ h2 (by simpa using hp)
        simpa using this
      · exact ih _ _ h2 hp
    | get c f =>
      cases f with
      | none => obtain ⟨_, rfl⟩ := h1; exact ih _ _ h2 hp
      | some f =>
        obtain ⟨_, rfl⟩ := h1
        simp only [Event.accepted, Event.handed, List.nil_append, List.cons_append, List.cons.injEq, true_and] at hp ⊢
        exact ih _ _ h2 (List.pairwise_cons.1 hp).2
    | take f =>
      cases f with
      | none => have h1 : q1 = q := h1; subst h1; exact ih _ _ h2 hp
      | some f =>
        have h1 : q = f :: q1 := h1
        subst h1
        simp only [Event.accepted, Event.handed, List.nil_append, List.cons_append, List.cons.injEq, true_and] at hp ⊢
        exact ih _ _ h2 (List.pairwise_cons.1 hp).2

/-- Where the code's place and the right one differ. -/
theorem place_eq (f : Frame) (q : List Frame) : place f q = if laterRun f q ≠ [] ∧ (before f q).length = 1 then f :: q else Spec.insert f q := by
  unfold place
  have hb := before_laterRun f q
  by_cases h : laterRun f q ≠ [] ∧ (before f q).length ≤ 1
  · rw [if_pos h]
    by_cases h' : (before f q).length = 1
    · rw [if_pos ⟨h.1, h'⟩]
    · rw [if_neg (fun x => h' x.2)]
      have : before f q = [] := List.length_eq_zero_iff.1 (by omega)
      unfold Spec.insert
      rw [this] at hb ⊢
      simp only [List.nil_append] at hb ⊢
      rw [hb]
  · rw [if_neg h, if_neg (fun x => h ⟨x.1, by omega⟩)]

theorem sorted_split (f : Frame) (q : List Frame) (hs : Sorted q) : (∀ g ∈ before f q, g.senderStamp ≤ f.senderStamp) ∧ ∀ g ∈ laterRun f q, f.senderStamp < g.senderStamp := by
  constructor
  · unfold Sorted at hs
    have hb := before_laterRun f q
    intro g hg
    -- The last of them is not later, and the rest come before it.
    have hne : before f q ≠ [] := by intro e; rw [e] at hg; simp at hg
    have hlast : ((before f q).getLast hne).senderStamp ≤ f.senderStamp := by
      have e : (before f q).getLast hne = ((q.reverse.dropWhile fun g => decide (f.senderStamp < g.senderStamp))).head (by
          intro e; apply hne; unfold before; rw [e]; rfl) := by
        simp only [before, List.getLast_reverse]
      rw [e]
      have := List.head_dropWhile_not (p := fun g : Frame => decide (f.senderStamp < g.senderStamp)) (l := q.reverse) (by
          intro e; apply hne; unfold before; rw [e]; rfl)
      simp at this
      exact this
    have hpb : (before f q).Pairwise (fun f g => f.senderStamp ≤ g.senderStamp) := by
      rw [← hb] at hs; exact (List.pairwise_append.1 hs).1
    rw [← List.dropLast_concat_getLast hne] at hg hpb
    rcases List.mem_append.1 hg with hg | hg
    · have := (List.pairwise_append.1 hpb).2.2 g hg ((before f q).getLast hne) (by simp)
      omega
    · simp only [List.mem_singleton] at hg; rw [hg]; exact hlast
  · intro g hg
    unfold laterRun at hg
    rw [List.mem_reverse] at hg
    have := List.all_eq_true.1 (List.all_takeWhile (l := q.reverse) (p := fun g => decide (f.senderStamp < g.senderStamp))) g hg
    simpa using this

theorem insert_sorted (f : Frame) (q : List Frame) (hs : Sorted q) : Sorted (Spec.insert f q) := by
  obtain ⟨h1, h2⟩ := sorted_split f q hs
  have hb := before_laterRun f q
  unfold Sorted Spec.insert at *
  rw [← hb] at hs
  obtain ⟨p1, p2, p3⟩ := List.pairwise_append.1 hs
  rw [List.pairwise_append]
  refine ⟨p1, List.pairwise_cons.2 ⟨fun g hg => Int.le_of_lt (h2 g hg), p2⟩, ?_⟩
  intro a ha b hb
  rcases List.mem_cons.1 hb with rfl | hb
  · exact h1 a ha
  · exact p3 a ha b hb

end Playout
