import Verif.Playout.Runs

/-!
# Properties of the playout buffer
-/

namespace Playout
open Spec

/-! ## C23: the playout buffer -/

/-- Whatever calls are made, every frame which was accepted has been handed out exactly once or is still in the buffer,
and what is in the buffer comes out when it is asked for. -/
theorem playout_conserves (mn mx : Int) (s0 s : State) (ops : List Op) (es : List Event) (h0 : init mn mx = .ok s0)
    (hst : ∀ o ∈ ops, ∀ mem f, o = Op.put mem f → f.senderStamp ≤ 2147483647) (hr : run s0 ops = .ok (s, es)) :
    ∃ left, Holds s left ∧ (es.flatMap Event.accepted).Perm (es.flatMap Event.handed ++ left) := by
  obtain ⟨q, fr, h1, h2, h3⟩ := stamps_ok ops (init_inv h0) (by simp) hst _ _ hr
  exact ⟨q.map (·.2), holds_inv q h1 h3, by simpa using transAll_perm es _ _ h2⟩

/-- No sequence of calls goes through a bad pointer. -/
theorem playout_pointers (mn mx : Int) (s0 : State) (ops : List Op) (h0 : init mn mx = .ok s0) : run s0 ops ≠ .error .pointer :=
  (run_ok ops (init_inv h0)).1

/-- At the end every block which was allocated is released, once. -/
theorem playout_release (mn mx : Int) (s0 s : State) (ops : List Op) (es : List Event) (h0 : init mn mx = .ok s0) (hr : run s0 ops = .ok (s, es)) :
    releaseAll s = .ok (fun _ => none) := by
  obtain ⟨q, fr, h1, _⟩ := (run_ok ops (init_inv h0)).2 _ _ hr
  exact releaseAll_ok h1

/-- A restart of an empty buffer is as good as new: it loses no memory. -/
theorem playout_restart_empty (s : State) (h : Reachable s) (hq : Holds s []) (mn mx : Int) (s0 : State) (h0 : init mn mx = .ok s0) :
    ∃ s', restart s mn mx = .ok s' ∧ s'.nums = s0.nums ∧ Holds s' [] ∧ releaseAll s' = .ok (fun _ => none) := by
  obtain ⟨q, fr, h1, h3⟩ := reachable_inv h
  have e := holds_unique _ _ hq (holds_inv q h1 h3)
  have : q = [] := by cases q with | nil => rfl | cons => simp at e
  subst this
  obtain ⟨m, hm, h0⟩ := bind_ok h0
  simp only [pure, Except.pure, Except.ok.injEq] at h0
  subst h0
  have ht := h1.total
  have hn := h1.nodup
  simp only [List.map_nil, List.nil_append, List.length_nil] at hn ht
  have e : (fun b => if b ∈ fr then none else s.links.heap b) = fun _ => none := by
    funext b
    by_cases hb : b ∈ fr
    · rw [if_pos hb]
    · rw [if_neg hb]; exact h1.outside b (by simpa using hb)
  refine ⟨⟨⟨fun _ => none, s.links.fresh, none, none, none⟩, m⟩, ?_, rfl, ?_, ?_⟩
  · unfold restart
    rw [h1.free, freeChain_ok fr _ _ h1.chain hn (by omega), e]
    simp only [bind, Except.bind]
    rw [hm]
    rfl
  · exact ⟨_, rfl⟩
  · rfl

/-- A restart of a buffer which is not empty loses the frames in it, and the memory they are in. -/
theorem playout_restart_leaks : ∃ s0 s1 es s2 h, init 160 160 = .ok s0 ∧ run s0 [.put true ⟨0, typeSpeech, 0, 160, 0⟩] = .ok (s1, es) ∧
    restart s1 160 160 = .ok s2 ∧ releaseAll s2 = .ok h ∧ (h 0).isSome = true :=
  ⟨_, _, _, _, _, rfl, rfl, rfl, rfl, rfl⟩

/-- A call to put a frame is refused only if there is no memory. -/
theorem playout_put_accepts (s s' : State) (h : Reachable s) (f : Frame) (c : Code) (hp : put s true f = .ok (s', c)) : c = .ok := by
  obtain ⟨q, fr, h1, _⟩ := reachable_inv h
  obtain ⟨h2, q', fr', _, h3⟩ := (put_ok h1 true f).2 _ _ hp
  rcases h3 with ⟨h3, _⟩ | ⟨h3, _⟩
  · exact h3
  · exact absurd (h2 h3) (by simp)

/-- A frame is never handed out before it is due, and something is made up only when nothing is due. -/
theorem playout_get_due (s s' : State) (h : Reachable s) (q : List Frame) (hq : Holds s q) (c : Code) (f : Option Frame) (hg : get s = .ok (s', c, f)) :
    ∃ due, nextDue s = .ok due ∧
      (match (q, f) with
       | (g :: q', some f) => f = g ∧ g.senderStamp ≤ due ∧ Holds s' q' ∧ (c = .ok ∨ c = .drop)
       | (g :: _, none) => due < g.senderStamp ∧ Holds s' q ∧ c = .fillin
       | ([], none) => Holds s' [] ∧ c = .fillin
       | ([], some _) => False) := by
  obtain ⟨p, fr, h1, h2⟩ := reachable_inv h
  have e := holds_unique _ _ hq (holds_inv p h1 h2)
  obtain ⟨p', fr', due, h3, h4, h5, h6, h7⟩ := (get_ok h1).2 _ _ _ hg
  refine ⟨due, h5, ?_⟩
  have hp : ∀ f ∈ q, f.senderStamp ≤ 2147483647 := by
    intro f hf; rw [e] at hf; obtain ⟨x, hx, rfl⟩ := List.mem_map.1 hf; exact h2 x hx
  rw [← e] at h4 h7
  have hold : (∀ f ∈ p'.map (·.2), f.senderStamp ≤ 2147483647) → Holds s' (p'.map (·.2)) := by
    intro hh; exact holds_inv p' h3 (fun x hx => hh x.2 (List.mem_map_of_mem hx))
  cases f with
  | none =>
    obtain ⟨h8, h9⟩ := h4
    rw [h9] at hold
    cases q with
    | nil => exact ⟨hold hp, h8⟩
    | cons g q => exact ⟨h7 rfl g rfl, hold hp, h8⟩
  | some f =>
    obtain ⟨h8, h9⟩ := h4
    subst h9
    exact ⟨rfl, h6 f rfl, hold (fun g hg => hp g (by simp [hg])), h8⟩

/-- Where a frame goes: in its proper place, except that when its place is just behind the first frame, and other frames
follow, it goes in front of it. -/
theorem playout_put_place (s s' : State) (h : Reachable s) (q : List Frame) (hq : Holds s q) (mem : Bool) (f : Frame) (hf : f.senderStamp ≤ 2147483647)
    (hp : put s mem f = .ok (s', .ok)) :
    Holds s' (if laterRun f q ≠ [] ∧ (before f q).length = 1 then f :: q else insert f q) := by
  obtain ⟨p, fr, h1, h2⟩ := reachable_inv h
  have e := holds_unique _ _ hq (holds_inv p h1 h2)
  obtain ⟨_, p', fr', h3, h4⟩ := (put_ok h1 mem f).2 _ _ hp
  rcases h4 with ⟨_, h4⟩ | ⟨h4, _⟩
  · rw [← e] at h4
    rw [← place_eq, ← h4]
    refine holds_inv p' h3 ?_
    intro x hx
    have : x.2 ∈ p'.map (·.2) := List.mem_map_of_mem hx
    rw [h4, (place_perm f q).mem_iff, e] at this
    rcases List.mem_cons.1 this with e | hm
    · rw [e]; exact hf
    · obtain ⟨y, hy, e⟩ := List.mem_map.1 hm; rw [← e]; exact h2 y hy
  · simp at h4

/-- The order of the sender's time stamps survives a call exactly when the frame does not belong between the first
frame and the second. -/
theorem playout_order_iff_partial (s s' : State) (h : Reachable s) (q q' : List Frame) (hq : Holds s q) (hs : Sorted q) (mem : Bool) (f : Frame) (hf : f.senderStamp ≤ 2147483647)
    (hp : put s mem f = .ok (s', .ok)) (hq' : Holds s' q') :
    Sorted q' ↔ ¬ ∃ a b r, q = a :: b :: r ∧ a.senderStamp < f.senderStamp ∧ f.senderStamp < b.senderStamp := by
  have e := holds_unique _ _ hq' (playout_put_place s s' h q hq mem f hf hp)
  obtain ⟨h1, h2⟩ := sorted_split f q hs
  have hb := before_laterRun f q
  constructor
  · intro hsq
    rintro ⟨a, b, r, rfl, ha, hb'⟩
    -- The frame goes in front.
    have hrun : before f (a :: b :: r) = [a] ∧ laterRun f (a :: b :: r) = b :: r := by
      refine run_unique f [a] (b :: r) ?_ (by simp; omega)
      intro y hy
      unfold Sorted at hs
      rcases List.mem_cons.1 hy with rfl | hy
      · exact hb'
      · have := (List.pairwise_cons.1 (List.pairwise_cons.1 hs).2).1 y hy; omega
    rw [hrun.1, hrun.2, if_pos ⟨by simp, rfl⟩] at e
    subst e
    have := (List.pairwise_cons.1 hsq).1 a (by simp)
    omega
  · intro hn
    subst e
    by_cases hc : laterRun f q ≠ [] ∧ (before f q).length = 1
    · rw [if_pos hc]
      obtain ⟨a, ha⟩ : ∃ a, before f q = [a] := List.length_eq_one_iff.1 hc.2
      obtain ⟨b, r, hbr⟩ : ∃ b r, laterRun f q = b :: r := by
        cases hl : laterRun f q with
        | nil => exact absurd hl hc.1
        | cons b r => exact ⟨b, r, rfl⟩
      rw [ha, hbr] at hb
      simp only [List.singleton_append] at hb
      have h3 := h1 a (by rw [ha]; simp)
      have h4 := h2 b (by rw [hbr]; simp)
      have h5 : f.senderStamp ≤ a.senderStamp := by
        by_cases hlt : a.senderStamp < f.senderStamp
        · exact absurd ⟨a, b, r, hb.symm, hlt, h4⟩ hn
        · omega
      unfold Sorted at hs ⊢
      refine List.pairwise_cons.2 ⟨?_, hs⟩
      intro g hg
      rw [← hb] at hg hs
      rcases List.mem_cons.1 hg with rfl | hg
      · exact h5
      · have := (List.pairwise_cons.1 hs).1 g hg; omega
    · rw [if_neg hc]; exact insert_sorted f q hs

/-- Frames which arrive in order leave in order. -/
theorem playout_in_order_partial (mn mx : Int) (s0 s : State) (ops : List Op) (es : List Event) (h0 : init mn mx = .ok s0)
    (hst : ∀ o ∈ ops, ∀ mem f, o = Op.put mem f → f.senderStamp ≤ 2147483647) (hr : run s0 ops = .ok (s, es)) (ho : Sorted (es.flatMap Event.accepted)) :
    ∃ left, Holds s left ∧ es.flatMap Event.accepted = es.flatMap Event.handed ++ left := by
  obtain ⟨q, fr, h1, h2, h3⟩ := stamps_ok ops (init_inv h0) (by simp) hst _ _ hr
  exact ⟨q.map (·.2), holds_inv q h1 h3, by simpa using transAll_fifo es _ _ h2 (by simpa [Sorted] using ho)⟩

/-- A frame of speech for the examples. -/
def speech (t : Int) : Frame := ⟨0, typeSpeech, t, 160, 0⟩

/-- Frames with the stamps 10, 30 and 20 leave in the order 20, 10, 30. -/
theorem playout_order_broken : ∃ s0, init 160 160 = .ok s0 ∧
    (run s0 [.put true (speech 10), .put true (speech 30), .put true (speech 20), .take, .take, .take]).map (fun r => r.2.flatMap Event.handed) =
      .ok [speech 20, speech 10, speech 30] := by
  refine ⟨_, rfl, ?_⟩
  rfl

/-- The numbers before any speech has been delivered. -/
def Untouched (mn mx : Int) (m : Nums) : Prop :=
  m.dynamic = true ∧ m.minLength = mn ∧ m.dropable = 2684354 ∧ m.notFirst = false ∧ m.sinceLastStep = 2147483647 ∧ m.justInTime = 0 ∧ m.late = 0 ∧ m.target = (mx - mn) / 2

theorem overflow_of {α : Type} {m : M α} (h : NoPtr m) (h' : ∀ a, m ≠ .ok a) : m = .error .overflow := by
  match m with
  | .ok a => exact absurd rfl (h' a)
  | .error .overflow => rfl
  | .error .pointer => exact absurd rfl h

theorem assess_first {mn mx : Int} {m : Nums} (h : Untouched mn mx m) (ht : (mx - mn) / 2 ≤ mn) (f : Frame) (hf : f.type = typeSpeech) (m' : Nums) : assess m f ≠ .ok m' := by
  obtain ⟨h1, h2, h3, h4, h5, h6, h7, h8⟩ := h
  intro he
  unfold assess at he
  rw [if_pos ⟨h1, hf⟩] at he
  obtain ⟨m1, hp, he⟩ := bind_ok he
  obtain ⟨m2, hi, he⟩ := bind_ok he
  obtain ⟨m3, ha, he⟩ := bind_ok he
  obtain ⟨n, hn, _⟩ := bind_ok he
  have hn := (int_ok hn).2.2
  unfold prime at hp
  rw [h4] at hp
  simp only [Bool.false_eq_true, if_false] at hp
  obtain ⟨e, _, hp⟩ := bind_ok hp
  simp only [pure, Except.pure, Except.ok.injEq] at hp
  subst hp
  unfold integrate at hi
  obtain ⟨d1, hd1, hi⟩ := bind_ok hi
  obtain ⟨late, hl, hi⟩ := bind_ok hi
  obtain ⟨edge, _, hi⟩ := bind_ok hi
  obtain ⟨d2, hd2, hi⟩ := bind_ok hi
  obtain ⟨jit, hj, hi⟩ := bind_ok hi
  obtain ⟨e2, _, hi⟩ := bind_ok hi
  simp only [pure, Except.pure, Except.ok.injEq] at hi
  subst hi
  have hd1 := (int_ok hd1).1
  have hd2 := (int_ok hd2).1
  have hl := (int_ok hl).1
  have hj := (int_ok hj).1
  simp only [h6, h7] at hd1 hd2 hl hj
  have e1 : late ≤ 1048576 := by rw [hl, hd1]; split <;> omega
  have e2 : jit ≤ 1048576 := by rw [hj, hd2]; split <;> omega
  unfold adapt at ha
  simp only [h3, h5, h8, h2] at ha
  rw [if_neg (by omega : ¬ late > 2684354), if_pos ⟨by omega, by omega⟩, if_neg (by omega)] at ha
  simp only [Except.ok.injEq] at ha
  subst ha
  simp only at hn
  omega

theorem untouched_run {mn mx : Int} (ops : List Op) : ∀ {s s' : State} {es : List Event}, Untouched mn mx s.nums → run s ops = .ok (s', es) → (∀ c f, Event.get c (some f) ∉ es) →
    Untouched mn mx s'.nums := by
  induction ops with
  | nil =>
    intro s s' es h hr _
    simp only [run, Except.ok.injEq, Prod.mk.injEq] at hr
    rw [← hr.1]; exact h
  | cons o ops ih =>
    intro s s' es h hr hno
    obtain ⟨⟨s1, e⟩, hs, hr⟩ := bind_ok hr
    obtain ⟨⟨s2, es2⟩, hr2, hr⟩ := bind_ok hr
    simp only [pure, Except.pure, Except.ok.injEq, Prod.mk.injEq] at hr
    obtain ⟨rfl, rfl⟩ := hr
    refine ih ?_ hr2 (fun c f hm => hno c f (by simp [hm]))
    cases o with
    | put mem f =>
      obtain ⟨⟨s3, c⟩, hp, he⟩ := bind_ok hs
      simp only [pure, Except.pure, Except.ok.injEq, Prod.mk.injEq] at he
      obtain ⟨rfl, rfl⟩ := he
      unfold put at hp
      obtain ⟨i, _, hp⟩ := bind_ok hp
      obtain ⟨⟨l, p⟩, _, hp⟩ := bind_ok hp
      cases p with
      | none =>
        simp only [pure, Except.pure, Except.ok.injEq, Prod.mk.injEq] at hp
        rw [← hp.1]; exact h
      | some a =>
        simp only at hp
        obtain ⟨⟨l2, oos⟩, _, hp⟩ := bind_ok hp
        obtain ⟨m, hm, hp⟩ := bind_ok hp
        simp only [pure, Except.pure, Except.ok.injEq, Prod.mk.injEq] at hp
        rw [← hp.1]
        unfold noted at hm
        obtain ⟨o, _, hm⟩ := bind_ok hm
        simp only at hm
        split at hm
        · obtain ⟨_, _, hm⟩ := bind_ok hm
          obtain ⟨_, _, hm⟩ := bind_ok hm
          simp only [pure, Except.pure, Except.ok.injEq] at hm
          rw [← hm]; exact h
        · simp only [pure, Except.pure, Except.ok.injEq] at hm
          rw [← hm]; exact h
    | get =>
      obtain ⟨⟨s3, c, f⟩, hg, he⟩ := bind_ok hs
      simp only [pure, Except.pure, Except.ok.injEq, Prod.mk.injEq] at he
      obtain ⟨rfl, rfl⟩ := he
      unfold get at hg
      obtain ⟨ls, _, hg⟩ := bind_ok hg
      obtain ⟨⟨l, p⟩, _, hg⟩ := bind_ok hg
      cases p with
      | none =>
        obtain ⟨x, _, hg⟩ := bind_ok hg
        simp only [pure, Except.pure, Except.ok.injEq, Prod.mk.injEq] at hg
        rw [← hg.1]; exact h
      | some a =>
        obtain ⟨n, _, hg⟩ := bind_ok hg
        obtain ⟨⟨m, c'⟩, _, hg⟩ := bind_ok hg
        obtain ⟨l2, _, hg⟩ := bind_ok hg
        simp only [pure, Except.pure, Except.ok.injEq, Prod.mk.injEq] at hg
        exact absurd (by rw [← hg.2.2]; simp) (hno c n.frame)
    | take =>
      obtain ⟨⟨s3, f⟩, hg, he⟩ := bind_ok hs
      simp only [pure, Except.pure, Except.ok.injEq, Prod.mk.injEq] at he
      obtain ⟨rfl, rfl⟩ := he
      unfold getUnconditional at hg
      obtain ⟨⟨l, p⟩, _, hg⟩ := bind_ok hg
      cases p with
      | none =>
        simp only [pure, Except.pure, Except.ok.injEq, Prod.mk.injEq] at hg
        rw [← hg.1]; exact h
      | some a =>
        simp only at hg
        obtain ⟨l2, _, hg⟩ := bind_ok hg
        obtain ⟨n, _, hg⟩ := bind_ok hg
        simp only [pure, Except.pure, Except.ok.injEq, Prod.mk.injEq] at hg
        rw [← hg.1]; exact h

/-- A buffer whose length may change, and whose starting length is not above its minimum: the first frame of speech which is
delivered makes the count of frames since the last change, which starts at the greatest `int`, overflow. -/
theorem playout_step_count_overflows (mn mx : Int) (hmx : mn < mx) (ht : (mx - mn) / 2 ≤ mn) (s0 s : State) (ops : List Op) (es : List Event) (h0 : init mn mx = .ok s0)
    (hst : ∀ o ∈ ops, ∀ mem f, o = Op.put mem f → f.senderStamp ≤ 2147483647)
    (hr : run s0 ops = .ok (s, es)) (hno : ∀ c f, Event.get c (some f) ∉ es) (f : Frame) (q : List Frame) (hq : Holds s (f :: q)) (hf : f.type = typeSpeech)
    (due : Int) (hd : nextDue s = .ok due) (hdue : f.senderStamp ≤ due) : get s = .error .overflow := by
  obtain ⟨p, fr, h1, _, h3⟩ := stamps_ok ops (init_inv h0) (by simp) hst _ _ hr
  have e := holds_unique _ _ hq (holds_inv p h1 h3)
  have hu0 : Untouched mn mx s0.nums := by
    obtain ⟨m, hm, h0⟩ := bind_ok h0
    obtain ⟨d, hd, hm⟩ := bind_ok hm
    have hd := (int_ok hd).1
    rw [if_pos (show mx > mn from hmx)] at hd
    simp only [pure, Except.pure, Except.ok.injEq] at h0 hm
    rw [← h0, ← hm]
    exact ⟨by simp [hmx], rfl, by rfl, rfl, rfl, rfl, rfl, by simp only [hd]⟩
  have hu := untouched_run ops hu0 hr hno
  refine overflow_of (get_ok h1).1 ?_
  rintro ⟨s', c, g⟩ hg
  obtain ⟨ls, hls, hg⟩ := bind_ok hg
  have : ls = due := by unfold nextDue at hd; rw [hls] at hd; simpa using hd
  subst this
  cases p with
  | nil => simp at e
  | cons x p =>
    obtain ⟨a, f'⟩ := x
    simp only [List.map_cons, List.cons.injEq] at e
    obtain ⟨rfl, _⟩ := e
    obtain ⟨l', n, h4, h5, h6, _⟩ := queueGet_due h1 ls hdue
    rw [h4] at hg
    obtain ⟨n', e, hg⟩ := bind_ok (m := deref l'.heap (some a)) hg
    rw [h5] at e
    cases e
    obtain ⟨⟨m, c'⟩, hj, _⟩ := bind_ok hg
    obtain ⟨m1, ha, _⟩ := bind_ok hj
    exact assess_first (m := { s.nums with lastStamp := ls }) hu ht n.frame (by rw [h6]; exact hf) m1 ha

/-- It happens. -/
theorem playout_step_count_overflows_example : ∃ s0, init 160 320 = .ok s0 ∧ run s0 [.put true (speech 160), .get, .get] = .error .overflow := by
  refine ⟨_, rfl, ?_⟩
  have h : ∀ m : M (State × List Event), (match m with | .error .overflow => true | _ => false) = true → m = .error .overflow := by
    intro m h
    split at h
    · rfl
    · simp at h
  exact h _ (by decide +kernel)

/-! ### A steady stream -/

/-- The state of a fixed buffer after `p` arrivals and `g` calls. -/
structure Steady (t0 len : Int) (m : Nat) (p g : Nat) (s : State) : Prop where
  inv : ∃ q fr, Inv s.links q fr ∧ q.map (·.2) = (List.range (p - (g - m))).map fun i => stream t0 len (g - m + i)
  ahead : g - m ≤ p
  dynamic : s.nums.dynamic = false
  start : s.nums.start = false
  length : s.nums.lastLen = len
  stamp : s.nums.lastStamp = t0 - len - m * len + g * len
  arrived : s.nums.framesIn = p
  out : s.nums.framesOut = ((g - m : Nat) : Int)
  missing : s.nums.framesMissing = ((min g m : Nat) : Int)
  oos : s.nums.framesOos = 0

theorem Steady.arrive {t0 len : Int} {m p g : Nat} {s : State} (h : Steady t0 len m p g s) (hl : 0 < len) (hp : p < 2147483647) :
    ∃ s', put s true (stream t0 len p) = .ok (s', .ok) ∧ Steady t0 len m (p + 1) g s' := by
  obtain ⟨q, fr, hi, hq⟩ := h.inv
  have hah := h.ahead
  rcases acquire_ok hi true with ⟨_, hm⟩ | ⟨l', a, fr', ha, hpre⟩
  · simp at hm
  obtain ⟨l2, q', h1, h2, h3⟩ := queuePut_ok hpre (stream t0 len p)
  have hle : ∀ f ∈ q.map (·.2), f.senderStamp ≤ (stream t0 len p).senderStamp := by
    intro f hf
    rw [hq] at hf
    obtain ⟨i, hi, rfl⟩ := List.mem_map.1 hf
    rw [List.mem_range] at hi
    simp only [stream]
    have : ((g - m + i : Nat) : Int) * len ≤ (p : Int) * len := Int.mul_le_mul_of_nonneg_right (by omega) (by omega)
    omega
  have hrun := run_unique (stream t0 len p) (q.map (·.2)) [] (by simp) (fun x hx => hle x (List.mem_of_getLast? hx))
  rw [List.append_nil] at hrun
  rw [hrun.2] at h1
  rw [place_end _ _ hle, hq] at h3
  refine ⟨⟨l2, { s.nums with framesIn := (p : Int) + 1, framesOos := 0 }⟩, ?_, ⟨⟨q', fr', h2, ?_⟩, by omega, h.dynamic, h.start, h.length, h.stamp, by simp, h.out, h.missing, rfl⟩⟩
  · unfold put
    rw [h.arrived, int_eq (by omega) (by omega), ha]
    simp only [bind, Except.bind]
    rw [h1]
    simp only [noted, h.oos, h.start]
    rw [show int (0 + if decide (¬ ([] : List Frame) = []) = true then 1 else 0) = .ok 0 from rfl]
    simp [bind, Except.bind, pure, Except.pure]
  · rw [h3, show p + 1 - (g - m) = (p - (g - m)) + 1 by omega, List.range_succ, List.map_append, List.map_singleton, show g - m + (p - (g - m)) = p by omega]

theorem Steady.call {t0 len : Int} {m p g : Nat} {s : State} (h : Steady t0 len m p g s) (hl : 0 < len) (hp : 0 < p) (ht : m ≤ g → g - m < p) (hg : g < 2147483647)
    (hlo : -2147483648 ≤ t0 - len - m * len) (hhi : t0 + g * len ≤ 2147483647) :
    ∃ s', get s = .ok (s', if g < m then (.fillin, none) else (.ok, some (stream t0 len (g - m)))) ∧ Steady t0 len m p (g + 1) s' := by
  obtain ⟨q, fr, hi, hq⟩ := h.inv
  have hah := h.ahead
  have e1 : ((g + 1 : Nat) : Int) * len = g * len + len := by push_cast; rw [Int.add_mul]; omega
  have hgl : 0 ≤ (g : Int) * len := Int.mul_nonneg (by omega) (by omega)
  have hml : 0 ≤ (m : Int) * len := Int.mul_nonneg (by omega) (by omega)
  have hnext : s.nums.lastStamp + s.nums.lastLen = t0 - m * len + g * len := by rw [h.stamp, h.length]; omega
  unfold get
  rw [hnext, int_eq (by omega) (by omega)]
  simp only [bind, Except.bind]
  by_cases hgm : g < m
  · -- Too early for anything.
    have hz : g - m = 0 := by omega
    rw [if_pos hgm]
    obtain ⟨x, q1, rfl⟩ : ∃ x q1, q = x :: q1 := by
      cases q with
      | nil => simp [hz] at hq; omega
      | cons x q1 => exact ⟨x, q1, rfl⟩
    obtain ⟨a, f⟩ := x
    have hf : f = stream t0 len 0 := by
      have := congrArg List.head? hq
      rw [List.map_cons, List.head?_cons, List.head?_map, show p - (g - m) = (p - 1) + 1 by omega, List.range_succ_eq_map] at this
      simpa [hz] using this
    have hlt : (g : Int) * len < m * len := Int.mul_lt_mul_of_pos_right (by omega) hl
    rw [queueGet_early hi _ (by rw [hf]; simp only [stream]; omega)]
    simp only [deliver, h.missing]
    rw [int_eq (by omega) (by omega)]
    refine ⟨_, rfl, ⟨⟨(a, f) :: q1, fr, hi, ?_⟩, by omega, h.dynamic, h.start, h.length, ?_, h.arrived, ?_, ?_, h.oos⟩⟩
    · rw [hq, hz, show g + 1 - m = 0 by omega]
    · simp only; rw [e1]; omega
    · rw [h.out]; omega
    · simp only; omega
  · have hge : m ≤ g := by omega
    have hlp := ht hge
    rw [if_neg hgm]
    obtain ⟨x, q1, rfl⟩ : ∃ x q1, q = x :: q1 := by
      cases q with
      | nil => simp at hq; omega
      | cons x q1 => exact ⟨x, q1, rfl⟩
    obtain ⟨a, f⟩ := x
    have hsplit : List.range (p - (g - m)) = 0 :: (List.range (p - (g + 1 - m))).map Nat.succ := by
      rw [show p - (g - m) = (p - (g + 1 - m)) + 1 by omega, List.range_succ_eq_map]
    rw [hsplit, List.map_cons, List.map_cons, List.cons.injEq] at hq
    obtain ⟨hf, hq1⟩ := hq
    simp only [Nat.add_zero] at hf
    have hst : f.senderStamp = t0 - m * len + g * len := by
      rw [hf]
      simp only [stream]
      rw [show ((g - m : Nat) : Int) = (g : Int) - m by omega, Int.sub_mul]; omega
    obtain ⟨l', n, h1, h2, h3, l'', h4, h5, _⟩ := queueGet_due hi (t0 - m * len + g * len) (by omega)
    rw [h1]
    simp only [deliver, bind, Except.bind]
    rw [h2]
    simp only
    have hj : judge { s.nums with lastStamp := t0 - m * len + g * len } n.frame = .ok ({ s.nums with lastStamp := t0 - m * len + g * len, framesOut := ((g - m : Nat) : Int) + 1 }, .ok) := by
      unfold judge assess
      rw [h.dynamic, if_neg (by simp)]
      simp only [bind, Except.bind]
      rw [if_neg (by rw [h3, hf]; simp [stream]), if_neg (by rw [h3]; omega), h.out, int_eq (by omega) (by omega)]
      simp only [pure, Except.pure]
      rw [h3, hf]
      simp only [stream]
      simp only [gt_iff_lt, hl, if_true, h.length]
    rw [hj]
    simp only
    rw [h4]
    refine ⟨⟨l'', { s.nums with lastStamp := t0 - m * len + g * len, framesOut := ((g - m : Nat) : Int) + 1 }⟩, by rw [h3, hf]; rfl, ⟨⟨q1, a :: fr, h5, ?_⟩, by omega, h.dynamic, h.start, h.length, ?_, h.arrived, ?_, ?_, h.oos⟩⟩
    · rw [hq1, List.map_map]
      apply List.map_congr_left
      intro i _
      simp only [Function.comp]
      congr 1
      omega
    · simp only; rw [e1]; omega
    · simp only; omega
    · simp only [h.missing]; omega

theorem steady_run {t0 len : Int} {m : Nat} (sch : List Bool) : ∀ {p g : Nat} {s : State}, Steady t0 len m p g s → 0 < len → 0 < p → Timely m p g sch →
    p + sch.length ≤ 2147483647 → g + sch.length ≤ 2147483647 → -2147483648 ≤ t0 - len - m * len → t0 + ((g + sch.length : Nat) : Int) * len ≤ 2147483647 →
    ∃ s', run s (calls t0 len p sch) = .ok (s', played t0 len m p g sch) := by
  induction sch with
  | nil => intro p g s _ _ _ _ _ _ _ _; exact ⟨s, rfl⟩
  | cons b sch ih =>
    intro p g s h hl hp ht h1 h2 h3 h4
    simp only [List.length_cons] at h1 h2 h4
    have e1 : ((g + (sch.length + 1) : Nat) : Int) * len = ((g + 1 + sch.length : Nat) : Int) * len := by congr 2; omega
    have e2 : (g : Int) * len ≤ ((g + (sch.length + 1) : Nat) : Int) * len := Int.mul_le_mul_of_nonneg_right (by omega) (by omega)
    have e3 : ((g + sch.length : Nat) : Int) * len ≤ ((g + (sch.length + 1) : Nat) : Int) * len := Int.mul_le_mul_of_nonneg_right (by omega) (by omega)
    cases b with
    | true =>
      obtain ⟨s1, h5, h6⟩ := h.arrive hl (by omega)
      obtain ⟨s2, h7⟩ := ih h6 hl (by omega) ht (by omega) (by omega) h3 (by omega)
      refine ⟨s2, ?_⟩
      simp only [calls, run, step, h5, bind, Except.bind, pure, Except.pure]
      rw [h7]
      rfl
    | false =>
      obtain ⟨s1, h5, h6⟩ := h.call hl hp ht.1 (by omega) h3 (by omega)
      obtain ⟨s2, h7⟩ := ih h6 hl hp ht.2 (by omega) (by omega) h3 (by omega)
      refine ⟨s2, ?_⟩
      simp only [calls, run, step, h5, bind, Except.bind, pure, Except.pure]
      rw [h7]
      simp only [played]
      split <;> rfl

/-- The numbers in a buffer of a fixed length when it is new. -/
def freshNums (b : Int) : Nums :=
  { dynamic := false, minLength := b, maxLength := b, dropable := 0x10000000 / 100,
    start := true, framesIn := 0, framesOut := 0, framesOos := 0, framesLate := 0, framesMissing := 0,
    latestExpected := 0, lastStamp := 0, lastLen := 0, notFirst := false, sinceLastStep := 0x7FFFFFFF,
    justInTime := 0, late := 0, target := 0, actual := 0 }

/-- A steady stream of speech through a buffer of a fixed length of `m` frames. However arrivals and calls are interleaved, as long
as each frame arrives before its time, something is made up for the first `m` calls, and after that each call gets the next
frame, as one which is on time. -/
theorem playout_steady_stream (t0 len : Int) (m : Nat) (hl : 0 < len) (sch : List Bool) (ht : Timely m 1 0 sch)
    (hlen : sch.length < 2147483647) (hm : m * len ≤ 2147483647) (hlo : -2147483648 ≤ t0 - len - m * len) (hhi : t0 + (sch.length : Int) * len ≤ 2147483647) :
    ∃ s0 s', init (m * len) (m * len) = .ok s0 ∧
      run s0 (calls t0 len 0 (true :: sch)) = .ok (s', played t0 len m 0 0 (true :: sch)) := by
  have hml : 0 ≤ (m : Int) * len := Int.mul_nonneg (by omega) (by omega)
  have hsl : 0 ≤ (sch.length : Int) * len := Int.mul_nonneg (by omega) (by omega)
  have hi : init (m * len) (m * len) = .ok ⟨⟨fun _ => none, 0, none, none, none⟩,
      freshNums (m * len)⟩ := by
    unfold init restartNums
    simp only [bind, Except.bind, pure, Except.pure]
    rw [if_neg (Int.lt_irrefl _), Int.sub_self, int_eq (by omega) (by omega)]
    simp [freshNums]
  have h0 := init_inv hi
  obtain ⟨h1, h2⟩ := put_ok h0 true (stream t0 len 0)
  have hput : ∃ l, put ⟨⟨fun _ => none, 0, none, none, none⟩, freshNums (m * len)⟩ true (stream t0 len 0) = .ok (⟨l, { freshNums (m * len) with start := false, framesIn := 1, lastStamp := t0 - len - m * len, lastLen := len }⟩, Code.ok) := by
    rcases acquire_ok h0 true with ⟨_, hm⟩ | ⟨l', a, fr', ha, hpre⟩
    · simp at hm
    obtain ⟨l2, q', h3, h4, h5⟩ := queuePut_ok hpre (stream t0 len 0)
    refine ⟨l2, ?_⟩
    unfold put
    rw [int_eq (by simp [freshNums]) (by simp [freshNums]), ha]
    simp only [bind, Except.bind]
    rw [h3]
    simp only [noted, List.map_nil, laterRun, List.reverse_nil, List.takeWhile_nil]
    rw [show int ((freshNums (m * len)).framesOos + if decide (([] : List Frame) ≠ []) = true then 1 else 0) = .ok 0 from rfl]
    simp only [bind, Except.bind]
    rw [if_pos ⟨by simp [freshNums], rfl⟩]
    simp only [stream, freshNums]
    rw [show t0 + ((0 : Nat) : Int) * len = t0 by simp, int_eq (x := t0 - len) (by omega) (by omega)]
    simp only
    rw [int_eq (by omega) (by omega)]
    simp [pure, Except.pure]
  obtain ⟨l, hput⟩ := hput
  obtain ⟨_, q', fr', h3, h4⟩ := h2 _ _ hput
  rcases h4 with ⟨_, h4⟩ | ⟨h4, _⟩
  rotate_left
  · simp at h4
  have hst : Steady t0 len m 1 0 ⟨l, { freshNums (m * len) with start := false, framesIn := 1, lastStamp := t0 - len - m * len, lastLen := len }⟩ := by
    refine ⟨⟨q', fr', h3, ?_⟩, by omega, rfl, rfl, rfl, by simp, rfl, by simp [freshNums], by simp [freshNums], rfl⟩
    rw [h4, place_end _ _ (by simp)]
    simp
  obtain ⟨s', h5⟩ := steady_run sch hst hl (by omega) ht (by omega) (by omega) hlo (by rw [Nat.zero_add]; exact hhi)
  refine ⟨_, s', hi, ?_⟩
  simp only [calls, run, step, hput, bind, Except.bind, pure, Except.pure]
  rw [h5]
  rfl

/-! ### The hypotheses are met -/

example : ∃ s0, init 160 160 = .ok s0 := ⟨_, rfl⟩

example : Reachable ⟨⟨fun _ => none, 0, none, none, none⟩, freshNums 160⟩ := ⟨160, 160, _, [], [], rfl, by simp, rfl⟩

/-- A run of a dozen calls, some of them late. -/
example : ∃ s0, init 160 160 = .ok s0 ∧
    (run s0 [.put true (speech 0), .get, .put true (speech 160), .get, .get, .get, .put true (speech 320), .get, .put true (speech 800), .get, .take]).map (fun r => r.2) =
      .ok [.put (speech 0) .ok, .get .fillin none, .put (speech 160) .ok, .get .ok (some (speech 0)), .get .ok (some (speech 160)), .get .fillin none,
        .put (speech 320) .ok, .get .drop (some (speech 320)), .put (speech 800) .ok, .get .fillin none, .take (some (speech 800))] := by
  refine ⟨_, rfl, ?_⟩
  rfl

example : Timely 2 1 0 [false, true, false, false, true, false, false] := by simp [Timely]

end Playout
