import Verif.Playout.Spec

namespace Playout
open Spec

/-! ## The heap -/

/-- A doubly linked segment, with what comes before and after it. -/
def Seg (h : Nat → Option Node) (next : Option Nat) : Option Nat → List (Nat × Frame) → Prop
  | _, [] => True
  | prev, (a, f) :: rest => h a = some ⟨f, prev, (rest.head?.map (·.1)).or next⟩ ∧ Seg h next (some a) rest

/-- A singly linked chain. -/
def Chain (h : Nat → Option Node) : List Nat → Prop
  | [] => True
  | a :: rest => (∃ n, h a = some n ∧ n.later = rest.head?) ∧ Chain h rest

theorem Seg.append {h : Nat → Option Node} {next : Option Nat} (xs ys : List (Nat × Frame)) : ∀ {prev : Option Nat},
    Seg h next prev (xs ++ ys) ↔ Seg h ((ys.head?.map (·.1)).or next) prev xs ∧ Seg h next ((xs.getLast?.map (·.1)).or prev) ys := by
  induction xs with
  | nil => intro prev; simp [Seg]
  | cons x xs ih =>
    intro prev
    obtain ⟨a, f⟩ := x
    simp only [List.cons_append, Seg, ih, and_assoc]
    cases xs with
    | nil => simp
    | cons y xs => rw [List.getLast?_cons_cons, List.getLast?_eq_some_getLast (List.cons_ne_nil y xs)]; simp

theorem Seg.frame {h h' : Nat → Option Node} {next : Option Nat} (xs : List (Nat × Frame)) : ∀ {prev : Option Nat},
    (∀ x ∈ xs, h' x.1 = h x.1) → Seg h next prev xs → Seg h' next prev xs := by
  induction xs with
  | nil => intro _ _ _; trivial
  | cons x xs ih =>
    intro prev hh hs
    exact ⟨by rw [hh x (by simp)]; exact hs.1, ih (fun y hy => hh y (by simp [hy])) hs.2⟩

theorem Chain.frame {h h' : Nat → Option Node} (xs : List Nat) : (∀ x ∈ xs, h' x = h x) → Chain h xs → Chain h' xs := by
  induction xs with
  | nil => intro _ _; trivial
  | cons x xs ih =>
    intro hh hs
    exact ⟨by rw [hh x (by simp)]; exact hs.1, ih (fun y hy => hh y (by simp [hy])) hs.2⟩

theorem deref_some {h : Nat → Option Node} {a : Nat} {n : Node} (e : h a = some n) : deref h (some a) = .ok n := by
  simp only [deref]; rw [e]

theorem update_some {h : Nat → Option Node} {a : Nat} {n : Node} (g : Node → Node) (e : h a = some n) : update h (some a) g = .ok (store h a (some (g n))) := by
  unfold update; rw [deref_some e]; rfl

theorem store_same (h : Nat → Option Node) (a : Nat) (v : Option Node) : store h a v a = v := by simp [store]

theorem store_other (h : Nat → Option Node) (a b : Nat) (v : Option Node) (hn : b ≠ a) : store h a v b = h b := by simp [store, hn]

/-- The queue and the free list account for the whole heap. -/
structure Inv (l : Links) (q : List (Nat × Frame)) (fr : List Nat) : Prop where
  seg : Seg l.heap none none q
  chain : Chain l.heap fr
  first : l.first = q.head?.map (·.1)
  last : l.last = q.getLast?.map (·.1)
  free : l.free = fr.head?
  nodup : (q.map (·.1) ++ fr).Nodup
  total : q.length + fr.length = l.fresh
  bound : ∀ a ∈ q.map (·.1) ++ fr, a < l.fresh
  outside : ∀ a, a ∉ q.map (·.1) ++ fr → l.heap a = none

/-- The same with one frame which is in neither. -/
structure Pre (l : Links) (q : List (Nat × Frame)) (a : Nat) (fr : List Nat) : Prop where
  seg : Seg l.heap none none q
  chain : Chain l.heap fr
  first : l.first = q.head?.map (·.1)
  last : l.last = q.getLast?.map (·.1)
  free : l.free = fr.head?
  node : ∃ n, l.heap a = some n
  nodup : (a :: (q.map (·.1) ++ fr)).Nodup
  total : q.length + fr.length + 1 = l.fresh
  bound : ∀ b ∈ a :: (q.map (·.1) ++ fr), b < l.fresh
  outside : ∀ b, b ∉ a :: (q.map (·.1) ++ fr) → l.heap b = none

theorem queueGet_empty {l : Links} {fr : List Nat} (h : Inv l [] fr) (stamp : Int) : queueGet l stamp = .ok (l, none) := by
  unfold queueGet; rw [h.first]; rfl

theorem queueGet_early {l : Links} {a : Nat} {f : Frame} {q : List (Nat × Frame)} {fr : List Nat} (h : Inv l ((a, f) :: q) fr) (stamp : Int) (hs : stamp < f.senderStamp) :
    queueGet l stamp = .ok (l, none) := by
  unfold queueGet; rw [h.first]
  simp only [List.head?_cons, Option.map_some]
  rw [deref_some h.seg.1]
  simp only [bind, Except.bind]
  rw [if_neg (by omega)]; rfl

theorem queueGet_due {l : Links} {a : Nat} {f : Frame} {q : List (Nat × Frame)} {fr : List Nat} (h : Inv l ((a, f) :: q) fr) (stamp : Int) (hs : f.senderStamp ≤ stamp) :
    ∃ l' n, queueGet l stamp = .ok (l', some a) ∧ deref l'.heap (some a) = .ok n ∧ n.frame = f ∧ ∃ l'', release l' a = .ok l'' ∧
      Inv l'' q (a :: fr) ∧ deref l''.heap (some a) = .ok { n with later := l'.free } := by
  have hnd := h.nodup
  simp only [List.map_cons, List.cons_append, List.nodup_cons] at hnd
  have hget : ∃ l', queueGet l stamp = .ok (l', some a) ∧ l'.heap a = l.heap a ∧ l'.free = l.free ∧ l'.fresh = l.fresh ∧ Seg l'.heap none none q ∧
      Chain l'.heap fr ∧ l'.first = q.head?.map (·.1) ∧ l'.last = q.getLast?.map (·.1) ∧ ∀ b, b ∉ a :: (q.map (·.1) ++ fr) → l'.heap b = none := by
    unfold queueGet; rw [h.first]
    simp only [List.head?_cons, Option.map_some]
    rw [deref_some h.seg.1]
    simp only [bind, Except.bind]
    rw [if_pos hs]
    cases q with
    | nil =>
      simp only [List.head?_nil, Option.map_none, Option.none_or]
      refine ⟨_, rfl, rfl, rfl, rfl, trivial, h.chain, rfl, rfl, ?_⟩
      intro b hb; exact h.outside b (by simpa using hb)
    | cons x q =>
      obtain ⟨b, g⟩ := x
      simp only [List.head?_cons, Option.map_some, Option.some_or]
      rw [update_some _ h.seg.2.1]
      have hab : a ≠ b := by
        intro e; apply hnd.1; simp [e]
      have hbq : b ∉ q.map (·.1) ++ fr := by
        have := hnd.2; simp only [List.map_cons, List.cons_append, List.nodup_cons] at this; exact this.1
      refine ⟨_, rfl, ?_, rfl, rfl, ⟨?_, ?_⟩, ?_, rfl, ?_, ?_⟩
      · exact store_other _ _ _ _ hab
      · exact store_same _ _ _
      · apply Seg.frame q _ h.seg.2.2
        intro x hx
        exact store_other _ _ _ _ (fun e => hbq (by simp; left; exact ⟨x.2, by rw [← e]; exact hx⟩))
      · apply Chain.frame fr _ h.chain
        intro x hx
        exact store_other _ _ _ _ (fun e => hbq (by simp; right; rw [← e]; exact hx))
      · rw [show ((b, g) :: q).getLast?.map (·.1) = ((a, f) :: (b, g) :: q).getLast?.map (·.1) by rw [List.getLast?_cons_cons]]; exact h.last
      · intro c hc
        simp only
        rw [store_other _ _ _ _ (by rintro rfl; exact hc (by simp))]
        exact h.outside c (by simpa using hc)
  obtain ⟨l', h1, h2, h3, h4, h5, h6, h7, h8, h9⟩ := hget
  have hn : l'.heap a = some ⟨f, none, (q.head?.map (·.1)).or none⟩ := by rw [h2]; exact h.seg.1
  refine ⟨l', _, h1, deref_some hn, rfl, _, by unfold release; rw [update_some _ hn]; rfl, ?_, ?_⟩
  · have hq : ∀ x ∈ q, store l'.heap a (some { frame := f, earlier := none, later := l'.free }) x.1 = l'.heap x.1 := by
      intro x hx; exact store_other _ _ _ _ (fun e => hnd.1 (by simp; left; exact ⟨x.2, by rw [← e]; exact hx⟩))
    have hf : ∀ x ∈ fr, store l'.heap a (some { frame := f, earlier := none, later := l'.free }) x = l'.heap x := by
      intro x hx; exact store_other _ _ _ _ (fun e => hnd.1 (by simp; right; rw [← e]; exact hx))
    refine ⟨Seg.frame q hq h5, ⟨⟨_, store_same _ _ _, by simp only [h3]; exact h.free⟩, Chain.frame fr hf h6⟩, h7, h8, rfl, ?_, ?_, ?_, ?_⟩
    · rw [List.perm_middle.nodup_iff]; exact List.nodup_cons.2 hnd
    · have := h.total; simp only [List.length_cons] at this ⊢; omega
    · intro b hb
      simp only
      rw [h4]
      apply h.bound
      simp only [List.map_cons, List.cons_append, List.mem_cons, List.mem_append] at hb ⊢
      rcases hb with hb | hb | hb
      · exact .inr (.inl hb)
      · exact .inl hb
      · exact .inr (.inr hb)
    · intro b hb
      simp only [List.mem_cons, List.mem_append, not_or] at hb
      simp only
      rw [store_other _ _ _ _ hb.2.1]
      exact h9 b (by simp only [List.mem_cons, List.mem_append, not_or]; exact ⟨hb.2.1, hb.1, hb.2.2⟩)
  · exact deref_some (store_same _ _ _)

theorem acquire_ok {l : Links} {q : List (Nat × Frame)} {fr : List Nat} (h : Inv l q fr) (mem : Bool) :
    (acquire l mem = .ok (l, none) ∧ mem = false) ∨ ∃ l' a fr', acquire l mem = .ok (l', some a) ∧ Pre l' q a fr' := by
  cases fr with
  | nil =>
    cases mem with
    | false => left; exact ⟨by unfold acquire; rw [h.free]; rfl, rfl⟩
    | true =>
      right
      refine ⟨_, _, [], by unfold acquire; rw [h.free]; rfl, ?_⟩
      have hb := h.bound
      simp only [List.append_nil] at hb
      have hne : ∀ x ∈ q, x.1 ≠ l.fresh := fun x hx e => by
        have := hb x.1 (List.mem_map_of_mem hx); omega
      refine ⟨Seg.frame q (fun x hx => store_other _ _ _ _ (hne x hx)) h.seg, trivial, h.first, h.last, rfl, ⟨_, store_same _ _ _⟩, ?_, ?_, ?_, ?_⟩
      · rw [List.nodup_cons]
        refine ⟨?_, h.nodup⟩
        intro hm
        have := h.bound _ hm; omega
      · have := h.total; simp only [List.length_nil] at this ⊢; omega
      · intro b hm
        simp only [List.append_nil, List.mem_cons] at hm
        simp only
        rcases hm with rfl | hm
        · omega
        · have := hb b hm; omega
      · intro b hm
        simp only [List.mem_cons, not_or] at hm
        simp only
        rw [store_other _ _ _ _ hm.1]
        exact h.outside b hm.2
  | cons a fr =>
    right
    obtain ⟨n, hn, hl⟩ := h.chain.1
    refine ⟨_, a, fr, by unfold acquire; rw [h.free]; simp only [List.head?_cons]; rw [deref_some hn]; rfl, ?_⟩
    refine ⟨h.seg, h.chain.2, h.first, h.last, hl, ⟨n, hn⟩, ?_, ?_, ?_, ?_⟩
    · have := h.nodup; rw [List.perm_middle.nodup_iff] at this; exact this
    · have := h.total; simp only [List.length_cons] at this; simp only; omega
    · intro b hb
      apply h.bound
      simp only [List.mem_cons, List.mem_append] at hb ⊢
      rcases hb with hb | hb | hb
      · exact .inr (.inl hb)
      · exact .inl hb
      · exact .inr (.inr hb)
    · intro b hb
      apply h.outside
      simp only [List.mem_cons, List.mem_append, not_or] at hb ⊢
      exact ⟨hb.2.1, hb.1, hb.2.2⟩

/-- The search stops at the last frame which is not later, or at the first one. -/
theorem search_ok (h : Nat → Option Node) (stamp : Int) (n : Nat) : ∀ (xs : List (Nat × Frame)) (p : Nat) (fp : Frame) (next : Option Nat) (fuel : Nat), xs.length = n →
    Seg h next none (xs ++ [(p, fp)]) → n < fuel →
    ∃ xs' p' fp' ys', xs ++ [(p, fp)] = xs' ++ (p', fp') :: ys' ∧ search h stamp fuel (some p) = .ok (some p') ∧
      (xs' = [] ∨ fp'.senderStamp ≤ stamp) ∧ ∀ y ∈ ys', stamp < y.2.senderStamp := by
  induction n with
  | zero =>
    intro xs p fp next fuel hl hs hf
    obtain ⟨fl, rfl⟩ : ∃ fl, fuel = fl + 1 := ⟨fuel - 1, by omega⟩
    rw [List.length_eq_zero_iff.1 hl] at hs ⊢
    refine ⟨[], p, fp, [], rfl, ?_, .inl rfl, by simp⟩
    unfold search
    rw [deref_some hs.1]
    simp only [bind, Except.bind]
    rw [if_neg (by simp)]; rfl
  | succ n ih =>
    intro xs p fp next fuel hl hs hf
    obtain ⟨fl, rfl⟩ : ∃ fl, fuel = fl + 1 := ⟨fuel - 1, by omega⟩
    have hne : xs ≠ [] := by intro e; rw [e] at hl; simp at hl
    obtain ⟨w, ⟨p2, fp2⟩, rfl⟩ : ∃ w x, xs = w ++ [x] := ⟨xs.dropLast, xs.getLast hne, (List.dropLast_concat_getLast hne).symm⟩
    obtain ⟨hs1, hs2⟩ := (Seg.append _ _).1 hs
    have hp := hs2.1
    simp only [List.getLast?_append, List.getLast?_singleton, Option.some_or, Option.map_some, List.head?_nil, Option.map_none, Option.none_or] at hp
    by_cases hlt : stamp < fp.senderStamp
    · obtain ⟨xs', p', fp', ys', e, hse, h1, h2⟩ := ih w p2 fp2 _ fl (by simpa using hl) hs1 (by omega)
      refine ⟨xs', p', fp', ys' ++ [(p, fp)], ?_, ?_, h1, ?_⟩
      · rw [e]; simp
      · unfold search
        rw [deref_some hp]
        simp only [bind, Except.bind]
        rw [if_pos ⟨hlt, rfl⟩, hse]
      · intro y hy
        rcases List.mem_append.1 hy with hy | hy
        · exact h2 y hy
        · simp only [List.mem_singleton] at hy; rw [hy]; exact hlt
    · refine ⟨w ++ [(p2, fp2)], p, fp, [], rfl, ?_, .inr (by omega), by simp⟩
      unfold search
      rw [deref_some hp]
      simp only [bind, Except.bind]
      rw [if_neg (by intro hh; exact hlt hh.1)]; rfl

/-! ## The place of a new frame -/

theorem before_laterRun (f : Frame) (q : List Frame) : before f q ++ laterRun f q = q := by
  unfold before laterRun
  rw [← List.reverse_append, List.takeWhile_append_dropWhile, List.reverse_reverse]

theorem run_unique (f : Frame) (xs ys : List Frame) (hy : ∀ y ∈ ys, f.senderStamp < y.senderStamp) (hx : ∀ p, xs.getLast? = some p → p.senderStamp ≤ f.senderStamp) :
    before f (xs ++ ys) = xs ∧ laterRun f (xs ++ ys) = ys := by
  have h1 : ((xs ++ ys).reverse.takeWhile fun g => decide (f.senderStamp < g.senderStamp)) = ys.reverse := by
    rw [List.reverse_append]
    have e : xs.reverse.takeWhile (fun g => decide (f.senderStamp < g.senderStamp)) = [] := by
      cases hr : xs.reverse with
      | nil => rfl
      | cons p r =>
        have := hx p (by rw [← List.head?_reverse, hr]; rfl)
        rw [List.takeWhile_cons_of_neg (by simp; omega)]
    rw [List.takeWhile_append_of_pos (by intro a ha; simp [hy a (by simpa using ha)]), e, List.append_nil]
  have h2 : laterRun f (xs ++ ys) = ys := by unfold laterRun; rw [h1, List.reverse_reverse]
  refine ⟨?_, h2⟩
  have := before_laterRun f (xs ++ ys)
  rw [h2] at this
  exact List.append_cancel_right this

/-- Where the code puts a new frame. -/
def place (f : Frame) (q : List Frame) : List Frame :=
  if laterRun f q ≠ [] ∧ (before f q).length ≤ 1 then f :: q else Spec.insert f q

theorem queuePut_ok {l : Links} {q : List (Nat × Frame)} {a : Nat} {fr : List Nat} (h : Pre l q a fr) (f : Frame) :
    ∃ l' q', queuePut l a f = .ok (l', decide (laterRun f (q.map (·.2)) ≠ [])) ∧ Inv l' q' fr ∧ q'.map (·.2) = place f (q.map (·.2)) := by
  obtain ⟨n, hn⟩ := h.node
  have hnd := h.nodup
  rw [List.nodup_cons] at hnd
  have haq : ∀ x ∈ q, x.1 ≠ a := fun x hx e => hnd.1 (by simp; left; exact ⟨x.2, by rw [← e]; exact hx⟩)
  have haf : ∀ x ∈ fr, x ≠ a := fun x hx e => hnd.1 (by simp; right; rw [← e]; exact hx)
  have hqf : ∀ x ∈ q, ∀ y ∈ fr, x.1 ≠ y := by
    intro x hx y hy
    exact (List.nodup_append.1 hnd.2).2.2 x.1 (List.mem_map_of_mem hx) y hy
  -- Everything but the links is the same in each case.
  have finish : ∀ (heap : Nat → Option Node) (first last : Option Nat) (q' : List (Nat × Frame)), Seg heap none none q' → first = q'.head?.map (·.1) → last = q'.getLast?.map (·.1) →
      List.Perm q' ((a, f) :: q) → (∀ b, b ≠ a → (∀ x ∈ q, b ≠ x.1) → heap b = l.heap b) →
      Inv { l with heap := heap, first := first, last := last } q' fr := by
    intro heap first last q' hs h1 h2 hp hh
    have hpm : List.Perm (q'.map (·.1) ++ fr) (a :: (q.map (·.1) ++ fr)) := (hp.map (·.1)).append_right fr
    refine ⟨hs, ?_, h1, h2, h.free, ?_, ?_, ?_, ?_⟩
    · apply Chain.frame fr _ h.chain
      intro x hx
      exact hh x (haf x hx) (fun y hy e => hqf y hy x hx e.symm)
    · rw [hpm.nodup_iff]; exact h.nodup
    · have := hp.length_eq; simp only [List.length_cons] at this; have := h.total; simp only; omega
    · intro b hb; exact h.bound b (hpm.mem_iff.1 hb)
    · intro b hb
      rw [hpm.mem_iff] at hb
      have hb' := hb
      simp only [List.mem_cons, List.mem_append, not_or] at hb'
      simp only
      rw [hh b hb'.1 (fun x hx e => hb'.2.1 (by rw [e]; exact List.mem_map_of_mem hx))]
      exact h.outside b hb
  unfold queuePut
  rw [update_some _ hn]
  simp only [bind, Except.bind]
  generalize hg : store l.heap a (some { frame := f, earlier := n.earlier, later := n.later }) = h0
  have h0a : h0 a = some { frame := f, earlier := n.earlier, later := n.later } := by rw [← hg]; exact store_same _ _ _
  have h0o : ∀ b, b ≠ a → h0 b = l.heap b := by intro b hb; rw [← hg]; exact store_other _ _ _ _ hb
  have hs0 : Seg h0 none none q := Seg.frame q (fun x hx => h0o x.1 (haq x hx)) h.seg
  by_cases hq : q = []
  · subst hq
    rw [h.last]
    simp only [List.getLast?_nil, Option.map_none]
    rw [update_some _ h0a]
    refine ⟨_, [(a, f)], rfl, finish _ _ _ [(a, f)] ⟨store_same _ _ _, trivial⟩ rfl rfl (List.Perm.refl _) ?_, ?_⟩
    · intro b hb _; rw [store_other _ _ _ _ hb, h0o b hb]
    · simp [place, Spec.insert, before, laterRun]
  · obtain ⟨w, ⟨z, fz⟩, rfl⟩ : ∃ w x, q = w ++ [x] := ⟨q.dropLast, q.getLast hq, (List.dropLast_concat_getLast hq).symm⟩
    rw [h.last]
    simp only [List.getLast?_append, List.getLast?_singleton, Option.some_or, Option.map_some]
    obtain ⟨hs1, hs2⟩ := (Seg.append _ _).1 hs0
    have hz := hs2.1
    simp only [List.head?_nil, Option.map_none, Option.none_or] at hz
    rw [deref_some hz]
    have haz : z ≠ a := haq (z, fz) (by simp)
    have hndq : ((w ++ [(z, fz)]).map (·.1)).Nodup := (List.nodup_append.1 hnd.2).1
    have hwz : ∀ x ∈ w, x.1 ≠ z := by
      intro x hx
      rw [List.map_append] at hndq
      exact (List.nodup_append.1 hndq).2.2 x.1 (List.mem_map_of_mem hx) z (by simp)
    by_cases hle : f.senderStamp ≥ fz.senderStamp
    · simp only
      rw [if_pos hle, update_some _ h0a]
      simp only
      rw [update_some _ (by rw [store_other _ _ _ _ haz]; exact hz)]
      simp only [pure, Except.pure]
      obtain ⟨hb, hl⟩ := run_unique f ((w ++ [(z, fz)]).map (·.2)) [] (by simp) (by simp; omega)
      rw [List.append_nil] at hb hl
      refine ⟨_, w ++ [(z, fz)] ++ [(a, f)], by rw [hl]; rfl, finish _ _ _ _ ?_ ?_ ?_ ?_ ?_, ?_⟩
      · rw [Seg.append, Seg.append]
        refine ⟨⟨?_, ?_, trivial⟩, ?_, trivial⟩
        · apply Seg.frame w _ hs1
          intro x hx
          rw [store_other _ _ _ _ (hwz x hx), store_other _ _ _ _ (haq x (by simp [hx]))]
        · rw [store_same]; simp
        · rw [store_other _ _ _ _ haz.symm, store_same]; simp
      · rw [h.first]; cases w <;> simp
      · simp
      · rw [List.perm_append_comm.trans (by simp : List.Perm ([(a, f)] ++ (w ++ [(z, fz)])) ((a, f) :: (w ++ [(z, fz)]))) |> fun h => h.congr_left _]
      · intro b hb1 hb2
        rw [store_other _ _ _ _ (hb2 (z, fz) (by simp)), store_other _ _ _ _ hb1, h0o b hb1]
      · unfold place Spec.insert; rw [hl, hb]; simp
    · simp only
      rw [if_neg hle]
      obtain ⟨xs, p, fp, ys, e, hse, hx, hy⟩ := search_ok h0 f.senderStamp w.length w z fz none (l.fresh + 1) rfl hs0 (by
        have := h.total; simp only [List.length_append] at this; omega)
      rw [hse]
      simp only
      rw [e] at hs0 haq hndq ⊢
      have hlast : fp.senderStamp ≤ f.senderStamp → ys ≠ [] := by
        intro hfp e0
        rw [e0] at e
        have : (w ++ [(z, fz)]).getLast? = (xs ++ [(p, fp)]).getLast? := by rw [e]
        simp only [List.getLast?_append, List.getLast?_singleton, Option.some_or, Option.some.injEq, Prod.mk.injEq] at this
        obtain ⟨rfl, rfl⟩ := this
        omega
      obtain ⟨hs3, hs4⟩ := (Seg.append _ _).1 hs0
      have hpa : p ≠ a := haq (p, fp) (by simp)
      rw [List.map_append, List.map_cons] at hndq
      obtain ⟨hnx, hny, hxy⟩ := List.nodup_append.1 hndq
      rw [List.nodup_cons] at hny
      have hxp : ∀ x ∈ xs, x.1 ≠ p := fun x hx => hxy x.1 (List.mem_map_of_mem hx) p (by simp)
      have hyp : ∀ y ∈ ys, y.1 ≠ p := fun y hy e => hny.1 (List.mem_map.2 ⟨y, hy, e⟩)
      rw [deref_some hs4.1]
      simp only
      by_cases hxe : xs = []
      · subst hxe
        simp only [List.getLast?_nil, Option.map_none, Option.none_or, Option.isSome_none, Bool.false_eq_true, if_false]
        rw [update_some _ h0a]
        simp only
        rw [update_some _ (by rw [store_other _ _ _ _ hpa]; exact hs4.1)]
        simp only [pure, Except.pure]
        have hrun : laterRun f (List.map (·.2) ([] ++ (p, fp) :: ys)) ≠ [] ∧ (before f (List.map (·.2) ([] ++ (p, fp) :: ys))).length ≤ 1 := by
          by_cases hfp : fp.senderStamp ≤ f.senderStamp
          · obtain ⟨h1, h2⟩ := run_unique f [fp] (ys.map (·.2)) (by
              intro y hy'; obtain ⟨x, hx, rfl⟩ := List.mem_map.1 hy'; exact hy x hx) (by simp; exact hfp)
            simp only [List.nil_append, List.map_cons, List.singleton_append] at h1 h2 ⊢
            rw [h1, h2]
            exact ⟨by simpa using hlast hfp, by simp⟩
          · obtain ⟨h1, h2⟩ := run_unique f [] (fp :: ys.map (·.2)) (by
              intro y hy'
              rcases List.mem_cons.1 hy' with rfl | hy'
              · omega
              · obtain ⟨x, hx, rfl⟩ := List.mem_map.1 hy'; exact hy x hx) (by simp)
            simp only [List.nil_append, List.map_cons] at h1 h2 ⊢
            rw [h1, h2]
            exact ⟨by simp, by simp⟩
        refine ⟨_, (a, f) :: ([] ++ (p, fp) :: ys), by rw [show decide (laterRun f (List.map (·.2) ([] ++ (p, fp) :: ys)) ≠ []) = true from decide_eq_true hrun.1], ?_, ?_⟩
        · rw [e] at finish
          apply finish
          · refine ⟨?_, ?_, ?_⟩
            · rw [store_other _ _ _ _ hpa.symm, store_same]; rfl
            · rw [store_same]
            · apply Seg.frame ys _ hs4.2
              intro y hy
              rw [store_other _ _ _ _ (hyp y hy), store_other _ _ _ _ (haq y (by simp [hy]))]
          · rfl
          · rw [← e]; simp [List.getLast?_cons]
          · exact List.Perm.refl _
          · intro b hb1 hb2
            rw [store_other _ _ _ _ (hb2 (p, fp) (by simp)), store_other _ _ _ _ hb1, h0o b hb1]
        · unfold place; rw [if_pos hrun]; rfl
      · have hfp : fp.senderStamp ≤ f.senderStamp := by rcases hx with hx | hx; exact absurd hx hxe; exact hx
        obtain ⟨v, ⟨u, fu⟩, rfl⟩ : ∃ w x, xs = w ++ [x] := ⟨xs.dropLast, xs.getLast hxe, (List.dropLast_concat_getLast hxe).symm⟩
        obtain ⟨⟨b, g⟩, ys, rfl⟩ : ∃ y ys', ys = y :: ys' := by
          cases ys with
          | nil => exact absurd rfl (hlast hfp)
          | cons y ys => exact ⟨y, ys, rfl⟩
        simp only [List.getLast?_append, List.getLast?_singleton, Option.some_or, Option.map_some, List.head?_cons]
        rw [if_pos (by simp), update_some _ h0a]
        have hba : b ≠ a := haq (b, g) (by simp)
        have hbp : b ≠ p := hyp (b, g) (by simp)
        simp only
        rw [update_some _ (by rw [store_other _ _ _ _ hba]; exact hs4.2.1)]
        simp only
        rw [update_some _ (by rw [store_other _ _ _ _ hbp.symm, store_other _ _ _ _ hpa]; exact hs4.1)]
        simp only [pure, Except.pure]
        obtain ⟨h1, h2⟩ := run_unique f ((v ++ [(u, fu)] ++ [(p, fp)]).map (·.2)) (((b, g) :: ys).map (·.2)) (by
              intro y hy'; obtain ⟨x, hx, rfl⟩ := List.mem_map.1 hy'; exact hy x hx) (by simp; exact hfp)
        rw [← List.map_append] at h1 h2
        simp only [List.append_assoc, List.cons_append, List.nil_append] at h1 h2 ⊢
        rw [h2]
        refine ⟨_, v ++ (u, fu) :: (p, fp) :: (a, f) :: (b, g) :: ys, rfl, ?_, ?_⟩
        · rw [e] at finish
          have hbx : ∀ x ∈ v ++ [(u, fu)], x.1 ≠ b := fun x hx => hxy x.1 (List.mem_map_of_mem hx) b (by simp)
          have hby : ∀ y ∈ ys, y.1 ≠ b := fun y hy e => by
            have := hny.2; simp only [List.map_cons, List.nodup_cons] at this; exact this.1 (List.mem_map.2 ⟨y, hy, e⟩)
          apply finish
          · rw [show v ++ (u, fu) :: (p, fp) :: (a, f) :: (b, g) :: ys = (v ++ [(u, fu)]) ++ (p, fp) :: (a, f) :: (b, g) :: ys by simp, Seg.append]
            refine ⟨?_, ?_, ?_, ?_, ?_⟩
            · apply Seg.frame _ _ hs3
              intro x hx
              rw [store_other _ _ _ _ (hxp x hx), store_other _ _ _ _ (hbx x hx), store_other _ _ _ _ (haq x (by
                rcases List.mem_append.1 hx with hx | hx
                · simp [hx]
                · simp at hx; simp [hx]))]
            · rw [store_same]; simp
            · rw [store_other _ _ _ _ hpa.symm, store_other _ _ _ _ hba.symm, store_same]; simp
            · rw [store_other _ _ _ _ hbp, store_same]
            · apply Seg.frame ys _ hs4.2.2
              intro y hy
              rw [store_other _ _ _ _ (hyp y (by simp [hy])), store_other _ _ _ _ (hby y hy), store_other _ _ _ _ (haq y (by simp [hy]))]
          · rw [h.first, e]; cases v <;> simp
          · have hlz : (w ++ [(z, fz)]).getLast? = (v ++ [(u, fu)] ++ (p, fp) :: (b, g) :: ys).getLast? := by rw [e]
            simp [List.getLast?_append, List.getLast?_cons] at hlz ⊢
            rw [← hlz]
          · rw [show v ++ (u, fu) :: (p, fp) :: (a, f) :: (b, g) :: ys = (v ++ [(u, fu), (p, fp)]) ++ (a, f) :: ((b, g) :: ys) by simp]
            refine List.perm_middle.trans ?_
            simp
          · intro c hc1 hc2
            rw [store_other _ _ _ _ (hc2 (p, fp) (by simp)), store_other _ _ _ _ (hc2 (b, g) (by simp)), store_other _ _ _ _ hc1, h0o c hc1]
        · unfold place Spec.insert; rw [h1, h2, if_neg (by simp)]; simp

end Playout
