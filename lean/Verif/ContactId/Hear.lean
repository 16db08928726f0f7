import Verif.ContactId.Send

namespace ContactId

/-- The timer reports nothing. -/
theorem tick_quiet (s : Sender) (h : s.toneState ≠ 4 ∨ s.len = 0 ∨ s.timer ≤ 0 ∨ 55 < s.timer) :
    s.tick = ({ s with timer := if s.timer > 0 then s.timer - 55 else s.timer }, []) := by
  unfold Sender.tick
  by_cases ht : s.timer > 0
  · rw [if_pos ht]
    simp only [if_pos ht]
    rw [if_neg]
    rintro ⟨h1, h2, h3⟩
    rcases h with h | h | h | h
    · exact h h2
    · exact h3 h
    · omega
    · omega
  · rw [if_neg ht]
    simp only [if_neg ht]

/-- A block which brings no change. -/
theorem block_same (s : Sender) (hit : Hit) (h1 : hit = s.inTone ∨ hit ≠ s.lastHit)
    (h : s.toneState ≠ 4 ∨ s.len = 0 ∨ s.timer ≤ 0 ∨ 55 < s.timer) :
    s.block hit = ({ s with lastHit := hit, duration := s.duration + 55,
                            timer := if s.timer > 0 then s.timer - 55 else s.timer }, []) := by
  unfold Sender.block
  rw [if_neg]
  · simp only
    rw [tick_quiet { s with lastHit := hit, duration := s.duration + 55 } h]
    rfl
  · rintro ⟨h2, h3⟩
    rcases h1 with h1 | h1
    · exact h2 h1
    · exact h1 h3

/-- Many of them. -/
theorem blocks_same (hit : Hit) : ∀ (n : Nat) (s : Sender), hit = s.inTone → s.lastHit = hit →
    (s.toneState ≠ 4 ∨ s.len = 0) →
    ∃ t, s.blocks (List.replicate n hit) = ({ s with duration := s.duration + 55*n, timer := t }, []) ∧
      (s.timer ≤ 0 → t ≤ 0) := by
  intro n
  induction n with
  | zero => intro s _ _ _; exact ⟨s.timer, rfl, fun h => h⟩
  | succ n ih =>
    intro s h1 h2 h3
    rw [List.replicate_succ, Sender.blocks, block_same s hit (Or.inl h1) (by
      rcases h3 with h | h
      · exact Or.inl h
      · exact Or.inr (Or.inl h))]
    simp only
    obtain ⟨t, ht, h4⟩ := ih
      { s with lastHit := hit, duration := s.duration + 55, timer := if s.timer > 0 then s.timer - 55 else s.timer }
      h1 rfl h3
    rw [ht]
    refine ⟨t, ?_, fun h => h4 (by simp only; split <;> omega)⟩
    simp only [List.nil_append, Prod.mk.injEq, and_true]
    rw [← h2, show s.duration + 55 + 55*n = s.duration + 55*(n + 1) by omega]

theorem blocks_append : ∀ (l m : List Hit) (s : Sender),
    s.blocks (l ++ m) = (((s.blocks l).1.blocks m).1, (s.blocks l).2 ++ ((s.blocks l).1.blocks m).2) := by
  intro l
  induction l with
  | nil => intro m s; simp [Sender.blocks]
  | cons h l ih => intro m s; simp only [List.cons_append, Sender.blocks, ih, List.append_assoc]

/-- A new tone, or silence: the first block changes nothing, the second does. -/
theorem phase (s : Sender) (hit : Hit) (n : Nat) (h1 : hit ≠ s.inTone) (h2 : hit ≠ s.lastHit)
    (h3 : s.toneState ≠ 4 ∨ s.len = 0 ∨ s.timer ≤ 0 ∨ 55 < s.timer)
    (s2 : Sender) (e : List Event)
    (hc : ∀ t, { s with lastHit := hit, duration := s.duration + 55, timer := t }.change hit = ({ s2 with timer := t }, e))
    (h4 : s2.inTone = hit) (h5 : s2.duration = 0) (h6 : s2.toneState ≠ 4 ∨ s2.len = 0) (h7 : s2.lastHit = hit) :
    ∃ t, s.blocks (List.replicate (n + 2) hit) = ({ s2 with duration := 55*(n + 1), timer := t }, e) ∧
      (s.timer ≤ 0 → t ≤ 0) := by
  rw [List.replicate_succ, Sender.blocks, block_same s hit (Or.inr h2) h3]
  simp only
  rw [List.replicate_succ, Sender.blocks]
  generalize ht1 : (if s.timer > 0 then s.timer - 55 else s.timer) = t1
  rw [Sender.block]
  simp only
  rw [if_pos ⟨h1, trivial⟩, hc t1]
  simp only
  rw [tick_quiet _ (by
    rcases h6 with h | h
    · exact Or.inl h
    · exact Or.inr (Or.inl h))]
  simp only
  obtain ⟨t, ht, h8⟩ := blocks_same hit n { s2 with lastHit := hit, duration := s2.duration + 55, timer := (if t1 > 0 then t1 - 55 else t1) }
    h4.symm rfl h6
  rw [ht]
  refine ⟨t, ?_, fun h => h8 (by simp only; split at ht1 <;> split <;> omega)⟩
  simp only [List.nil_append, List.append_nil, Prod.mk.injEq, and_true]
  rw [h5, ← h7, show 0 + 55 + 55*n = 55*(n + 1) by omega]

/-- A state as it is when nothing has been heard. -/
def Sender.Quiet (s : Sender) : Prop := s.inTone = .none ∧ s.lastHit = .none

theorem handshake_blocks (s : Sender) (h0 : s.toneState = 0) (hq : s.Quiet) (ht : s.timer ≤ 0) (b c d : Nat)
    (hb : 11 ≤ b ∧ b ≤ 18) (hc : 11 ≤ c ∧ c ≤ 18) (hd : 11 ≤ d ∧ d ≤ 18) :
    ∃ t, s.blocks (List.replicate b .hz1400 ++ List.replicate c .none ++ List.replicate d .hz2300 ++ [.none, .none]) =
      ({ s with toneState := 4, cts := true, tries := 0, duration := 55, timer := t }, [.handshake]) ∧
      (s.len ≠ 0 → t = 23945) := by
  obtain ⟨q1, q2⟩ := hq
  obtain ⟨b, rfl⟩ : ∃ b', b = b' + 2 := ⟨b - 2, by omega⟩
  obtain ⟨c, rfl⟩ : ∃ c', c = c' + 2 := ⟨c - 2, by omega⟩
  obtain ⟨d, rfl⟩ : ∃ d', d = d' + 2 := ⟨d - 2, by omega⟩
  obtain ⟨t1, e1, f1⟩ := phase s .hz1400 b (by rw [q1]; decide) (by rw [q2]; decide) (Or.inl (by omega))
    { s with lastHit := .hz1400, inTone := .hz1400, toneState := 1, duration := 0 } [] (by
      intro t; simp only [Sender.change, h0]; rfl) rfl rfl (Or.inl (by simp)) rfl
  have f1 := f1 ht
  obtain ⟨t2, e2, f2⟩ := phase { s with lastHit := .hz1400, inTone := .hz1400, toneState := 1, duration := 55*(b + 1), timer := t1 }
    .none c (by simp) (by simp) (Or.inl (by simp))
    { s with lastHit := .none, inTone := .none, toneState := 2, duration := 0 } [] (by
      intro t; simp only [Sender.change, if_true]; rw [if_neg (by omega)]) rfl rfl (Or.inl (by simp)) rfl
  have f2 := f2 f1
  obtain ⟨t3, e3, f3⟩ := phase { s with lastHit := .none, inTone := .none, toneState := 2, duration := 55*(c + 1), timer := t2 }
    .hz2300 d (by simp) (by simp) (Or.inl (by simp))
    { s with lastHit := .hz2300, inTone := .hz2300, toneState := 3, duration := 0 } [] (by
      intro t; simp only [Sender.change]; rw [if_neg (by omega), if_pos trivial]) rfl rfl (Or.inl (by simp)) rfl
  have f3 := f3 f2
  rw [blocks_append, blocks_append, blocks_append, e1]
  simp only
  rw [e2]
  simp only
  rw [e3]
  simp only [List.nil_append]
  rw [Sender.blocks, block_same _ _ (Or.inr (by simp)) (Or.inl (by simp))]
  simp only
  rw [Sender.blocks, Sender.block]
  simp only [Sender.change]
  rw [if_neg (show ¬ t3 > 0 by omega)]
  simp only [ne_eq, reduceCtorEq, not_false_eq_true, and_self, if_true]
  rw [if_neg (by omega)]
  simp only
  rw [tick_quiet _ (by
    by_cases hl : s.len = 0
    · right; left; exact hl
    · right; right; right
      simp only
      rw [if_pos hl]
      decide)]
  simp only [Sender.blocks]
  refine ⟨if (if ¬s.len = 0 then (24000 : Int) else t3) > 0 then (if ¬s.len = 0 then 24000 else t3) - 55
    else if ¬s.len = 0 then 24000 else t3, ?_, ?_⟩
  · simp only [List.nil_append, List.append_nil, Prod.mk.injEq]
    rw [q1, q2]
    exact ⟨rfl, trivial⟩
  · intro hl
    rw [if_pos hl]
    rfl

theorem kissoff_blocks (s : Sender) (h4 : s.toneState = 4) (hq : s.Quiet) (ht : s.timer ≤ 0 ∨ 55 < s.timer) (k : Nat)
    (hk : 59 ≤ k ∧ k ≤ 218) :
    ∃ t, s.blocks (List.replicate k .hz1400 ++ [.none, .none]) =
      ({ s with cts := true, len := 0, tries := 0, busy := false, duration := 55, timer := t }, [.result true]) := by
  obtain ⟨q1, q2⟩ := hq
  obtain ⟨k, rfl⟩ : ∃ b', k = b' + 2 := ⟨k - 2, by omega⟩
  obtain ⟨t1, e1, -⟩ := phase s .hz1400 k (by rw [q1]; decide) (by rw [q2]; decide) (Or.inr (Or.inr ht))
    { s with lastHit := .hz1400, inTone := .hz1400, toneState := 5, duration := 0 } [] (by
      intro t; simp only [Sender.change, h4]; rfl) rfl rfl (Or.inl (by simp)) rfl
  rw [blocks_append, e1]
  simp only [List.nil_append]
  rw [Sender.blocks, block_same _ _ (Or.inr (by simp)) (Or.inl (by simp))]
  simp only
  rw [Sender.blocks, Sender.block]
  simp only [Sender.change]
  simp only [ne_eq, reduceCtorEq, not_false_eq_true, and_self, if_true]
  rw [if_neg (by omega)]
  simp only
  rw [tick_quiet _ (Or.inr (Or.inl rfl))]
  simp only [Sender.blocks]
  refine ⟨if (if t1 > 0 then t1 - 55 else t1) > 0 then (if t1 > 0 then t1 - 55 else t1) - 55
    else if t1 > 0 then t1 - 55 else t1, ?_⟩
  simp only [List.nil_append, List.append_nil, Prod.mk.injEq]
  rw [q1, q2, h4]
  exact ⟨rfl, trivial⟩

/-! ## Waiting for the kissoff -/

/-- The sender waits: no kissoff yet, or one is being heard. -/
def Sender.Waits (s : Sender) : Prop :=
  s.len ≠ 0 ∧ s.tries < 4 ∧ ((s.toneState = 4 ∧ 0 < s.timer) ∨ s.toneState = 5)

/-- How many blocks without a kissoff it can wait for. -/
def Sender.patience (s : Sender) : Nat :=
  (3 - s.tries)*437 + if s.toneState = 4 then ((s.timer + 54)/55).toNat else 0

theorem again_same (s : Sender) : s.again.len = s.len ∧ s.again.tries = s.tries ∧ s.again.toneState = s.toneState ∧
    s.again.duration = s.duration ∧ s.again.lastHit = s.lastHit ∧ s.again.inTone = s.inTone := ⟨rfl, rfl, rfl, rfl, rfl, rfl⟩

theorem tick_waits (s : Sender) (h1 : s.len ≠ 0) (h2 : s.tries < 4) (h3 : s.toneState = 4) (h4 : 0 < s.timer) :
    s.tick.2 = [.result false] ∨ (s.tick.2 = [] ∧ s.tick.1.Waits ∧ s.tick.1.toneState = 4 ∧
      s.tick.1.patience + 1 ≤ s.patience) := by
  unfold Sender.tick
  rw [if_pos h4]
  simp only
  by_cases h5 : s.timer - 55 ≤ 0
  · rw [if_pos ⟨h5, h3, h1⟩]
    by_cases h6 : s.tries + 1 < 4
    · rw [if_pos h6]
      right
      refine ⟨rfl, ⟨h1, h6, Or.inl ⟨h3, by simp⟩⟩, h3, ?_⟩
      simp only [Sender.patience, Sender.again, h3, if_true]
      omega
    · rw [if_neg h6]
      left; rfl
  · rw [if_neg (fun h => h5 h.1)]
    right
    refine ⟨rfl, ⟨h1, h2, Or.inl ⟨h3, by simp only; omega⟩⟩, h3, ?_⟩
    simp only [Sender.patience, h3, if_true]
    omega

theorem tick_busy (s : Sender) (h1 : s.len ≠ 0) (h2 : s.tries < 4) (h3 : s.toneState = 5) :
    s.tick.2 = [] ∧ s.tick.1.Waits ∧ s.tick.1.toneState = 5 ∧ s.tick.1.patience = s.patience := by
  rw [tick_quiet s (Or.inl (by omega))]
  exact ⟨rfl, ⟨h1, h2, Or.inr h3⟩, h3, by simp [Sender.patience, h3]⟩

theorem block_waits (s : Sender) (h : s.Waits) (hit : Hit) :
    (∃ b, .result b ∈ (s.block hit).2) ∨
    ((s.block hit).2 = [] ∧ (s.block hit).1.Waits ∧
      (s.block hit).1.patience + (if (s.block hit).1.toneState = 4 then 1 else 0) ≤ s.patience) := by
  obtain ⟨h1, h2, h3⟩ := h
  unfold Sender.block
  simp only
  rcases h3 with ⟨h3, h4⟩ | h3
  · have plain : ∀ d, (∃ b, Event.result b ∈ [] ++ ({ s with lastHit := hit, duration := d }.tick).2) ∨
        ([] ++ ({ s with lastHit := hit, duration := d }.tick).2 = [] ∧ ({ s with lastHit := hit, duration := d }.tick).1.Waits ∧
        ({ s with lastHit := hit, duration := d }.tick).1.patience +
          (if ({ s with lastHit := hit, duration := d }.tick).1.toneState = 4 then 1 else 0) ≤ s.patience) := by
      intro d
      rcases tick_waits { s with lastHit := hit, duration := d } h1 h2 h3 h4 with e | ⟨e1, e2, e3, e4⟩
      · left; exact ⟨false, by rw [e]; simp⟩
      · right
        refine ⟨by rw [e1]; rfl, e2, ?_⟩
        rw [if_pos e3]
        exact e4
    by_cases hc : hit ≠ s.inTone ∧ hit = s.lastHit
    · simp only [if_pos hc]
      unfold Sender.change
      simp only [h3]
      by_cases h14 : hit = .hz1400
      · simp only [if_pos h14]
        obtain ⟨e1, e2, e3, e4⟩ := tick_busy { s with inTone := hit, toneState := 5, duration := 0 + 55, lastHit := hit } h1 h2 rfl
        right
        refine ⟨by rw [e1]; rfl, e2, ?_⟩
        rw [e3, if_neg (by decide), Nat.add_zero, e4]
        simp only [Sender.patience, h3, if_true]
        simp
      · simp only [if_neg h14]
        exact plain _
    · simp only [if_neg hc]
      exact plain _
  · have plain : ∀ d, (∃ b, Event.result b ∈ [] ++ ({ s with lastHit := hit, duration := d }.tick).2) ∨
        ([] ++ ({ s with lastHit := hit, duration := d }.tick).2 = [] ∧ ({ s with lastHit := hit, duration := d }.tick).1.Waits ∧
        ({ s with lastHit := hit, duration := d }.tick).1.patience +
          (if ({ s with lastHit := hit, duration := d }.tick).1.toneState = 4 then 1 else 0) ≤ s.patience) := by
      intro d
      obtain ⟨e1, e2, e3, e4⟩ := tick_busy { s with lastHit := hit, duration := d } h1 h2 h3
      right
      refine ⟨by rw [e1]; rfl, e2, ?_⟩
      rw [e3, if_neg (by decide), Nat.add_zero, e4]
      exact Nat.le_refl _
    by_cases hc : hit ≠ s.inTone ∧ hit = s.lastHit
    · simp only [if_pos hc]
      unfold Sender.change
      simp only [h3]
      by_cases h0 : hit = .none
      · simp only [if_pos h0]
        by_cases hd : s.duration < 3200 ∨ s.duration > 12000
        · simp only [if_pos hd]
          by_cases ht : s.tries + 1 < 4
          · simp only [if_pos ht, Sender.again, Nat.zero_add]
            rw [tick_quiet _ (Or.inr (Or.inr (Or.inr (by simp))))]
            right
            refine ⟨rfl, ⟨h1, ht, Or.inl ⟨rfl, by simp⟩⟩, ?_⟩
            simp only [Sender.patience, h3, if_true]
            simp
            omega
          · simp only [if_neg ht]
            left; exact ⟨false, by simp⟩
        · simp only [if_neg hd]
          left; exact ⟨true, by simp⟩
      · simp only [if_neg h0]
        exact plain _
    · simp only [if_neg hc]
      exact plain _

end ContactId
