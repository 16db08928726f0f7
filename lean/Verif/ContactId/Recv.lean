import Verif.ContactId.Msg

namespace ContactId

/-! ## Digits -/

theorem decodeMsg_ok (l : List Char) (h : l.length < 20) : ∃ o, decodeMsg l = some o := by
  unfold decodeMsg
  rw [if_neg (by omega)]
  simp only
  split
  · exact ⟨_, rfl⟩
  · exact ⟨_, rfl⟩

theorem digit_ok (s : Receiver) (h : s.digits.length < 16) (c : Char) :
    ∃ s' rs, s.digit c = some (s', rs) ∧ s'.digits.length < 16 := by
  unfold Receiver.digit
  rw [if_neg (by omega)]
  simp only
  split
  · rename_i h16
    obtain ⟨o, ho⟩ := decodeMsg_ok (s.digits ++ [c]) (by omega)
    rw [ho, Option.map_some]
    cases o with
    | none => exact ⟨_, _, rfl, by simp⟩
    | some r => exact ⟨_, _, rfl, by simp⟩
  · rename_i h16
    refine ⟨_, _, rfl, ?_⟩
    simp at h16 ⊢
    omega

theorem feed_append (l m : List Char) : ∀ s : Receiver,
    s.feed (l ++ m) = (s.feed l).bind fun (s, rs) => (s.feed m).map fun (s, rs') => (s, rs ++ rs') := by
  induction l with
  | nil => intro s; simp [Receiver.feed]
  | cons c l ih =>
    intro s
    rw [List.cons_append, Receiver.feed, Receiver.feed]
    cases h : s.digit c with
    | none => rfl
    | some p =>
      obtain ⟨s', r⟩ := p
      rw [Option.bind_some, Option.bind_some]
      simp only
      rw [ih]
      cases h2 : s'.feed l with
      | none => rfl
      | some p =>
        obtain ⟨s2, rs⟩ := p
        rw [Option.bind_some, Option.map_some, Option.bind_some]
        simp only
        cases s2.feed m with
        | none => rfl
        | some p => simp [List.append_assoc]

/-- Up to fifteen digits are just kept. -/
theorem feed_short : ∀ (l : List Char) (s : Receiver), s.digits.length + l.length ≤ 15 →
    s.feed l = some ({ s with digits := s.digits ++ l }, []) := by
  intro l
  induction l with
  | nil => intro s _; simp [Receiver.feed]
  | cons c l ih =>
    intro s h
    simp only [List.length_cons] at h
    rw [Receiver.feed, Receiver.digit, if_neg (by omega)]
    simp only
    rw [if_neg (by simp; omega), Option.bind_some]
    simp only
    rw [ih _ (by simp; omega)]
    simp

/-- Sixteen digits are a message. -/
theorem feed_message (l : List Char) (h : l.length = 16) (s : Receiver) (hs : s.digits = []) :
    s.feed l = (decodeMsg l).map fun
      | some r => ({ s with step := s.step + 1, digits := [] }, [r])
      | none => ({ s with digits := [] }, []) := by
  obtain ⟨l, c, rfl⟩ : ∃ l' c, l = l' ++ [c] := by
    rcases List.eq_nil_or_concat l with e | ⟨l', c, e⟩
    · subst e; simp at h
    · exact ⟨l', c, by simpa using e⟩
  simp only [List.length_append, List.length_singleton] at h
  rw [feed_append, feed_short l s (by rw [hs]; simp; omega), Option.bind_some]
  simp only [hs, List.nil_append]
  rw [Receiver.feed, Receiver.digit, if_neg (by simp; omega)]
  simp only
  rw [if_pos (by simp; omega)]
  obtain ⟨o, ho⟩ := decodeMsg_ok (l ++ [c]) (by simp; omega)
  rw [ho, Option.map_some, Option.map_some, Option.bind_some]
  cases o with
  | none => rfl
  | some r => rfl

/-! ## Tones -/

/-- What is still to be sent. -/
def todo (s : Receiver) : List Sig :=
  match s.step with
  | 0 => List.replicate s.remaining .silence ++ toneFrom 1400 0 800 ++ List.replicate 800 .silence ++ toneFrom 2300 0 800
  | 1 => toneFrom 1400 s.phase s.remaining ++ List.replicate 800 .silence ++ toneFrom 2300 0 800
  | 2 => List.replicate s.remaining .silence ++ toneFrom 2300 0 800
  | 3 => toneFrom 2300 s.phase s.remaining
  | 5 => List.replicate s.remaining .silence ++ toneFrom 1400 0 6800
  | 6 => toneFrom 1400 s.phase s.remaining
  | _ => []

/-- A receiver as it is between its steps. -/
structure Fine (s : Receiver) : Prop where
  step : s.step ≤ 6
  pos : 0 < s.remaining
  four : s.step = 4 → s.remaining = 800

theorem toneFrom_add (hz p m n : Nat) : toneFrom hz p (m + n) = toneFrom hz p m ++ toneFrom hz (p + m) n := by
  unfold toneFrom
  rw [List.range_add, List.map_append, List.map_map]
  congr 1
  apply List.map_congr_left
  intro i _
  simp [Nat.add_assoc]

theorem toneFrom_length (hz p n : Nat) : (toneFrom hz p n).length = n := by simp [toneFrom]

theorem toneFrom_zero (hz p : Nat) : toneFrom hz p 0 = [] := rfl

/-- Part of what is to be sent goes out: some of it, if there is room. -/
theorem tx_part (s : Receiver) (h : Fine s) (room : Nat) :
    todo s = (s.tx room).2 ++ todo (s.tx room).1 ∧ Fine (s.tx room).1 ∧ (s.tx room).1.digits = s.digits ∧
    (s.tx room).2.length ≤ room ∧
    (0 < room → s.step ≠ 4 → 0 < (s.tx room).2.length) ∧ (s.step = 4 → (s.tx room).1 = s) := by
  obtain ⟨step, remaining, phase, digits⟩ := s
  obtain ⟨h1, h2, h3⟩ := h
  simp only at h1 h2 h3
  have hs : step = 0 ∨ step = 1 ∨ step = 2 ∨ step = 3 ∨ step = 4 ∨ step = 5 ∨ step = 6 := by omega
  rcases hs with rfl | rfl | rfl | rfl | rfl | rfl | rfl
  case inr.inr.inr.inr.inl =>
    exact ⟨rfl, ⟨h1, h2, h3⟩, rfl, by simp [Receiver.tx], by simp, by simp [Receiver.tx]⟩
  all_goals
    unfold Receiver.tx stepFor
    simp only
    by_cases hr : remaining > room
    · obtain ⟨k, rfl⟩ : ∃ k, remaining = room + k := ⟨remaining - room, by omega⟩
      simp only [if_pos hr, Nat.add_sub_cancel_left]
      rw [if_pos (by omega)]
      refine ⟨?_, ⟨by simp, by simp; omega, by simp⟩, rfl, by simp [toneFrom_length], by simp [toneFrom_length], by simp⟩
      simp only [todo, toneFrom_add, List.replicate_add, List.append_assoc, Option.isSome_some,
        if_true, -List.reduceReplicate]
    · simp only [if_neg hr, Nat.sub_self]
      rw [if_neg (by omega)]
      refine ⟨?_, ⟨by simp, by simp, by simp⟩, rfl, by simp [toneFrom_length]; omega, by simp [toneFrom_length]; omega, by simp⟩
      simp only [todo, List.append_assoc, Option.isSome_none, Bool.false_eq_true, if_false,
        List.append_nil, -List.reduceReplicate]

theorem todo_nil (s : Receiver) (h : Fine s) : todo s = [] ↔ s.step = 4 := by
  obtain ⟨step, remaining, phase, digits⟩ := s
  obtain ⟨h1, h2, h3⟩ := h
  simp only at h1 h2 h3
  have hs : step = 0 ∨ step = 1 ∨ step = 2 ∨ step = 3 ∨ step = 4 ∨ step = 5 ∨ step = 6 := by omega
  have ht : ∀ hz p n, 0 < n → toneFrom hz p n ≠ [] := by
    intro hz p n hn e
    have := congrArg List.length e
    simp [toneFrom_length] at this
    omega
  rcases hs with rfl | rfl | rfl | rfl | rfl | rfl | rfl <;> simp [todo, ht _ _ _ h2, -List.reduceReplicate]
  all_goals try omega

theorem calls_part : ∀ (rooms : List Nat) (s : Receiver), Fine s →
    todo s = (s.calls rooms).2 ++ todo (s.calls rooms).1 ∧ Fine (s.calls rooms).1 ∧
    (s.calls rooms).1.digits = s.digits ∧
    ((s.calls rooms).1.step = 4 ∨ (rooms.filter (0 < ·)).length ≤ (s.calls rooms).2.length) ∧
    (s.step = 4 → (s.calls rooms).1.step = 4) := by
  intro rooms
  induction rooms with
  | nil => intro s h; exact ⟨rfl, h, rfl, Or.inr (by simp [Receiver.calls]), fun h => h⟩
  | cons n ns ih =>
    intro s h
    obtain ⟨a1, a2, a3, -, a5, a6⟩ := tx_part s h n
    obtain ⟨b1, b2, b3, b4, b5⟩ := ih _ a2
    simp only [Receiver.calls]
    refine ⟨by rw [a1]; conv => lhs; rw [b1]
               rw [List.append_assoc], b2, by rw [b3, a3], ?_, ?_⟩
    · by_cases h4 : s.step = 4
      · left
        rw [a6 h4]
        rw [a6 h4] at b5
        exact b5 h4
      · rcases b4 with b4 | b4
        · left; exact b4
        · right
          simp only [List.length_append]
          by_cases hn : 0 < n
          · have := a5 hn h4
            simp only [List.filter_cons, hn, decide_true, if_true, List.length_cons]
            omega
          · simp only [List.filter_cons, hn, decide_false]
            simp only [Bool.false_eq_true, if_false]
            omega
    · intro h4
      rw [a6 h4] at b5 ⊢
      exact b5 h4

end ContactId
