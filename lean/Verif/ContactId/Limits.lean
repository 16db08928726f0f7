import Verif.ContactId.Props

/-!
# Contact ID: where the code falls short

Each of these is the negation of something a user may expect.
-/

namespace ContactId

/-! ## Messages -/

/-- A digit A is refused, but a check digit of 10 is sent all the same, as a D. -/
theorem check_digit_D : ∃ r : Report, r.Sendable ∧ (encoded r).getLast? = some 'D' :=
  ⟨⟨0x1234, 0x18, 1, 0x110, 1, 0x002⟩, ⟨⟨by decide, by decide, by decide, by decide, by decide, by decide⟩, by decide⟩,
    by decide +kernel⟩

/-- A 0 taken for a D goes unnoticed, and another report is told. -/
theorem zero_for_D : ∃ (r r' : Report) (i : Nat), r.Sendable ∧ (encoded r)[i]? = some '0' ∧ r' ≠ r ∧
    decodeMsg ((encoded r).set i 'D') = some (some r') :=
  ⟨exReport, ⟨0x12BF, 0x18, 1, 0x11A, 1, 5⟩, 9, ex_sendable, by decide +kernel, by decide, by decide +kernel⟩

/-- A field with more digits than it should have makes the message longer than its buffer. -/
theorem too_long (r : Report) (h : 65536 ≤ r.acct) : encodeMsg r = none := by
  unfold encodeMsg print
  rw [if_neg (by omega)]
  rfl

/-! ## The receiver -/

/-- When a digit is lost, the next message is lost too, though all of its digits come. -/
theorem lost_digit : ∃ r : Report, r.Sendable ∧ ∃ s,
    Receiver.init.feed ((encoded r).eraseIdx 3 ++ encoded r) = some (s, []) := by
  have h : (Receiver.init.feed ((encoded exReport).eraseIdx 3 ++ encoded exReport)).map (·.2) = some [] := by
    decide +kernel
  obtain ⟨⟨s, ev⟩, h1, rfl⟩ := Option.map_eq_some_iff.mp h
  exact ⟨exReport, ex_sendable, s, h1⟩

/-- Even a report which was never sent can be told then. -/
theorem lost_digit_wrong : ∃ r r' : Report, r.Sendable ∧ r' ≠ r ∧ ∃ s,
    Receiver.init.feed ((encoded r).eraseIdx 0 ++ encoded r) = some (s, [r']) := by
  have h : (Receiver.init.feed ((encoded exReport).eraseIdx 0 ++ encoded exReport)).map (·.2) =
      some [⟨0x2BF1, 0x81, 1, 0x100, 0x10, 0x053⟩] := by
    decide +kernel
  obtain ⟨⟨s, ev⟩, h1, rfl⟩ := Option.map_eq_some_iff.mp h
  exact ⟨exReport, _, ex_sendable, by decide, s, h1⟩

/-- When a good message comes while a kissoff goes out, from then on the receiver fills whatever room it is
given with what was there before, for ever. -/
theorem message_in_kissoff (s : Receiver) (h6 : s.step = 6) (hd : s.digits = []) (r : Report) (h : r.Sendable) :
    ∃ s', s.feed (encoded r) = some (s', [r]) ∧
      ∀ rooms : List Nat, (s'.calls rooms).2 = List.replicate rooms.sum .stale := by
  obtain ⟨ds, e1, e2, -, e3⟩ := report_arrives r h
  have ed : encoded r = ds := by unfold encoded; rw [e1]; rfl
  have hfeed := feed_message ds e2 s hd
  rw [e3, Option.map_some] at hfeed
  simp only at hfeed
  refine ⟨_, by rw [ed, hfeed], ?_⟩
  have key : ∀ (rooms : List Nat) (t : Receiver), t.step = 7 → (t.calls rooms).2 = List.replicate rooms.sum .stale := by
    intro rooms
    induction rooms with
    | nil => intro t _; rfl
    | cons n ns ih =>
      intro t ht
      have : t.tx n = (t, List.replicate n .stale) := by unfold Receiver.tx; rw [ht]; rfl
      simp only [Receiver.calls, this]
      rw [ih t ht, List.replicate_append_replicate, List.sum_cons]
  exact fun rooms => key rooms _ (by simp [h6])

/-- Such a receiver: the handshake is out, and a message has come and the silence after it gone. -/
example : (((Receiver.init.calls (List.replicate 20 800)).1.feed (encoded exReport)).map
    fun p => ((p.1.calls [800]).1.step, (p.1.calls [800]).1.digits, p.2)) = some (6, [], [exReport]) := by decide +kernel

/-! ## The sender -/

/-- Once the message is out, no retry goes out, whatever is heard, until a kissoff ends the report. -/
theorem no_retry : ∀ (hs : List Hit) (s : Sender), s.toneState = 4 ∨ s.toneState = 5 → s.step = 0 → s.cts = false →
    .result true ∉ (s.blocks hs).2 → ∀ n, ((s.blocks hs).1.tx n).2 = [] := by
  have hb : ∀ (h : Hit) (s : Sender), s.toneState = 4 ∨ s.toneState = 5 → s.step = 0 → s.cts = false →
      .result true ∉ (s.block h).2 → ((s.block h).1.toneState = 4 ∨ (s.block h).1.toneState = 5) ∧
        (s.block h).1.step = 0 ∧ (s.block h).1.cts = false := by
    have ht : ∀ s : Sender, s.tick.1.toneState = s.toneState ∧ s.tick.1.step = s.step ∧ s.tick.1.cts = s.cts := by
      intro s
      unfold Sender.tick
      split
      · simp only
        split
        · split <;> exact ⟨rfl, rfl, rfl⟩
        · exact ⟨rfl, rfl, rfl⟩
      · exact ⟨rfl, rfl, rfl⟩
    have hc : ∀ (s : Sender) (h : Hit), s.toneState = 4 ∨ s.toneState = 5 → s.cts = false → .result true ∉ (s.change h).2 →
        ((s.change h).1.toneState = 4 ∨ (s.change h).1.toneState = 5) ∧ (s.change h).1.step = s.step ∧ (s.change h).1.cts = false := by
      intro s h h4 hcts hn
      rcases h4 with h4 | h4
      · simp only [Sender.change, h4] at hn ⊢
        split <;> simp [h4, hcts]
      · simp only [Sender.change, h4] at hn ⊢
        split
        · rename_i hh
          rw [if_pos hh] at hn
          split
          · split
            · simp [Sender.again, hcts]
            · simp [hcts]
          · rename_i hd
            rw [if_neg hd] at hn
            simp at hn
        · simp [h4, hcts]
    intro h s h4 h0 hcts hn
    unfold Sender.block at hn ⊢
    by_cases hh : h ≠ s.inTone ∧ h = s.lastHit
    · rw [if_pos hh] at hn ⊢
      simp only at hn ⊢
      obtain ⟨c1, c2, c3⟩ := hc s h h4 hcts (fun hm => hn (List.mem_append_left _ hm))
      obtain ⟨t1, t2, t3⟩ := ht { (s.change h).1 with lastHit := h, duration := (s.change h).1.duration + 55 }
      rw [t1, t2, t3]
      exact ⟨c1, c2.trans h0, c3⟩
    · rw [if_neg hh]
      simp only
      obtain ⟨t1, t2, t3⟩ := ht { s with lastHit := h, duration := s.duration + 55 }
      rw [t1, t2, t3]
      exact ⟨h4, h0, hcts⟩
  intro hs
  induction hs with
  | nil =>
    intro s _ h0 hcts _ n
    simp only [Sender.blocks, Sender.tx, h0, hcts]
    split <;> simp
  | cons h hs ih =>
    intro s h4 h0 hcts hn n
    simp only [Sender.blocks] at hn ⊢
    obtain ⟨i1, i2, i3⟩ := hb h s h4 h0 hcts (fun hm => hn (List.mem_append_left _ hm))
    exact ih _ i1 i2 i3 (fun hm => hn (List.mem_append_right _ hm)) n

/-- To hear blocks. -/
def hear (hs : List Hit) : List Op := hs.map .hear

/-- A report is put, the handshake heard and the message sent. -/
def sent : List Op := .put exReport :: hear (handshakeBlocks 15 15 15) ++ [.tx 20000]

/-- The state of `no_retry` comes about: the message is out, three seconds of silence go by, and the digits of the
retry wait. -/
example : (Sender.init.run (sent ++ hear (List.replicate 440 .none))).map
    (fun p => (p.1.toneState, p.1.step, p.1.cts, p.1.dtmf.queue.length, p.2)) = some (4, 0, false, 16, [.handshake]) := by
  decide +kernel

/-- In silence nothing changes for a sender whose timer does not run. -/
theorem silent : ∀ (n : Nat) (s : Sender), s.inTone = .none → s.timer ≤ 0 →
    (s.blocks (List.replicate n .none)).2 = [] ∧ (s.blocks (List.replicate n .none)).1.busy = s.busy := by
  intro n
  induction n with
  | zero => intro s _ _; exact ⟨rfl, rfl⟩
  | succ n ih =>
    intro s hi ht
    have hb : s.block .none = ({ s with lastHit := .none, duration := s.duration + 55 }, []) := by
      unfold Sender.block
      rw [if_neg (by rw [hi]; simp)]
      simp only
      unfold Sender.tick
      rw [if_neg (by simpa using ht)]
      rfl
    rw [List.replicate_succ]
    simp only [Sender.blocks, hb, List.nil_append]
    exact ih _ hi ht

/-- After a failure for want of a kissoff the sender stays busy: in silence it takes no report any more. -/
theorem busy_for_ever : ∃ s, Sender.init.run (sent ++ hear (List.replicate 1748 .none)) = some (s, [.handshake, .result false]) ∧
    ∀ n r, (s.blocks (List.replicate n .none)).1.put r = some ((s.blocks (List.replicate n .none)).1, -1) := by
  have h : (Sender.init.run (sent ++ hear (List.replicate 1748 .none))).map
      (fun p => (p.1.inTone, p.1.timer, p.1.busy, p.2)) = some (.none, 0, true, [.handshake, .result false]) := by
    decide +kernel
  obtain ⟨⟨s, ev⟩, h1, h2⟩ := Option.map_eq_some_iff.mp h
  simp only [Prod.mk.injEq] at h2
  obtain ⟨i1, i2, i3, rfl⟩ := h2
  refine ⟨s, h1, fun n r => ?_⟩
  have := (silent n s i1 (by omega)).2
  unfold Sender.put
  rw [if_pos (by rw [this, i3])]

/-- A kissoff which comes after failure was told makes it tell success as well. -/
theorem two_results : ∃ s, Sender.init.run (sent ++ hear (List.replicate 1748 .none ++ List.replicate 124 .hz1400 ++ [.none, .none])) =
    some (s, [.handshake, .result false, .result true]) := by
  have h : (Sender.init.run (sent ++ hear (List.replicate 1748 .none ++ List.replicate 124 .hz1400 ++ [.none, .none]))).map
      (fun p => p.2) = some [.handshake, .result false, .result true] := by
    decide +kernel
  obtain ⟨⟨s, ev⟩, h1, rfl⟩ := Option.map_eq_some_iff.mp h
  exact ⟨s, h1⟩

/-- A kissoff is told as success even if no report was ever put. -/
theorem success_of_nothing : ∃ s, Sender.init.run (hear (handshakeBlocks 15 15 15 ++ List.replicate 124 .hz1400 ++ [.none, .none])) =
    some (s, [.handshake, .result true]) := by
  have h : (Sender.init.run (hear (handshakeBlocks 15 15 15 ++ List.replicate 124 .hz1400 ++ [.none, .none]))).map
      (fun p => p.2) = some [.handshake, .result true] := by
    decide +kernel
  obtain ⟨⟨s, ev⟩, h1, rfl⟩ := Option.map_eq_some_iff.mp h
  exact ⟨s, h1⟩

/-- The second report of a call has no timer: if no kissoff comes, nothing is ever told of it. -/
theorem second_not_watched : ∃ s, Sender.init.run (sent ++ hear (List.replicate 124 .hz1400 ++ List.replicate 500 .none) ++ [.put exReport, .tx 20000]) =
      some (s, [.handshake, .result true]) ∧ s.len = 16 ∧ ∀ n, (s.blocks (List.replicate n .none)).2 = [] := by
  have h : (Sender.init.run (sent ++ hear (List.replicate 124 .hz1400 ++ List.replicate 500 .none) ++ [.put exReport, .tx 20000])).map
      (fun p => (p.1.inTone, decide (p.1.timer ≤ 0), p.1.len, p.2)) = some (.none, true, 16, [.handshake, .result true]) := by
    decide +kernel
  obtain ⟨⟨s, ev⟩, h1, h2⟩ := Option.map_eq_some_iff.mp h
  simp only [Prod.mk.injEq, decide_eq_true_eq] at h2
  obtain ⟨i1, i2, i3, rfl⟩ := h2
  exact ⟨s, h1, i3, fun n => (silent n s i1 i2).1⟩

/-- Of a report which was refused failure is told all the same. -/
theorem refused_fails : ∃ s s1 r, Sender.init.put r = some (s, -1) ∧
    s.run (hear (handshakeBlocks 15 15 15 ++ List.replicate 1748 .none)) = some (s1, [.handshake, .result false]) := by
  have h : ((Sender.init.put ⟨0xA, 0x18, 1, 0x110, 1, 5⟩).bind fun p =>
      (p.1.run (hear (handshakeBlocks 15 15 15 ++ List.replicate 1748 .none))).map fun q => (p.2, q.2)) =
      some (-1, [.handshake, .result false]) := by
    decide +kernel
  obtain ⟨⟨s, k⟩, h1, h2⟩ := Option.bind_eq_some_iff.mp h
  obtain ⟨⟨s1, ev⟩, h3, h4⟩ := Option.map_eq_some_iff.mp h2
  simp only [Prod.mk.injEq] at h4
  obtain ⟨rfl, rfl⟩ := h4
  exact ⟨s, s1, _, h1, h3⟩

/-- After four short kissoffs the sender is deaf: nothing is told any more, whatever is heard, even if reports
are put. -/
theorem deaf : ∃ s, Sender.init.run (sent ++ hear ((List.replicate 4 (List.replicate 20 .hz1400 ++ [.none, .none])).flatten)) =
      some (s, [.handshake, .result false]) ∧ ∀ hs, (s.blocks hs).2 = [] := by
  have key : ∀ (hs : List Hit) (s : Sender), s.toneState = 5 → s.inTone = .none → s.timer ≤ 0 → (s.blocks hs).2 = [] := by
    intro hs
    induction hs with
    | nil => intro s _ _ _; rfl
    | cons h hs ih =>
      intro s h5 hi ht
      have hb : s.block h = ({ s with lastHit := h, duration := s.duration + 55 }, []) := by
        have hc : h ≠ s.inTone → s.change h = (s, []) := by
          intro hne
          rw [hi] at hne
          simp only [Sender.change, h5]
          rw [if_neg hne]
        unfold Sender.block
        by_cases hh : h ≠ s.inTone ∧ h = s.lastHit
        · rw [if_pos hh, hc hh.1]
          simp only
          unfold Sender.tick
          rw [if_neg (by simpa using ht)]
          rfl
        · rw [if_neg hh]
          simp only
          unfold Sender.tick
          rw [if_neg (by simpa using ht)]
          rfl
      simp only [Sender.blocks, hb, List.nil_append]
      exact ih _ h5 hi ht
  have h : (Sender.init.run (sent ++ hear ((List.replicate 4 (List.replicate 20 .hz1400 ++ [.none, .none])).flatten))).map
      (fun p => (p.1.toneState, p.1.inTone, decide (p.1.timer ≤ 0), p.2)) = some (5, .none, true, [.handshake, .result false]) := by
    decide +kernel
  obtain ⟨⟨s, ev⟩, h1, h2⟩ := Option.map_eq_some_iff.mp h
  simp only [Prod.mk.injEq, decide_eq_true_eq] at h2
  obtain ⟨i1, i2, i3, rfl⟩ := h2
  exact ⟨s, h1, fun hs => key hs s i1 i2 i3⟩

end ContactId
