import Verif.ContactId.History

/-!
# Contact ID: what a user may rely on
-/

namespace ContactId

/-! ## Messages -/

/-- A report is sent as sixteen DTMF digits, from which the same report is read. -/
theorem report_arrives (r : Report) (h : r.Sendable) :
    ∃ ds, encodeMsg r = some (ds, 16) ∧ ds.length = 16 ∧ (∀ c ∈ ds, c ∈ keys) ∧ decodeMsg ds = some (some r) := by
  refine ⟨_, encodeMsg_eq r h, by simp [digits_length], ?_, decode_encoded r h.1⟩
  have hv := checkVal_range (r.digits.map val).sum
  generalize checkVal (r.digits.map val).sum = v at hv
  intro c hc
  simp only [List.mem_append, List.mem_map, List.mem_singleton] at hc
  rcases hc with ⟨d, hd, rfl⟩ | rfl
  · exact (unmap_key ⟨d, digits_lt r d hd⟩).2.2.2
  · exact (unmap_key ⟨v, by omega⟩).2.2.2

/-- Just the reports with a digit A are refused. -/
theorem refused (r : Report) (h : r.Fits) : 10 ∈ r.digits ↔ ∃ b, encodeMsg r = some (b, -1) := by
  constructor
  · intro h10
    unfold encodeMsg
    rw [print_eq r h, Option.map_some]
    have := encLoop_refuses r.digits 0 (digits_lt r) h10
    generalize encLoop 0 (r.digits.map hexChar) = p at this
    obtain ⟨b, o⟩ := p
    simp only at this
    subst this
    exact ⟨b, rfl⟩
  · rintro ⟨b, hb⟩
    by_cases h10 : 10 ∈ r.digits
    · exact h10
    · rw [encodeMsg_eq r ⟨h, h10⟩] at hb
      simp at hb

/-- One wrong digit does not go unnoticed, unless a 0 is taken for a D or the other way round, which count the
same. -/
theorem wrong_digit_partial (l : List Char) (hk : ∀ c ∈ l, c ∈ keys) (r : Report) (hd : decodeMsg l = some (some r)) (i : Nat)
    (hi : i < l.length) (c : Char) (hc : c ∈ keys) (hne : c ≠ l[i]) :
    decodeMsg (l.set i c) = some none ∨ (l[i] = '0' ∧ c = 'D') ∨ (l[i] = 'D' ∧ c = '0') := by
  have hm : l[i] ∈ keys := hk _ (List.getElem_mem hi)
  obtain ⟨a1, a2, -⟩ := keys_worth c hc
  obtain ⟨b1, b2, b3⟩ := keys_worth l[i] hm
  by_cases he : worth (unmap l[i]) = worth (unmap c)
  · right
    rcases b3 c hc he with h | h | h
    · exact absurd h.symm hne
    · left; exact h
    · right; exact h
  · left
    unfold decodeMsg at hd ⊢
    by_cases hl : l.length ≥ 20
    · rw [if_pos hl] at hd; simp at hd
    · rw [if_neg hl] at hd
      rw [if_neg (by simpa using hl)]
      simp only [List.map_map] at hd ⊢
      by_cases hs : (l.map (worth ∘ unmap)).sum % 15 ≠ 0
      · rw [if_pos hs] at hd; simp at hd
      · rw [if_pos]
        have e := sum_set (worth ∘ unmap) l i hi c
        simp only [Function.comp] at e hs ⊢
        omega

/-! ## The receiver -/

/-- Whatever digits come in, they are kept within their array. -/
theorem any_digits (l : List Char) : ∃ s rs, Receiver.init.feed l = some (s, rs) ∧ s.digits.length < 16 := by
  have key : ∀ (l : List Char) (s : Receiver), s.digits.length < 16 →
      ∃ t rs, s.feed l = some (t, rs) ∧ t.digits.length < 16 := by
    intro l
    induction l with
    | nil => intro s h; exact ⟨s, [], rfl, h⟩
    | cons c l ih =>
      intro s h
      obtain ⟨s1, r1, e1, h1⟩ := digit_ok s h c
      obtain ⟨t, rs, e2, h2⟩ := ih s1 h1
      exact ⟨t, r1 ++ rs, by simp only [Receiver.feed, e1, Option.bind_some, e2, Option.map_some], h2⟩
  exact key l Receiver.init (by decide)

/-- Of each sixteen digits the report is told if there is a good one, and nothing else is. -/
theorem groups_of_sixteen : ∀ (gs : List (List Char)) (s : Receiver), (∀ g ∈ gs, g.length = 16) → s.digits = [] →
    s.feed gs.flatten = some ({ s with step := s.step + (gs.filterMap fun g => (decodeMsg g).getD none).length },
      gs.filterMap fun g => (decodeMsg g).getD none) := by
  intro gs
  induction gs with
  | nil => intro s _ _; rfl
  | cons g gs ih =>
    intro s h hs
    have hg := h g (List.mem_cons_self ..)
    rw [List.flatten_cons, feed_append, feed_message g hg s hs]
    obtain ⟨o, ho⟩ := decodeMsg_ok g (by omega)
    rw [ho, Option.map_some, Option.bind_some]
    cases o with
    | none =>
      simp only
      rw [ih _ (fun x hx => h x (List.mem_cons_of_mem _ hx)) rfl]
      simp [ho, hs]
    | some r =>
      simp only
      rw [ih _ (fun x hx => h x (List.mem_cons_of_mem _ hx)) rfl]
      simp [ho, hs]
      omega

/-- Any number of reports arrive, in order. -/
theorem reports_arrive (rs : List Report) (h : ∀ r ∈ rs, r.Sendable) :
    ∃ s, Receiver.init.feed (rs.flatMap encoded) = some (s, rs) := by
  have he : ∀ r ∈ rs, (encoded r).length = 16 ∧ decodeMsg (encoded r) = some (some r) := by
    intro r hr
    obtain ⟨ds, e1, e2, -, e3⟩ := report_arrives r (h r hr)
    have : encoded r = ds := by unfold encoded; rw [e1]; rfl
    rw [this]
    exact ⟨e2, e3⟩
  have hf : (rs.map encoded).filterMap (fun g => (decodeMsg g).getD none) = rs := by
    rw [List.filterMap_map]
    clear h
    induction rs with
    | nil => rfl
    | cons r rs ih =>
      have e := (he r (List.mem_cons_self ..)).2
      rw [List.filterMap_cons]
      simp only [Function.comp] at ih ⊢
      rw [e]
      simp only [Option.getD_some]
      rw [ih (fun x hx => he x (List.mem_cons_of_mem _ hx))]
  have := groups_of_sixteen (rs.map encoded) Receiver.init (by
    intro g hg
    obtain ⟨r, hr, rfl⟩ := List.mem_map.mp hg
    exact (he r hr).1) rfl
  rw [hf] at this
  exact ⟨_, by rw [List.flatMap_eq_foldl] at *; rw [← List.flatMap_eq_foldl, List.flatMap_def]; exact this⟩

/-- However a receiver is asked for samples, what it sends first are the two tones of the handshake, from the
beginning, and each call with room for samples takes it forward until all is sent; then it waits. -/
theorem handshake_sent (rooms : List Nat) : ∃ rest, handshake = (Receiver.init.calls rooms).2 ++ rest ∧
    (rest = [] ∨ (rooms.filter (0 < ·)).length ≤ (Receiver.init.calls rooms).2.length) ∧
    (rest = [] → (Receiver.init.calls rooms).1.step = 4 ∧ (Receiver.init.calls rooms).1.remaining = 800) := by
  have hf : Fine Receiver.init := ⟨by decide, by decide, by decide⟩
  obtain ⟨h1, h2, -, h4, -⟩ := calls_part rooms Receiver.init hf
  refine ⟨todo (Receiver.init.calls rooms).1, h1, ?_, ?_⟩
  · rcases h4 with h4 | h4
    · left; exact (todo_nil _ h2).mpr h4
    · right; exact h4
  · intro h
    have := (todo_nil _ h2).mp h
    exact ⟨this, h2.four this⟩

/-- A receiver which waits tells a good message and then sends the kissoff, however it is asked for samples;
then it waits again. -/
theorem kissoff_sent (s : Receiver) (h4 : s.step = 4) (hr : s.remaining = 800) (hd : s.digits = []) (r : Report)
    (h : r.Sendable) (rooms : List Nat) :
    ∃ s', s.feed (encoded r) = some (s', [r]) ∧ ∃ rest, kissoff = (s'.calls rooms).2 ++ rest ∧
      (rest = [] ∨ (rooms.filter (0 < ·)).length ≤ (s'.calls rooms).2.length) ∧
      (rest = [] → (s'.calls rooms).1.step = 4 ∧ (s'.calls rooms).1.remaining = 800 ∧ (s'.calls rooms).1.digits = []) := by
  obtain ⟨ds, e1, e2, -, e3⟩ := report_arrives r h
  have ed : encoded r = ds := by unfold encoded; rw [e1]; rfl
  have hfeed := feed_message ds e2 s hd
  rw [e3, Option.map_some] at hfeed
  simp only at hfeed
  refine ⟨{ s with step := s.step + 1, digits := [] }, by rw [ed, hfeed], ?_⟩
  obtain ⟨step, remaining, phase, digits⟩ := s
  simp only at h4 hr hd
  subst h4 hr hd
  have hf : Fine ⟨4 + 1, 800, phase, []⟩ := ⟨by simp, by simp, by simp⟩
  obtain ⟨h1, h2, h3, h5, -⟩ := calls_part rooms ⟨4 + 1, 800, phase, []⟩ hf
  refine ⟨_, h1, ?_, ?_⟩
  · rcases h5 with h5 | h5
    · left; exact (todo_nil _ h2).mpr h5
    · right; exact h5
  · intro h
    have := (todo_nil _ h2).mp h
    exact ⟨this, h2.four this, h3⟩

/-! ## The sender -/

/-- What is told does not depend on how the samples are cut into calls. -/
theorem rx_append (detect : List Int → Hit) : ∀ (l m : List Int) (s : Sender),
    s.rx detect (l ++ m) = (((s.rx detect l).1.rx detect m).1, (s.rx detect l).2 ++ ((s.rx detect l).1.rx detect m).2) := by
  intro l
  induction l with
  | nil => intro m s; simp [Sender.rx]
  | cons a l ih =>
    intro m s
    rw [List.cons_append, Sender.rx, Sender.rx]
    simp only
    split
    · exact ih m _
    · simp only [ih, List.append_assoc]

/-- It hears whole blocks of 55 samples. -/
theorem rx_block (detect : List Int → Hit) (l : List Int) (h : l.length = 55) (s : Sender) (hs : s.acc = []) :
    s.rx detect l = s.block (detect l) := by
  have key : ∀ (l : List Int) (s : Sender), s.acc.length + l.length < 55 →
      s.rx detect l = ({ s with acc := s.acc ++ l }, []) := by
    intro l
    induction l with
    | nil => intro s _; simp [Sender.rx]
    | cons a l ih =>
      intro s hl
      simp only [List.length_cons] at hl
      rw [Sender.rx]
      simp only
      rw [if_pos (by simp; omega), ih _ (by simp; omega)]
      simp
  obtain ⟨l, a, rfl⟩ : ∃ l' c, l = l' ++ [c] := by
    rcases List.eq_nil_or_concat l with e | ⟨l', c, e⟩
    · subst e; simp at h
    · exact ⟨l', c, by simp [e]⟩
  simp only [List.length_append, List.length_singleton] at h
  rw [rx_append, key l s (by rw [hs]; simp; omega)]
  simp only [hs, List.nil_append, Sender.rx]
  rw [if_neg (by simp; omega)]
  simp only [List.append_nil]
  rw [← hs]

theorem keys_positions : ∀ c ∈ keys, c ∈ dtmfPositions := by decide

theorem heard_append (l m : List Sig) : heard (l ++ m) = heard l ++ heard m := List.filterMap_append

theorem heard_digit (c : Char) : ∀ n, heard (digitFrom c 0 (n + 1)) = [c] := by
  intro n
  induction n with
  | zero => rfl
  | succ n ih =>
    rw [digitFrom_add, heard_append, ih]
    simp only [digitFrom, List.range_one, List.map_singleton, Nat.add_zero, Nat.zero_add]
    unfold digitSig
    split <;> simp [heard]

/-- The digits of a message can be heard in what is sent. -/
theorem heard_message (l : List Char) : heard (message l) = l := by
  unfold message
  rw [heard_append]
  have h1 : ∀ n, heard (List.replicate n .silence) = [] := by
    intro n
    induction n with
    | zero => rfl
    | succ n ih => rw [List.replicate_succ]; simpa [heard] using ih
  rw [h1, List.nil_append]
  induction l with
  | nil => rfl
  | cons c l ih => rw [List.flatMap_cons, heard_append, heard_digit, ih]; rfl

/-- The blocks of a handshake as a detector hears it: 100 ms are between 13 and 16 blocks of 55 samples, but
between 11 and 18 will do. -/
def handshakeBlocks (b c d : Nat) : List Hit :=
  List.replicate b .hz1400 ++ List.replicate c .none ++ List.replicate d .hz2300 ++ [.none, .none]

/-- The sender after a report was put. -/
def loaded (ds : List Char) : Sender := ⟨0, 800, ⟨ds, none⟩, ds, 16, 0, 0, 0, .none, .none, false, 0, true, []⟩

/-- The sender after the handshake. -/
def ready (ds : List Char) : Sender := ⟨0, 800, ⟨ds, none⟩, ds, 16, 0, 4, 55, .none, .none, true, 23945, true, []⟩

theorem put_handshake (r : Report) (h : r.Sendable) (b c d : Nat) (hb : 11 ≤ b ∧ b ≤ 18) (hc : 11 ≤ c ∧ c ≤ 18)
    (hd : 11 ≤ d ∧ d ≤ 18) : ∃ ds, encoded r = ds ∧ ds.length = 16 ∧ (∀ c ∈ ds, c ∈ keys) ∧ decodeMsg ds = some (some r) ∧
      Sender.init.put r = some (loaded ds, 0) ∧ (loaded ds).blocks (handshakeBlocks b c d) = (ready ds, [.handshake]) := by
  obtain ⟨ds, e1, e2, e3, e4⟩ := report_arrives r h
  refine ⟨ds, by unfold encoded; rw [e1]; rfl, e2, e3, e4, ?_, ?_⟩
  · unfold Sender.put
    rw [if_neg (by decide), e1, Option.map_some]
    simp only
    rw [if_neg (by decide)]
    simp [Dtmf.put, Sender.init, e2, loaded]
  · obtain ⟨t, hb1, hb2⟩ := handshake_blocks (loaded ds) rfl ⟨rfl, rfl⟩ (by simp [loaded]) b c d hb hc hd
    have hb2 := hb2 (by simp [loaded])
    subst hb2
    exact hb1

theorem calls_fields : ∀ (rooms : List Nat) (s : Sender), (s.calls rooms).1.toneState = s.toneState ∧
    (s.calls rooms).1.inTone = s.inTone ∧ (s.calls rooms).1.lastHit = s.lastHit ∧ (s.calls rooms).1.timer = s.timer := by
  intro rooms
  induction rooms with
  | nil => intro s; exact ⟨rfl, rfl, rfl, rfl⟩
  | cons n ns ih =>
    intro s
    obtain ⟨x1, -, x3, x4, x5, -⟩ := tx_fields s n
    obtain ⟨y1, y2, y3, y4⟩ := ih (s.tx n).1
    simp only [Sender.calls]
    exact ⟨y1.trans x1, y2.trans x4, y3.trans x3, y4.trans x5⟩

/-- The whole way of a report: it is taken, the handshake is heard and told, the message goes out from its
beginning however samples are asked for, and a receiver tells the report from the digits in it.  Then the
kissoff is heard and told, and the next report can be put. -/
theorem report_delivered (r : Report) (h : r.Sendable) (b c d k : Nat) (hb : 11 ≤ b ∧ b ≤ 18) (hc : 11 ≤ c ∧ c ≤ 18)
    (hd : 11 ≤ d ∧ d ≤ 18) (hk : 59 ≤ k ∧ k ≤ 218) (rooms : List Nat) :
    ∃ s s1 rest v t, Sender.init.put r = some (s, 0) ∧ s.blocks (handshakeBlocks b c d) = (s1, [.handshake]) ∧
      message (encoded r) = (s1.calls rooms).2 ++ rest ∧ (rest = [] ∨ (s1.calls rooms).2.length = rooms.sum) ∧
      Receiver.init.feed (heard (message (encoded r))) = some (v, [r]) ∧
      (s1.calls rooms).1.blocks (List.replicate k .hz1400 ++ [.none, .none]) = (t, [.result true]) ∧ t.busy = false := by
  obtain ⟨ds, ed, e2, e3, e4, hput, hb1⟩ := put_handshake r h b c d hb hc hd
  have hfine : (ready ds).Fine := ⟨by simp [ready], by simp [ready], fun c p h => by simp [ready] at h⟩
  obtain ⟨c1, c2, -, c4⟩ := Sender.calls_part rooms _ hfine
  have htodo : (ready ds).todo = message ds := by
    unfold Sender.todo ready message
    simp only [if_true]
    congr 1
    unfold Dtmf.todo
    simp only [List.nil_append]
    unfold ahead
    congr 1
    exact List.filter_eq_self.mpr (fun c hc => by simpa using keys_positions c (e3 c hc))
  rw [htodo] at c1
  have hfeed := feed_message ds e2 Receiver.init rfl
  rw [e4, Option.map_some] at hfeed
  simp only at hfeed
  obtain ⟨q1, q2, q3, q4⟩ := calls_fields rooms (ready ds)
  obtain ⟨t', hk1⟩ := kissoff_blocks _ q1 ⟨q2, q3⟩ (Or.inr (by rw [q4]; simp [ready])) k hk
  rw [ed, heard_message]
  refine ⟨_, _, (Sender.todo ((ready ds).calls rooms).1), _, _, hput, hb1, c1, ?_, hfeed, hk1, rfl⟩
  exact c4

/-- Success is told only after a good kissoff was heard, whatever else has happened. -/
theorem success_means (os : List Op) (s : Sender) (ev : List Event) (h : Sender.init.run os = some (s, ev))
    (hg : .result true ∈ ev) : ∃ pre t post, hits os = pre ++ t ++ post ∧ GoodKissoff t := by
  have := (Past.run os [] Sender.init [] past_init s ev h).good
  simp only [List.nil_append] at this
  exact this hg

/-- The handshake is told first, and once. -/
theorem handshake_first (os : List Op) (s : Sender) (ev : List Event) (h : Sender.init.run os = some (s, ev)) :
    ev = [] ∨ ∃ rs, ev = .handshake :: rs ∧ .handshake ∉ rs := by
  have p := Past.run os [] Sender.init [] past_init s ev h
  simp only [List.nil_append] at p
  by_cases h4 : s.toneState < 4
  · left; exact (p.before h4).1
  · right; exact p.after (by omega)

/-- How many of the blocks were heard outside of a kissoff. -/
def Sender.calm (s : Sender) : List Hit → Nat
  | [] => 0
  | h :: hs => (if (s.block h).1.toneState = 4 then 1 else 0) + (s.block h).1.calm hs

theorem waits_out : ∀ (hs : List Hit) (s : Sender), s.Waits →
    (∃ b, .result b ∈ (s.blocks hs).2) ∨ s.calm hs + (s.blocks hs).1.patience ≤ s.patience := by
  intro hs
  induction hs with
  | nil => intro s _; right; simp [Sender.calm, Sender.blocks]
  | cons h hs ih =>
    intro s hw
    simp only [Sender.blocks, Sender.calm]
    rcases block_waits s hw h with ⟨b, hb⟩ | ⟨e, h1, h2⟩
    · left; exact ⟨b, List.mem_append_left _ hb⟩
    · rcases ih _ h1 with ⟨b, hb⟩ | h3
      · left; exact ⟨b, List.mem_append_right _ hb⟩
      · right; omega

theorem handshaken (r : Report) (h : r.Sendable) (b c d : Nat) (hb : 11 ≤ b ∧ b ≤ 18) (hc : 11 ≤ c ∧ c ≤ 18)
    (hd : 11 ≤ d ∧ d ≤ 18) : ∃ s s1, Sender.init.put r = some (s, 0) ∧ s.blocks (handshakeBlocks b c d) = (s1, [.handshake]) ∧
      s1.Waits ∧ s1.patience = 1747 ∧ s1.toneState = 4 ∧ s1.inTone = .none := by
  obtain ⟨ds, -, -, -, -, hput, hb1⟩ := put_handshake r h b c d hb hc hd
  exact ⟨_, _, hput, hb1, ⟨by simp [ready], by simp [ready], Or.inl ⟨rfl, by simp [ready]⟩⟩, by simp [Sender.patience, ready], rfl, rfl⟩

/-- After the handshake a result is told within 1747 blocks (12.01 s) in which no kissoff is heard, however
those are mixed with kissoffs. -/
theorem in_time_partial (r : Report) (h : r.Sendable) (b c d : Nat) (hb : 11 ≤ b ∧ b ≤ 18) (hc : 11 ≤ c ∧ c ≤ 18)
    (hd : 11 ≤ d ∧ d ≤ 18) : ∃ s s1, Sender.init.put r = some (s, 0) ∧ s.blocks (handshakeBlocks b c d) = (s1, [.handshake]) ∧
      ∀ hs, 1747 < s1.calm hs → ∃ g, .result g ∈ (s1.blocks hs).2 := by
  obtain ⟨s, s1, h1, h2, h3, h4, -⟩ := handshaken r h b c d hb hc hd
  refine ⟨s, s1, h1, h2, ?_⟩
  intro hs hl
  rcases waits_out hs s1 h3 with h | h
  · exact h
  · omega

/-- In silence the sender stays outside of kissoffs, and tells no success. -/
theorem silence_calm : ∀ (n : Nat) (s : Sender), s.toneState = 4 → s.inTone = .none →
    s.calm (List.replicate n .none) = n ∧ .result true ∉ (s.blocks (List.replicate n .none)).2 := by
  intro n
  induction n with
  | zero => intro s _ _; exact ⟨rfl, by simp [Sender.blocks]⟩
  | succ n ih =>
    intro s h4 hi
    have hb : (s.block .none).1.toneState = 4 ∧ (s.block .none).1.inTone = .none ∧ .result true ∉ (s.block .none).2 := by
      unfold Sender.block
      rw [if_neg (by rw [hi]; simp)]
      simp only
      unfold Sender.tick
      split
      · simp only
        split
        · split
          · exact ⟨h4, hi, by simp⟩
          · exact ⟨h4, hi, by simp⟩
        · exact ⟨h4, hi, by simp⟩
      · exact ⟨h4, hi, by simp⟩
    rw [List.replicate_succ]
    simp only [Sender.calm, Sender.blocks]
    obtain ⟨i1, i2⟩ := ih _ hb.1 hb.2.1
    refine ⟨by rw [i1, if_pos hb.1]; omega, ?_⟩
    intro hm
    rcases List.mem_append.mp hm with hm | hm
    · exact hb.2.2 hm
    · exact i2 hm

/-- Without a kissoff failure is told after 12.02 s at most. -/
theorem fails_in_silence (r : Report) (h : r.Sendable) (b c d : Nat) (hb : 11 ≤ b ∧ b ≤ 18) (hc : 11 ≤ c ∧ c ≤ 18)
    (hd : 11 ≤ d ∧ d ≤ 18) (n : Nat) (hn : 1748 ≤ n) :
    ∃ s s1, Sender.init.put r = some (s, 0) ∧ s.blocks (handshakeBlocks b c d) = (s1, [.handshake]) ∧
      .result false ∈ (s1.blocks (List.replicate n .none)).2 := by
  obtain ⟨s, s1, h1, h2, h3, h4, h5, h6⟩ := handshaken r h b c d hb hc hd
  refine ⟨s, s1, h1, h2, ?_⟩
  obtain ⟨i1, i2⟩ := silence_calm n s1 h5 h6
  rcases waits_out (List.replicate n .none) s1 h3 with ⟨g, hg⟩ | h
  · cases g with
    | true => exact absurd hg i2
    | false => exact hg
  · omega

/-! ## Cases which meet the hypotheses -/

/-- Fire (110) in zone 5 of partition 1 of account 12BF. -/
def exReport : Report := ⟨0x12BF, 0x18, 1, 0x110, 1, 5⟩

theorem ex_sendable : exReport.Sendable := ⟨⟨by decide, by decide, by decide, by decide, by decide, by decide⟩, by decide⟩

example : (encodeMsg exReport).map (·.2) = some 16 := by decide +kernel
example : decodeMsg (encoded exReport) = some (some exReport) := by decide +kernel
example : (10 ∈ (⟨0xA, 0x18, 1, 0x110, 1, 5⟩ : Report).digits) := by decide
example : decodeMsg ((encoded exReport).set 3 '7') = some none := by decide +kernel
example : 11 ≤ 15 ∧ 15 ≤ 18 ∧ 59 ≤ 124 ∧ 124 ≤ 218 := by decide
example : GoodKissoff (List.replicate 70 .hz1400 ++ [.none, .none]) := by
  exact ⟨List.replicate 68 .hz1400, by decide, by decide +kernel, by decide, by decide⟩

end ContactId
