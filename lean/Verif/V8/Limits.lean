import Verif.V8.Props

/-!
# What does not hold of V.8
-/

namespace V8

/-- A CM with an octet for non-standard facilities (/repo/src/v8.c:441-448 does not move past it) hangs
the receiver: the call which takes the bits never returns. -/
theorem nsf_hangs : ∃ l, (∀ p, puts (rxInit p) l = none) ∧
    ∃ o, l = times 3 (message 0xE0#8 [0x21#8, 0x05#8, o]) ∧ isNsf o = true ∧
      ∀ k m n, decodeLoop k ([0x21#8, 0x05#8, o] ++ [0#8]) m n = .going := by
  refine ⟨times 3 (message 0xE0#8 [0x21#8, 0x05#8, 0x0F#8]), ?_, 0x0F#8, rfl, by decide, ?_⟩
  · intro p
    have e : times 3 (message 0xE0#8 [0x21#8, 0x05#8, 0x0F#8]) = message 0xE0#8 [0x21#8, 0x05#8, 0x0F#8] ++
        (message 0xE0#8 [0x21#8, 0x05#8, 0x0F#8] ++ (message 0xE0#8 [0x21#8, 0x05#8, 0x0F#8] ++ [])) := by
      rw [times_succ, times_succ, times_succ]; rfl
    have hs : IsSync 0xE0#8 .cmJm := Or.inr (Or.inl ⟨rfl, rfl⟩)
    obtain ⟨r1, p1, h1⟩ := puts_message (rxInit p) (rxInit p) (init_ready p) 0xE0#8 .cmJm hs
      [0x21#8, 0x05#8, 0x0F#8] (by simp) rfl
    have f1 : finish r1 = some { r1 with saved := r1.data } := by
      unfold finish
      rw [h1.sync]
      simp only
      unfold cmJmDecode
      rw [if_neg (by rw [h1.gotCmJm]; simp [rxInit]), if_pos (Or.inl (by rw [h1.saved]; rfl)), h1.sync]
    obtain ⟨r2, p2, h2⟩ := puts_message r1 _ h1.bd.ready 0xE0#8 .cmJm hs
      [0x21#8, 0x05#8, 0x0F#8] (by simp) f1
    have hd1 : r1.data = [0x21#8, 0x05#8, 0x0F#8] := by rw [h1.data, List.nil_append]
    have hd2 : r2.data = [0x21#8, 0x05#8, 0x0F#8] := by rw [h2.data, List.nil_append]
    have hs2 : r2.saved = [0x21#8, 0x05#8, 0x0F#8] := by rw [h2.saved]; exact hd1
    have f2 : finish r2 = none := by
      unfold finish
      rw [h2.sync]
      simp only
      unfold cmJmDecode
      rw [if_neg (by rw [h2.gotCmJm, h1.gotCmJm]; simp [rxInit]), if_neg (by rw [hs2, hd2]; simp), hs2]
      unfold decodeSaved
      rw [nsf_never_ends _ _ _ (by decide)]
    rw [e, puts_append, p1, Option.bind_some, puts_append, p2, Option.bind_some, puts_append]
    obtain ⟨c, s, hp⟩ := h2.bd.ready
    unfold message
    rw [puts_append, hp, Option.bind_some, List.flatMap_cons, puts_append]
    obtain ⟨d, hq⟩ := puts_sync { r2 with stream := pushes c preamble, cnt := s } 0xE0#8 .cmJm hs
      (fun i a b => ones_pre c i a b)
    rw [finish_window, finish_window, f2] at hq
    rw [hq]
    rfl
  · intro k m n
    exact nsf_never_ends [0x21#8, 0x05#8, 0x0F#8] m n (by decide) k

/-- V.92 among the modulations (/repo/src/spandsp/v8.h, `V8_MOD_V92`) is never told. -/
theorem v92_not_told (n : Nat) (result parms got : Msg) (h : Told n result parms got) :
    got.modulations.getLsbD 13 = false := by
  rw [h.modulations 13]
  have : decide (13 ∈ tellable n) = false := by
    apply decide_eq_false
    unfold tellable
    by_cases h1 : 1 < n <;> by_cases h2 : 2 < n <;> simp [h1, h2]
  rw [this, Bool.and_false]

/-- The ends need not agree on the protocols: the JM has those of the answerer's parameters, while the
answerer's result has those of the caller's CM, or what its application made of them. -/
theorem protocols_differ : ∃ pc pa : Msg, ∃ a c,
    puts (rxInit pa) (times 3 (cmBits (rxInit pc).msg pc 3)) = some a ∧ a.gotCmJm = true ∧
    puts (rxInit pc) (times 3 (cmBits a.msg pa a.modBytes)) = some c ∧ c.gotCmJm = true ∧
    a.msg.protocols = 1#32 ∧ c.msg.protocols = 2#32 := by
  let pa : Msg := ⟨1#32, 1#32, 2#32, 0#32, BitVec.allOnes 32, 0#32, BitVec.allOnes 32⟩
  obtain ⟨a, h1, h2, h3, h4⟩ := cm_arrives_afresh pa (rxInit exMsg).msg exMsg 3 3 (by omega) (Nat.le_refl _) []
    (rxInit pa) rfl rfl
  obtain ⟨c, g1, g2, g3, g4⟩ := cm_arrives_afresh exMsg a.msg pa 3 3 (by omega) (Nat.le_refl _) []
    (rxInit exMsg) rfl rfl
  rw [List.nil_append] at h1 g1
  exact ⟨exMsg, pa, a, c, h1, h2, by rw [h3]; exact g1, g2, h4.protocols.trans (by decide), g4.protocols.trans (by decide)⟩

/-- One who is called can report two ends of the same negotiation: a calling tone, and a failure when the
wait for CM runs out with the same samples; or a calling tone, and then go on to success. -/
theorem two_reports :
    (∃ es s, run (v8Init false exParms) es = some s ∧ s.reports = [.failed, .callingTone] ∧ finals s = 2) ∧
    (∃ es s, run (v8Init false exParms) es = some s ∧ s.reports = [.v8Call, .offered, .callingTone] ∧
      finals s = 2) := by
  refine ⟨⟨[.rx 41440 none [] id, .rx 160 (some .calling) [] id], _, rfl, rfl, rfl⟩, ?_⟩
  let es : List Event := [.rx 160 (some .calling) (times 3 (cmBits exMsg exMsg 3)) id,
    .rx 160 none cjBits id, .dry, .rx 160 none [] id]
  have h : (run (v8Init false exParms) es).map (·.reports) = some [.v8Call, .offered, .callingTone] := by
    decide +kernel
  rw [Option.map_eq_some_iff] at h
  obtain ⟨s, h1, h2⟩ := h
  exact ⟨es, s, h1, h2, by unfold finals; rw [h2]; rfl⟩

/-- `v8_continue` (/repo/src/v8.c:1307-1312) does not take over the answer it is given: it copies the wrong
part of the parameters.  Whatever the protocols in the answer, those of the JM are its `modem_connect_tone`;
the modulations of the JM do not change. -/
theorem continue_garbles (s : V8) (p : Parms) :
    (continue_ s p).parms.cm.protocols = p.tone ∧ (continue_ s p).parms.cm.pstn = p.sendCi ∧
    (continue_ s p).parms.cm.pcm = p.cm.call ∧ (continue_ s p).parms.cm.t66 = p.cm.modulations ∧
    mod1 (continue_ s p).rx.msg.modulations = mod1 s.rx.msg.modulations :=
  ⟨rfl, rfl, rfl, rfl, rfl⟩

/-- So a gateway which goes on with protocols of its own sends a JM without them. -/
theorem continue_loses : ∃ (s : V8) (p : Parms), p.cm.protocols = 1#32 ∧
    ∀ o ∈ cmOctets (continue_ s p).rx.msg (continue_ s p).parms.cm 3, o &&& 0x1F#8 ≠ 0x0A#8 := by
  refine ⟨v8Init false exParms, exParms, rfl, ?_⟩
  decide

/-- CM may be sent before the wait after ANSam is over (/repo/src/v8.c:1089-1107 runs on into the state
which sends CM): if the caller was sending CI when it heard ANSam, CM follows at once. -/
theorem cm_too_early : ∃ es s, run (v8Init true { exParms with sendCi := 1#32 }) es = some s ∧
    s.st = .heardAnsam ∧ ms 900 < s.ciTimer ∧
    sent (v8Init true { exParms with sendCi := 1#32 }) es = ciBits exMsg ++ cmBits exMsg exMsg 3 := by
  let es : List Event := [.rx 8000 none [] id] ++ List.replicate 115 .bit ++
    [.rx 160 (some .ansam) [] id, .rx 160 none [] id] ++ List.replicate 75 .bit
  have h : (run (v8Init true { exParms with sendCi := 1#32 }) es).map (fun s => (s.st, s.ciTimer)) =
      some (.heardAnsam, 7840) := by decide +kernel
  rw [Option.map_eq_some_iff] at h
  obtain ⟨s, h1, h2⟩ := h
  simp only [Prod.mk.injEq] at h2
  exact ⟨es, s, h1, h2.1, by rw [h2.2]; decide, by decide +kernel⟩

/-- And for the same reason the V.92 messages, which should open the exchange, follow the first CM. -/
theorem v92_too_late : ∃ es s, run (v8Init true { exParms with v92 := 0x11#32 }) es = some s ∧
    s.queue = cmBits exMsg exMsg 3 ++ v92Bits 0x11#32 ++ cmBits exMsg exMsg 3 := by
  let es : List Event := [.rx 160 (some .ansam) [] id, .rx 160 none [] id, .rx 7840 none [] id]
  have h : (run (v8Init true { exParms with v92 := 0x11#32 }) es).map (·.queue) =
      some (cmBits exMsg exMsg 3 ++ v92Bits 0x11#32 ++ cmBits exMsg exMsg 3) := by decide +kernel
  rw [Option.map_eq_some_iff] at h
  obtain ⟨s, h1, h2⟩ := h
  exact ⟨es, s, h1, h2⟩

/-- A caller which sends no CI waits for an answer tone for ever. -/
theorem waits_for_ever (p : Parms) (h : p.sendCi = 0#32) (n : Nat) :
    ∃ s, run (v8Init true p) (List.replicate n (.rx 160 none [] id)) = some s ∧ s.st = .awaitAnsam ∧
      s.reports = [] := by
  have key : ∀ (n : Nat) (s : V8), s.st = .awaitAnsam →
      run s (List.replicate n (.rx 160 none [] id)) = some s := by
    intro n
    induction n with
    | zero => intro s _; rfl
    | succ n ih =>
      intro s hs
      rw [List.replicate_succ]
      have e : step s (.rx 160 none [] id) = some s := by
        simp only [step]; unfold rxStep; simp only [hs]
      simp only [run, e, Option.bind_some]
      exact ih s hs
  refine ⟨v8Init true p, key n _ ?_, ?_, rfl⟩ <;>
  · unfold v8Init; simp [h]

end V8
