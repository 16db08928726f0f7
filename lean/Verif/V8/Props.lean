import Verif.V8.Timing

/-!
# The properties of V.8

`Told`, `Blank`, `tellable`, `times`, `finals`, `samples`, `sent`, `Accepted` and so on are defined in `Spec`.
-/

namespace V8

/-! ## CM and JM arrive -/

/-- Whatever bits came before, once a CM (or JM) which does not end the receiver's patience by itself has
gone by, two or more further ones make the receiver report exactly what was sent: the call function, the
modulations which the octets can carry, protocols, access, PCM availability and T.66. -/
theorem cm_arrives (p result parms : Msg) (n k : Nat) (hn : 1 ≤ n ∧ n ≤ 3) (hk : 2 ≤ k) (pre : List Bool)
    (r : Rx) (h : puts (rxInit p) (pre ++ cmBits result parms n) = some r) (hg : r.gotCmJm = false) :
    ∃ r', puts (rxInit p) (pre ++ times (k + 1) (cmBits result parms n)) = some r' ∧ r'.gotCmJm = true ∧
      r'.modBytes = n ∧ Told n result parms r'.msg := by
  have hinv := puts_inv _ _ _ (rxInit_inv p) h
  rw [puts_append, Option.bind_eq_some_iff] at h
  obtain ⟨a, ha, h⟩ := h
  have one := cm_first result parms n a r h
  obtain ⟨r', p1, -, -, -, q1, q2, q3⟩ := cm_twice result parms n hn k hk r one hg
  refine ⟨r', ?_, q1, q3, ?_⟩
  · rw [puts_append, ha, Option.bind_some, times_succ, puts_append, h, Option.bind_some]; exact p1
  · rw [q2]; exact toldMsg_told _ _ _ _ (hinv.blank hg)

/-- If nothing has been recognised in what came before, three or more do it. -/
theorem cm_arrives_afresh (p result parms : Msg) (n k : Nat) (hn : 1 ≤ n ∧ n ≤ 3) (hk : 3 ≤ k)
    (pre : List Bool) (r : Rx) (h : puts (rxInit p) pre = some r) (hu : r.sync = .unknown) :
    ∃ r', puts (rxInit p) (pre ++ times k (cmBits result parms n)) = some r' ∧ r'.gotCmJm = true ∧
      r'.modBytes = n ∧ Told n result parms r'.msg := by
  obtain ⟨k, rfl⟩ : ∃ j, k = j + 1 := ⟨k - 1, by omega⟩
  have hns := puts_noSync pre (rxInit p) r (fun _ => ⟨rfl, rfl⟩) h hu
  obtain ⟨r1, p1, g1⟩ := cm_clean result parms n r hu hns.1 hns.2
  exact cm_arrives p result parms n k hn (by omega) pre r1 (by rw [puts_append, h, Option.bind_some, p1]) g1

/-- A caller with V.34, V.32 and V.21 which wants LAPM; noise before it. -/
def exMsg : Msg := ⟨1#32, 0x0A02#32, 1#32, 0#32, BitVec.allOnes 32, 0#32, BitVec.allOnes 32⟩

example : (puts (rxInit exMsg) [true, false, false]).map (·.sync) = some .unknown ∧
    (puts (rxInit ⟨0#32, 1#32, 0#32, 0#32, 0#32, 0#32, 0#32⟩)
      ([true, false, false] ++ times 3 (cmBits exMsg exMsg 3))).map (fun r => (r.gotCmJm, r.msg)) =
      some (true, exMsg) := by decide +kernel

/-- Both ends agree on the call function and the modulations: the answerer hears the caller's CM, the
application keeps some of the modulations offered, and the JM tells the caller just those.  Of the
answerer's other parameters the caller is told three bits each. -/
theorem both_agree (pc pa : Msg) (k j : Nat) (hk : 3 ≤ k) (hj : 3 ≤ j) (preA preC : List Bool) (a0 c0 : Rx)
    (ha : puts (rxInit pa) preA = some a0) (hau : a0.sync = .unknown)
    (hc : puts (rxInit pc) preC = some c0) (hcu : c0.sync = .unknown) :
    ∃ a, puts (rxInit pa) (preA ++ times k (cmBits (rxInit pc).msg pc 3)) = some a ∧ a.gotCmJm = true ∧
      a.msg.call = pc.call &&& 7#32 ∧
      (∀ i, a.msg.modulations.getLsbD i = (pc.modulations.getLsbD i && decide (i < 13))) ∧
      ∀ e : Msg, e.call &&& 7#32 = e.call →
        (∀ i, e.modulations.getLsbD i = true → a.msg.modulations.getLsbD i = true) →
        ∃ c, puts (rxInit pc) (preC ++ times j (cmBits e pa a.modBytes)) = some c ∧ c.gotCmJm = true ∧
          c.msg.call = e.call ∧ c.msg.modulations = e.modulations ∧
          c.msg.protocols = pa.protocols &&& 7#32 ∧ c.msg.pstn = pa.pstn &&& 7#32 ∧
          c.msg.pcm = pa.pcm &&& 7#32 := by
  obtain ⟨a, h1, h2, h3, h4⟩ := cm_arrives_afresh pa (rxInit pc).msg pc 3 k (by omega) hk preA a0 ha hau
  have t13 : ∀ i, decide (i ∈ tellable 3) = decide (i < 13) := by
    intro i
    by_cases h : i < 13
    · have : ∀ i : Fin 13, decide (i.val ∈ tellable 3) = decide (i.val < 13) := by decide
      exact this ⟨i, h⟩
    · rw [decide_eq_false h]
      apply decide_eq_false
      simp [tellable]; omega
  refine ⟨a, h1, h2, h4.call, ?_, ?_⟩
  · intro i; rw [h4.modulations i, t13]; rfl
  · intro e he1 he2
    obtain ⟨c, g1, g2, -, g4⟩ := cm_arrives_afresh pc e pa 3 j (by omega) hj preC c0 hc hcu
    rw [h3]
    refine ⟨c, g1, g2, by rw [g4.call, he1], ?_, g4.protocols, g4.pstn, g4.pcm⟩
    apply BitVec.eq_of_getLsbD_eq
    intro i hi
    rw [g4.modulations i]
    cases hb : e.modulations.getLsbD i with
    | false => rfl
    | true =>
      have := he2 i hb
      rw [h4.modulations i, Bool.and_eq_true] at this
      rw [this.2]; rfl

example : (puts (rxInit ⟨0#32, 1#32, 2#32, 0#32, 0#32, 0#32, 0#32⟩) (times 3 (cmBits exMsg exMsg 3))).map
      (fun r => r.msg.modulations) = some 0x0A02#32 ∧
    (puts (rxInit exMsg) (times 3 (cmBits { exMsg with modulations := 0x0200#32 }
      ⟨0#32, 1#32, 2#32, 0#32, 0#32, 0#32, 0#32⟩ 3))).map (fun r => (r.msg.modulations, r.msg.protocols)) =
      some (0x0200#32, 2#32) := by decide +kernel

/-! ## CJ, and only CJ, is taken for CJ -/

/-- CI messages, V.92 messages and CMs are not taken for a CJ at any point; three CMs are enough, whatever
CI and V.92 messages came before; and then a CJ is seen at once, and what was told stays. -/
theorem cj_after_cm (p result parms : Msg) (call v : BitVec 32) (n a b : Nat) (hn : 1 ≤ n ∧ n ≤ 3) :
    ∃ r, puts (rxInit p)
        (times a (message 0x00#8 [octet call 0x01#8]) ++ v92Bits v ++ times b (cmBits result parms n)) = some r ∧
      r.gotCj = false ∧
      (1 ≤ b → ∃ r', puts r cjBits = some r' ∧ r'.gotCj = true ∧ r'.msg = r.msg ∧ r'.gotCmJm = r.gotCmJm) ∧
      (3 ≤ b → r.gotCmJm = true ∧ r.modBytes = n ∧ Told n result parms r.msg) := by
  obtain ⟨r0, p0, h1, h2, h3, h4, h5⟩ := opening p call v a
  obtain ⟨r, p1, g1, g2, g3⟩ := opening_cms result parms n hn b r0 h1 h2 h3 h4
  have hp : puts (rxInit p)
      (times a (message 0x00#8 [octet call 0x01#8]) ++ v92Bits v ++ times b (cmBits result parms n)) = some r := by
    rw [puts_append, p0, Option.bind_some, p1]
  refine ⟨r, hp, g1, ?_, ?_⟩
  · intro hb
    have := g2 hb
    exact cj_after r this.1.bd this.2 (by rw [this.1.data]; exact cmOctets_length result parms n)
  · intro hb
    obtain ⟨q1, q2, r1, q3, q4, q5⟩ := g3 hb
    refine ⟨q1, q2, ?_⟩
    rw [q5]
    exact toldMsg_told _ _ _ _ ((puts_inv _ _ _ h5 q3).blank q4)

/-- A CJ once seen, or a CM, is not forgotten by what follows. -/
theorem seen_stays (l : List Bool) (r r' : Rx) (h : puts r l = some r') :
    (r.gotCmJm = true → r'.gotCmJm = true) ∧ (r.gotCj = true → r'.gotCj = true) := puts_mono l r r' h

example : (puts (rxInit exMsg) (times 2 (message 0x00#8 [octet 1#32 0x01#8]) ++ v92Bits 0#32 ++
      times 3 (cmBits exMsg exMsg 3))).map (fun r => (r.gotCj, r.gotCi, r.gotCmJm)) = some (false, true, true) ∧
    (puts (rxInit exMsg) (times 2 (message 0x00#8 [octet 1#32 0x01#8]) ++ v92Bits 0#32 ++
      times 3 (cmBits exMsg exMsg 3) ++ cjBits)).map (fun r => r.gotCj) = some true := by decide +kernel

/-! ## Any bits -/

/-- Octets without one for non-standard facilities before the first zero are gone through, in no more
rounds than there are octets. -/
theorem decode_ends (l : List Byte) (m : Msg) (n : Nat) (h : nsfIn l = false) :
    ∃ m' n', ∀ k, l.length ≤ k → decodeLoop k (l ++ [0#8]) m n = .done m' n' := by
  have := (decode_any _ (l ++ [0#8]) (Nat.le_refl _) (by simp) m n).1 (by rw [nsfIn_term]; exact h)
  obtain ⟨m', n', hd⟩ := this
  exact ⟨m', n', fun k hk => hd k (by simp; omega)⟩

/-- With one, the loop never ends, however long it is left to go. -/
theorem nsf_never_ends (l : List Byte) (m : Msg) (n : Nat) (h : nsfIn l = true) (k : Nat) :
    decodeLoop k (l ++ [0#8]) m n = .going :=
  (decode_any _ (l ++ [0#8]) (Nat.le_refl _) (by simp) m n).2 (by rw [nsfIn_term]; exact h) k

/-- Any bits are taken without a read or a write outside the receiver's arrays of 64 octets, and the call
returns, unless a CM or JM with an octet for non-standard facilities has been received twice.  (That this
does not happen is not true: see `nsf_hangs`.) -/
theorem any_bits_partial (p : Msg) (l : List Bool) :
    (∀ r, puts (rxInit p) l = some r → r.data.length ≤ 63 ∧ r.saved.length ≤ 63) ∧
    (puts (rxInit p) l = none ↔ ∃ l1 b l2 r, l = l1 ++ b :: l2 ∧ puts (rxInit p) l1 = some r ∧
      r.sync = .cmJm ∧ r.gotCmJm = false ∧ r.saved = r.data ∧ nsfIn r.data = true ∧
      syncOf (push r.stream b) ≠ .unknown) := by
  refine ⟨fun r h => ⟨(puts_inv _ _ _ (rxInit_inv p) h).data, (puts_inv _ _ _ (rxInit_inv p) h).saved⟩, ?_⟩
  have one : ∀ (r : Rx) (b : Bool), putBit r b = none ↔
      r.sync = .cmJm ∧ r.gotCmJm = false ∧ r.saved = r.data ∧ nsfIn r.data = true ∧
        syncOf (push r.stream b) ≠ .unknown := by
    intro r b
    rw [putBit_eq]
    by_cases hn : syncOf (push r.stream b) ≠ .unknown
    · rw [if_pos hn, Option.map_eq_none_iff]
      unfold finish
      simp only
      by_cases hs : r.sync = .cmJm
      · rw [hs]
        simp only
        unfold cmJmDecode
        simp only
        by_cases hg : r.gotCmJm = true
        · rw [if_pos hg]; simp [hg]
        · rw [if_neg hg]
          have hg : r.gotCmJm = false := by simpa using hg
          by_cases hd : r.saved = [] ∨ r.saved ≠ r.data
          · rw [if_pos hd]
            constructor
            · intro h; cases h
            · rintro ⟨-, -, h1, h2, -⟩
              rcases hd with hd | hd
              · rw [← h1, hd] at h2; cases h2
              · exact absurd h1 hd
          · rw [if_neg hd]
            have he : r.saved = r.data := Decidable.not_not.mp (fun h => hd (Or.inr h))
            cases hf : nsfIn r.data with
            | true =>
              unfold decodeSaved
              rw [he, nsf_never_ends r.data _ _ hf]
              simp [hg, hn]
            | false =>
              obtain ⟨m', n', h⟩ := decode_ends r.data { r.msg with modulations := 0#32 } r.modBytes hf
              unfold decodeSaved
              rw [he, h _ (Nat.le_refl _)]
              simp
      · cases hy : r.sync with
        | cmJm => exact absurd hy hs
        | _ => simp
    · rw [if_neg hn]
      simp at hn
      simp [hn]
  have gen : ∀ (l : List Bool) (r0 : Rx), puts r0 l = none ↔ ∃ l1 b l2 r, l = l1 ++ b :: l2 ∧
      puts r0 l1 = some r ∧ putBit r b = none := by
    intro l
    induction l with
    | nil =>
      intro r0
      constructor
      · intro h; cases h
      · rintro ⟨l1, b, l2, r, h, -⟩; simp at h
    | cons b l ih =>
      intro r0
      cases hb : putBit r0 b with
      | none =>
        constructor
        · intro _; exact ⟨[], b, l, r0, rfl, rfl, hb⟩
        · intro _; simp [puts, hb]
      | some a =>
        have e : puts r0 (b :: l) = puts a l := by simp [puts, hb]
        rw [e, ih a]
        constructor
        · rintro ⟨l1, c, l2, r, h1, h2, h3⟩
          exact ⟨b :: l1, c, l2, r, by rw [h1]; rfl, by simp [puts, hb, h2], h3⟩
        · rintro ⟨l1, c, l2, r, h1, h2, h3⟩
          rcases l1 with _ | ⟨d, l1⟩
          · simp only [List.nil_append, List.cons.injEq] at h1
            simp only [puts, Option.some.injEq] at h2
            rw [← h2, ← h1.1, hb] at h3; cases h3
          · simp only [List.cons_append, List.cons.injEq] at h1
            rw [← h1.1] at h2
            exact ⟨l1, c, l2, r, h1.2, by simpa [puts, hb] using h2, h3⟩
  rw [gen]
  constructor
  · rintro ⟨l1, b, l2, r, h1, h2, h3⟩
    exact ⟨l1, b, l2, r, h1, h2, (one r b).mp h3⟩
  · rintro ⟨l1, b, l2, r, h1, h2, h3⟩
    exact ⟨l1, b, l2, r, h1, h2, (one r b).mpr h3⟩

example : (puts (rxInit exMsg) (times 3 (message 0xE0#8 (List.replicate 70 0x33#8)))).map
    (fun r => (r.data.length, r.saved.length, r.gotCmJm)) = some (63, 63, true) := by decide +kernel

/-! ## Reports -/

/-- Success is reported only after a CM or JM has been received, and, by one who was called, a CJ; the
caller has then sent all it had to send. -/
theorem success_means (calling : Bool) (p : Parms) (es : List Event) (s : V8)
    (ht : calling = true ∨ ∀ e ∈ es, e.toneless) (h : run (v8Init calling p) es = some s)
    (hs : .v8Call ∈ s.reports) :
    s.rx.gotCmJm = true ∧ (calling = true → s.queue = []) ∧ (calling = false → s.rx.gotCj = true) := by
  cases calling with
  | true =>
    have := (caller_run es _ s (caller_init p) h).ok hs
    exact ⟨this.1, fun _ => this.2, by simp⟩
  | false =>
    have ht : ∀ e ∈ es, e.toneless := by
      rcases ht with h | h
      · cases h
      · exact h
    have := (answerer_run es _ s ht (answerer_init p) h).ok hs
    exact ⟨this.1, by simp, fun _ => this.2⟩

/-- The end of a negotiation is reported once, and when it is, the negotiation is over.  For one who is
called it must be assumed that no calling tone or CNG is reported; see `two_reports`. -/
theorem one_report_partial (calling : Bool) (p : Parms) (es : List Event) (s : V8)
    (ht : calling = true ∨ ∀ e ∈ es, e.toneless) (h : run (v8Init calling p) es = some s) :
    (s.st = .parked ∧ finals s = 1) ∨ (s.st ≠ .parked ∧ finals s = 0) := by
  cases calling with
  | true =>
    rcases (caller_run es _ s (caller_init p) h).rep with h | ⟨h1, h2⟩
    · exact Or.inl h
    · exact Or.inr ⟨h1, by unfold finals; rw [h2]; rfl⟩
  | false =>
    have ht : ∀ e ∈ es, e.toneless := by
      rcases ht with h | h
      · cases h
      · exact h
    exact (answerer_run es _ s ht (answerer_init p) h).rep

/-- A CM is offered to the application of an answerer before anything is agreed. -/
theorem offered_first (p : Parms) (es : List Event) (s : V8) (ht : ∀ e ∈ es, e.toneless)
    (h : run (v8Init false p) es = some s) :
    (.offered ∈ s.reports → s.rx.gotCmJm = true) ∧
    (s.st = .jmOn ∨ s.st = .siga → .offered ∈ s.reports) := by
  have := answerer_run es _ s ht (answerer_init p) h
  exact ⟨this.off, fun h => (this.got (by rcases h with h | h <;> simp [h])).2⟩

/-- After the end nothing more is reported, whatever is received. -/
theorem over_for_good (s s' : V8) (es : List Event) (hp : s.st = .parked) (h : run s es = some s') :
    s'.st = .parked ∧ s'.reports = s.reports := by
  induction es generalizing s with
  | nil => cases h; exact ⟨hp, rfl⟩
  | cons e es ih =>
    simp only [run, Option.bind_eq_some_iff] at h
    obtain ⟨a, ha, h⟩ := h
    have : a.st = .parked ∧ a.reports = s.reports := by
      cases e with
      | bit => simp only [step, Option.some.injEq] at ha; subst ha; split <;> exact ⟨hp, rfl⟩
      | dry => simp only [step, Option.some.injEq] at ha; subst ha; split <;> exact ⟨hp, rfl⟩
      | cont p => simp only [step, Option.some.injEq] at ha; subst ha; exact ⟨hp, rfl⟩
      | rx len tone bits edit =>
        simp only [step] at ha
        unfold rxStep at ha
        simp only [hp, Option.some.injEq] at ha
        subst ha; exact ⟨hp, rfl⟩
    obtain ⟨h1, h2⟩ := ih a this.1 h
    exact ⟨h1, h2.trans this.2⟩

/-! ## Time -/

/-- A caller which has just heard ANSam sends CJ or is at an end within six seconds of samples. -/
theorem caller_in_time (s s' : V8) (es : List Event) (hs : s.st = .heardAnsam) (h1 : s.ciTimer = ms 1000)
    (hr : run s es = some s') (ht : 48000 ≤ samples es) : s'.st = .cjOn ∨ s'.st = .parked := by
  have hl := left_run es s s' 48000 (Or.inl ⟨hs, by rw [h1]; decide, by rw [h1]; decide⟩) hr
  rcases hl with ⟨-, h, h2⟩ | ⟨-, h, h2⟩ | h | h
  · omega
  · omega
  · exact Or.inl h
  · exact Or.inr h

/-- The tone puts it into that state. -/
theorem ansam_heard (s : V8) (len : Nat) (bits : List Bool) (edit : Msg → Msg)
    (hs : s.st = .awaitAnsam ∨ s.st = .ciOn ∨ s.st = .ciOff) :
    ∃ s', step s (.rx len (some .ansam) bits edit) = some s' ∧ s'.st = .heardAnsam ∧ s'.ciTimer = ms 1000 := by
  refine ⟨callerTone s .ansam, ?_, rfl, rfl⟩
  simp only [step]
  unfold rxStep
  rcases hs with h | h | h <;> simp only [h]

/-- An answerer waits for CM for 5.2 s of samples at most. -/
theorem answerer_in_time (p : Parms) (s' : V8) (es : List Event) (hr : run (v8Init false p) es = some s')
    (ht : 41600 ≤ samples es) : s'.st ≠ .cmWait := by
  have hl := aleft_run .cmWait (Or.inl rfl) es (v8Init false p) s' 41600
    (Or.inl ⟨rfl, by show (0 : Int) < ms (200 + 5000); decide, by show ms (200 + 5000) ≤ 41600; decide⟩) hr
  rcases hl with ⟨-, h, h2⟩ | h
  · omega
  · intro e; rw [e] at h; cases h

/-- It waits for CJ for 5 s of samples at most. -/
theorem cj_in_time (s s' : V8) (es : List Event) (hs : s.st = .jmOn) (h1 : 0 < s.timer) (h2 : s.timer ≤ ms 5000)
    (hr : run s es = some s') (ht : 40000 ≤ samples es) : s'.st = .siga ∨ s'.st = .parked := by
  have hl := aleft_run .jmOn (Or.inr rfl) es s s' 40000 (Or.inl ⟨hs, h1, h2⟩) hr
  rcases hl with ⟨-, h, h2⟩ | h
  · omega
  · revert h
    cases s'.st <;> simp [St.later]

/-- When the last bits have gone out, the next samples end the negotiation with success. -/
theorem ends_when_sent (s : V8) (len : Nat) (tone : Option Tone) (bits : List Bool) (edit : Msg → Msg)
    (hs : s.st = .cjOn ∨ s.st = .siga) (hq : s.sending = true) (s' : V8)
    (hr : run s (List.replicate s.queue.length .bit ++ [.dry, .rx len tone bits edit]) = some s') :
    s'.st = .parked ∧ s'.reports = .v8Call :: s.reports := by
  have bits_out : ∀ (n : Nat) (s : V8), s.queue.length = n → s.sending = true →
      ∀ es, run s (List.replicate n .bit ++ es) = run { s with queue := [] } es := by
    intro n
    induction n with
    | zero =>
      intro s hn _ es
      have : s.queue = [] := List.length_eq_zero_iff.mp hn
      show run s es = run { s with queue := [] } es
      rw [← this]
    | succ n ih =>
      intro s hn hsd es
      rw [List.replicate_succ, List.cons_append]
      have e : step s .bit = some { s with queue := s.queue.tail } := by simp only [step]; rw [if_pos hsd]
      simp only [run, e, Option.bind_some]
      exact ih { s with queue := s.queue.tail } (by simp [hn]) hsd es
  rw [bits_out _ s rfl hq] at hr
  simp only [run, step, hq, and_self, if_true, Option.bind_some] at hr
  rw [Option.bind_eq_some_iff] at hr
  obtain ⟨a, ha, hr⟩ := hr
  cases hr
  unfold rxStep at ha
  rcases hs with h | h
  · simp only [h] at ha
    rw [Option.map_eq_some_iff] at ha
    obtain ⟨rx, -, rfl⟩ := ha
    exact ⟨rfl, rfl⟩
  · simp only [h] at ha
    cases ha
    exact ⟨rfl, rfl⟩

/-! ## What a caller sends -/

/-- Whatever happens, what a caller has sent and is about to send are whole messages in the right order,
for nothing is lost for want of room: CI messages; CMs with its own modulations; V.92 messages if it wants
them, and more CMs; CJ.  When it reports success, all of it has gone, up to the end of the CJ. -/
theorem caller_sends (p : Parms) (es : List Event) (s : V8) (he : ∀ e ∈ es, e.plain)
    (h : run (v8Init true p) es = some s) :
    (Ringing (sent (v8Init true p) es ++ s.queue) ∨ Early p (sent (v8Init true p) es ++ s.queue) ∨
      Offering p (sent (v8Init true p) es ++ s.queue) ∨ Accepted p (sent (v8Init true p) es ++ s.queue)) ∧
    (.v8Call ∈ s.reports → Accepted p (sent (v8Init true p) es)) ∧ s.queue.length < room := by
  have hs := sends_run p es (v8Init true p) s [] he (caller_init p) (sends_init p) h
  have hc := caller_run es _ s (caller_init p) h
  rw [List.nil_append] at hs
  refine ⟨hs.any, ?_, by have := hs.len; unfold room; omega⟩
  intro hm
  have := hs.accepted (Or.inr hm)
  rw [(hc.ok hm).2, List.append_nil] at this
  exact this

/-! A whole negotiation, as an example: the caller hears ANSam, sends CM, hears JM three times, sends CJ. -/

def exParms : Parms := ⟨0#32, false, 0#32, 0#32, BitVec.allOnes 32, exMsg⟩
def exRun : List Event :=
  [.rx 160 (some .ansam) [] id, .rx 8000 none [] id] ++ List.replicate 70 .bit ++
  [.rx 160 none (times 3 (cmBits { exMsg with modulations := 0x0200#32 } exMsg 3)) id] ++
  List.replicate 100 .bit ++ [.dry, .rx 160 none [] id]

example : (run (v8Init true exParms) exRun).map
      (fun s => (s.st, s.reports, s.rx.msg.modulations, decide (s.queue = []))) =
      some (.parked, [.v8Call], 0x0200#32, true) ∧
    sent (v8Init true exParms) exRun = cmBits exMsg exMsg 3 ++ cjBits ∧
    (run (v8Init true exParms) [.rx 160 (some .ansam) [] id, .rx 8000 none [] id, .rx 40000 none [] id]).map
      (fun s => (s.st, s.reports)) = some (.parked, [.failed]) := by decide +kernel

/-- And the other end. -/
def exAnswer : List Event :=
  [.rx 160 none (times 3 (cmBits exMsg exMsg 3)) (fun m => { m with modulations := 0x0200#32 })] ++
  List.replicate 70 .bit ++ [.rx 160 none cjBits id] ++ [.dry, .rx 160 none [] id]

example : (run (v8Init false exParms) exAnswer).map (fun s => (s.st, s.reports, s.rx.gotCj)) =
    some (.parked, [.v8Call, .offered], true) ∧
    (run (v8Init false exParms) [.rx 41600 none [] id]).map (fun s => (s.st, s.reports)) =
      some (.parked, [.failed]) := by decide +kernel

end V8
