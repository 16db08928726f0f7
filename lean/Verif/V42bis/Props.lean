import Verif.V42bis.Spec
import Verif.V42bis.Safe

/-! # Properties of V.42bis -/

namespace V42bis

/-! ## The round trip -/

theorem init_eq {p0 p1 p2 me md : Nat} {s : S × S} (h : init p0 p1 p2 me md = some s) :
    512 ≤ p1 ∧ 6 ≤ p2 ∧ p2 ≤ 250 ∧ s.1 = compInit (p0 / 2 % 2 = 1) p1 p2 me ∧ s.2 = compInit (p0 % 2 = 1) p1 p2 md := by
  unfold init at h
  split at h
  · cases h
  · split at h
    · cases h
    · cases h
      exact ⟨by omega, by omega, by omega, rfl, rfl⟩

theorem R0_init {p1 p2 me md : Nat} (h1 : 512 ≤ p1) (h2 : p1 ≤ 4096) (h3 : 6 ≤ p2) (h4 : p2 ≤ 250) (h5 : 1 ≤ me) (h6 : 1 ≤ md) :
    R0 [] (-(p2 : Int)) (compInit true p1 p2 me) (compInit true p1 p2 md) (compInit true p1 p2 md) := by
  have g := goodK_init h1 h2 (show 2 ≤ p2 by omega) h4
  have ok : ∀ m, 1 ≤ m → Out.Ok ⟨min m 1024, [], []⟩ := by
    intro m hm
    refine ⟨?_, Nat.min_le_right _ _, ?_, by simp⟩
    · show 1 ≤ min m 1024; omega
    · show 0 < min m 1024; omega
  refine ⟨⟨rfl, rfl, rfl, rfl, h1, by show 2 ≤ p2; omega, ok _ h5, ok _ h6, rfl, by show 9 ≤ 9; omega, by show 9 ≤ 12; omega, rfl, rfl, rfl, rfl, g, g,
    ⟨rfl, rfl, by show 0 < 8; omega, Or.inl ⟨rfl, rfl, rfl⟩⟩, Or.inl rfl⟩, ⟨rfl, fun h => absurd rfl h⟩, Or.inl ⟨rfl, rfl, rfl⟩⟩

/-- Flushes which are not too close are safe. -/
theorem flush_free {data f E D Dr} {k : Nat} (h : R0 data f E D Dr) (hk : (k : Int) ≤ data.length - f) (h7 : E.n7 ≤ k) : E.flushed = 0 := by
  by_cases h0 : E.flushed = 0
  · exact h0
  · have h1 := h.2.1.fl h0
    have h2 := h.1.ge.len
    have h3 : E.core.len = E.str.length + E.flushed := rfl
    omega

theorem R0.control {data f E D Dr} (h : R0 data f E D Dr) (m : Mode) : R0 data f (control E m) D Dr := by
  obtain ⟨hB, hD, hR⟩ := h
  refine ⟨⟨hB.ep, hB.dp, hB.n2, hB.n7, hB.n2lo, hB.n7lo, hB.eok, hB.dok, hB.c2, hB.c2lo, hB.c2hi, hB.c3, hB.esc, hB.escd, hB.tr, hB.ge, hB.gd, hB.lag, hB.lm3⟩,
    ⟨hD.out, hD.fl⟩, hR.imp id ?_⟩
  rintro ⟨hC, h⟩
  exact ⟨⟨hC.tr, hC.fl, hC.lm, hC.str, hC.dfl⟩, h⟩

/-- No change of the mode. -/
def NoMode (ops : List Op) : Prop := ∀ m, Op.mode m ∉ ops

/-- No octet waits while there is an update to be made. -/
def Tidy (E : S) : Prop := Steady E ∧ (E.updateAt ≠ 0 → E.w.o.buf = [])

theorem tidy_flush {E E' : S} (h : Tidy E) (h1 : compressFlush E = .ok E') (h2 : E.updateAt = 0 → E'.w.o.buf = []) : Tidy E' ∧ E'.w.o.buf = [] := by
  have h3 : E'.w.o.buf = [] := by
    by_cases hu : E.updateAt = 0
    · exact h2 hu
    · unfold compressFlush at h1
      rw [if_pos hu] at h1
      cases h1
      exact h.2 hu
  exact ⟨⟨h.1.of (compressFlush_same h1), fun _ => h3⟩, h3⟩

theorem tidy_compress {E E' : S} {l : List Byte} (h : Tidy E) (hp : E.p0 = true) (h1 : compress E l = .ok E')
    (h2 : Steady E → Steady E' ∧ (l ≠ [] → E'.updateAt = 0)) : Tidy E' := by
  obtain ⟨h3, h4⟩ := h2 h.1
  refine ⟨h3, ?_⟩
  cases l with
  | nil =>
    unfold compress at h1
    rw [if_pos hp] at h1
    unfold compressLoop at h1
    cases h1
    exact h.2
  | cons b l => intro hu; exact absurd (h4 (by simp)) hu

theorem runOps_ok : ∀ (ops : List Op) (data : List Byte) (f : Int) (E D Dr : S) (k : Nat), R0 data f E D Dr → (k : Int) ≤ data.length - f → Spaced E.n7 k ops →
    ∃ E' D' Dr' f' k', runOps E ops = .ok E' ∧ Adv E.w.o E'.w.o Dr Dr' ∧ R0 (data ++ payload ops) f' E' D' Dr' ∧ E'.w.o.maxOut = E.w.o.maxOut ∧
      (k' : Nat) ≤ ((data ++ payload ops).length : Int) - f' ∧ E'.n7 = E.n7 ∧ (∀ t, Spaced E.n7 k (ops ++ t) → Spaced E.n7 k' t) ∧
      (NoMode ops → Tidy E → Tidy E') := by
  intro ops
  induction ops with
  | nil =>
    intro data f E D Dr k h hk _
    exact ⟨E, D, Dr, f, k, rfl, Adv.refl _ _, by simpa [payload] using h, rfl, by simpa [payload] using hk, rfl, fun t ht => ht, fun _ h => h⟩
  | cons op t ih =>
    intro data f E D Dr k h hk hs
    cases op with
    | data l =>
      obtain ⟨E1, D1, Dr1, a1, a2, a3, a4, a5⟩ := compress_ok h l
      simp only [Spaced] at hs
      obtain ⟨E', D', Dr', f', k', b1, b2, b3, b4, b5, b6, b7, b8⟩ :=
        ih (data ++ l) f E1 D1 Dr1 (k + l.length) a3 (by simp only [List.length_append]; omega) (by rw [a4.n7]; exact hs)
      refine ⟨E', D', Dr', f', k', ?_, a2.trans b2, by rw [payload, ← List.append_assoc]; exact b3, b4.trans a4.mo,
        by rw [payload, ← List.append_assoc]; exact b5, b6.trans a4.n7, ?_, ?_⟩
      · simp only [runOps]
        rw [a1, ok_bind, b1]
      · intro u hu
        have := b7 u
        rw [a4.n7] at this
        exact this hu
      · intro hn ht
        exact b8 (fun m hm => hn m (List.mem_cons_of_mem _ hm)) (tidy_compress ht h.1.ep a1 a5)
    | mode m =>
      obtain ⟨E', D', Dr', f', k', b1, b2, b3, b4, b5, b6, b7, b8⟩ := ih data f (control E m) D Dr k (h.control m) hk hs
      exact ⟨E', D', Dr', f', k', b1, b2, b3, b4, b5, b6, b7, fun hn => absurd (List.mem_cons_self ..) (hn m)⟩
    | flush =>
      simp only [Spaced] at hs
      obtain ⟨E1, D1, Dr1, a1, a2, a3, _, _, a5⟩ := compressFlush_ok h (Or.inl (flush_free h hk hs.1))
      have a4 := (compressFlush_same a1).1
      obtain ⟨E', D', Dr', f', k', b1, b2, b3, b4, b5, b6, b7, b8⟩ :=
        ih data data.length E1 D1 Dr1 0 a3 (by omega) (by rw [a4.n7]; exact hs.2)
      refine ⟨E', D', Dr', f', k', ?_, a2.trans b2, b3, b4.trans a4.mo, b5, b6.trans a4.n7, ?_, ?_⟩
      · simp only [runOps]
        rw [a1, ok_bind, b1]
      · intro u hu
        have := b7 u
        rw [a4.n7] at this
        exact this hu.2
      · intro hn ht
        exact b8 (fun m hm => hn m (List.mem_cons_of_mem _ hm)) (tidy_flush ht a1 a5).1

theorem feedAll_eq : ∀ (l : List (List Byte)) (D D' : S), D.p0 = true → decompressLoop D l.flatten = .ok D' → feedAll D l = .ok D' := by
  intro l
  induction l with
  | nil => intro D D' _ h; exact h
  | cons x t ih =>
    intro D D' hp h
    rw [List.flatten_cons, decompressLoop_append] at h
    obtain ⟨D1, h1, h2⟩ := bind_ok h
    simp only [feedAll, decompress]
    rw [if_pos hp, h1, ok_bind]
    exact ih D1 D' ((grow_decompressLoop _ _ _ h1).1.trans hp) h2

theorem feedAll_err : ∀ (l : List (List Byte)) (D : S) (e : Err), D.p0 = true → decompressLoop D l.flatten = .error e → feedAll D l = .error e := by
  intro l
  induction l with
  | nil => intro D e _ h; exact h
  | cons x t ih =>
    intro D e hp h
    rw [List.flatten_cons, decompressLoop_append] at h
    simp only [feedAll, decompress]
    rw [if_pos hp]
    cases h1 : decompressLoop D x with
    | error e1 => rw [h1] at h; exact h
    | ok D1 =>
      rw [h1, ok_bind] at h
      rw [ok_bind]
      exact ih D1 e ((grow_decompressLoop _ _ _ h1).1.trans hp) h

theorem runOps_append : ∀ (a b : List Op) (s : S), runOps s (a ++ b) = runOps s a >>= fun s => runOps s b := by
  intro a
  induction a with
  | nil => intro b s; rfl
  | cons op a ih =>
    intro b s
    cases op with
    | data l =>
      simp only [List.cons_append, runOps]
      cases compress s l with
      | error e => rfl
      | ok s1 => simp only [ok_bind]; exact ih b s1
    | mode m => simp only [List.cons_append, runOps]; exact ih b _
    | flush =>
      simp only [List.cons_append, runOps]
      cases compressFlush s with
      | error e => rfl
      | ok s1 => simp only [ok_bind]; exact ih b s1

theorem payload_append : ∀ (a b : List Op), payload (a ++ b) = payload a ++ payload b := by
  intro a
  induction a with
  | nil => intro b; rfl
  | cons op a ih => intro b; cases op <;> simp [payload, ih]

theorem spaced_append (n : Nat) : ∀ (a b : List Op) (k : Nat), Spaced n k (a ++ b) → Spaced n k a := by
  intro a
  induction a with
  | nil => intro b k _; trivial
  | cons op a ih =>
    intro b k h
    cases op with
    | data l => exact ih b _ h
    | mode m => exact ih b _ h
    | flush => exact ⟨h.1, ih b _ h.2⟩

/-- A session which ends with a flush. -/
theorem session_ok {p1 p2 me md : Nat} (h1 : 512 ≤ p1) (h2 : p1 ≤ 4096) (h3 : 6 ≤ p2) (h4 : p2 ≤ 250) (h5 : 1 ≤ me) (h6 : 1 ≤ md) {E0 D0 Dr0 : S}
    {k : Nat} {f : Int} {data : List Byte} (h0 : R0 data f E0 D0 Dr0) (hk : (k : Int) ≤ data.length - f) (h7 : E0.n7 = p2)
    (hd : decompressLoop (compInit true p1 p2 md) E0.w.o.total = .ok Dr0)
    (hmo : E0.w.o.maxOut ≤ me) (ops : List Op) (hs : Spaced p2 k (ops ++ [.flush])) :
    ∃ E, runOps E0 (ops ++ [.flush]) = .ok E ∧ (∀ m ∈ E.w.o.sent, m.length ≤ me) ∧ (NoMode ops → Tidy E0 → E.empty) ∧
      (E.empty → ∀ pieces : List (List Byte), pieces.flatten = E.delivered →
        ∃ D, feedAll (compInit true p1 p2 md) pieces = .ok D ∧ (decompressFlush D).delivered = data ++ payload ops ∧
          ∀ m ∈ (decompressFlush D).w.o.sent, m.length ≤ md) := by
  obtain ⟨E1, D1, Dr1, f1, k1, a1, a2, a3, a4, a5, a6, a7, a8⟩ := runOps_ok ops data f E0 D0 _ k h0 hk (h7 ▸ spaced_append _ _ _ _ hs)
  have hs1 := a7 [.flush] (h7 ▸ hs)
  obtain ⟨E, D, Dr, b1, b2, b3, b4, b5, b6⟩ := compressFlush_ok a3 (Or.inl (flush_free a3 a5 (by rw [a6]; exact hs1.1)))
  have hE : E.w.o.maxOut ≤ me := by
    rw [(compressFlush_same b1).1.mo, a4]; exact hmo
  subst b5
  refine ⟨E, ?_, fun m hm => Nat.le_trans (b3.1.eok.msg m hm) hE, ?_, ?_⟩
  · rw [runOps_append, a1, ok_bind]
    simp only [runOps]
    rw [b1, ok_bind]
  · intro hn ht
    exact (tidy_flush (a8 hn ht) b1 b6).2
  · intro he pieces hp
    obtain ⟨os, c1, c2⟩ := a2.trans b2
    have hdl : decompressLoop (compInit true p1 p2 md) E.delivered = .ok Dr := by
      have : E.delivered = E.w.o.total := by
        unfold S.delivered Out.total
        rw [show E.w.o.buf = [] from he, List.append_nil]
      rw [this, c1, decompressLoop_append, hd, ok_bind, c2]
    refine ⟨Dr, feedAll_eq _ _ _ rfl (by rw [hp]; exact hdl), ?_, ?_⟩
    · have := b3.2.1.out
      rw [b4, List.append_nil] at this
      show (Out.flush (Out.pushAll _ _)).sent.flatten = _
      rw [Out.flush_sent, pushAll_total b3.1.dok]
      exact this
    · intro m hm
      have ho : Out.Ok (Out.flush (Out.pushAll Dr.w.o Dr.str)) := flush_ok (pushAll_ok b3.1.dok _)
      have h := ho.msg m hm
      rw [flush_mo, show (Out.pushAll Dr.w.o Dr.str).maxOut = _ from (pushChunks_spec _ _ _ b3.1.dok (Nat.lt_succ_self _)).2.2] at h
      have g := (grow_decompressLoop _ _ _ hdl).2 ((R0_init h1 h2 h3 h4 h5 h6).1.dok)
      rw [g.2.1] at h
      have : (compInit true p1 p2 md).w.o.maxOut = min md 1024 := rfl
      omega

/-- C28. Two ends have agreed on the same parameters. One end compresses any data in any number of calls, changes the mode at any time and flushes at
times which are not too close together. No call fails and no message is longer than was asked for. When a flush has left nothing in the output buffer, what
the other end delivers is what went in, however the octets are cut into pieces.

What is missing for the full claim: a dictionary of more than 4096 entries (`init_accepts_too_much`), flushes with less than N7 octets
between them (`close_flushes_lose_data`), and flushes which leave octets in the output buffer (`flush_may_not_deliver`). -/
theorem v42bis_round_trip_partial {p0 q0 p1 p2 me md me' md' : Nat} {A B : S × S} (hA : init p0 p1 p2 me md = some A)
    (hB : init q0 p1 p2 me' md' = some B) (he : p0 / 2 % 2 = 1) (hd : q0 % 2 = 1) (h4096 : p1 ≤ 4096) (hm : 1 ≤ me) (hm' : 1 ≤ md')
    (ops : List Op) (hs : Spaced p2 p2 (ops ++ [.flush])) :
    ∃ E, runOps A.1 (ops ++ [.flush]) = .ok E ∧ (∀ m ∈ E.w.o.sent, m.length ≤ me) ∧
      (E.empty → ∀ pieces : List (List Byte), pieces.flatten = E.delivered →
        ∃ D, feedAll B.2 pieces = .ok D ∧ (decompressFlush D).delivered = payload ops ∧ ∀ m ∈ (decompressFlush D).w.o.sent, m.length ≤ md') := by
  obtain ⟨h1, h3, h4, hA1, _⟩ := init_eq hA
  obtain ⟨_, _, _, _, hB1⟩ := init_eq hB
  rw [hA1, hB1, decide_eq_true he, decide_eq_true hd]
  obtain ⟨E, a1, a2, _, a3⟩ := session_ok (E0 := compInit true p1 p2 me) h1 h4096 h3 h4 hm hm' (R0_init h1 h4096 h3 h4 hm hm') (k := p2) (by simp) rfl rfl
    (Nat.min_le_left _ _) ops hs
  exact ⟨E, a1, a2, a3⟩

/-- C28. A compressor which stays in transparent mode hands everything over at a flush. -/
theorem never_mode_round_trip {p0 q0 p1 p2 me md me' md' : Nat} {A B : S × S} (hA : init p0 p1 p2 me md = some A)
    (hB : init q0 p1 p2 me' md' = some B) (he : p0 / 2 % 2 = 1) (hd : q0 % 2 = 1) (h4096 : p1 ≤ 4096) (hm : 1 ≤ me) (hm' : 1 ≤ md')
    (ops : List Op) (hn : ∀ m, Op.mode m ∉ ops) (hs : Spaced p2 p2 (ops ++ [.flush])) :
    ∃ E, runOps A.1 (.mode .never :: (ops ++ [.flush])) = .ok E ∧ ∀ pieces : List (List Byte), pieces.flatten = E.delivered →
      ∃ D, feedAll B.2 pieces = .ok D ∧ (decompressFlush D).delivered = payload ops := by
  obtain ⟨h1, h3, h4, hA1, _⟩ := init_eq hA
  obtain ⟨_, _, _, _, hB1⟩ := init_eq hB
  rw [hA1, hB1, decide_eq_true he, decide_eq_true hd]
  obtain ⟨E, a1, _, a2, a3⟩ := session_ok (E0 := control (compInit true p1 p2 me) .never) h1 h4096 h3 h4 hm hm'
    ((R0_init h1 h4096 h3 h4 hm hm').control .never) (k := p2) (by simp) rfl rfl (Nat.min_le_left _ _) ops hs
  refine ⟨E, a1, fun pieces hp => ?_⟩
  obtain ⟨D, b1, b2, _⟩ := a3 (a2 hn ⟨Or.inl ⟨rfl, rfl⟩, fun h => absurd rfl h⟩) pieces hp
  exact ⟨D, b1, b2⟩

theorem monitor_always {s s' : S} (hm : s.mode = .always) (h : monitor s = .ok s') : s'.transparent = false := by
  unfold monitor at h
  rw [hm] at h
  dsimp only at h
  split at h
  · rename_i ht
    unfold goCompressed at h
    rw [if_pos ht] at h
    obtain ⟨s1, _, h2⟩ := bind_ok h
    cases h2
    rfl
  · rename_i ht
    cases h
    simpa using ht

theorem compressLoop_always : ∀ (n : Nat) (s s' : S) (l : List Byte), s.mode = .always → compressLoop n s l = .ok s' →
    (s.transparent = false ∨ l ≠ []) → s'.transparent = false := by
  intro n
  induction n with
  | zero =>
    intro s s' l hm h hl
    cases l with
    | nil => cases h; exact hl.resolve_right (fun h => h rfl)
    | cons b t => cases h
  | succ n ih =>
    intro s s' l hm h hl
    cases l with
    | nil => unfold compressLoop at h; cases h; exact hl.resolve_right (fun h => h rfl)
    | cons b t =>
      unfold compressLoop at h
      obtain ⟨s1, h1, h⟩ := bind_ok h
      obtain ⟨r, h2, h⟩ := bind_ok h
      obtain ⟨s2, h3, h⟩ := bind_ok h
      have m1 := (update_same h1).1.mode
      have m2 := (matchString_same _ _ _ r.2 h2).1.mode
      exact ih _ _ _ (by rw [(monitor_same h3).mode, m2, m1, hm]) h (Or.inl (monitor_always (by rw [m2, m1, hm]) h3))

/-- C28. A compressor which stays in compressed mode hands everything over at a flush, from the second call with data on. -/
theorem always_mode_round_trip {p0 q0 p1 p2 me md me' md' : Nat} {A B : S × S} (hA : init p0 p1 p2 me md = some A)
    (hB : init q0 p1 p2 me' md' = some B) (he : p0 / 2 % 2 = 1) (hd : q0 % 2 = 1) (h4096 : p1 ≤ 4096) (hm : 1 ≤ me) (hm' : 1 ≤ md')
    (l l' : List Byte) (hl : l ≠ []) (hl' : l' ≠ []) (ops : List Op) (hn : ∀ m, Op.mode m ∉ ops) (hs : Spaced p2 p2 (ops ++ [.flush])) :
    ∃ E, runOps A.1 (.mode .always :: .data l :: .data l' :: (ops ++ [.flush])) = .ok E ∧ ∀ pieces : List (List Byte), pieces.flatten = E.delivered →
      ∃ D, feedAll B.2 pieces = .ok D ∧ (decompressFlush D).delivered = l ++ l' ++ payload ops := by
  obtain ⟨h1, h3, h4, hA1, _⟩ := init_eq hA
  obtain ⟨_, _, _, _, hB1⟩ := init_eq hB
  rw [hA1, hB1, decide_eq_true he, decide_eq_true hd]
  have r0 := (R0_init h1 h4096 h3 h4 hm hm').control .always
  obtain ⟨E1, D1, Dr1, b1, b2, b3, b4, _⟩ := compress_ok r0 l
  obtain ⟨E2, D2, Dr2, c1, c2, c3, c4, c5⟩ := compress_ok b3 l'
  have m1 : E1.mode = .always := by rw [b4.mode]; rfl
  have st : Steady E1 := by
    refine Or.inr ⟨m1, ?_⟩
    have h := b1
    unfold compress at h
    rw [if_pos r0.1.ep] at h
    exact compressLoop_always _ _ _ _ rfl h (Or.inr hl)
  obtain ⟨d1, d2⟩ := c5 st
  obtain ⟨os, e1, e2⟩ := b2.trans c2
  obtain ⟨E, a1, _, a2, a3⟩ := session_ok h1 h4096 h3 h4 hm hm' c3 (k := p2) (by simp; omega) (by rw [c4.n7, b4.n7]; rfl)
    (by rw [e1]; exact e2) (by rw [c4.mo, b4.mo]; exact Nat.min_le_left _ _) ops hs
  refine ⟨E, ?_, fun pieces hp => ?_⟩
  · simp only [runOps]
    rw [b1, ok_bind, c1, ok_bind]
    exact a1
  · obtain ⟨D, f1, f2, _⟩ := a3 (a2 hn ⟨d1, fun h => absurd (d2 hl') h⟩) pieces hp
    exact ⟨D, f1, f2⟩

/-- C28. Whatever the far end has seen of the compressed data, and however it was cut, what it delivers is the beginning of what went in. -/
theorem delivered_is_prefix {p0 q0 p1 p2 me md me' md' : Nat} {A B : S × S} (hA : init p0 p1 p2 me md = some A)
    (hB : init q0 p1 p2 me' md' = some B) (he : p0 / 2 % 2 = 1) (hd : q0 % 2 = 1) (h4096 : p1 ≤ 4096) (hm : 1 ≤ me) (hm' : 1 ≤ md')
    (ops : List Op) (hs : Spaced p2 p2 ops) :
    ∃ E, runOps A.1 ops = .ok E ∧ ∀ pieces : List (List Byte), pieces.flatten <+: E.delivered →
      ∃ D, feedAll B.2 pieces = .ok D ∧ D.delivered <+: payload ops ∧ (decompressFlush D).delivered <+: payload ops := by
  obtain ⟨h1, h3, h4, hA1, _⟩ := init_eq hA
  obtain ⟨_, _, _, _, hB1⟩ := init_eq hB
  rw [hA1, hB1, decide_eq_true he, decide_eq_true hd]
  have r0 := R0_init h1 h4096 h3 h4 hm hm'
  obtain ⟨E, D, Dr, f, k, a1, a2, a3, _⟩ := runOps_ok ops [] _ _ _ _ p2 r0 (by simp) hs
  refine ⟨E, a1, fun pieces hp => ?_⟩
  obtain ⟨os, b1, b2⟩ := a2
  have b3 : E.w.o.total = os := b1
  obtain ⟨u, hu⟩ := hp
  have b4 : os = pieces.flatten ++ (u ++ E.w.o.buf) := by
    rw [← b3, ← List.append_assoc, hu]; rfl
  rw [b4, decompressLoop_append] at b2
  obtain ⟨D1, c1, c2⟩ := bind_ok b2
  have g1 := (grow_decompressLoop _ _ _ c1).2 r0.1.dok
  obtain ⟨_, _, x, g2⟩ := (grow_decompressLoop _ _ _ c2).2 g1.1
  have g3 : ∃ y, D.w.o.total ++ D.str = Dr.w.o.total ++ Dr.str ++ y := by
    rcases a3.1.lag.2.2.2 with ⟨_, _, e⟩ | ⟨_, Dp, v, m, _, _, _, _, _, _, _, e1, e2⟩
    · exact ⟨[], by rw [e, List.append_nil]⟩
    · have e3 : Dr.w.o = Dp.w.o ∧ Dr.str = Dp.str := by rw [e1]; exact ⟨rfl, rfl⟩
      have ho : Dr.w.o.Ok := ((grow_decompressLoop _ _ _ c2).2 g1.1).1
      obtain ⟨_, _, y, e4⟩ := (grow_decCode e2).2 (by rw [← e3.1]; exact ho)
      exact ⟨y, by rw [e4, e3.1, e3.2]⟩
  obtain ⟨y, g3⟩ := g3
  have g4 : D1.w.o.total ++ D1.str ++ (x ++ (y ++ E.str)) = payload ops := by
    have := a3.2.1.out
    rw [List.nil_append, g3, g2] at this
    rw [← this]
    simp [List.append_assoc]
  refine ⟨D1, feedAll_eq _ _ _ rfl c1, ?_, ?_⟩
  · refine ⟨D1.w.o.buf ++ (D1.str ++ (x ++ (y ++ E.str))), ?_⟩
    rw [← g4]
    simp [S.delivered, Out.total, List.append_assoc]
  · refine ⟨x ++ (y ++ E.str), ?_⟩
    rw [← g4]
    show (Out.flush (Out.pushAll _ _)).sent.flatten ++ _ = _
    rw [Out.flush_sent, pushAll_total g1.1]

/-! ## Without compression -/

/-- Nothing has gone through the dictionary. -/
structure Plain (s : S) : Prop where
  p0 : s.p0 = false
  ua : s.updateAt = 0
  lm : s.lastMatched = 0
  tr : s.transparent = true
  str : s.str = []
  ok : s.w.o.Ok

theorem plain_compress {s : S} (h : Plain s) (l : List Byte) : compress s l = .ok { s with w := { s.w with o := s.w.o.pushAll l } } := by
  unfold compress
  exact if_neg (by rw [h.p0]; simp)

theorem plain_decompress {s : S} (h : Plain s) (l : List Byte) : decompress s l = .ok { s with w := { s.w with o := s.w.o.pushAll l } } := by
  unfold decompress
  exact if_neg (by rw [h.p0]; simp)

theorem plain_flush {s : S} (h : Plain s) : compressFlush s = .ok { s with w := { s.w with o := s.w.o.flush } } := by
  unfold compressFlush
  rw [if_neg (by rw [h.ua]; simp)]
  unfold flushPending
  rw [if_neg (by rw [h.lm]; simp), ok_bind]
  dsimp only
  rw [if_pos h.tr]

theorem plain_run : ∀ (ops : List Op) (s : S), Plain s →
    ∃ s', runOps s ops = .ok s' ∧ Plain s' ∧ s'.w.o.total = s.w.o.total ++ payload ops ∧ s'.w.o.maxOut = s.w.o.maxOut := by
  intro ops
  induction ops with
  | nil => intro s h; exact ⟨s, rfl, h, by simp [payload], rfl⟩
  | cons op t ih =>
    intro s h
    cases op with
    | data l =>
      obtain ⟨s', a1, a2, a3, a4⟩ := ih { s with w := { s.w with o := s.w.o.pushAll l } } ⟨h.p0, h.ua, h.lm, h.tr, h.str, pushAll_ok h.ok l⟩
      refine ⟨s', ?_, a2, ?_, a4.trans (pushChunks_spec _ _ _ h.ok (Nat.lt_succ_self _)).2.2⟩
      · simp only [runOps]
        rw [plain_compress h, ok_bind]
        exact a1
      · rw [a3, payload, ← List.append_assoc, pushAll_total h.ok]
    | mode m =>
      exact ih (control s m) ⟨h.p0, h.ua, h.lm, h.tr, h.str, h.ok⟩
    | flush =>
      obtain ⟨s', a1, a2, a3, a4⟩ := ih { s with w := { s.w with o := s.w.o.flush } } ⟨h.p0, h.ua, h.lm, h.tr, h.str, flush_ok h.ok⟩
      refine ⟨s', ?_, a2, ?_, a4.trans (flush_mo _)⟩
      · simp only [runOps]
        rw [plain_flush h, ok_bind]
        exact a1
      · rw [a3]; simp only [payload]; rw [flush_total]

theorem plain_feed : ∀ (l : List (List Byte)) (s : S), Plain s →
    ∃ s', feedAll s l = .ok s' ∧ Plain s' ∧ s'.w.o.total = s.w.o.total ++ l.flatten ∧ s'.w.o.maxOut = s.w.o.maxOut := by
  intro l
  induction l with
  | nil => intro s h; exact ⟨s, rfl, h, by simp, rfl⟩
  | cons x t ih =>
    intro s h
    obtain ⟨s', a1, a2, a3, a4⟩ := ih { s with w := { s.w with o := s.w.o.pushAll x } } ⟨h.p0, h.ua, h.lm, h.tr, h.str, pushAll_ok h.ok x⟩
    refine ⟨s', ?_, a2, ?_, a4.trans (pushChunks_spec _ _ _ h.ok (Nat.lt_succ_self _)).2.2⟩
    · simp only [feedAll]
      rw [plain_decompress h, ok_bind]
      exact a1
    · rw [a3, List.flatten_cons, ← List.append_assoc, pushAll_total h.ok]

theorem plain_init (p1 p2 : Nat) {m : Nat} (hm : 1 ≤ m) : Plain (compInit false p1 p2 m) :=
  ⟨rfl, rfl, rfl, rfl, rfl, by show 1 ≤ min m 1024; omega, Nat.min_le_right _ _, by show 0 < min m 1024; omega, by simp [compInit, dictInit]⟩

/-- C28. Without compression what is handed on after a flush is the data as it was, for any session at all. -/
theorem plain_round_trip {p0 q0 p1 p2 me md me' md' : Nat} {A B : S × S} (hA : init p0 p1 p2 me md = some A)
    (hB : init q0 p1 p2 me' md' = some B) (he : p0 / 2 % 2 = 0) (hd : q0 % 2 = 0) (hm : 1 ≤ me) (hm' : 1 ≤ md') (ops : List Op) :
    ∃ E, runOps A.1 (ops ++ [.flush]) = .ok E ∧ E.delivered = payload ops ∧ (∀ m ∈ E.w.o.sent, m.length ≤ me) ∧
      ∀ pieces : List (List Byte), pieces.flatten = E.delivered →
        ∃ D, feedAll B.2 pieces = .ok D ∧ (decompressFlush D).delivered = payload ops ∧ ∀ m ∈ (decompressFlush D).w.o.sent, m.length ≤ md' := by
  obtain ⟨_, _, _, hA1, _⟩ := init_eq hA
  obtain ⟨_, _, _, _, hB1⟩ := init_eq hB
  rw [hA1, hB1, decide_eq_false (by omega), decide_eq_false (by omega)]
  obtain ⟨s, a1, a2, a3, a4⟩ := plain_run ops _ (plain_init p1 p2 hm)
  have a5 : s.w.o.total = payload ops := a3
  have hdel : s.w.o.flush.sent.flatten = payload ops := by rw [Out.flush_sent, a5]
  refine ⟨{ s with w := { s.w with o := s.w.o.flush } }, ?_, hdel, ?_, ?_⟩
  · rw [runOps_append, a1, ok_bind]
    simp only [runOps]
    rw [plain_flush a2, ok_bind]
  · intro m h
    have := (flush_ok a2.ok).msg m h
    rw [flush_mo, a4] at this
    have e : (compInit false p1 p2 me).w.o.maxOut = min me 1024 := rfl
    omega
  · intro pieces hp
    obtain ⟨D, b1, b2, b3, b4⟩ := plain_feed pieces _ (plain_init p1 p2 hm')
    have b5 : D.w.o.total = pieces.flatten := b3
    refine ⟨D, b1, ?_, ?_⟩
    · show (Out.flush (Out.pushAll _ _)).sent.flatten = _
      rw [Out.flush_sent, pushAll_total b2.ok, b2.str, List.append_nil, b5, hp]
      exact hdel
    · intro m h
      have ho : Out.Ok (Out.flush (Out.pushAll D.w.o D.str)) := flush_ok (pushAll_ok b2.ok _)
      have h := ho.msg m h
      rw [flush_mo, show (Out.pushAll D.w.o D.str).maxOut = _ from (pushChunks_spec _ _ _ b2.ok (Nat.lt_succ_self _)).2.2, b4] at h
      have e : (compInit false p1 p2 md').w.o.maxOut = min md' 1024 := rfl
      omega

/-! ## Any input to the decompressor -/

theorem safe_init {p1 p2 m : Nat} (h1 : 512 ≤ p1) (h2 : p1 ≤ 4096) (h3 : 6 ≤ p2) (h4 : p2 ≤ 250) (hm : 1 ≤ m) : SafeD (compInit true p1 p2 m) := by
  have r0 := R0_init h1 h2 h3 h4 hm hm
  exact ⟨h1, by show 2 ≤ p2; omega, r0.1.dok, by show 9 ≤ 9; omega, by show 9 ≤ 12; omega, r0.1.gd, by show 0 < 9; omega, fun h => by cases h⟩

/-- C29. Whatever octets come in, in whatever pieces, the decompressor accepts them or refuses them. It does not fault.

What is missing for the full claim: streams with so many STEPUP codes that the code size gets to 13 bits (`step_up_to_a_fault`), a dictionary of more than 4096
entries, use of the decompressor after it has refused something, and more data after `v42bis_decompress_flush`, which loses track of the length of the
string (`decompress_flush_changes_data`). -/
theorem decompress_any_input_partial {q0 p1 p2 me md : Nat} {B : S × S} (hB : init q0 p1 p2 me md = some B) (h4096 : p1 ≤ 4096) (hm : 1 ≤ md)
    (pieces : List (List Byte)) :
    feedAll B.2 pieces = .error .invalid ∨ (∃ D, feedAll B.2 pieces = .ok D ∧ ∀ m ∈ (decompressFlush D).w.o.sent, m.length ≤ md) ∨
      ∃ a D, a <+: pieces.flatten ∧ feedAll B.2 [a] = .ok D ∧ D.w.c2 = 13 := by
  obtain ⟨h1, h3, h4, _, hB1⟩ := init_eq hB
  rw [hB1]
  by_cases hq : q0 % 2 = 1
  · rw [decide_eq_true hq]
    have msgs : ∀ l D, decompressLoop (compInit true p1 p2 md) l = .ok D → ∀ m ∈ (decompressFlush D).w.o.sent, m.length ≤ md := by
      intro l D h m hm'
      have g := (grow_decompressLoop _ _ _ h).2 (safe_init h1 h4096 h3 h4 hm).ok
      have ho : Out.Ok (Out.flush (Out.pushAll D.w.o D.str)) := flush_ok (pushAll_ok g.1 _)
      have h := ho.msg m hm'
      rw [flush_mo, show (Out.pushAll D.w.o D.str).maxOut = _ from (pushChunks_spec _ _ _ g.1 (Nat.lt_succ_self _)).2.2, g.2.1] at h
      have e : (compInit true p1 p2 md).w.o.maxOut = min md 1024 := rfl
      omega
    rcases decompressLoop_safe pieces.flatten _ (safe_init h1 h4096 h3 h4 hm) with h | ⟨D, h, _⟩ | ⟨a, c, D, e, h, h13⟩
    · left
      exact feedAll_err _ _ _ rfl h
    · right; left
      exact ⟨D, feedAll_eq _ _ _ rfl h, msgs _ _ h⟩
    · right; right
      exact ⟨a, D, ⟨c, e.symm⟩, feedAll_eq [a] _ _ rfl (by simpa using h), h13⟩
  · rw [decide_eq_false hq]
    obtain ⟨D, b1, b2, b3, b4⟩ := plain_feed pieces _ (plain_init p1 p2 hm)
    refine Or.inr (Or.inl ⟨D, b1, ?_⟩)
    intro m h
    have ho : Out.Ok (Out.flush (Out.pushAll D.w.o D.str)) := flush_ok (pushAll_ok b2.ok _)
    have h := ho.msg m h
    rw [flush_mo, show (Out.pushAll D.w.o D.str).maxOut = _ from (pushChunks_spec _ _ _ b2.ok (Nat.lt_succ_self _)).2.2, b4] at h
    have e : (compInit false p1 p2 md).w.o.maxOut = min md 1024 := rfl
    omega

/-! ## Where the code falls short -/

/-- Whether a result is good. -/
def isOk (r : M S) (p : S → Bool) : Bool :=
  match r with
  | .ok s => p s
  | .error _ => false

theorem isOk_ex {r : M S} {p : S → Bool} (h : isOk r p = true) : ∃ s, r = .ok s ∧ p s = true := by
  cases r with
  | ok s => exact ⟨s, rfl, h⟩
  | error e => cases h

/-- C28. `v42bis_init` accepts a dictionary which does not fit into the 4096 entries there are. -/
theorem init_accepts_too_much : ∃ A, init 3 65535 6 512 512 = some A ∧ A.1.n2 = 65535 := ⟨_, rfl, rfl⟩

/-- A session with flushes which are too close. -/
def closeFlushes : List Op :=
  let a := fun n => List.replicate n (97 : Byte)
  [.mode .never, .data (a 28), .data (a 2), .flush, .data (a 2), .flush, .data (a 2), .flush, .mode .always,
   .data (a 3 ++ [98, 99] ++ a 7 ++ [98]), .flush]

/-- C28. After two flushes within one string of the transparent mode the compressor has lost track of the length of the string. What the far end delivers is not
what went in. -/
theorem close_flushes_lose_data : ∃ E D, runOps (compInit true 512 6 512) closeFlushes = .ok E ∧ E.w.o.buf = [] ∧
    feedAll (compInit true 512 6 512) [E.delivered] = .ok D ∧ (decompressFlush D).delivered ≠ payload closeFlushes := by
  have h : isOk (runOps (compInit true 512 6 512) closeFlushes) (fun E => decide (E.w.o.buf = []) &&
      isOk (feedAll (compInit true 512 6 512) [E.delivered]) (fun D => decide ((decompressFlush D).delivered ≠ payload closeFlushes))) = true := by
    decide +kernel
  obtain ⟨E, h1, h2⟩ := isOk_ex h
  simp only [Bool.and_eq_true, decide_eq_true_eq] at h2
  obtain ⟨D, h3, h4⟩ := isOk_ex h2.2
  exact ⟨E, D, h1, h2.1, h3, by simpa using h4⟩

/-- C28. A flush straight after the first octets of a string need not hand anything over. -/
theorem flush_may_not_deliver : ∃ E, runOps (compInit true 512 6 512) [.mode .always, .data [97], .flush] = .ok E ∧ E.delivered = [] := by
  have h : isOk (runOps (compInit true 512 6 512) [.mode .always, .data [97], .flush]) (fun E => decide (E.delivered = [])) = true := by decide +kernel
  obtain ⟨E, h1, h2⟩ := isOk_ex h
  exact ⟨E, h1, by simpa using h2⟩

/-- The decompressor is flushed after every octet. -/
def feedFlush (s : S) : List Byte → M S
  | [] => .ok s
  | b :: t => do
    let s ← decompress s [b]
    feedFlush (decompressFlush s) t

/-- A session for `decompress_flush_changes_data`. -/
def flushedFarEnd : List Op :=
  let a := fun n => List.replicate n (97 : Byte)
  [.mode .never, .data (a 31), .flush, .mode .always, .data (a 6 ++ [98, 99] ++ a 7 ++ [98]), .data (a 12), .flush]

/-- C28. The far end delivers other data when it is flushed within a string. -/
theorem decompress_flush_changes_data : ∃ E D, runOps (compInit true 512 6 512) flushedFarEnd = .ok E ∧ E.w.o.buf = [] ∧
    feedFlush (compInit true 512 6 512) E.delivered = .ok D ∧ (decompressFlush D).delivered ≠ payload flushedFarEnd := by
  have h : isOk (runOps (compInit true 512 6 512) flushedFarEnd) (fun E => decide (E.w.o.buf = []) &&
      isOk (feedFlush (compInit true 512 6 512) E.delivered) (fun D => decide ((decompressFlush D).delivered ≠ payload flushedFarEnd))) = true := by
    decide +kernel
  obtain ⟨E, h1, h2⟩ := isOk_ex h
  simp only [Bool.and_eq_true, decide_eq_true_eq] at h2
  obtain ⟨D, h3, h4⟩ := isOk_ex h2.2
  exact ⟨E, D, h1, h2.1, h3, by simpa using h4⟩

/-- C29. Nine octets from the line make the decompressor read beyond its dictionary: ECM, four STEPUP codes and code 4096. -/
theorem step_up_to_a_fault : ∃ l : List Byte, l.length = 9 ∧ ∃ B, init 3 512 6 512 512 = some B ∧ decompress B.2 l = .error .fault := by
  refine ⟨[0, 0, 0x02, 0x04, 0x10, 0x80, 0, 0, 0x40], rfl, _, rfl, ?_⟩
  have h : (match decompress (compInit true 512 6 512) [0, 0, 0x02, 0x04, 0x10, 0x80, 0, 0, 0x40] with
    | .error .fault => true
    | _ => false) = true := by decide +kernel
  split at h
  · assumption
  · cases h

/-! ## Examples -/

/-- A session which meets the hypotheses of the round trip: data which is worth compressing, changes of mode, flushes in between. -/
def sample : List Op :=
  let a := [97, 98, 97, 98, 97, 98, 97, 98, 0, 51, 97, 98]
  [.data a, .flush, .mode .always, .data a, .data a, .flush, .mode .never, .data a]

example : Spaced 6 6 (sample ++ [.flush]) := by decide
example : init 3 512 6 512 512 = some (compInit true 512 6 512, compInit true 512 6 512) := rfl

/-- The session sends something else than the data, and leaves nothing behind. -/
example : isOk (runOps (compInit true 512 6 512) (sample ++ [.flush])) (fun E => decide (E.w.o.buf = []) && decide (E.delivered ≠ payload sample)) = true := by
  decide +kernel

end V42bis
