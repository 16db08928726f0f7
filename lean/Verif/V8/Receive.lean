import Verif.V8.Decode

/-! Lemmas: whole messages going into the receiver. -/

namespace V8

/-- The count of zero octets, and whether there have been three. -/
def zstep (z : Nat × Bool) (o : Byte) : Nat × Bool := if o = 0#8 then (z.1 + 1, z.2 || z.1 + 1 == 3) else (0, z.2)

/-- `r'` is `r` after the octets `l`. -/
structure Fed (r : Rx) (l : List Byte) (r' : Rx) : Prop where
  bd : Bd r'
  sync : r'.sync = r.sync
  data : r'.data = r.data ++ l
  first : ∀ a t, r.data = [] → l = a :: t → r'.first = a
  saved : r'.saved = r.saved
  gotCi : r'.gotCi = r.gotCi
  gotCmJm : r'.gotCmJm = r.gotCmJm
  msg : r'.msg = r.msg
  modBytes : r'.modBytes = r.modBytes
  zeros : (r'.zeros, r'.gotCj) = l.foldl zstep (r.zeros, r.gotCj)

theorem store_fields (r : Rx) (o : Byte) (h : r.data.length < 63) :
    (store r o).sync = r.sync ∧ (store r o).data = r.data ++ [o] ∧
    (store r o).first = (if r.data = [] then o else r.first) ∧ (store r o).saved = r.saved ∧
    (store r o).gotCi = r.gotCi ∧ (store r o).gotCmJm = r.gotCmJm ∧ (store r o).msg = r.msg ∧
    (store r o).modBytes = r.modBytes ∧
    ((store r o).zeros, (store r o).gotCj) = zstep (r.zeros, r.gotCj) o := by
  unfold store zstep
  by_cases h0 : o = 0#8 <;> simp [h0, h]

theorem puts_octets (l : List Byte) : ∀ r : Rx, Bd r → r.data.length + l.length ≤ 63 →
    ∃ r', puts r (l.flatMap frame) = some r' ∧ Fed r l r' := by
  induction l with
  | nil =>
    intro r h _
    exact ⟨r, rfl, h, rfl, by simp, by simp, rfl, rfl, rfl, rfl, rfl, rfl⟩
  | cons o l ih =>
    intro r h hl
    have h1 := puts_frame r o h
    obtain ⟨f1, f2, f3, f4, f5, f6, f7, f8, f9⟩ :=
      store_fields { r with stream := pushes r.stream (frame o) } o (by simp at hl ⊢; omega)
    generalize store { r with stream := pushes r.stream (frame o) } o = s at *
    obtain ⟨r', p, hf⟩ := ih s h1.2 (by rw [f2]; simp at hl ⊢; omega)
    refine ⟨r', ?_, hf.bd, hf.sync.trans f1, ?_, ?_, hf.saved.trans f4, hf.gotCi.trans f5,
      hf.gotCmJm.trans f6, hf.msg.trans f7, hf.modBytes.trans f8, ?_⟩
    · rw [List.flatMap_cons, puts_append, h1.1]; exact p
    · rw [hf.data, f2]; simp
    · intro a t hd e
      cases e
      have h3 : s.first = o := by rw [f3, if_pos hd]
      rw [← h3]
      rcases l with _ | ⟨b, l⟩
      · simp only [List.flatMap_nil, puts, Option.some.injEq] at p; rw [p]
      · -- the first octet stays the first
        have key : ∀ (l : List Byte) (s r' : Rx), Bd s → s.data ≠ [] → s.data.length + l.length ≤ 63 →
            puts s (l.flatMap frame) = some r' → r'.first = s.first := by
          intro l
          induction l with
          | nil => intro s r' _ _ _ p; simp only [List.flatMap_nil, puts, Option.some.injEq] at p; rw [p]
          | cons o l ih =>
            intro s r' h hne hl p
            have h1 := puts_frame s o h
            obtain ⟨f1, f2, f3, -⟩ :=
              store_fields { s with stream := pushes s.stream (frame o) } o (by simp at hl ⊢; omega)
            generalize store { s with stream := pushes s.stream (frame o) } o = s1 at *
            rw [List.flatMap_cons, puts_append, h1.1, Option.bind_some] at p
            rw [ih s1 r' h1.2 (by rw [f2]; simp) (by rw [f2]; simp at hl ⊢; omega) p, f3, if_neg hne]
        exact key (b :: l) s r' h1.2 (by rw [f2]; simp) (by rw [f2]; simp at hl ⊢; omega) p
    · rw [hf.zeros, f9]; rfl

/-- Ten ones change nothing but the window. -/
def Ready (r : Rx) : Prop := ∃ s c, puts r preamble = some { r with stream := pushes s preamble, cnt := c }

theorem Bd.ready {r : Rx} (h : Bd r) : Ready r := by
  obtain ⟨c, hc⟩ := puts_preamble r h
  exact ⟨_, c, hc⟩

theorem init_ready (p : Msg) : Ready (rxInit p) := by
  refine ⟨0#20, 0, ?_⟩
  have h := quiet preamble (rxInit p) (by
    intro k hk hl
    have hl : k ≤ 10 := by simpa [preamble] using hl
    show syncOf (pushes 0#20 (preamble.take k)) = .unknown ∧
      (0 + k < 10 ∨ (pushes 0#20 (preamble.take k)).getLsbD 10 = true)
    have : ∀ k : Fin 11, syncOf (pushes 0#20 (preamble.take k)) = .unknown ∧
      (0 + k.val < 10 ∨ (pushes 0#20 (preamble.take k)).getLsbD 10 = true) := by decide
    exact this ⟨k, by omega⟩)
  exact h

theorem ciDecode_window (r : Rx) (s : BitVec 20) (c : Nat) :
    ciDecode { r with stream := s, cnt := c } = { ciDecode r with stream := s, cnt := c } := by
  unfold ciDecode
  simp only
  by_cases h1 : r.gotCi = true
  · rw [if_pos h1, if_pos h1]
  · rw [if_neg h1, if_neg h1]
    by_cases h2 : r.first &&& 0x1F#8 = 0x01#8
    · rw [if_pos h2, if_pos h2]
    · rw [if_neg h2, if_neg h2]

theorem cmJmDecode_window (r : Rx) (s : BitVec 20) (c : Nat) :
    cmJmDecode { r with stream := s, cnt := c } =
      (cmJmDecode r).map fun x => { x with stream := s, cnt := c } := by
  unfold cmJmDecode
  simp only
  by_cases h1 : r.gotCmJm = true
  · rw [if_pos h1, if_pos h1]; rfl
  · rw [if_neg h1, if_neg h1]
    by_cases h2 : r.saved = [] ∨ r.saved ≠ r.data
    · rw [if_pos h2, if_pos h2]; rfl
    · rw [if_neg h2, if_neg h2]
      cases decodeSaved r.saved r.msg r.modBytes <;> rfl

theorem finish_window (r : Rx) (s : BitVec 20) (c : Nat) :
    finish { r with stream := s, cnt := c } = (finish r).map fun x => { x with stream := s, cnt := c } := by
  obtain ⟨a1, a2, y, a4, a5, a6, a7, a8, a9, a10, a11, a12⟩ := r
  cases y
  · rfl
  · exact congrArg some (ciDecode_window ⟨a1, a2, .ci, a4, a5, a6, a7, a8, a9, a10, a11, a12⟩ s c)
  · exact cmJmDecode_window ⟨a1, a2, .cmJm, a4, a5, a6, a7, a8, a9, a10, a11, a12⟩ s c
  · rfl

/-- The synchronising octets. -/
def IsSync (o : Byte) (y : Sync) : Prop :=
  (o = 0x00#8 ∧ y = .ci) ∨ (o = 0xE0#8 ∧ y = .cmJm) ∨ (o = 0x55#8 ∧ y = .v92)

/-- A whole message: what came before is done with, giving `x`, and the octets are there. -/
theorem puts_rest (r1 x : Rx) (o : Byte) (y : Sync) (ho : IsSync o y) (l : List Byte) (hl : l.length ≤ 63)
    (hpre : ∀ i, 10 ≤ i → i < 20 → r1.stream.getLsbD i = true) (hx : finish r1 = some x) :
    ∃ r', puts r1 ((o :: l).flatMap frame) = some r' ∧ Fed { x with sync := y, data := [] } l r' := by
  obtain ⟨c, h1⟩ := puts_sync r1 o y ho hpre
  rw [finish_window, hx, Option.map_some, Option.map_some] at h1
  have hy : y ≠ .unknown := by rcases ho with ⟨_, rfl⟩ | ⟨_, rfl⟩ | ⟨_, rfl⟩ <;> decide
  have bd : Bd { x with stream := pushes r1.stream (frame o), sync := y, cnt := 1, data := [] } := by
    have full : ∀ i, 10 ≤ i → i < 20 → (pushes r1.stream (frame o)).getLsbD i =
        ((frame o)[i - 10]?).getD false := by
      intro i h10 hi
      rw [pushes_bit _ _ _ hi, frame_length, if_neg (by omega), show i + 10 - 20 = i - 10 by omega]
    refine ⟨hy, Nat.le_refl _, ?_, ?_⟩
    · show (pushes r1.stream (frame o)).getLsbD 10 = false
      rw [full 10 (by omega) (by omega), frame_get o _ (by omega)]; rfl
    · show (pushes r1.stream (frame o)).getLsbD 19 = true
      rw [full 19 (by omega) (by omega), frame_get o _ (by omega)]; rfl
  obtain ⟨r', p, hf⟩ := puts_octets l _ bd (by simpa using hl)
  refine ⟨r', ?_, hf.bd, hf.sync, hf.data, hf.first, hf.saved, hf.gotCi, hf.gotCmJm, hf.msg, hf.modBytes,
    hf.zeros⟩
  rw [List.flatMap_cons, puts_append, h1]
  exact p

theorem puts_message (r x : Rx) (hr : Ready r) (o : Byte) (y : Sync) (ho : IsSync o y) (l : List Byte)
    (hl : l.length ≤ 63) (hx : finish r = some x) :
    ∃ r', puts r (message o l) = some r' ∧ Fed { x with sync := y, data := [] } l r' := by
  obtain ⟨s, c, hp⟩ := hr
  have hx' := finish_window r (pushes s preamble) c
  rw [hx, Option.map_some] at hx'
  obtain ⟨r', p, hf⟩ := puts_rest _ _ o y ho l hl (fun i h1 h2 => ones_pre s i h1 h2) hx'
  refine ⟨r', ?_, hf.bd, hf.sync, hf.data, hf.first, hf.saved, hf.gotCi, hf.gotCmJm, hf.msg, hf.modBytes,
    hf.zeros⟩
  unfold message
  rw [puts_append, hp]
  exact p

/-! ### CM and JM -/

theorem cmOctets_length (result parms : Msg) (n : Nat) : (cmOctets result parms n).length ≤ 8 := by
  have h : ∀ (c : Prop) [Decidable c] (a : Byte), (if c then [a] else []).length ≤ 1 := by
    intro c _ a; split <;> simp
  unfold cmOctets
  simp only [List.length_append]
  have h1 := h (1 < n) (mod2 result.modulations)
  have h2 := h (2 < n) (mod3 result.modulations)
  have h3 := h (parms.protocols ≠ 0#32) (octet parms.protocols 0x0A#8)
  have h4 := h (parms.pstn ≠ 0#32) (octet parms.pstn 0x0D#8)
  have h5 := h (parms.pcm ≠ 0#32) (octet parms.pcm 0x07#8)
  have h6 := h (0 ≤ parms.t66.toInt) (octet parms.t66 0x0E#8)
  have : ([octet result.call 0x01#8, mod1 result.modulations] : List Byte).length = 2 := rfl
  omega

theorem cmOctets_ne (result parms : Msg) (n : Nat) : cmOctets result parms n ≠ [] := by
  unfold cmOctets; simp

theorem cmOctets_nonzero (result parms : Msg) (n : Nat) : ∀ o ∈ cmOctets result parms n, o ≠ 0#8 := by
  intro o h
  unfold cmOctets at h
  simp only [List.mem_append, List.mem_cons, List.not_mem_nil, or_false] at h
  have opt : ∀ (c : Prop) [Decidable c] (a : Byte), o ∈ (if c then [a] else []) → o = a := by
    intro c _ a h; split at h <;> simp_all
  rcases h with ((((((((rfl | rfl) | h) | h) | h) | h) | h) | h))
  · exact octet_ne _ _ (by decide) (by decide)
  · exact (mod1_facts _).1
  · rw [opt _ _ h]; exact (mod2_facts _).2
  · rw [opt _ _ h]; exact (mod3_facts _).2
  all_goals rw [opt _ _ h]; exact octet_ne _ _ (by decide) (by decide)

theorem zfold_nonzero (l : List Byte) (h : ∀ o ∈ l, o ≠ 0#8) (hne : l ≠ []) (z : Nat × Bool) :
    l.foldl zstep z = (0, z.2) := by
  induction l generalizing z with
  | nil => exact absurd rfl hne
  | cons o l ih =>
    have ho : o ≠ 0#8 := h o (by simp)
    simp only [List.foldl_cons]
    have hz : zstep z o = (0, z.2) := by unfold zstep; rw [if_neg ho]
    rw [hz]
    rcases l with _ | ⟨b, l⟩
    · rfl
    · exact ih (fun x hx => h x (by simp [hx])) (by simp) _

/-- A CM has just been received whole. -/
structure GotOne (l : List Byte) (r : Rx) : Prop where
  bd : Bd r
  sync : r.sync = .cmJm
  data : r.data = l

theorem cm_next (result parms : Msg) (n : Nat) (hn : 1 ≤ n ∧ n ≤ 3) (r : Rx)
    (h : GotOne (cmOctets result parms n) r) :
    ∃ r', puts r (cmBits result parms n) = some r' ∧ GotOne (cmOctets result parms n) r' ∧
      r'.zeros = 0 ∧ r'.gotCj = r.gotCj ∧
      (if r.gotCmJm then r'.gotCmJm = true ∧ r'.msg = r.msg ∧ r'.modBytes = r.modBytes
       else if r.saved = cmOctets result parms n then
         r'.gotCmJm = true ∧ r'.msg = toldMsg n result parms r.msg ∧ r'.modBytes = n
       else r'.gotCmJm = false ∧ r'.msg = r.msg ∧ r'.saved = cmOctets result parms n) := by
  have hl := cmOctets_length result parms n
  have hne := cmOctets_ne result parms n
  have hz := cmOctets_nonzero result parms n
  have hd := fun m n0 => decodeSaved_cm result parms m n n0 hn
  unfold cmBits
  generalize cmOctets result parms n = l at *
  have sync : IsSync 0xE0#8 .cmJm := Or.inr (Or.inl ⟨rfl, rfl⟩)
  have hfin : finish r = cmJmDecode r := by unfold finish; rw [h.sync]
  have go : ∀ x, finish r = some x → x.gotCj = r.gotCj → ∃ r', puts r (message 0xE0#8 l) = some r' ∧
      GotOne l r' ∧ r'.zeros = 0 ∧ r'.gotCj = r.gotCj ∧ r'.gotCmJm = x.gotCmJm ∧ r'.msg = x.msg ∧
      r'.modBytes = x.modBytes ∧ r'.saved = x.saved := by
    intro x hx hc
    obtain ⟨r', p, hf⟩ := puts_message r x h.bd.ready 0xE0#8 .cmJm sync l (by omega) hx
    have hzz := hf.zeros
    rw [zfold_nonzero l hz hne] at hzz
    simp only [Prod.mk.injEq] at hzz
    refine ⟨r', p, ⟨hf.bd, hf.sync, ?_⟩, hzz.1, ?_, hf.gotCmJm, hf.msg, hf.modBytes, hf.saved⟩
    · rw [hf.data]; rfl
    · rw [hzz.2]; exact hc
  by_cases hg : r.gotCmJm = true
  · obtain ⟨r', p, g, z, cj, q1, q2, q3, q4⟩ := go r (by rw [hfin]; unfold cmJmDecode; rw [if_pos hg]) rfl
    refine ⟨r', p, g, z, cj, ?_⟩
    rw [if_pos hg]
    exact ⟨by rw [q1, hg], q2, q3⟩
  · by_cases hs : r.saved = l
    · obtain ⟨r', p, g, z, cj, q1, q2, q3, q4⟩ :=
        go { r with gotCmJm := true, msg := toldMsg n result parms r.msg, modBytes := n } (by
          rw [hfin]; unfold cmJmDecode
          rw [if_neg hg, if_neg (by rw [hs, h.data]; simp [hne]), hs, hd]) rfl
      refine ⟨r', p, g, z, cj, ?_⟩
      rw [if_neg hg, if_pos hs]
      exact ⟨q1, q2, q3⟩
    · obtain ⟨r', p, g, z, cj, q1, q2, q3, q4⟩ := go { r with saved := r.data } (by
          rw [hfin]; unfold cmJmDecode
          rw [if_neg hg, if_pos (by rw [h.data]; exact Or.inr hs)]) rfl
      refine ⟨r', p, g, z, cj, ?_⟩
      rw [if_neg hg, if_neg hs]
      exact ⟨by rw [q1]; simpa using hg, q2, by rw [q4]; exact h.data⟩

theorem times_succ (k : Nat) (l : List Bool) : times (k + 1) l = l ++ times k l := by
  simp [times, List.replicate_succ]

theorem cm_more (result parms : Msg) (n : Nat) (hn : 1 ≤ n ∧ n ≤ 3) (k : Nat) (r : Rx)
    (h : GotOne (cmOctets result parms n) r) (hg : r.gotCmJm = true) (hz : r.zeros = 0) :
    ∃ r', puts r (times k (cmBits result parms n)) = some r' ∧ GotOne (cmOctets result parms n) r' ∧
      r'.zeros = 0 ∧ r'.gotCj = r.gotCj ∧ r'.gotCmJm = true ∧ r'.msg = r.msg ∧ r'.modBytes = r.modBytes := by
  induction k generalizing r with
  | zero => exact ⟨r, by rw [show times 0 (cmBits result parms n) = [] by simp [times]]; rfl, h, hz, rfl, hg, rfl, rfl⟩
  | succ k ih =>
    obtain ⟨r1, p1, g1, z1, c1, q⟩ := cm_next result parms n hn r h
    rw [if_pos hg] at q
    obtain ⟨r2, p2, g2, z2, c2, q1, q2, q3⟩ := ih r1 g1 q.1 z1
    refine ⟨r2, ?_, g2, z2, c2.trans c1, q1, q2.trans q.2.1, q3.trans q.2.2⟩
    rw [times_succ, puts_append, p1, Option.bind_some]
    exact p2

/-- Two more after the first, and the message is there. -/
theorem cm_twice (result parms : Msg) (n : Nat) (hn : 1 ≤ n ∧ n ≤ 3) (k : Nat) (hk : 2 ≤ k) (r : Rx)
    (h : GotOne (cmOctets result parms n) r) (hg : r.gotCmJm = false) :
    ∃ r', puts r (times k (cmBits result parms n)) = some r' ∧ GotOne (cmOctets result parms n) r' ∧
      r'.zeros = 0 ∧ r'.gotCj = r.gotCj ∧ r'.gotCmJm = true ∧
      r'.msg = toldMsg n result parms r.msg ∧ r'.modBytes = n := by
  obtain ⟨k, rfl⟩ : ∃ j, k = j + 1 + 1 := ⟨k - 2, by omega⟩
  obtain ⟨r1, p1, g1, z1, c1, q⟩ := cm_next result parms n hn r h
  rw [if_neg (by simp [hg])] at q
  rw [times_succ, puts_append, p1, Option.bind_some]
  by_cases hs : r.saved = cmOctets result parms n
  · rw [if_pos hs] at q
    obtain ⟨r2, p2, g2, z2, c2, q1, q2, q3⟩ := cm_more result parms n hn (k + 1) r1 g1 q.1 z1
    exact ⟨r2, p2, g2, z2, c2.trans c1, q1, q2.trans q.2.1, q3.trans q.2.2⟩
  · rw [if_neg hs] at q
    obtain ⟨r2, p2, g2, z2, c2, q'⟩ := cm_next result parms n hn r1 g1
    rw [if_neg (by simp [q.1]), if_pos q.2.2] at q'
    obtain ⟨r3, p3, g3, z3, c3, q1, q2, q3⟩ := cm_more result parms n hn k r2 g2 q'.1 z2
    refine ⟨r3, ?_, g3, z3, (c3.trans c2).trans c1, q1, ?_, q3.trans q'.2.2⟩
    · rw [times_succ, puts_append, p2, Option.bind_some]; exact p3
    · rw [q2, q'.2.1, q.2.1]

/-- After the first one, whatever came before. -/
theorem cm_first (result parms : Msg) (n : Nat) (r r1 : Rx)
    (h : puts r (cmBits result parms n) = some r1) : GotOne (cmOctets result parms n) r1 := by
  unfold cmBits message at h
  rw [puts_append, Option.bind_eq_some_iff] at h
  obtain ⟨a, ha, h⟩ := h
  have hs := puts_stream _ _ _ ha
  have hpre : ∀ i, 10 ≤ i → i < 20 → a.stream.getLsbD i = true := by
    intro i h1 h2; rw [hs]; exact ones_pre _ i h1 h2
  cases hx : finish a with
  | none =>
    obtain ⟨c, h1⟩ := puts_sync a 0xE0#8 .cmJm (Or.inr (Or.inl ⟨rfl, rfl⟩)) hpre
    rw [finish_window, hx] at h1
    rw [List.flatMap_cons, puts_append, h1, Option.map_none, Option.map_none, Option.bind_none] at h
    exact absurd h (by simp)
  | some x =>
    have hl := cmOctets_length result parms n
    obtain ⟨r', p, hf⟩ := puts_rest a x 0xE0#8 .cmJm (Or.inr (Or.inl ⟨rfl, rfl⟩))
      (cmOctets result parms n) (by omega) hpre hx
    rw [p, Option.some.injEq] at h
    rw [← h]
    exact ⟨hf.bd, hf.sync, by rw [hf.data, List.nil_append]⟩

/-! ### Before anything is told -/

/-- Nothing is told before a CM or JM has been recognised; what has not been synchronised to has left no
trace; three zeros are a CJ; and there is room. -/
structure Inv (r : Rx) : Prop where
  blank : r.gotCmJm = false → Blank r.msg
  data : r.data.length ≤ 63
  saved : r.saved.length ≤ 63
  zeros : 3 ≤ r.zeros → r.gotCj = true

theorem rxInit_inv (p : Msg) : Inv (rxInit p) :=
  ⟨fun _ => ⟨rfl, rfl, rfl, rfl, rfl⟩, by simp [rxInit], by simp [rxInit], by simp [rxInit]⟩

theorem store_inv (r : Rx) (o : Byte) (h : Inv r) : Inv (store r o) := by
  have e : (store r o).gotCmJm = r.gotCmJm ∧ (store r o).msg = r.msg ∧ (store r o).saved = r.saved ∧
      ((store r o).zeros, (store r o).gotCj) = zstep (r.zeros, r.gotCj) o ∧
      (store r o).data = if r.data.length < 63 then r.data ++ [o] else r.data := by
    unfold store zstep
    by_cases h0 : o = 0#8 <;> by_cases hl : r.data.length < 63 <;> simp [h0, hl]
  obtain ⟨e1, e2, e3, e4, e5⟩ := e
  refine ⟨by rw [e1, e2]; exact h.blank, ?_, by rw [e3]; exact h.saved, ?_⟩
  · rw [e5]
    have := h.data
    split
    · rw [List.length_append]; simp; omega
    · exact this
  · unfold zstep at e4
    by_cases h0 : o = 0#8
    · rw [if_pos h0] at e4
      simp only [Prod.mk.injEq] at e4
      rw [e4.1, e4.2]
      intro hz
      have := h.zeros
      by_cases h3 : r.zeros = 2
      · rw [h3]; simp
      · rw [this (by omega)]; rfl
    · rw [if_neg h0] at e4
      simp only [Prod.mk.injEq] at e4
      rw [e4.1]
      intro hz; omega

theorem parse_inv (r : Rx) (h : Inv r) : Inv (parse r) := by
  unfold parse
  by_cases h1 : r.sync = .unknown
  · rw [if_pos h1]; exact h
  · rw [if_neg h1]
    simp only
    split
    · exact store_inv _ _ ⟨h.blank, h.data, h.saved, h.zeros⟩
    · exact ⟨h.blank, h.data, h.saved, h.zeros⟩

theorem finish_inv (r x : Rx) (h : Inv r) (hx : finish r = some x) : Inv x := by
  unfold finish at hx
  split at hx
  · simp only [Option.some.injEq] at hx
    subst hx
    unfold ciDecode
    split
    · exact h
    · split
      · refine ⟨fun hg => ?_, h.data, h.saved, h.zeros⟩
        exact h.blank hg
      · exact ⟨h.blank, h.data, h.saved, h.zeros⟩
  · unfold cmJmDecode at hx
    split at hx
    · cases hx; exact h
    · split at hx
      · cases hx; exact ⟨h.blank, h.data, h.data, h.zeros⟩
      · split at hx
        · cases hx
          exact ⟨by simp, h.data, h.saved, h.zeros⟩
        · cases hx
  · cases hx; exact h

theorem putBit_inv (r r' : Rx) (b : Bool) (h : Inv r) (hr : putBit r b = some r') : Inv r' := by
  rw [putBit_eq] at hr
  split at hr
  · rw [Option.map_eq_some_iff] at hr
    obtain ⟨x, hx, rfl⟩ := hr
    have := finish_inv _ x (⟨h.blank, h.data, h.saved, h.zeros⟩ :
      Inv { r with stream := push r.stream b }) hx
    exact parse_inv _ ⟨this.blank, by simp, this.saved, this.zeros⟩
  · cases hr
    exact parse_inv _ ⟨h.blank, h.data, h.saved, h.zeros⟩

theorem puts_inv (l : List Bool) (r r' : Rx) (h : Inv r) (hr : puts r l = some r') : Inv r' := by
  induction l generalizing r with
  | nil => cases hr; exact h
  | cons b l ih =>
    simp only [puts, Option.bind_eq_some_iff] at hr
    obtain ⟨a, ha, hr⟩ := hr
    exact ih a (putBit_inv _ _ _ h ha) hr

/-! ### Before the first message -/

/-- Nothing has been synchronised to yet. -/
def NoSync (r : Rx) : Prop := r.sync = .unknown → r.saved = [] ∧ r.gotCmJm = false

theorem parse_sync (r : Rx) : (parse r).sync = r.sync ∧ (parse r).saved = r.saved ∧
    (parse r).gotCmJm = r.gotCmJm := by
  have e : ∀ (r : Rx) (o : Byte), (store r o).sync = r.sync ∧ (store r o).saved = r.saved ∧
      (store r o).gotCmJm = r.gotCmJm := by
    intro r o
    unfold store
    by_cases h0 : o = 0#8 <;> by_cases hl : r.data.length < 63 <;> simp [h0, hl]
  unfold parse
  by_cases h1 : r.sync = .unknown
  · rw [if_pos h1]; exact ⟨rfl, rfl, rfl⟩
  · rw [if_neg h1]
    simp only
    split
    · exact e _ _
    · exact ⟨rfl, rfl, rfl⟩

theorem puts_noSync (l : List Bool) (r r' : Rx) (h : NoSync r) (hr : puts r l = some r') : NoSync r' := by
  induction l generalizing r with
  | nil => cases hr; exact h
  | cons b l ih =>
    simp only [puts, Option.bind_eq_some_iff] at hr
    obtain ⟨a, ha, hr⟩ := hr
    refine ih a ?_ hr
    rw [putBit_eq] at ha
    intro hu
    split at ha
    · next hn =>
      rw [Option.map_eq_some_iff] at ha
      obtain ⟨x, hx, rfl⟩ := ha
      rw [(parse_sync _).1] at hu
      exact absurd hu hn
    · cases ha
      obtain ⟨e1, e2, e3⟩ := parse_sync { r with stream := push r.stream b }
      rw [e1] at hu
      rw [e2, e3]
      exact h hu

theorem ones_clean (j : Nat) : ∀ r : Rx, j ≤ 10 → r.sync = .unknown → r.saved = [] → r.gotCmJm = false →
    ∃ r', puts r (List.replicate j true) = some r' ∧ r'.saved = [] ∧ r'.gotCmJm = false := by
  induction j with
  | zero => intro r _ h1 h2 h3; exact ⟨r, rfl, h2, h3⟩
  | succ j ih =>
    intro r hj h1 h2 h3
    rw [List.replicate_succ, puts, putBit_eq]
    by_cases hn : syncOf (push r.stream true) ≠ .unknown
    · rw [if_pos hn]
      have hfin : finish { r with stream := push r.stream true } =
          some { r with stream := push r.stream true } := by
        unfold finish; simp only [h1]
      rw [hfin, Option.map_some, Option.bind_some]
      have hp : parse { r with
          stream := push r.stream true, cnt := 0, sync := syncOf (push r.stream true), data := [] } =
          { r with stream := push r.stream true, cnt := 1, sync := syncOf (push r.stream true), data := [] } := by
        unfold parse
        simp only
        rw [if_neg hn, if_neg (by simp)]
      have bd : Bd { r with
          stream := push r.stream true, cnt := 1, sync := syncOf (push r.stream true), data := [] } := by
        refine ⟨hn, Nat.le_refl _, ?_, ?_⟩
        · show (push r.stream true).getLsbD 10 = false
          cases hh : (push r.stream true).getLsbD 10 with
          | false => rfl
          | true => exact absurd (syncOf_unknown_ten _ hh) hn
        · show (push r.stream true).getLsbD 19 = true
          rw [push_bit _ _ _ (by omega)]; rfl
      obtain ⟨c, hc⟩ := puts_ones _ bd j (by omega)
      rw [hp, hc]
      exact ⟨_, rfl, h2, h3⟩
    · rw [if_neg hn, Option.bind_some]
      have hp : parse { r with stream := push r.stream true } = { r with stream := push r.stream true } := by
        unfold parse; rw [if_pos h1]
      rw [hp]
      exact ih _ (by omega) h1 h2 h3

/-- The first CM when nothing has been synchronised to before. -/
theorem cm_clean (result parms : Msg) (n : Nat) (r : Rx) (h1 : r.sync = .unknown) (h2 : r.saved = [])
    (h3 : r.gotCmJm = false) :
    ∃ r', puts r (cmBits result parms n) = some r' ∧ r'.gotCmJm = false := by
  obtain ⟨a, ha, hs, hg⟩ := ones_clean 10 r (Nat.le_refl _) h1 h2 h3
  have hst := puts_stream _ _ _ ha
  have hpre : ∀ i, 10 ≤ i → i < 20 → a.stream.getLsbD i = true := by
    intro i h1 h2; rw [hst]; exact ones_pre _ i h1 h2
  obtain ⟨x, hx, hxg⟩ : ∃ x, finish a = some x ∧ x.gotCmJm = false := by
    unfold finish
    split
    · refine ⟨_, rfl, ?_⟩
      unfold ciDecode
      repeat' split
      all_goals exact hg
    · unfold cmJmDecode
      rw [if_neg (by simp [hg]), if_pos (Or.inl hs)]
      exact ⟨_, rfl, hg⟩
    · exact ⟨_, rfl, hg⟩
  have hl := cmOctets_length result parms n
  obtain ⟨r', p, hf⟩ := puts_rest a x 0xE0#8 .cmJm (Or.inr (Or.inl ⟨rfl, rfl⟩))
    (cmOctets result parms n) (by omega) hpre hx
  refine ⟨r', ?_, by rw [hf.gotCmJm]; exact hxg⟩
  unfold cmBits message
  rw [puts_append, show preamble = List.replicate 10 true from rfl, ha, Option.bind_some]
  exact p

/-- A message after one which was not a CM. -/
theorem other_message (r : Rx) (hr : Ready r) (hs : r.sync ≠ .cmJm) (o : Byte) (y : Sync) (ho : IsSync o y)
    (l : List Byte) (hl : l.length ≤ 63) :
    ∃ r', puts r (message o l) = some r' ∧ Bd r' ∧ r'.sync = y ∧ r'.data = l ∧ r'.saved = r.saved ∧
      r'.gotCmJm = r.gotCmJm ∧ (r'.zeros, r'.gotCj) = l.foldl zstep (r.zeros, r.gotCj) := by
  obtain ⟨x, hx, e1, e2, e3, e4⟩ : ∃ x, finish r = some x ∧ x.saved = r.saved ∧ x.gotCmJm = r.gotCmJm ∧
      x.zeros = r.zeros ∧ x.gotCj = r.gotCj := by
    unfold finish
    split
    · refine ⟨_, rfl, ?_⟩
      unfold ciDecode
      by_cases h1 : r.gotCi = true
      · rw [if_pos h1]; exact ⟨rfl, rfl, rfl, rfl⟩
      · rw [if_neg h1]
        by_cases h2 : r.first &&& 0x1F#8 = 0x01#8
        · rw [if_pos h2]; exact ⟨rfl, rfl, rfl, rfl⟩
        · rw [if_neg h2]; exact ⟨rfl, rfl, rfl, rfl⟩
    · next h => exact absurd h hs
    · exact ⟨_, rfl, rfl, rfl, rfl, rfl⟩
  obtain ⟨r', p, hf⟩ := puts_message r x hr o y ho l hl hx
  refine ⟨r', p, hf.bd, hf.sync, by rw [hf.data, List.nil_append], hf.saved.trans e1, hf.gotCmJm.trans e2, ?_⟩
  rw [hf.zeros]
  show l.foldl zstep (x.zeros, x.gotCj) = _
  rw [e3, e4]

/-- CI messages, then perhaps V.92 messages, from the start. -/
theorem opening (p : Msg) (call v : BitVec 32) (a : Nat) :
    ∃ r, puts (rxInit p) (times a (message 0x00#8 [octet call 0x01#8]) ++ v92Bits v) = some r ∧ Ready r ∧
      r.sync ≠ .cmJm ∧ r.gotCmJm = false ∧ r.gotCj = false ∧ Inv r := by
  have one : ∀ (a : Nat) (r : Rx), Ready r → r.sync ≠ .cmJm → r.gotCmJm = false → r.gotCj = false →
      r.zeros = 0 → ∃ r', puts r (times a (message 0x00#8 [octet call 0x01#8])) = some r' ∧ Ready r' ∧
        r'.sync ≠ .cmJm ∧ r'.gotCmJm = false ∧ r'.gotCj = false ∧ r'.zeros = 0 := by
    intro a
    induction a with
    | zero =>
      intro r h1 h2 h3 h4 h5
      exact ⟨r, by rw [show times 0 (message 0x00#8 [octet call 0x01#8]) = [] by simp [times]]; rfl,
        h1, h2, h3, h4, h5⟩
    | succ a ih =>
      intro r h1 h2 h3 h4 h5
      obtain ⟨r1, p1, b1, s1, -, -, g1, z1⟩ := other_message r h1 h2 0x00#8 .ci (Or.inl ⟨rfl, rfl⟩)
        [octet call 0x01#8] (by simp)
      rw [zfold_nonzero _ (by simp; exact octet_ne _ _ (by decide) (by decide)) (by simp)] at z1
      simp only [Prod.mk.injEq] at z1
      obtain ⟨r2, p2, q⟩ := ih r1 b1.ready (by rw [s1]; decide) (g1.trans h3) (z1.2.trans h4) z1.1
      refine ⟨r2, ?_, q⟩
      rw [times_succ, puts_append, p1, Option.bind_some]; exact p2
  obtain ⟨r1, p1, h1, h2, h3, h4, h5⟩ := one a (rxInit p) (init_ready p) (by simp [rxInit]) rfl rfl rfl
  by_cases hv : 0 ≤ v.toInt
  · obtain ⟨r2, p2, b2, s2, -, -, g2, z2⟩ := other_message r1 h1 h2 0x55#8 .v92 (Or.inr (Or.inr ⟨rfl, rfl⟩))
      [v.setWidth 8] (by simp)
    obtain ⟨r3, p3, b3, s3, -, -, g3, z3⟩ := other_message r2 b2.ready (by rw [s2]; decide) 0x55#8 .v92
      (Or.inr (Or.inr ⟨rfl, rfl⟩)) [v.setWidth 8] (by simp)
    have hp : puts (rxInit p) (times a (message 0x00#8 [octet call 0x01#8]) ++ v92Bits v) = some r3 := by
      unfold v92Bits
      rw [if_pos hv, puts_append, p1, Option.bind_some]
      rw [show List.replicate 2 (message 0x55#8 [v.setWidth 8]) =
        [message 0x55#8 [v.setWidth 8], message 0x55#8 [v.setWidth 8]] from rfl]
      rw [List.flatten_cons, List.flatten_cons, List.flatten_nil, List.append_nil, puts_append, p2,
        Option.bind_some]
      exact p3
    refine ⟨r3, hp, b3.ready, by rw [s3]; decide, (g3.trans g2).trans h3, ?_, puts_inv _ _ _ (rxInit_inv p) hp⟩
    rw [h5, h4] at z2
    have hz2 : r2.gotCj = false ∧ r2.zeros ≤ 1 := by
      simp only [List.foldl_cons, List.foldl_nil, zstep] at z2
      split at z2 <;> simp_all
    simp only [List.foldl_cons, List.foldl_nil, zstep] at z3
    rw [hz2.1] at z3
    split at z3
    · simp only [Prod.mk.injEq] at z3
      rw [z3.2]
      simp; omega
    · simp only [Prod.mk.injEq] at z3
      exact z3.2
  · have hp : puts (rxInit p) (times a (message 0x00#8 [octet call 0x01#8]) ++ v92Bits v) = some r1 := by
      unfold v92Bits
      rw [if_neg hv, List.append_nil]; exact p1
    exact ⟨r1, hp, h1, h2, h3, h4, puts_inv _ _ _ (rxInit_inv p) hp⟩

/-- Any number of CMs after those. -/
theorem opening_cms (result parms : Msg) (n : Nat) (hn : 1 ≤ n ∧ n ≤ 3) (b : Nat) (r : Rx) (h1 : Ready r)
    (h2 : r.sync ≠ .cmJm) (h3 : r.gotCmJm = false) (h4 : r.gotCj = false) :
    ∃ r', puts r (times b (cmBits result parms n)) = some r' ∧ r'.gotCj = false ∧
      (1 ≤ b → GotOne (cmOctets result parms n) r' ∧ r'.zeros = 0) ∧
      (3 ≤ b → r'.gotCmJm = true ∧ r'.modBytes = n ∧
        ∃ r1, puts r (cmBits result parms n) = some r1 ∧ r1.gotCmJm = false ∧
          r'.msg = toldMsg n result parms r1.msg) := by
  rcases b with _ | b
  · exact ⟨r, by rw [show times 0 (cmBits result parms n) = [] by simp [times]]; rfl, h4, by omega, by omega⟩
  obtain ⟨r1, p1, b1, s1, d1, -, g1, z1⟩ := other_message r h1 h2 0xE0#8 .cmJm (Or.inr (Or.inl ⟨rfl, rfl⟩))
    (cmOctets result parms n) (by have := cmOctets_length result parms n; omega)
  rw [zfold_nonzero _ (cmOctets_nonzero result parms n) (cmOctets_ne result parms n)] at z1
  simp only [Prod.mk.injEq] at z1
  have one : GotOne (cmOctets result parms n) r1 := ⟨b1, s1, d1⟩
  have e : ∀ k, puts r (times (k + 1) (cmBits result parms n)) = puts r1 (times k (cmBits result parms n)) := by
    intro k
    rw [times_succ, puts_append, show puts r (cmBits result parms n) = some r1 from p1, Option.bind_some]
  rw [e]
  by_cases hb : 2 ≤ b
  · obtain ⟨r', p, g, z, c, q1, q2, q3⟩ := cm_twice result parms n hn b hb r1 one (g1.trans h3)
    exact ⟨r', p, by rw [c, z1.2, h4], fun _ => ⟨g, z⟩, fun _ => ⟨q1, q3, r1, p1, g1.trans h3, q2⟩⟩
  · have hb : b = 0 ∨ b = 1 := by omega
    rcases hb with rfl | rfl
    · exact ⟨r1, by rw [show times 0 (cmBits result parms n) = [] by simp [times]]; rfl, by rw [z1.2, h4],
        fun _ => ⟨one, z1.1⟩, by omega⟩
    · obtain ⟨r2, p2, g2, z2, c2, -⟩ := cm_next result parms n hn r1 one
      refine ⟨r2, ?_, by rw [c2, z1.2, h4], fun _ => ⟨g2, z2⟩, by omega⟩
      rw [times_succ, puts_append, p2, Option.bind_some]; rfl

/-- CJ after a CM. -/
theorem cj_after (r : Rx) (h : Bd r) (hz : r.zeros = 0) (hl : r.data.length ≤ 8) :
    ∃ r', puts r cjBits = some r' ∧ r'.gotCj = true ∧ r'.msg = r.msg ∧ r'.gotCmJm = r.gotCmJm := by
  obtain ⟨r', p, hf⟩ := puts_octets [0#8, 0#8, 0#8] r h (by simp; omega)
  refine ⟨r', p, ?_, hf.msg, hf.gotCmJm⟩
  have := hf.zeros
  rw [hz] at this
  simp [zstep] at this
  exact this.2

end V8
