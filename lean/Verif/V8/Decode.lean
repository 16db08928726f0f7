import Verif.V8.Bits

/-! Lemmas: going through the octets of a CM or JM. -/

namespace V8

/-! ### Octets -/

theorem octet_eq (v : BitVec 32) (t : Byte) :
    octet v t = ((v.setWidth 3).setWidth 8 <<< 5) ||| t := by
  apply BitVec.eq_of_getLsbD_eq
  intro i hi
  unfold octet
  simp only [BitVec.getLsbD_setWidth, BitVec.getLsbD_or, BitVec.getLsbD_shiftLeft]
  by_cases h : i < 5
  · simp [h, hi, show i < 32 by omega]
  · simp [h, hi, show i - 5 < 3 by omega, show i < 32 by omega, show i - 5 < 8 by omega]

theorem value_eq (v : BitVec 32) (t : Byte) (ht : t < 0x20#8) : value (octet v t) = v &&& 7#32 := by
  have h7 : ∀ i : Fin 32, (7#32).getLsbD i = decide (i.val < 3) := by decide
  have hv : v &&& 7#32 = (v.setWidth 3).setWidth 32 := by
    apply BitVec.eq_of_getLsbD_eq
    intro i hi
    have := h7 ⟨i, hi⟩
    simp only at this
    rw [BitVec.getLsbD_and, this, BitVec.getLsbD_setWidth, BitVec.getLsbD_setWidth, Bool.and_comm]
    simp [hi]
  rw [octet_eq, hv]
  generalize v.setWidth 3 = w
  revert w
  revert t
  decide +kernel

theorem octet_tag (v : BitVec 32) (t : Byte) (ht : t < 0x20#8) : octet v t &&& 0x1F#8 = t := by
  rw [octet_eq]
  generalize v.setWidth 3 = w
  revert w
  revert t
  decide +kernel

theorem octet_ne (v : BitVec 32) (t : Byte) (ht : t < 0x20#8) (h : t ≠ 0#8) : octet v t ≠ 0#8 := by
  intro h2
  have := octet_tag v t ht
  rw [h2] at this
  exact h (by rw [← this]; rfl)

theorem octet_ext (v : BitVec 32) (t : Byte) (h : t ∈ [0x01#8, 0x0A#8, 0x0D#8, 0x07#8, 0x0E#8]) :
    isExt (octet v t) = false := by
  rw [octet_eq]
  generalize v.setWidth 3 = w
  revert w
  revert t
  decide +kernel

/-! ### Modulations -/

theorem mods1_mod1 (m : BitVec 32) (k : Nat) :
    (mods1 (mod1 m)).getLsbD k = (m.getLsbD k && decide (k ∈ [10, 11, 12])) := by
  by_cases hk : k < 32
  · have key : ∀ a b c : Bool, ∀ k : Fin 32,
        (mods1 (0x05#8 ||| (if a then 0x20#8 else 0#8) ||| (if b then 0x40#8 else 0#8) |||
          (if c then 0x80#8 else 0#8))).getLsbD k.val =
        ((decide (k.val = 12) && a) || (decide (k.val = 11) && b) || (decide (k.val = 10) && c)) := by
      decide +kernel
    have := key (m.getLsbD 12) (m.getLsbD 11) (m.getLsbD 10) ⟨k, hk⟩
    simp only at this
    unfold mod1 bitIf
    rw [this]
    by_cases h1 : k = 12
    · subst h1; simp
    · by_cases h2 : k = 11
      · subst h2; simp
      · by_cases h3 : k = 10
        · subst h3; simp
        · simp [h1, h2, h3]
  · rw [BitVec.getLsbD_of_ge _ _ (by omega), BitVec.getLsbD_of_ge _ _ (by omega)]; rfl

theorem mods2_mod2 (m : BitVec 32) (k : Nat) :
    (mods2 (mod2 m)).getLsbD k = (m.getLsbD k && decide (k ∈ [0, 2, 7, 8, 9])) := by
  by_cases hk : k < 32
  · have key : ∀ a b c d e : Bool, ∀ k : Fin 32,
        (mods2 (0x10#8 ||| (if a then 0x01#8 else 0#8) ||| (if b then 0x02#8 else 0#8) |||
          (if c then 0x04#8 else 0#8) ||| (if d then 0x40#8 else 0#8) |||
          (if e then 0x80#8 else 0#8))).getLsbD k.val =
        ((decide (k.val = 9) && a) || (decide (k.val = 2) && b) || (decide (k.val = 0) && c) ||
          (decide (k.val = 8) && d) || (decide (k.val = 7) && e)) := by
      decide +kernel
    have := key (m.getLsbD 9) (m.getLsbD 2) (m.getLsbD 0) (m.getLsbD 8) (m.getLsbD 7) ⟨k, hk⟩
    simp only at this
    unfold mod2 bitIf
    rw [this]
    by_cases h1 : k = 9
    · subst h1; simp
    · by_cases h2 : k = 2
      · subst h2; simp
      · by_cases h3 : k = 0
        · subst h3; simp
        · by_cases h4 : k = 8
          · subst h4; simp
          · by_cases h5 : k = 7
            · subst h5; simp
            · simp [h1, h2, h3, h4, h5]
  · rw [BitVec.getLsbD_of_ge _ _ (by omega), BitVec.getLsbD_of_ge _ _ (by omega)]; rfl

theorem mods3_mod3 (m : BitVec 32) (k : Nat) :
    (mods3 (mod3 m)).getLsbD k = (m.getLsbD k && decide (k ∈ [1, 3, 4, 5, 6])) := by
  by_cases hk : k < 32
  · have key : ∀ a b c d e : Bool, ∀ k : Fin 32,
        (mods3 (0x10#8 ||| (if a then 0x01#8 else 0#8) ||| (if b then 0x02#8 else 0#8) |||
          (if c then 0x04#8 else 0#8) ||| (if d then 0x40#8 else 0#8) |||
          (if e then 0x80#8 else 0#8))).getLsbD k.val =
        ((decide (k.val = 6) && a) || (decide (k.val = 5) && b) || (decide (k.val = 4) && c) ||
          (decide (k.val = 3) && d) || (decide (k.val = 1) && e)) := by
      decide +kernel
    have := key (m.getLsbD 6) (m.getLsbD 5) (m.getLsbD 4) (m.getLsbD 3) (m.getLsbD 1) ⟨k, hk⟩
    simp only at this
    unfold mod3 bitIf
    rw [this]
    by_cases h1 : k = 6
    · subst h1; simp
    · by_cases h2 : k = 5
      · subst h2; simp
      · by_cases h3 : k = 4
        · subst h3; simp
        · by_cases h4 : k = 3
          · subst h4; simp
          · by_cases h5 : k = 1
            · subst h5; simp
            · simp [h1, h2, h3, h4, h5]
  · rw [BitVec.getLsbD_of_ge _ _ (by omega), BitVec.getLsbD_of_ge _ _ (by omega)]; rfl

theorem mod1_facts (m : BitVec 32) : mod1 m ≠ 0#8 ∧ mod1 m &&& 0x1F#8 = 0x05#8 ∧ isExt (mod1 m) = false := by
  unfold mod1 bitIf
  cases m.getLsbD 12 <;> cases m.getLsbD 11 <;> cases m.getLsbD 10 <;> decide

theorem mod2_facts (m : BitVec 32) : isExt (mod2 m) = true ∧ mod2 m ≠ 0#8 := by
  unfold mod2 bitIf
  cases m.getLsbD 9 <;> cases m.getLsbD 2 <;> cases m.getLsbD 0 <;> cases m.getLsbD 8 <;>
    cases m.getLsbD 7 <;> decide

theorem mod3_facts (m : BitVec 32) : isExt (mod3 m) = true ∧ mod3 m ≠ 0#8 := by
  unfold mod3 bitIf
  cases m.getLsbD 6 <;> cases m.getLsbD 5 <;> cases m.getLsbD 4 <;> cases m.getLsbD 3 <;>
    cases m.getLsbD 1 <;> decide

/-! ### The loop -/

/-- `l`, which ends with a zero, is gone through with this outcome. -/
def Decodes (l : List Byte) (m : Msg) (n : Nat) (m' : Msg) (n' : Nat) : Prop :=
  ∀ k, l.length ≤ k + 1 → decodeLoop k l m n = .done m' n'

/-- The first octet is not an extension. -/
def Fresh (l : List Byte) : Prop := ∃ o t, l = o :: t ∧ isExt o = false

theorem fresh_skip {l : List Byte} (h : Fresh l) : skipExts l = some l := by
  obtain ⟨o, t, rfl, h⟩ := h
  unfold skipExts
  rw [h]; rfl

theorem decodes_zero (m : Msg) (n : Nat) : Decodes [0#8] m n m n := by
  intro k _
  cases k <;> rfl

theorem decodes_step {o : Byte} {l l' l'' : List Byte} {m m1 m2 : Msg} {n n1 n2 : Nat} (ho : o ≠ 0#8)
    (hp : processOctet o l m n = some (m1, n1, l')) (hs : skipExts l' = some l'')
    (hl : l''.length ≤ l.length) (hd : Decodes l'' m1 n1 m2 n2) : Decodes (o :: l) m n m2 n2 := by
  intro k hk
  have h1 : 0 < l''.length := by
    rcases l'' with _ | ⟨a, l''⟩
    · have := hd 0 (by simp)
      simp [decodeLoop] at this
    · simp
  rcases k with _ | k
  · simp at hk; subst hk; simp at hl; subst hl; simp at h1
  · unfold decodeLoop
    rw [if_neg ho, hp]
    simp only [hs]
    exact hd k (by simp at hk; omega)

/-- A field which may be left out. -/
theorem decodes_opt (c : Prop) [Decidable c] (v : BitVec 32) (t : Byte) (f : Msg → BitVec 32 → Msg)
    (ht : t ∈ [0x0A#8, 0x0D#8, 0x07#8, 0x0E#8])
    (hf : ∀ l m n, processOctet (octet v t) l m n = some (f m (v &&& 7#32), n, l))
    (l : List Byte) (hl : Fresh l) (n : Nat) (m m2 : Msg) (n2 : Nat)
    (h : Decodes l (if c then f m (v &&& 7#32) else m) n m2 n2) :
    Fresh ((if c then [octet v t] else []) ++ l) ∧
    Decodes ((if c then [octet v t] else []) ++ l) m n m2 n2 := by
  have h32 : t < 0x20#8 ∧ t ≠ 0#8 := by clear hf; revert ht; revert t; decide +kernel
  by_cases hc : c
  · rw [if_pos hc] at h ⊢
    exact ⟨⟨_, _, rfl, octet_ext v t (List.mem_cons_of_mem _ ht)⟩,
      decodes_step (octet_ne v t h32.1 h32.2) (hf l m n) (fresh_skip hl) (Nat.le_refl _) h⟩
  · rw [if_neg hc] at h ⊢
    exact ⟨hl, h⟩

theorem process_call (v : BitVec 32) (l : List Byte) (m : Msg) (n : Nat) :
    processOctet (octet v 0x01#8) l m n = some ({ m with call := v &&& 7#32 }, n, l) := by
  unfold processOctet
  simp only [octet_tag v 0x01#8 (by decide), value_eq v 0x01#8 (by decide), if_true]
theorem process_protocols (v : BitVec 32) (l : List Byte) (m : Msg) (n : Nat) :
    processOctet (octet v 0x0A#8) l m n = some ({ m with protocols := v &&& 7#32 }, n, l) := by
  unfold processOctet
  simp only [octet_tag v 0x0A#8 (by decide), value_eq v 0x0A#8 (by decide)]
  rfl
theorem process_pstn (v : BitVec 32) (l : List Byte) (m : Msg) (n : Nat) :
    processOctet (octet v 0x0D#8) l m n = some ({ m with pstn := v &&& 7#32 }, n, l) := by
  unfold processOctet
  simp only [octet_tag v 0x0D#8 (by decide), value_eq v 0x0D#8 (by decide)]
  rfl
theorem process_pcm (v : BitVec 32) (l : List Byte) (m : Msg) (n : Nat) :
    processOctet (octet v 0x07#8) l m n = some ({ m with pcm := v &&& 7#32 }, n, l) := by
  unfold processOctet
  simp only [octet_tag v 0x07#8 (by decide), value_eq v 0x07#8 (by decide)]
  rfl
theorem process_t66 (v : BitVec 32) (l : List Byte) (m : Msg) (n : Nat) :
    processOctet (octet v 0x0E#8) l m n = some ({ m with t66 := v &&& 7#32 }, n, l) := by
  unfold processOctet
  simp only [octet_tag v 0x0E#8 (by decide), value_eq v 0x0E#8 (by decide)]
  rfl

/-- The modulations which are found, with `n` octets for them. -/
def modsOf (m : BitVec 32) (n : Nat) : BitVec 32 :=
  if 2 < n then mods1 (mod1 m) ||| mods2 (mod2 m) ||| mods3 (mod3 m)
  else if 1 < n then mods1 (mod1 m) ||| mods2 (mod2 m) else mods1 (mod1 m)

theorem modsOf_bit (m : BitVec 32) (n k : Nat) :
    (modsOf m n).getLsbD k = (m.getLsbD k && decide (k ∈ tellable n)) := by
  unfold modsOf tellable
  by_cases h1 : 2 < n
  · rw [if_pos h1, if_pos h1, if_pos (by omega)]
    simp only [BitVec.getLsbD_or, mods1_mod1, mods2_mod2, mods3_mod3, List.mem_append, Bool.decide_or,
      Bool.and_or_distrib_left]
  · rw [if_neg h1, if_neg h1]
    by_cases h2 : 1 < n
    · rw [if_pos h2, if_pos h2]
      simp only [BitVec.getLsbD_or, mods1_mod1, mods2_mod2, List.append_nil, List.mem_append, Bool.decide_or,
        Bool.and_or_distrib_left]
    · rw [if_neg h2, if_neg h2, mods1_mod1]; simp

theorem process_mods (m : BitVec 32) (n : Nat) (hn : 1 ≤ n ∧ n ≤ 3) (l : List Byte) (hl : Fresh l) (x : Msg)
    (n0 : Nat) :
    processOctet (mod1 m) ((if 1 < n then [mod2 m] else []) ++ (if 2 < n then [mod3 m] else []) ++ l) x n0 =
      some ({ x with modulations := modsOf m n }, n, l) := by
  obtain ⟨o, t, rfl, ho⟩ := hl
  have h1 := mod1_facts m
  have h2 := mod2_facts m
  have h3 := mod3_facts m
  unfold processOctet
  simp only [h1.2.1]
  rw [if_neg (by decide), if_pos trivial]
  have hn : n = 1 ∨ n = 2 ∨ n = 3 := by omega
  rcases hn with rfl | rfl | rfl
  · simp [processMods, ho, modsOf]
  · simp [processMods, ho, h2.1, modsOf]
  · simp [processMods, h2.1, h3.1, modsOf]

/-- What is made of a CM or JM. -/
def toldMsg (n : Nat) (result parms m : Msg) : Msg where
  call := result.call &&& 7#32
  modulations := modsOf result.modulations n
  protocols := if parms.protocols ≠ 0#32 then parms.protocols &&& 7#32 else m.protocols
  pstn := if parms.pstn ≠ 0#32 then parms.pstn &&& 7#32 else m.pstn
  pcm := if parms.pcm ≠ 0#32 then parms.pcm &&& 7#32 else m.pcm
  t66 := if 0 ≤ parms.t66.toInt then parms.t66 &&& 7#32 else m.t66
  nsf := m.nsf

theorem toldMsg_told (n : Nat) (result parms m : Msg) (h : Blank m) :
    Told n result parms (toldMsg n result parms m) := by
  obtain ⟨h1, h2, h3, h4, h5⟩ := h
  have z : ∀ v : BitVec 32, (if v ≠ 0#32 then v &&& 7#32 else 0#32) = v &&& 7#32 := by
    intro v
    by_cases h : v = 0#32
    · subst h; rfl
    · rw [if_pos h]
  constructor
  · rfl
  · intro k; exact modsOf_bit _ _ _
  · simp only [toldMsg]; rw [h1, z]
  · simp only [toldMsg]; rw [h2, z]
  · simp only [toldMsg]; rw [h3, z]
  · simp only [toldMsg]; rw [h5]
  · simp only [toldMsg]; rw [h4]

theorem decodeSaved_cm (result parms m : Msg) (n n0 : Nat) (hn : 1 ≤ n ∧ n ≤ 3) :
    decodeSaved (cmOctets result parms n) m n0 = .done (toldMsg n result parms m) n := by
  have key : ∀ x : Msg, Decodes (cmOctets result parms n ++ [0#8]) x n0
      (toldMsg n result parms x) n := by
    intro x
    have f0 : Fresh [0#8] := ⟨_, _, rfl, by decide⟩
    let x1 : Msg := { x with call := result.call &&& 7#32, modulations := modsOf result.modulations n }
    let x2 : Msg := if parms.protocols ≠ 0#32 then { x1 with protocols := parms.protocols &&& 7#32 } else x1
    let x3 : Msg := if parms.pstn ≠ 0#32 then { x2 with pstn := parms.pstn &&& 7#32 } else x2
    let x4 : Msg := if parms.pcm ≠ 0#32 then { x3 with pcm := parms.pcm &&& 7#32 } else x3
    let x5 : Msg := if 0 ≤ parms.t66.toInt then { x4 with t66 := parms.t66 &&& 7#32 } else x4
    obtain ⟨f4, d4⟩ := decodes_opt (0 ≤ parms.t66.toInt) parms.t66 0x0E#8
      (fun m v => { m with t66 := v }) (by decide) (process_t66 parms.t66) [0#8] f0 n x4 x5 n
      (decodes_zero x5 n)
    obtain ⟨f3, d3⟩ := decodes_opt (parms.pcm ≠ 0#32) parms.pcm 0x07#8
      (fun m v => { m with pcm := v }) (by decide) (process_pcm parms.pcm) _ f4 n x3 x5 n d4
    obtain ⟨f2, d2⟩ := decodes_opt (parms.pstn ≠ 0#32) parms.pstn 0x0D#8
      (fun m v => { m with pstn := v }) (by decide) (process_pstn parms.pstn) _ f3 n x2 x5 n d3
    obtain ⟨f1, d1⟩ := decodes_opt (parms.protocols ≠ 0#32) parms.protocols 0x0A#8
      (fun m v => { m with protocols := v }) (by decide) (process_protocols parms.protocols) _ f2 n x1 x5 n d2
    have hx : x5 = toldMsg n result parms x := by
      simp only [x5, x4, x3, x2, x1, toldMsg]
      by_cases a : parms.protocols = 0#32 <;> by_cases b : parms.pstn = 0#32 <;>
        by_cases c : parms.pcm = 0#32 <;> by_cases d : 0 ≤ parms.t66.toInt <;> simp [a, b, c, d]
    rw [hx] at d1
    have dm := decodes_step (mod1_facts result.modulations).1
      (process_mods result.modulations n hn _ f1 { x with call := result.call &&& 7#32 } n0)
      (fresh_skip f1) (List.suffix_append _ _).length_le d1
    have dc := decodes_step (octet_ne result.call 0x01#8 (by decide) (by decide))
      (process_call result.call _ x n0)
      (fresh_skip ⟨_, _, rfl, (mod1_facts result.modulations).2.2⟩) (Nat.le_refl _) dm
    have e : cmOctets result parms n ++ [0#8] = octet result.call 0x01#8 :: mod1 result.modulations ::
        ((if 1 < n then [mod2 result.modulations] else []) ++
          (if 2 < n then [mod3 result.modulations] else []) ++
        ((if parms.protocols ≠ 0#32 then [octet parms.protocols 0x0A#8] else []) ++
        ((if parms.pstn ≠ 0#32 then [octet parms.pstn 0x0D#8] else []) ++
        ((if parms.pcm ≠ 0#32 then [octet parms.pcm 0x07#8] else []) ++
        ((if 0 ≤ parms.t66.toInt then [octet parms.t66 0x0E#8] else []) ++ [0#8]))))) := by
      unfold cmOctets
      simp only [List.append_assoc, List.cons_append, List.nil_append]
    rw [e]
    exact dc
  exact key _ _ (by simp)

/-! ### Any octets -/

/-- `l'` is what is left of `l` after octets which are not zero and not of non-standard facilities. -/
def Adv (l l' : List Byte) : Prop := ∃ p, l = p ++ l' ∧ ∀ x ∈ p, x ≠ 0#8 ∧ isNsf x = false

theorem Adv.refl (l : List Byte) : Adv l l := ⟨[], rfl, by simp⟩
theorem Adv.cons {o : Byte} {l l' : List Byte} (h : Adv l l') (h0 : o ≠ 0#8) (h1 : isNsf o = false) :
    Adv (o :: l) l' := by
  obtain ⟨p, rfl, hp⟩ := h
  exact ⟨o :: p, rfl, by simp; exact ⟨⟨h0, h1⟩, hp⟩⟩
theorem Adv.trans {a b c : List Byte} (h : Adv a b) (h2 : Adv b c) : Adv a c := by
  obtain ⟨p, rfl, hp⟩ := h
  obtain ⟨q, rfl, hq⟩ := h2
  refine ⟨p ++ q, by simp, ?_⟩
  intro x hx
  rw [List.mem_append] at hx
  rcases hx with h | h
  · exact hp x h
  · exact hq x h
theorem Adv.length {a b : List Byte} (h : Adv a b) : b.length ≤ a.length := by
  obtain ⟨p, rfl, hp⟩ := h; simp
theorem Adv.zero {a b : List Byte} (h : Adv a b) (h0 : 0#8 ∈ a) : 0#8 ∈ b := by
  obtain ⟨p, rfl, hp⟩ := h
  rw [List.mem_append] at h0
  rcases h0 with h | h
  · exact absurd rfl (hp _ h).1
  · exact h
/-- Whether there is an octet of non-standard facilities before the first zero. -/
def nsfIn (l : List Byte) : Bool := (l.takeWhile (· != 0#8)).any isNsf
theorem Adv.nsf {a b : List Byte} (h : Adv a b) : nsfIn a = nsfIn b := by
  obtain ⟨p, rfl, hp⟩ := h
  induction p with
  | nil => rfl
  | cons o p ih =>
    have ho := hp o (by simp)
    have := ih (fun x hx => hp x (by simp [hx]))
    unfold nsfIn at this ⊢
    rw [List.cons_append, List.takeWhile_cons_of_pos (by simpa using ho.1), List.any_cons, ho.2, this]
    rfl

theorem ext_facts (o : Byte) (h : isExt o = true) : o ≠ 0#8 ∧ isNsf o = false := by
  revert h; revert o; decide +kernel

theorem nsf_facts (o : Byte) (h : isNsf o = true) : o ≠ 0#8 ∧ isExt o = false := by
  revert h; revert o; decide +kernel

theorem skip_adv (l : List Byte) (h : 0#8 ∈ l) : ∃ l', skipExts l = some l' ∧ Adv l l' ∧ Fresh l' := by
  induction l with
  | nil => simp at h
  | cons o l ih =>
    unfold skipExts
    by_cases he : isExt o = true
    · rw [if_pos he]
      have hf := ext_facts o he
      obtain ⟨l', h1, h2, h3⟩ := ih (by
        rw [List.mem_cons] at h
        rcases h with h | h
        · exact absurd h.symm hf.1
        · exact h)
      exact ⟨l', h1, h2.cons hf.1 hf.2, h3⟩
    · rw [if_neg he]
      exact ⟨_, rfl, Adv.refl _, _, _, rfl, by simpa using he⟩

theorem processMods_adv (o : Byte) (l : List Byte) (h : 0#8 ∈ l) :
    ∃ a b l', processMods o l = some (a, b, l') ∧ Adv l l' := by
  unfold processMods
  rcases l with _ | ⟨o2, l2⟩
  · simp at h
  · simp only
    by_cases h2 : isExt o2 = true
    · rw [if_pos h2]
      have hf := ext_facts o2 h2
      have h0 : 0#8 ∈ l2 := by
        rw [List.mem_cons] at h
        rcases h with h | h
        · exact absurd h.symm hf.1
        · exact h
      rcases l2 with _ | ⟨o3, l3⟩
      · simp at h0
      · simp only
        by_cases h3 : isExt o3 = true
        · rw [if_pos h3]
          have hf3 := ext_facts o3 h3
          exact ⟨_, _, _, rfl, ((Adv.refl _).cons hf3.1 hf3.2).cons hf.1 hf.2⟩
        · rw [if_neg h3]
          exact ⟨_, _, _, rfl, (Adv.refl _).cons hf.1 hf.2⟩
    · rw [if_neg h2]
      exact ⟨_, _, _, rfl, Adv.refl _⟩

theorem process_adv (o : Byte) (l : List Byte) (m : Msg) (n : Nat) (h : 0#8 ∈ l) (hn : isNsf o = false) :
    ∃ a b l', processOctet o l m n = some (a, b, l') ∧ Adv l l' := by
  have hn : o &&& 0x1F#8 ≠ 0x0F#8 := by simpa [isNsf] using hn
  obtain ⟨a, b, l', h1, h2⟩ := processMods_adv o l h
  unfold processOctet
  simp only
  by_cases c1 : o &&& 0x1F#8 = 0x01#8
  · rw [if_pos c1]; exact ⟨_, _, _, rfl, Adv.refl _⟩
  rw [if_neg c1]
  by_cases c2 : o &&& 0x1F#8 = 0x05#8
  · rw [if_pos c2, h1]; exact ⟨_, _, _, rfl, h2⟩
  rw [if_neg c2]
  by_cases c3 : o &&& 0x1F#8 = 0x0A#8
  · rw [if_pos c3]; exact ⟨_, _, _, rfl, Adv.refl _⟩
  rw [if_neg c3]
  by_cases c4 : o &&& 0x1F#8 = 0x0D#8
  · rw [if_pos c4]; exact ⟨_, _, _, rfl, Adv.refl _⟩
  rw [if_neg c4, if_neg hn]
  by_cases c5 : o &&& 0x1F#8 = 0x07#8
  · rw [if_pos c5]; exact ⟨_, _, _, rfl, Adv.refl _⟩
  rw [if_neg c5]
  by_cases c6 : o &&& 0x1F#8 = 0x0E#8
  · rw [if_pos c6]; exact ⟨_, _, _, rfl, Adv.refl _⟩
  rw [if_neg c6]; exact ⟨_, _, _, rfl, Adv.refl _⟩

theorem process_nsf (o : Byte) (l : List Byte) (m : Msg) (n : Nat) (h : isNsf o = true) :
    processOctet o l m n = some ({ m with nsf := value o }, n, o :: l) := by
  have h : o &&& 0x1F#8 = 0x0F#8 := by simpa [isNsf] using h
  unfold processOctet
  simp only [h]
  rfl

theorem going_nsf (o : Byte) (l : List Byte) (h : isNsf o = true) (k : Nat) (m : Msg) (n : Nat) :
    decodeLoop k (o :: l) m n = .going := by
  have hf := nsf_facts o h
  induction k generalizing m n with
  | zero => unfold decodeLoop; rw [if_neg hf.1]
  | succ k ih =>
    unfold decodeLoop
    rw [if_neg hf.1, process_nsf o l m n h]
    simp only [fresh_skip ⟨o, l, rfl, hf.2⟩]
    exact ih _ _

theorem decode_any (c : Nat) : ∀ l : List Byte, l.length ≤ c → 0#8 ∈ l → ∀ m n,
    (nsfIn l = false → ∃ m' n', Decodes l m n m' n') ∧
    (nsfIn l = true → ∀ k, decodeLoop k l m n = .going) := by
  induction c with
  | zero =>
    intro l hl h0
    have : l = [] := List.length_eq_zero_iff.mp (by omega)
    subst this; simp at h0
  | succ c ih =>
    intro l hl h0 m n
    rcases l with _ | ⟨o, l⟩
    · simp at h0
    by_cases hz : o = 0#8
    · subst hz
      constructor
      · intro _; refine ⟨m, n, ?_⟩
        intro k _; cases k <;> simp [decodeLoop]
      · intro h; simp [nsfIn] at h
    · have h0' : 0#8 ∈ l := by
        rw [List.mem_cons] at h0
        rcases h0 with h | h
        · exact absurd h.symm hz
        · exact h
      by_cases hn : isNsf o = true
      · constructor
        · intro h
          unfold nsfIn at h
          rw [List.takeWhile_cons_of_pos (by simpa using hz), List.any_cons, hn] at h
          simp at h
        · intro _ k; exact going_nsf o l hn k m n
      · have hn : isNsf o = false := by simpa using hn
        obtain ⟨a, b, l', h1, h2⟩ := process_adv o l m n h0' hn
        obtain ⟨l'', h3, h4, h5⟩ := skip_adv l' (h2.zero h0')
        have hadv := h2.trans h4
        have hlen := hadv.length
        have e : nsfIn (o :: l) = nsfIn l'' := (hadv.cons hz hn).nsf
        have i := ih l'' (by simp at hl; omega) (hadv.zero h0') a b
        rw [e]
        constructor
        · intro h
          obtain ⟨m', n', hd⟩ := i.1 h
          exact ⟨m', n', decodes_step hz h1 h3 hlen hd⟩
        · intro h k
          rcases k with _ | k
          · unfold decodeLoop; rw [if_neg hz]
          · unfold decodeLoop
            rw [if_neg hz, h1]
            simp only [h3]
            exact i.2 h k

theorem nsfIn_term (l : List Byte) : nsfIn (l ++ [0#8]) = nsfIn l := by
  unfold nsfIn
  induction l with
  | nil => rfl
  | cons o l ih =>
    by_cases h : o = 0#8
    · subst h; rfl
    · rw [List.cons_append, List.takeWhile_cons_of_pos (by simpa using h),
        List.takeWhile_cons_of_pos (by simpa using h), List.any_cons, List.any_cons, ih]

end V8
