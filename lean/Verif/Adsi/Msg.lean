import Verif.Adsi.Recv

/-!
# Messages
-/

namespace Adsi

set_option linter.unusedSimpArgs false
set_option linter.unusedVariables false

/-! ## Octets of a message -/

theorem sum_more {s : Rx} {o : Byte} (hs : s.std ≠ .jclip) (hl : s.msg.length < 256)
    (hn : ∀ n, (s.msg ++ [o])[1]? = some n → s.msg.length + 1 ≠ n.toNat + 3) : octet s o = some { s with msg := s.msg ++ [o] } := by
  unfold octet
  rw [if_pos hl, if_neg hs]
  unfold sumOctet Rx.store
  rw [if_pos hl]
  simp only [Option.bind_some]
  split
  · next h3 =>
    have hlen : 1 < (s.msg ++ [o]).length := by omega
    rw [List.getElem?_eq_getElem hlen]
    simp only [Option.bind_some]
    rw [if_neg]
    have := hn _ (List.getElem?_eq_getElem hlen)
    simpa using this
  · rfl

theorem sum_last {s : Rx} {o n : Byte} (hs : s.std ≠ .jclip) (hl : s.msg.length < 256) (h2 : 2 ≤ s.msg.length)
    (hn : s.msg[1]? = some n) (he : s.msg.length + 1 = n.toNat + 3) :
    octet s o = some { s with msg := [], out := if 0 - sum8 s.msg = o then s.out ++ [s.msg] else s.out } := by
  unfold octet
  rw [if_pos hl, if_neg hs]
  unfold sumOctet Rx.store
  rw [if_pos hl]
  simp only [Option.bind_some]
  rw [if_pos (by simp; omega), List.getElem?_append_left (by omega), hn]
  simp only [Option.bind_some]
  rw [if_pos (by simp; omega)]
  have h1 : (s.msg ++ [o])[(s.msg ++ [o]).length - 1]? = some o := by simp
  have h3 : (s.msg ++ [o]).take ((s.msg ++ [o]).length - 1) = s.msg := by simp
  rw [h1, h3]
  simp only [Option.bind_some]
  split <;> rfl

theorem octets_sum {m : List Byte} {c n : Byte} (h2 : 2 ≤ m.length) (hl : m.length < 256) (hn : m[1]? = some n) (he : m.length + 1 = n.toNat + 3) :
    ∀ (q p : List Byte) {s : Rx}, s.std ≠ .jclip → s.msg = p → p ++ q = m →
      octets s (q ++ [c]) = some { s with msg := [], out := if 0 - sum8 m = c then s.out ++ [m] else s.out }
  | [], p, s, hs, hp, hm => by
    have : s.msg = m := by rw [hp, ← hm]; simp
    simp only [List.nil_append, octets]
    rw [sum_last hs (by rw [this]; exact hl) (by rw [this]; exact h2) (by rw [this]; exact hn) (by rw [this]; exact he), this]
    rfl
  | o :: q, p, s, hs, hp, hm => by
    have hpl : p.length < m.length := by rw [← hm]; simp
    rw [List.cons_append, octets, sum_more hs (by rw [hp]; omega)]
    · simp only [Option.bind_some]
      rw [octets_sum h2 hl hn he q (p ++ [o]) (s := { s with msg := s.msg ++ [o] }) hs (by simp only; rw [hp]) (by rw [← hm]; simp)]
    · intro k hk
      rw [hp] at hk ⊢
      by_cases h1 : p.length = 0
      · rw [List.getElem?_append_right (by omega), h1] at hk
        cases hk
      · have : m[1]? = (p ++ [o])[1]? := by
          rw [← hm, show p ++ o :: q = (p ++ [o]) ++ q by simp, List.getElem?_append_left (by simp; omega)]
        rw [hk, hn] at this
        cases this
        omega

theorem jclip_more {s : Rx} {o : Byte} (hs : s.std = .jclip) (hl : s.msg.length < 256) (h0 : s.msg = [] → o = 0x90)
    (hn : ∀ n, (s.msg ++ [o])[6]? = some n → s.msg.length + 1 ≠ (n &&& 0x7F).toNat + 11) : octet s o = some { s with msg := s.msg ++ [o] } := by
  unfold octet
  rw [if_pos hl, if_pos hs]
  unfold jclipOctet Rx.store
  have hst : (if s.msg.length = 0 then if o = 0x90 then if s.msg.length < 256 then some { s with msg := s.msg ++ [o] } else none else some s
      else if s.msg.length < 256 then some { s with msg := s.msg ++ [o] } else none) = some { s with msg := s.msg ++ [o] } := by
    rw [if_pos hl]
    split
    · next h => rw [if_pos (h0 (List.length_eq_zero_iff.mp h))]
    · rfl
  rw [hst]
  simp only [Option.bind_some]
  split
  · next h3 =>
    have hlen : 6 < (s.msg ++ [o]).length := by omega
    rw [List.getElem?_eq_getElem hlen]
    simp only [Option.bind_some]
    rw [if_neg]
    have := hn _ (List.getElem?_eq_getElem hlen)
    simpa using this
  · rfl

theorem calc_all (l : List Byte) (c : BitVec 16) : Crc.itu16Calc l l.length c = some (Crc.Spec.serial Crc.Spec.poly16 c (Crc.Spec.bits l)) :=
  (Crc.crc_calc_is_bit_serial l c 0).1

theorem jclip_last {s : Rx} {o n : Byte} (hs : s.std = .jclip) (hl : s.msg.length < 256) (h2 : 10 ≤ s.msg.length)
    (hn : s.msg[6]? = some n) (he : s.msg.length + 1 = (n &&& 0x7F).toNat + 11) :
    octet s o = some { s with msg := [], out := if Crc.Spec.serial Crc.Spec.poly16 0 (Crc.Spec.bits ((s.msg ++ [o]).drop 2)) = 0
      then s.out ++ [(s.msg.dropLast).map (· &&& 0x7F)] else s.out } := by
  unfold octet
  rw [if_pos hl, if_pos hs]
  unfold jclipOctet Rx.store
  rw [if_neg (by omega), if_pos hl]
  simp only [Option.bind_some]
  rw [if_pos (by simp; omega), List.getElem?_append_left (by omega), hn]
  simp only [Option.bind_some]
  rw [if_pos (by rw [List.length_append]; exact he)]
  have h1 : (s.msg ++ [o]).length - 2 = ((s.msg ++ [o]).drop 2).length := by simp
  have h3 : (s.msg ++ [o]).take ((s.msg ++ [o]).length - 2) = s.msg.dropLast := by
    rw [List.dropLast_eq_take]
    simp only [List.length_append, List.length_singleton]
    rw [List.take_append_of_le_length (by omega)]
    congr 1
  rw [h3, h1, calc_all]
  simp only [Option.bind_some]
  split <;> rfl

theorem octets_jclip {m : List Byte} {c n : Byte} (h2 : 10 ≤ m.length) (hl : m.length < 256) (h0 : m[0]? = some 0x90) (hn : m[6]? = some n)
    (he : m.length + 1 = (n &&& 0x7F).toNat + 11) :
    ∀ (q p : List Byte) {s : Rx}, s.std = .jclip → s.msg = p → p ++ q = m →
      octets s (q ++ [c]) = some { s with msg := [], out := if Crc.Spec.serial Crc.Spec.poly16 0 (Crc.Spec.bits ((m ++ [c]).drop 2)) = 0
        then s.out ++ [(m.dropLast).map (· &&& 0x7F)] else s.out }
  | [], p, s, hs, hp, hm => by
    have : s.msg = m := by rw [hp, ← hm]; simp
    simp only [List.nil_append, octets]
    rw [jclip_last hs (by rw [this]; exact hl) (by rw [this]; exact h2) (by rw [this]; exact hn) (by rw [this]; exact he), this]
    rfl
  | o :: q, p, s, hs, hp, hm => by
    have hpl : p.length < m.length := by rw [← hm]; simp
    rw [List.cons_append, octets, jclip_more hs (by rw [hp]; omega)]
    · simp only [Option.bind_some]
      rw [octets_jclip h2 hl h0 hn he q (p ++ [o]) (s := { s with msg := s.msg ++ [o] }) hs (by simp only; rw [hp]) (by rw [← hm]; simp)]
    · intro hp0
      rw [hp] at hp0
      rw [hp0, List.nil_append] at hm
      rw [← hm] at h0
      simpa using h0
    · intro k hk
      rw [hp] at hk ⊢
      have h6 : 6 < (p ++ [o]).length := by
        by_contra hc
        rw [List.getElem?_eq_none (by omega)] at hk
        cases hk
      have : m[6]? = (p ++ [o])[6]? := by
        rw [← hm, show p ++ o :: q = (p ++ [o]) ++ q by simp, List.getElem?_append_left h6]
      rw [hk, hn] at this
      cases this
      omega

/-! ## The preamble -/

/-- What is in the register after `t` bits of the preamble. -/
def preProg (t : Nat) : Byte := ([0, 0, 0x80, 0x40, 0xA0, 0x50, 0xA8, 0x54, 0xAA, 0x55] : List Byte)[t]?.getD 0

/-- The receiver after `i` bits of the preamble. -/
structure Pre (r : Rx) (i : Nat) (s : Rx) : Prop where
  std : s.std = r.std
  out : s.out = r.out
  pos : s.bitPos = i % 10
  prog : s.prog = preProg (i % 10)
  msg : s.msg = if r.std = .jclip then [] else List.replicate (i / 10 % 88) 0x55
  ones : 0 < i → s.ones = 0

/-- An octet while the preamble is taken for octets. -/
theorem octet_pre {s : Rx} {k : Nat} {o : Byte} (hm : s.msg = if s.std = .jclip then [] else List.replicate k 0x55) (hk : k < 88) (h1 : o ≠ 0x1D) (h2 : o ≠ 0x90) :
    ∃ m, octet s o = some { s with msg := m } ∧ (o = 0x55 → m = if s.std = .jclip then [] else List.replicate ((k + 1) % 88) 0x55) := by
  by_cases hs : s.std = .jclip
  · rw [if_pos hs] at hm
    refine ⟨[], ?_, fun _ => by rw [if_pos hs]⟩
    unfold octet
    rw [hm, if_pos (by simp), if_pos hs]
    unfold jclipOctet
    rw [hm, if_pos (by rfl), if_neg h2]
    simp only [Option.bind_some]
    rw [hm, if_neg (by simp), ← hm]
  · rw [if_neg hs] at hm
    by_cases h87 : k = 87
    · subst h87
      refine ⟨[], ?_, fun _ => by rw [if_neg hs]; rfl⟩
      have hlen : s.msg.length = 87 := by rw [hm]; simp
      rw [sum_last (n := 0x55) hs (by omega) (by omega) (by rw [hm]; rfl) (by rw [hlen]; rfl), hm, if_neg]
      rw [show (0 - sum8 (List.replicate 87 0x55) : Byte) = 0x1D by decide +kernel]
      exact fun h => h1 h.symm
    · refine ⟨s.msg ++ [o], ?_, ?_⟩
      · refine sum_more hs (by rw [hm]; simp; omega) ?_
        intro n hn
        rw [hm] at hn ⊢
        simp only [List.length_replicate]
        by_cases h2 : 2 ≤ k
        · rw [List.getElem?_append_left (by simp; omega), List.getElem?_replicate_of_lt (by omega)] at hn
          cases hn
          have : (85 : Byte).toNat = 85 := rfl
          omega
        · omega
      · rintro rfl
        rw [if_neg hs, hm, ← List.replicate_succ', Nat.mod_eq_of_lt (by omega)]

theorem pre_step {r : Rx} {i : Nat} {s : Rx} (h : Pre r i s) : ∃ s', putBit s (i % 2 == 1) = some s' ∧ Pre r (i + 1) s' := by
  have hpos := h.pos
  have hprog := h.prog
  unfold putBit
  by_cases h0 : i % 10 = 0
  · rw [if_pos (by omega), if_neg (by simp; omega)]
    refine ⟨_, rfl, h.std, h.out, ?_, ?_, ?_, fun _ => rfl⟩
    · simp only; omega
    · simp only
      rw [hprog, h0, show (i + 1) % 10 = 1 by omega]; rfl
    · simp only
      rw [show (i + 1) / 10 = i / 10 by omega, ← h.msg]
      by_cases hi : 0 < i
      · rw [h.ones hi, if_neg (by omega)]
      · have : s.msg = [] := by
          rw [h.msg, show i / 10 % 88 = 0 by omega]
          split <;> rfl
        rw [this]; split <;> rfl
  · rw [if_neg (by omega)]
    by_cases h9 : i % 10 = 9
    · rw [if_neg (by omega), if_pos (by simp; omega)]
      obtain ⟨m, k1, k2⟩ := octet_pre (s := s) (k := i / 10 % 88) (o := 0x55) (by rw [h.std]; exact h.msg) (Nat.mod_lt _ (by decide)) (by decide) (by decide)
      rw [hprog, h9, show preProg 9 = 0x55 by rfl, k1]
      refine ⟨_, rfl, h.std, h.out, ?_, ?_, ?_, fun _ => h.ones (by omega)⟩
      · simp only; omega
      · simp only; rw [show (i + 1) % 10 = 0 by omega]; rfl
      · simp only
        rw [k2 rfl, h.std, show (i + 1) / 10 % 88 = (i / 10 % 88 + 1) % 88 by omega]
    · rw [if_pos (by omega)]
      refine ⟨_, rfl, h.std, h.out, ?_, ?_, ?_, fun _ => h.ones (by omega)⟩
      · simp only; omega
      · simp only
        have hbit : (i % 2 == 1) = (i % 10 % 2 == 1) := by congr 1; omega
        rw [hprog, hbit, show (i + 1) % 10 = i % 10 + 1 by omega]
        have hlt : i % 10 < 9 := by omega
        generalize i % 10 = t at h0 hlt
        interval_cases t <;> first | (exact absurd rfl h0) | decide
      · simp only
        rw [show (i + 1) / 10 = i / 10 by omega]; exact h.msg

theorem pre_bits {r : Rx} : ∀ (k i : Nat) {s : Rx}, Pre r i s → ∃ s', putBits s (alt i k) = some s' ∧ Pre r (i + k) s'
  | 0, i, s, h => ⟨s, rfl, h⟩
  | k + 1, i, s, h => by
    obtain ⟨s1, h1, h2⟩ := pre_step h
    obtain ⟨s2, h3, h4⟩ := pre_bits k (i + 1) h2
    exact ⟨s2, by rw [alt, putBits, h1]; exact h3, by rw [show i + (k + 1) = i + 1 + k by omega]; exact h4⟩

/-- Ones go through the register. -/
def fill : Nat → Byte → Byte
  | 0, p => p
  | k + 1, p => fill k ((p >>> 1) ||| 0x80)

theorem ones_data : ∀ (k : Nat) {s : Rx}, 1 ≤ s.bitPos → s.bitPos + k = 9 →
    putBits s (List.replicate (k + 1) true) = (octet { s with bitPos := 9, prog := fill k s.prog } (fill k s.prog)).bind fun s => some { s with bitPos := 0, prog := 0 }
  | 0, s, h1, h2 => by
    rw [List.replicate_succ, putBits]
    unfold putBit
    rw [if_neg (by omega), if_neg (by omega), if_pos rfl]
    have : ({ s with bitPos := 9, prog := fill 0 s.prog } : Rx) = s := by
      rw [show (9 : Nat) = s.bitPos by omega]; rfl
    rw [this]
    show _ = Option.bind (octet s s.prog) _
    cases octet s s.prog with
    | none => rfl
    | some s => rfl
  | k + 1, s, h1, h2 => by
    rw [List.replicate_succ, putBits]
    have hb : putBit s true = some { s with prog := (s.prog >>> 1) ||| 0x80, bitPos := s.bitPos + 1 } := by
      unfold putBit
      rw [if_neg (by omega), if_pos (by omega)]
      rfl
    rw [hb, Option.bind_some, ones_data k (by simp) (by simp only; omega)]
    rfl

/-- The line has been idle. -/
structure Idle (s : Rx) : Prop where
  pos : s.bitPos = 0
  prog : s.prog = 0
  ones : 10 < s.ones

theorem pre_ones {r : Rx} {i : Nat} {s : Rx} (h : Pre r i s) {n : Nat} (hn : 20 ≤ n) :
    ∃ s', putBits s (List.replicate n true) = some s' ∧ Idle s' ∧ s'.std = r.std ∧ s'.out = r.out := by
  by_cases h0 : i % 10 = 0
  · have hp : s.bitPos = 0 := by rw [h.pos]; exact h0
    refine ⟨_, putBits_idle n hp, ⟨hp, ?_, ?_⟩, h.std, h.out⟩
    · simp only; rw [h.prog, h0]; rfl
    · simp only; omega
  · have ht : i % 10 < 10 := Nat.mod_lt _ (by decide)
    have hg : fill (9 - i % 10) (preProg (i % 10)) ≠ 0x1D ∧ fill (9 - i % 10) (preProg (i % 10)) ≠ 0x90 := by
      generalize i % 10 = t at h0 ht
      interval_cases t <;> first | (exact absurd rfl h0) | decide
    have hd := ones_data (9 - i % 10) (s := s) (by rw [h.pos]; omega) (by rw [h.pos]; omega)
    obtain ⟨m, k1, -⟩ := octet_pre (s := { s with bitPos := 9, prog := fill (9 - i % 10) s.prog }) (k := i / 10 % 88) (o := fill (9 - i % 10) s.prog)
      (by simp only; rw [h.std]; exact h.msg) (Nat.mod_lt _ (by decide)) (by rw [h.prog]; exact hg.1) (by rw [h.prog]; exact hg.2)
    rw [k1] at hd
    simp only [Option.bind_some] at hd
    rw [show n = (9 - i % 10 + 1) + (n - (10 - i % 10)) by omega, ← List.replicate_append_replicate, putBits_append, hd, Option.bind_some,
      putBits_idle _ rfl]
    refine ⟨_, rfl, ⟨rfl, rfl, ?_⟩, h.std, h.out⟩
    simp only
    omega

/-! ## Any bits -/

/-- What holds of a receiver at all times. -/
structure Ok (s : Rx) : Prop where
  pos : s.bitPos ≤ 9
  prog : s.bitPos = 0 → s.prog = 0
  msg : s.msg.length ≤ 256
  head : s.std = .jclip → s.msg ≠ [] → s.msg[0]? = some 0x90

theorem low7 (o : Byte) : (o &&& 0x7F).toNat < 128 := by
  rw [BitVec.toNat_and]
  exact Nat.lt_of_le_of_lt Nat.and_le_right (by decide)

theorem octet_ok {s : Rx} {o : Byte} (h : Ok s) : ∃ s', octet s o = some s' ∧ s'.std = s.std ∧ s'.bitPos = s.bitPos ∧ s'.prog = s.prog ∧ s'.ones = s.ones
    ∧ s'.msg.length ≤ 256 ∧ (s'.std = .jclip → s'.msg ≠ [] → s'.msg[0]? = some 0x90)
    ∧ (s'.out = s.out ∨ ∃ m, Sound s.std m ∧ s'.out = s.out ++ [m]) := by
  by_cases hl : s.msg.length < 256
  · by_cases hj : s.std = .jclip
    · by_cases h0 : s.msg = []
      · by_cases ho : o = 0x90
        · refine ⟨_, jclip_more hj hl (fun _ => ho) ?_, rfl, rfl, rfl, rfl, ?_, ?_, Or.inl rfl⟩
          · intro n hn; rw [h0] at hn; cases hn
          · simp only; rw [h0]; simp
          · intro _ _; simp only; rw [h0, ho]; rfl
        · refine ⟨s, ?_, rfl, rfl, rfl, rfl, h.msg, h.head, Or.inl rfl⟩
          unfold octet
          rw [if_pos hl, if_pos hj]
          unfold jclipOctet
          rw [if_pos (by rw [h0]; rfl), if_neg ho]
          simp only [Option.bind_some]
          rw [if_neg (by rw [h0]; simp)]
      · by_cases hc : ∃ n, 10 ≤ s.msg.length ∧ s.msg[6]? = some n ∧ s.msg.length + 1 = (n &&& 0x7F).toNat + 11
        · obtain ⟨n, h10, hn, he⟩ := hc
          refine ⟨_, jclip_last hj hl h10 hn he, rfl, rfl, rfl, rfl, by simp, fun _ h => absurd rfl h, ?_⟩
          simp only
          split
          · refine Or.inr ⟨_, ?_, rfl⟩
            unfold Sound
            have hn7 := low7 n
            rw [if_pos hj]
            refine ⟨by rw [List.length_map, List.length_dropLast]; omega, by rw [List.length_map, List.length_dropLast]; omega, ⟨n &&& 0x7F, ?_, by rw [List.length_map, List.length_dropLast]; omega⟩, ?_, ?_⟩
            · rw [List.getElem?_map, List.getElem?_dropLast, if_pos (by omega), hn]; rfl
            · rw [List.getElem?_map, List.getElem?_dropLast, if_pos (by omega), h.head hj h0]; rfl
            · intro o ho
              rw [List.mem_map] at ho
              obtain ⟨a, -, rfl⟩ := ho
              exact low7 a
          · exact Or.inl rfl
        · refine ⟨_, jclip_more hj hl (fun h => absurd h h0) ?_, rfl, rfl, rfl, rfl, ?_, ?_, Or.inl rfl⟩
          · intro n hn he
            refine hc ⟨n, by omega, ?_, he⟩
            rwa [List.getElem?_append_left (by omega)] at hn
          · simp only [List.length_append, List.length_singleton]; omega
          · intro _ _
            simp only
            rw [List.getElem?_append_left (List.length_pos_iff.mpr h0)]
            exact h.head hj h0
    · by_cases hc : ∃ n, 2 ≤ s.msg.length ∧ s.msg[1]? = some n ∧ s.msg.length + 1 = n.toNat + 3
      · obtain ⟨n, h2, hn, he⟩ := hc
        refine ⟨_, sum_last hj hl h2 hn he, rfl, rfl, rfl, rfl, by simp, fun h => absurd h hj, ?_⟩
        simp only
        split
        · refine Or.inr ⟨_, ?_, rfl⟩
          unfold Sound
          rw [if_neg hj]
          exact ⟨h2, by omega, n, hn, by omega⟩
        · exact Or.inl rfl
      · refine ⟨_, sum_more hj hl ?_, rfl, rfl, rfl, rfl, ?_, fun h => absurd h hj, Or.inl rfl⟩
        · intro n hn he
          refine hc ⟨n, by omega, ?_, he⟩
          rwa [List.getElem?_append_left (by omega)] at hn
        · simp only [List.length_append, List.length_singleton]; omega
  · refine ⟨s, ?_, rfl, rfl, rfl, rfl, h.msg, h.head, Or.inl rfl⟩
    unfold octet
    rw [if_neg hl]

/-- Messages which are sound. -/
def Gives (s s' : Rx) : Prop := s'.std = s.std ∧ ∃ l, (∀ m ∈ l, Sound s.std m) ∧ s'.out = s.out ++ l

theorem Gives.refl (s : Rx) : Gives s s := ⟨rfl, [], by simp, by simp⟩

theorem Gives.trans {a b c : Rx} (h : Gives a b) (k : Gives b c) : Gives a c := by
  obtain ⟨h1, l, h2, h3⟩ := h
  obtain ⟨k1, m, k2, k3⟩ := k
  refine ⟨k1.trans h1, l ++ m, ?_, by rw [k3, h3, List.append_assoc]⟩
  intro x hx
  rcases List.mem_append.mp hx with hx | hx
  · exact h2 x hx
  · rw [← h1]; exact k2 x hx

theorem putBit_ok {s : Rx} (h : Ok s) (b : Bool) : ∃ s', putBit s b = some s' ∧ Ok s' ∧ Gives s s' := by
  unfold putBit
  by_cases h0 : s.bitPos = 0
  · rw [if_pos h0]
    cases b
    · refine ⟨_, rfl, ⟨by simp, by simp, ?_, ?_⟩, rfl, [], by simp, by simp⟩
      · simp only; split
        · simp
        · exact h.msg
      · simp only
        intro hj
        split
        · intro h; exact absurd rfl h
        · exact h.head hj
    · exact ⟨_, rfl, ⟨h.pos, h.prog, h.msg, h.head⟩, rfl, [], by simp, by simp⟩
  · rw [if_neg h0]
    by_cases h8 : s.bitPos ≤ 8
    · rw [if_pos h8]
      exact ⟨_, rfl, ⟨by simp only; omega, by simp, h.msg, h.head⟩, rfl, [], by simp, by simp⟩
    · rw [if_neg h8]
      cases b
      · exact ⟨_, rfl, ⟨by simp, fun _ => rfl, h.msg, h.head⟩, rfl, [], by simp, by simp⟩
      · obtain ⟨s', k1, k2, k3, k4, k5, k6, k7, k8⟩ := octet_ok (o := s.prog) h
        rw [if_pos rfl, k1]
        refine ⟨_, rfl, ⟨by simp, fun _ => rfl, k6, k7⟩, k2, ?_⟩
        rcases k8 with k8 | ⟨m, k8, k9⟩
        · exact ⟨[], by simp, by rw [k8]; simp⟩
        · exact ⟨[m], by intro x hx; rw [List.mem_singleton] at hx; rw [hx]; exact k8, k9⟩

theorem putBits_ok : ∀ (l : List Bool) {s : Rx}, Ok s → ∃ s', putBits s l = some s' ∧ Ok s' ∧ Gives s s'
  | [], s, h => ⟨s, rfl, h, Gives.refl s⟩
  | b :: l, s, h => by
    obtain ⟨s1, h1, h2, h3⟩ := putBit_ok h b
    obtain ⟨s2, k1, k2, k3⟩ := putBits_ok l h2
    exact ⟨s2, by rw [putBits, h1]; exact k1, k2, h3.trans k3⟩

/-- After ones any receiver is ready. -/
theorem any_ones {s : Rx} (h : Ok s) {n : Nat} (hn : 20 ≤ n) :
    ∃ s', putBits s (List.replicate n true) = some s' ∧ Idle s' ∧ Gives s s' := by
  obtain ⟨s', k1, k2, k3⟩ := putBits_ok (List.replicate n true) h
  refine ⟨s', k1, ?_, k3⟩
  by_cases h0 : s.bitPos = 0
  · rw [putBits_idle n h0] at k1
    cases k1
    exact ⟨h0, h.prog h0, by simp only; omega⟩
  · have hd := ones_data (9 - s.bitPos) (s := s) (by omega) (by have := h.pos; omega)
    obtain ⟨s1, m1, m2, m3, m4, m5, -⟩ := octet_ok (s := { s with bitPos := 9, prog := fill (9 - s.bitPos) s.prog }) (o := fill (9 - s.bitPos) s.prog)
      ⟨by simp, by simp, h.msg, h.head⟩
    rw [m1] at hd
    simp only [Option.bind_some] at hd
    have hpos := h.pos
    rw [show n = (9 - s.bitPos + 1) + (n - (10 - s.bitPos)) by omega, ← List.replicate_append_replicate, putBits_append, hd, Option.bind_some,
      putBits_idle _ rfl] at k1
    cases k1
    refine ⟨rfl, rfl, ?_⟩
    simp only
    omega

/-! ## Sending -/

/-- What a receiver gives to the application is `m` when the octets are `b`. -/
structure Carries (std : Std) (b : List Byte) (m : List (List Byte)) : Prop where
  ne : b ≠ []
  len : b.length ≤ 256
  got : ∀ s : Rx, s.std = std → s.msg = [] → octets s b = some { s with msg := [], out := s.out ++ m }

theorem line_idle {std : Std} {b : List Byte} {m : List (List Byte)} (hc : Carries std b m) {stop post : Nat} (hs : stop ≤ 11) {s : Rx} (hi : Idle s) (hstd : s.std = std) :
    ∃ s', putBits s (b.flatMap (frame stop) ++ List.replicate post true) = some s' ∧ Clean s' ∧ s'.std = s.std ∧ s'.out = s.out ++ m := by
  have h1 := hc.got { s with msg := if s.ones > 10 then [] else s.msg } hstd (by simp only; rw [if_pos hi.ones])
  obtain ⟨n, k1, -⟩ := putBits_frames hs b hi.pos hi.prog h1
  rw [if_neg hc.ne] at k1
  rw [putBits_append, k1, Option.bind_some, putBits_idle _ rfl]
  exact ⟨_, rfl, ⟨rfl, rfl, rfl⟩, rfl, rfl⟩

theorem line_clean {std : Std} {b : List Byte} {m : List (List Byte)} (hc : Carries std b m) {t : Tx} (hs : t.stop ≤ 11) (ho : 20 ≤ t.ones) {s : Rx} (hi : Clean s) (hstd : s.std = std) :
    ∃ s', putBits s (line t b) = some s' ∧ Clean s' ∧ s'.std = s.std ∧ s'.out = s.out ++ m := by
  obtain ⟨s1, h1, h2⟩ := pre_bits (r := s) t.pre 0 (s := s) ⟨rfl, rfl, by rw [hi.pos], by rw [hi.prog]; rfl, by rw [hi.msg]; split <;> rfl, by omega⟩
  obtain ⟨s2, k1, k2, k3, k4⟩ := pre_ones h2 ho
  obtain ⟨s3, m1, m2, m3, m4⟩ := line_idle hc (post := t.post) hs k2 (k3.trans hstd)
  refine ⟨s3, ?_, m2, m3.trans k3, by rw [m4, k4]⟩
  unfold line
  rw [putBits_append, h1, Option.bind_some, putBits_append, k1, Option.bind_some, m1]

theorem line_any {std : Std} {b : List Byte} {m : List (List Byte)} (hc : Carries std b m) {t : Tx} (hs : t.stop ≤ 11) (ho : 20 ≤ t.ones) {s : Rx} (hi : Ok s) (hstd : s.std = std) :
    ∃ s' junk, putBits s (line t b) = some s' ∧ Clean s' ∧ s'.std = s.std ∧ s'.out = s.out ++ junk ++ m ∧ ∀ x ∈ junk, Sound s.std x := by
  obtain ⟨s1, h1, h2, h3⟩ := putBits_ok (alt 0 t.pre) hi
  obtain ⟨s2, k1, k2, k3⟩ := any_ones h2 ho
  obtain ⟨e, junk, g1, g2⟩ := h3.trans k3
  obtain ⟨s3, m1, m2, m3, m4⟩ := line_idle hc (post := t.post) hs k2 (e.trans hstd)
  refine ⟨s3, junk, ?_, m2, m3.trans e, by rw [m4, g2], g1⟩
  unfold line
  rw [putBits_append, h1, Option.bind_some, putBits_append, k1, Option.bind_some, m1]

end Adsi
