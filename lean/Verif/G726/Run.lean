import Verif.G726.Safe
import Verif.G722.Run

/-!
# Packing, and whole runs
-/

namespace G726

open G722 (bits bits_length bits_get)

/-! ## Bits -/

theorem bits_ext {n : Nat} {u v : Nat} (h : ∀ i, i < n → u.testBit i = v.testBit i) : bits n u = bits n v := by
  apply List.ext_getElem
  · simp [bits_length]
  · intro i h1 h2
    rw [bits_get, bits_get]
    rw [bits_length] at h1
    exact h i h1

/-- The lower bits and the upper ones. -/
theorem bits_add (m n v : Nat) : bits (m + n) v = bits m v ++ bits n (v >>> m) := by
  rw [G722.bits_take]
  congr 1
  apply bits_ext
  intro i hi
  rw [Nat.testBit_and, Nat.testBit_two_pow_sub_one]; simp [hi]

theorem bits_mod (n v : Nat) : bits n (v % 2^n) = bits n v := by
  apply bits_ext
  intro i hi
  rw [Nat.testBit_mod_two_pow]; simp [hi]

/-- Putting `m` bits of `u` below `n` bits of `v`. -/
theorem bits_join (m n w u v : Nat) (h1 : ∀ i, i < m → w.testBit i = u.testBit i)
    (h2 : ∀ i, i < n → w.testBit (m + i) = v.testBit i) : bits (m + n) w = bits m u ++ bits n v := by
  rw [bits_add]
  congr 1
  · exact bits_ext h1
  · apply bits_ext
    intro i hi
    rw [Nat.testBit_shiftRight]
    exact h2 i hi

/-- The order in which bits are sent: with packing to the left, the highest first. -/
def ord (p : Packing) (l : List Bool) : List Bool := if p = .left then l.reverse else l

theorem ord_length (p : Packing) (l : List Bool) : (ord p l).length = l.length := by
  unfold ord; split <;> simp

theorem ord_inj {p : Packing} {l m : List Bool} (h : ord p l = ord p m) : l = m := by
  unfold ord at h
  split at h
  · exact List.reverse_inj.mp h
  · exact h

/-- The bits of codes, of octets, and those left over. -/
def codesOf (p : Packing) (n : Nat) (l : List Nat) : List Bool := l.flatMap fun c => ord p (bits n c)
def octetsOf (p : Packing) (l : List Byte) : List Bool := l.flatMap fun o => ord p (bits 8 o.toNat)
def pending (p : Packing) (s : Codec) : List Bool := ord p (bits s.residue s.stream.toNat)

theorem codesOf_length (p : Packing) (n : Nat) (l : List Nat) : (codesOf p n l).length = l.length*n := by
  induction l with
  | nil => simp [codesOf]
  | cons c l ih =>
    unfold codesOf at ih ⊢
    rw [List.flatMap_cons, List.length_append, ih, ord_length, bits_length, List.length_cons, Nat.add_mul]
    omega

theorem octetsOf_length (p : Packing) (l : List Byte) : (octetsOf p l).length = 8*l.length := by
  induction l with
  | nil => simp [octetsOf]
  | cons c l ih =>
    unfold octetsOf at ih ⊢
    rw [List.flatMap_cons, List.length_append, ih, ord_length, bits_length, List.length_cons]
    omega

/-- Codes are found again at the beginning of their bits. -/
theorem codesOf_prefix (p : Packing) (n : Nat) : ∀ (d e : List Nat) (r r' : List Bool), (∀ c ∈ d, c < 2^n) →
    (∀ c ∈ e, c < 2^n) → d.length ≤ e.length → codesOf p n e ++ r' = codesOf p n d ++ r → d = e.take d.length := by
  intro d
  induction d with
  | nil => intro e r r' _ _ _ _; rfl
  | cons c d ih =>
    intro e r r' hd he hlen h
    rcases e with _ | ⟨f, e⟩
    · simp at hlen
    · unfold codesOf at h
      rw [List.flatMap_cons, List.flatMap_cons, List.append_assoc, List.append_assoc] at h
      have := List.append_inj h (by rw [ord_length, ord_length, bits_length, bits_length])
      have hc := G722.bits_inj n f c (he f (List.mem_cons_self ..)) (hd c (List.mem_cons_self ..)) (ord_inj this.1)
      rw [List.length_cons, List.take_succ_cons, hc]
      congr 1
      exact ih e r r' (fun x hx => hd x (List.mem_cons_of_mem _ hx)) (fun x hx => he x (List.mem_cons_of_mem _ hx))
        (by simpa using hlen) this.2

/-- What holds between calls. -/
structure Good (g : Cfg) (s : Codec) : Prop where
  ok : Ok s.p
  residue : s.residue < 8
  high : g.packing = .right → ∀ i, s.residue ≤ i → s.stream.getLsbD i = false

theorem good_init (g : Cfg) : Good g init := ⟨ok_init, by decide, fun _ i _ => by simp [init]⟩

theorem bits_of (t : Tab) (ht : t.Valid) : 2 ≤ t.bits ∧ t.bits ≤ 5 := by
  rcases ht with rfl | rfl | rfl | rfl <;> decide

theorem lt_bit {c n i : Nat} (h : c < 2^n) (hi : n ≤ i) : c.testBit i = false :=
  Nat.testBit_lt_two_pow (Nat.lt_of_lt_of_le h (Nat.pow_le_pow_right (by omega) hi))

/-- `n` bits of `c` put above the `r` lower bits of `st`. -/
theorem above (st : BitVec 32) (r n c : Nat) (hst : ∀ i, r ≤ i → st.getLsbD i = false) (hr : r + n ≤ 32) :
    bits (r + n) (st ||| (BitVec.ofNat 32 c <<< r)).toNat = bits r st.toNat ++ bits n c := by
  apply bits_join
  · intro i hi
    show (st ||| (BitVec.ofNat 32 c <<< r)).getLsbD i = st.getLsbD i
    simp [BitVec.getLsbD_or, BitVec.getLsbD_shiftLeft, hi]
  · intro i hi
    show (st ||| (BitVec.ofNat 32 c <<< r)).getLsbD (r + i) = c.testBit i
    rw [BitVec.getLsbD_or, hst (r + i) (by omega), BitVec.getLsbD_shiftLeft, BitVec.getLsbD_ofNat]
    simp [show r + i < 32 by omega, show i < 32 by omega]

theorem above_high (st : BitVec 32) (r n c : Nat) (hst : ∀ i, r ≤ i → st.getLsbD i = false) (hc : c < 2^n) :
    ∀ i, r + n ≤ i → (st ||| (BitVec.ofNat 32 c <<< r)).getLsbD i = false := by
  intro i hi
  rw [BitVec.getLsbD_or, hst i (by omega), BitVec.getLsbD_shiftLeft, BitVec.getLsbD_ofNat, lt_bit hc (by omega)]
  simp

/-- `n` bits of `c` put below those of `st`. -/
theorem below (st : BitVec 32) (r n c : Nat) (hc : c < 2^n) (hr : r + n ≤ 32) :
    bits (n + r) ((st <<< n) ||| BitVec.ofNat 32 c).toNat = bits n c ++ bits r st.toNat := by
  apply bits_join
  · intro i hi
    show ((st <<< n) ||| BitVec.ofNat 32 c).getLsbD i = c.testBit i
    rw [BitVec.getLsbD_or, BitVec.getLsbD_shiftLeft, BitVec.getLsbD_ofNat]
    simp [hi, show i < 32 by omega]
  · intro i hi
    show ((st <<< n) ||| BitVec.ofNat 32 c).getLsbD (n + i) = st.getLsbD i
    rw [BitVec.getLsbD_or, BitVec.getLsbD_shiftLeft, BitVec.getLsbD_ofNat, lt_bit hc (by omega)]
    simp [show n + i < 32 by omega]

theorem of_set (o : Byte) : BitVec.ofNat 32 o.toNat = o.setWidth 32 := by
  apply BitVec.eq_of_toNat_eq
  rw [BitVec.toNat_ofNat, BitVec.toNat_setWidth]

theorem set8 (st : BitVec 32) : bits 8 (st.setWidth 8).toNat = bits 8 st.toNat := by
  rw [BitVec.toNat_setWidth, bits_mod]

theorem emit_spec (g : Cfg) (hg : g.t.Valid) (s : Codec) (h : Good g s) (c : Nat) (hc : c < 2^g.t.bits) :
    Good g (emit g s c).1 ∧ (emit g s c).1.p = s.p ∧
    (g.packing = .none → (emit g s c).2 = [BitVec.ofNat 8 c]) ∧
    (g.packing ≠ .none → pending g.packing s ++ ord g.packing (bits g.t.bits c) =
      octetsOf g.packing (emit g s c).2 ++ pending g.packing (emit g s c).1) := by
  have hb := bits_of g.t hg
  have hr := h.residue
  unfold emit
  rcases hp : g.packing with _ | _ | _
  · exact ⟨h, rfl, fun _ => rfl, fun h => absurd rfl h⟩
  · have e := below s.stream s.residue g.t.bits c hc (by omega)
    simp only
    split
    · rename_i h8
      refine ⟨⟨h.ok, by show s.residue + g.t.bits - 8 < 8; omega, by simp [hp]⟩, rfl, by simp, fun _ => ?_⟩
      simp only [pending, ord, if_true, octetsOf, List.flatMap_cons, List.flatMap_nil, List.append_nil]
      rw [← List.reverse_append, ← List.reverse_append, ← e, set8, BitVec.toNat_ushiftRight, ← bits_add]
      congr 2
      omega
    · refine ⟨⟨h.ok, by show s.residue + g.t.bits < 8; omega, by simp [hp]⟩, rfl, by simp, fun _ => ?_⟩
      simp only [pending, ord, if_true, octetsOf, List.flatMap_nil, List.nil_append]
      rw [← List.reverse_append, ← e, Nat.add_comm]
  · have e := above s.stream s.residue g.t.bits c (h.high hp) (by omega)
    have u := above_high s.stream s.residue g.t.bits c (h.high hp) hc
    simp only
    split
    · rename_i h8
      refine ⟨⟨h.ok, by show s.residue + g.t.bits - 8 < 8; omega, fun _ i hi => ?_⟩, rfl, by simp, fun _ => ?_⟩
      · simp only at hi ⊢
        rw [BitVec.getLsbD_ushiftRight]
        exact u _ (by omega)
      · simp only [pending, ord, octetsOf, List.flatMap_cons, List.flatMap_nil, List.append_nil]
        simp only [show (Packing.right = Packing.left) = False by simp, if_false]
        rw [← e, set8, BitVec.toNat_ushiftRight, ← bits_add]
        congr 1
        omega
    · refine ⟨⟨h.ok, by show s.residue + g.t.bits < 8; omega, fun _ i hi => u i hi⟩, rfl, by simp, fun _ => ?_⟩
      simp only [pending, ord, octetsOf, List.flatMap_nil, List.nil_append]
      simp only [show (Packing.right = Packing.left) = False by simp, if_false]
      exact e.symm

/-- What is taken for a code. -/
theorem pull_spec (g : Cfg) (hg : g.t.Valid) (s : Codec) (h : Good g s) (l : List Byte) :
    (pull g s l = none ∧ l = [] ∧ (g.packing ≠ .none → s.residue < g.t.bits)) ∨
    ∃ c s' l', pull g s l = some (c, s', l') ∧ Good g s' ∧ s'.p = s.p ∧
      (g.packing = .none → l = c :: l' ∧ s' = s) ∧
      (g.packing ≠ .none → c.toNat < 2^g.t.bits ∧
        8*l.length + s.residue = g.t.bits + (8*l'.length + s'.residue) ∧
        pending g.packing s ++ octetsOf g.packing l =
          ord g.packing (bits g.t.bits c.toNat) ++ (pending g.packing s' ++ octetsOf g.packing l')) := by
  have hb := bits_of g.t hg
  have hr := h.residue
  have hpow : 2^g.t.bits ≤ 2^8 := Nat.pow_le_pow_right (by omega) (by omega)
  have hcode : ∀ v : Nat, (BitVec.ofNat 8 (v % 2^g.t.bits)).toNat = v % 2^g.t.bits := by
    intro v
    rw [BitVec.toNat_ofNat, Nat.mod_eq_of_lt]
    exact Nat.lt_of_lt_of_le (Nat.mod_lt _ (Nat.two_pow_pos _)) hpow
  unfold pull
  rcases hp : g.packing with _ | _ | _
  · rcases l with _ | ⟨o, l⟩
    · exact Or.inl ⟨rfl, rfl, by simp⟩
    · exact Or.inr ⟨o, s, l, rfl, h, rfl, fun _ => ⟨rfl, rfl⟩, by simp⟩
  · -- the code from above
    have fin : ∀ (s1 : Codec) (l1 : List Byte), Ok s1.p → s1.residue < 13 → g.t.bits ≤ s1.residue →
        s1.residue - g.t.bits < 8 →
        Good g { s1 with residue := s1.residue - g.t.bits } ∧
        (BitVec.ofNat 8 ((s1.stream >>> (s1.residue - g.t.bits)).toNat % 2^g.t.bits)).toNat < 2^g.t.bits ∧
        pending .left s1 ++ octetsOf .left l1 =
          ord .left (bits g.t.bits (BitVec.ofNat 8 ((s1.stream >>> (s1.residue - g.t.bits)).toNat % 2^g.t.bits)).toNat) ++
          (pending .left { s1 with residue := s1.residue - g.t.bits } ++ octetsOf .left l1) := by
      intro s1 l1 ho h13 hle h8
      refine ⟨⟨ho, h8, by simp [hp]⟩, ?_, ?_⟩
      · rw [hcode]; exact Nat.mod_lt _ (Nat.two_pow_pos _)
      · rw [hcode, bits_mod, ← List.append_assoc]
        congr 1
        simp only [pending, ord, if_true]
        rw [← List.reverse_append, BitVec.toNat_ushiftRight, ← bits_add]
        congr 2
        omega
    simp only
    by_cases hn : s.residue < g.t.bits
    · rw [if_pos hn]
      rcases l with _ | ⟨o, l⟩
      · exact Or.inl ⟨rfl, rfl, fun _ => hn⟩
      · obtain ⟨f1, f2, f3⟩ := fin { s with stream := (s.stream <<< 8) ||| o.setWidth 32, residue := s.residue + 8 } l
          h.ok (by show s.residue + 8 < 13; omega) (by show _ ≤ s.residue + 8; omega)
          (by show s.residue + 8 - _ < 8; omega)
        refine Or.inr ⟨_, _, _, rfl, f1, rfl, by simp, fun _ => ⟨f2, ?_, ?_⟩⟩
        · simp only [List.length_cons]; omega
        · refine Eq.trans ?_ f3
          simp only [pending, ord, if_true, octetsOf, List.flatMap_cons]
          rw [← List.append_assoc, ← List.reverse_append]
          congr 2
          have := below s.stream s.residue 8 o.toNat o.isLt (by omega)
          rw [of_set o, Nat.add_comm 8] at this
          exact this.symm
    · rw [if_neg hn]
      obtain ⟨f1, f2, f3⟩ := fin s l h.ok (by omega) (by omega) (by omega)
      refine Or.inr ⟨_, _, _, rfl, f1, rfl, by simp, fun _ => ⟨f2, ?_, f3⟩⟩
      show 8*l.length + s.residue = g.t.bits + (8*l.length + (s.residue - g.t.bits))
      omega
  · -- the code from below
    have fin : ∀ (s1 : Codec) (l1 : List Byte), Ok s1.p → g.t.bits ≤ s1.residue → s1.residue - g.t.bits < 8 →
        (∀ i, s1.residue ≤ i → s1.stream.getLsbD i = false) →
        Good g { s1 with stream := s1.stream >>> g.t.bits, residue := s1.residue - g.t.bits } ∧
        (BitVec.ofNat 8 (s1.stream.toNat % 2^g.t.bits)).toNat < 2^g.t.bits ∧
        pending .right s1 ++ octetsOf .right l1 =
          ord .right (bits g.t.bits (BitVec.ofNat 8 (s1.stream.toNat % 2^g.t.bits)).toNat) ++
          (pending .right { s1 with stream := s1.stream >>> g.t.bits, residue := s1.residue - g.t.bits } ++
            octetsOf .right l1) := by
      intro s1 l1 ho hle h8 hz
      refine ⟨⟨ho, h8, fun _ i hi => ?_⟩, ?_, ?_⟩
      · simp only at hi ⊢
        rw [BitVec.getLsbD_ushiftRight]
        exact hz _ (by omega)
      · rw [hcode]; exact Nat.mod_lt _ (Nat.two_pow_pos _)
      · rw [hcode, bits_mod, ← List.append_assoc]
        congr 1
        simp only [pending, ord, show (Packing.right = Packing.left) = False by simp, if_false]
        rw [BitVec.toNat_ushiftRight, ← bits_add]
        congr 1
        omega
    simp only
    by_cases hn : s.residue < g.t.bits
    · rw [if_pos hn]
      rcases l with _ | ⟨o, l⟩
      · exact Or.inl ⟨rfl, rfl, fun _ => hn⟩
      · have ho : BitVec.ofNat 32 o.toNat = o.setWidth 32 := of_set o
        have e := above s.stream s.residue 8 o.toNat (h.high hp) (by omega)
        have u := above_high s.stream s.residue 8 o.toNat (h.high hp) o.isLt
        rw [ho] at e u
        obtain ⟨f1, f2, f3⟩ := fin { s with stream := s.stream ||| (o.setWidth 32 <<< s.residue), residue := s.residue + 8 } l
          h.ok (by show _ ≤ s.residue + 8; omega) (by show s.residue + 8 - _ < 8; omega) u
        refine Or.inr ⟨_, _, _, rfl, f1, rfl, by simp, fun _ => ⟨f2, ?_, ?_⟩⟩
        · simp only [List.length_cons]; omega
        · refine Eq.trans ?_ f3
          simp only [pending, ord, show (Packing.right = Packing.left) = False by simp, if_false, octetsOf,
            List.flatMap_cons]
          rw [← List.append_assoc]
          congr 1
          exact e.symm
    · rw [if_neg hn]
      obtain ⟨f1, f2, f3⟩ := fin s l h.ok (by omega) (by omega) (h.high hp)
      refine Or.inr ⟨_, _, _, rfl, f1, rfl, by simp, fun _ => ⟨f2, ?_, f3⟩⟩
      show 8*l.length + s.residue = g.t.bits + (8*l.length + (s.residue - g.t.bits))
      omega

/-! ## Runs -/

/-- What codes do to the predictor. -/
def followAll (t : Tab) (s : Pred) : List Nat → Option Pred
  | [] => some s
  | c :: l => (follow t s c).bind fun f => followAll t f.1 l

/-- The codes of samples. -/
def codesRun (t : Tab) (s : Pred) : List Int → Option (Pred × List Nat)
  | [] => some (s, [])
  | a :: l => (encoder t s a).bind fun r => (codesRun t r.1 l).bind fun x => some (x.1, r.2 :: x.2)

theorem codesRun_take (t : Tab) : ∀ (l : List Int) (s p : Pred) (c : List Nat), codesRun t s l = some (p, c) → ∀ k,
    ∃ p', codesRun t s (l.take k) = some (p', c.take k) := by
  intro l
  induction l with
  | nil =>
    intro s p c h k
    simp only [codesRun, Option.some.injEq, Prod.mk.injEq] at h
    exact ⟨s, by rw [← h.2]; simp [codesRun]⟩
  | cons a l ih =>
    intro s p c h k
    rcases k with _ | k
    · exact ⟨s, by simp [codesRun]⟩
    · simp only [codesRun, Option.bind_eq_some_iff] at h
      obtain ⟨r, hr, x, hx, e⟩ := h
      rw [Option.some.injEq, Prod.mk.injEq] at e
      obtain ⟨p', hp⟩ := ih r.1 x.1 x.2 hx k
      refine ⟨p', ?_⟩
      rw [← e.2, List.take_succ_cons, List.take_succ_cons, codesRun, hr, Option.bind_some, hp, Option.bind_some]

/-- What encoding comes to: `codes` are found, they change the predictor, and are sent. -/
structure Encoded (g : Cfg) (s : Codec) (l : List Int) (e : Codec) (bytes : List Byte) (codes : List Nat) : Prop where
  eq : encode g s l = some (e, bytes)
  good : Good g e
  count : codes.length = l.length
  lt : ∀ c ∈ codes, c < 2^g.t.bits
  pred : followAll g.t s.p codes = some e.p
  ran : codesRun g.t s.p (l.map (linearise g.coding)) = some (e.p, codes)
  plain : g.packing = .none → bytes = codes.map (BitVec.ofNat 8)
  packed : g.packing ≠ .none → pending g.packing s ++ codesOf g.packing g.t.bits codes =
    octetsOf g.packing bytes ++ pending g.packing e

theorem encode_cons (g : Cfg) (s : Codec) (a : Int) (l : List Int) : encode g s (a :: l) =
    (encoder g.t s.p (linearise g.coding a)).bind fun r =>
      (encode g (emit g { s with p := r.1 } r.2).1 l).bind fun x => some (x.1, (emit g { s with p := r.1 } r.2).2 ++ x.2) := rfl

theorem encode_spec (g : Cfg) (hg : g.t.Valid) : ∀ (l : List Int) (s : Codec), Good g s → (∀ a ∈ l, I16 a) →
    ∃ e bytes codes, Encoded g s l e bytes codes := by
  intro l
  induction l with
  | nil =>
    intro s h _
    exact ⟨s, [], [], rfl, h, rfl, by simp, rfl, rfl, fun _ => rfl, fun _ => by simp [codesOf, octetsOf]⟩
  | cons a l ih =>
    intro s h hl
    obtain ⟨s', se, y, sr, i, he, hi, hf, ho, -⟩ := encoder_ok g.t hg s.p h.ok (linearise g.coding a)
      (linearise_range _ _ (hl a (List.mem_cons_self ..)))
    obtain ⟨m1, m2, m3, m4⟩ := emit_spec g hg { s with p := s' } ⟨ho, h.residue, h.high⟩ i hi
    obtain ⟨e, bytes, codes, q⟩ := ih _ m1 fun x hx => hl x (List.mem_cons_of_mem _ hx)
    refine ⟨e, (emit g { s with p := s' } i).2 ++ bytes, i :: codes, ?_, q.good, ?_, ?_, ?_, ?_, ?_, ?_⟩
    · rw [encode_cons, he, Option.bind_some, q.eq, Option.bind_some]
    · rw [List.length_cons, List.length_cons, q.count]
    · intro c hc
      rcases List.mem_cons.mp hc with rfl | hc
      · exact hi
      · exact q.lt c hc
    · rw [followAll, hf, Option.bind_some]
      have := q.pred
      rw [m2] at this
      exact this
    · rw [List.map_cons, codesRun, he, Option.bind_some]
      have := q.ran
      rw [m2] at this
      simp only at this
      rw [this, Option.bind_some]
    · intro hp
      rw [m3 hp, q.plain hp]; rfl
    · intro hp
      have h1 := m4 hp
      have h2 := q.packed hp
      have e0 : pending g.packing { s with p := s' } = pending g.packing s := rfl
      rw [e0] at h1
      simp only [codesOf, octetsOf, List.flatMap_cons, List.flatMap_append] at h1 h2 ⊢
      rw [← List.append_assoc, h1, List.append_assoc, h2, List.append_assoc]

theorem encode_append (g : Cfg) : ∀ (l m : List Int) (s : Codec), encode g s (l ++ m) =
    (encode g s l).bind fun x => (encode g x.1 m).bind fun z => some (z.1, x.2 ++ z.2) := by
  intro l
  induction l with
  | nil =>
    intro m s
    show encode g s m = (encode g s m).bind _
    cases encode g s m <;> rfl
  | cons a l ih =>
    intro m s
    rw [List.cons_append, encode_cons, encode_cons, Option.bind_assoc]
    congr 1
    funext r
    rw [ih, Option.bind_assoc, Option.bind_assoc]
    congr 1
    funext x
    rw [Option.bind_some, Option.bind_assoc]
    congr 1
    funext z
    rw [Option.bind_some, List.append_assoc]

/-- Codes one by one. -/
def speak (t : Tab) (c : Coding) (s : Pred) : List Byte → Option (Pred × List Int)
  | [] => some (s, [])
  | o :: l => (decoder t c s o).bind fun r => (speak t c r.1 l).bind fun x => some (x.1, r.2 :: x.2)

/-- What decoding comes to. -/
structure Decoded (g : Cfg) (s : Codec) (l : List Byte) (e : Codec) (out : List Int) (codes : List Byte) : Prop where
  good : Good g e
  count : out.length = codes.length
  heard : speak g.t g.coding s.p codes = some (e.p, out)
  pred : followAll g.t s.p (codes.map fun c => c.toNat % 2^g.t.bits) = some e.p
  plain : g.packing = .none → codes = l
  packed : g.packing ≠ .none → e.residue < g.t.bits ∧ (∀ c ∈ codes, c.toNat < 2^g.t.bits) ∧
    pending g.packing s ++ octetsOf g.packing l =
      codesOf g.packing g.t.bits (codes.map BitVec.toNat) ++ pending g.packing e

theorem decodeLoop_succ (g : Cfg) (k : Nat) (s : Codec) (l : List Byte) : decodeLoop g (k + 1) s l =
    match pull g s l with
    | none => some (s, [])
    | some r => (decoder g.t g.coding r.2.1.p r.1).bind fun d =>
        (decodeLoop g k { r.2.1 with p := d.1 } r.2.2).bind fun x => some (x.1, d.2 :: x.2) := by
  rw [decodeLoop]
  cases pull g s l <;> rfl

theorem decode_spec (g : Cfg) (hg : g.t.Valid) : ∀ (k : Nat) (s : Codec) (l : List Byte), Good g s →
    8*l.length + s.residue + 2 < 2*k → ∃ e out codes, decodeLoop g k s l = some (e, out) ∧ Decoded g s l e out codes := by
  intro k
  induction k with
  | zero => intro s l _ h; omega
  | succ k ih =>
    intro s l h hk
    have hb := bits_of g.t hg
    rcases pull_spec g hg s h l with ⟨hn, rfl, hr⟩ | ⟨c, s', l', hc, hgood, hp, h1, h2⟩
    · refine ⟨s, [], [], ?_, h, rfl, rfl, rfl, fun _ => rfl, fun hp => ⟨hr hp, by simp, by simp [codesOf, octetsOf]⟩⟩
      rw [decodeLoop_succ, hn]
    · obtain ⟨p', se, y, sr, a, hd, hf, ho, -⟩ := decoder_ok g.t hg g.coding s'.p hgood.ok c
      have hk' : 8*l'.length + s'.residue + 2 < 2*k := by
        by_cases hpk : g.packing = .none
        · obtain ⟨rfl, rfl⟩ := h1 hpk
          simp only [List.length_cons] at hk
          omega
        · have := (h2 hpk).2.1
          omega
      obtain ⟨e, out, codes, he, q⟩ := ih { s' with p := p' } l' ⟨ho, hgood.residue, hgood.high⟩ hk'
      refine ⟨e, a :: out, c :: codes, ?_, q.good, ?_, ?_, ?_, ?_, ?_⟩
      · rw [decodeLoop_succ, hc]
        simp only [hd, Option.bind_some, he]
      · rw [List.length_cons, List.length_cons, q.count]
      · rw [speak, ← hp, hd, Option.bind_some]
        have := q.heard
        simp only at this
        rw [this, Option.bind_some]
      · rw [List.map_cons, followAll, ← hp, hf, Option.bind_some]
        exact q.pred
      · intro hpk
        obtain ⟨rfl, rfl⟩ := h1 hpk
        rw [q.plain hpk]
      · intro hpk
        obtain ⟨g1, g2, g3⟩ := h2 hpk
        obtain ⟨q1, q2, q3⟩ := q.packed hpk
        refine ⟨q1, ?_, ?_⟩
        · intro x hx
          rcases List.mem_cons.mp hx with rfl | hx
          · exact g1
          · exact q2 x hx
        · have e0 : pending g.packing { s' with p := p' } = pending g.packing s' := rfl
          rw [e0] at q3
          rw [g3, q3]
          simp only [codesOf, List.map_cons, List.flatMap_cons, List.append_assoc]

theorem pull_append (g : Cfg) (s : Codec) (l m : List Byte) (r : Byte × Codec × List Byte) (h : pull g s l = some r) :
    pull g s (l ++ m) = some (r.1, r.2.1, r.2.2 ++ m) := by
  unfold pull at h ⊢
  rcases hp : g.packing with _ | _ | _ <;> rw [hp] at h
  · rcases l with _ | ⟨o, l⟩
    · simp at h
    · simp only [Option.some.injEq] at h
      rw [← h]; rfl
  · simp only at h ⊢
    by_cases hn : s.residue < g.t.bits
    · rw [if_pos hn] at h ⊢
      rcases l with _ | ⟨o, l⟩
      · simp at h
      · simp only [Option.some.injEq] at h
        rw [← h]; rfl
    · rw [if_neg hn] at h ⊢
      simp only [Option.some.injEq] at h
      rw [← h]
  · simp only at h ⊢
    by_cases hn : s.residue < g.t.bits
    · rw [if_pos hn] at h ⊢
      rcases l with _ | ⟨o, l⟩
      · simp at h
      · simp only [Option.some.injEq] at h
        rw [← h]; rfl
    · rw [if_neg hn] at h ⊢
      simp only [Option.some.injEq] at h
      rw [← h]

theorem pull_none (g : Cfg) (s : Codec) (l : List Byte) (h : pull g s l = none) : l = [] := by
  rcases l with _ | ⟨o, l⟩
  · rfl
  · exfalso
    unfold pull at h
    rcases hp : g.packing with _ | _ | _ <;> rw [hp] at h <;> simp only at h
    · simp at h
    · by_cases hn : s.residue < g.t.bits
      · rw [if_pos hn] at h; simp at h
      · rw [if_neg hn] at h; simp at h
    · by_cases hn : s.residue < g.t.bits
      · rw [if_pos hn] at h; simp at h
      · rw [if_neg hn] at h; simp at h

/-- More turns make no difference. -/
theorem decodeLoop_more (g : Cfg) : ∀ (k j : Nat) (s : Codec) (l : List Byte) (r : Codec × List Int),
    decodeLoop g k s l = some r → decodeLoop g (k + j) s l = some r := by
  intro k
  induction k with
  | zero => intro j s l r h; simp [decodeLoop] at h
  | succ k ih =>
    intro j s l r h
    rw [show k + 1 + j = k + j + 1 by omega, decodeLoop_succ]
    rw [decodeLoop_succ] at h
    rcases hp : pull g s l with _ | x
    · rw [hp] at h; exact h
    · rw [hp] at h
      simp only [Option.bind_eq_some_iff] at h ⊢
      obtain ⟨d, hd, z, hz, e⟩ := h
      exact ⟨d, hd, z, ih j _ _ _ hz, e⟩

theorem decodeLoop_append (g : Cfg) (m : List Byte) (j : Nat) : ∀ (k : Nat) (s : Codec) (l : List Byte) (e f : Codec)
    (a b : List Int), decodeLoop g k s l = some (e, a) → decodeLoop g j e m = some (f, b) →
    decodeLoop g (k + j) s (l ++ m) = some (f, a ++ b) := by
  intro k
  induction k with
  | zero => intro s l e f a b h; simp [decodeLoop] at h
  | succ k ih =>
    intro s l e f a b h h'
    rw [decodeLoop_succ] at h
    rcases hp : pull g s l with _ | x
    · rw [hp] at h
      simp only [Option.some.injEq, Prod.mk.injEq] at h
      obtain ⟨rfl, rfl⟩ := h
      rw [pull_none g s l hp, Nat.add_comm]
      exact decodeLoop_more g j (k + 1) s m _ h'
    · rw [hp] at h
      rw [show k + 1 + j = k + j + 1 by omega, decodeLoop_succ, pull_append g s l m x hp]
      simp only [Option.bind_eq_some_iff] at h ⊢
      obtain ⟨d, hd, z, hz, q⟩ := h
      simp only [Option.some.injEq, Prod.mk.injEq] at q
      obtain ⟨q1, q2⟩ := q
      refine ⟨d, hd, (f, z.2 ++ b), ih _ _ _ _ _ _ (by rw [hz, ← q1]) h', ?_⟩
      rw [← q2]; rfl

end G726
