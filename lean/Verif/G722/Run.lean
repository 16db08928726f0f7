import Verif.G722.Codec

/-!
# Packing, and whole runs
-/

namespace G722

/-- The `n` lower bits of a number, the lowest first. -/
def bits (n v : Nat) : List Bool := (List.range n).map v.testBit

theorem bits_length (n v : Nat) : (bits n v).length = n := by simp [bits]

theorem bits_get (n v i : Nat) (h : i < (bits n v).length) : (bits n v)[i] = v.testBit i := by
  simp [bits]

/-- New bits are put above. -/
theorem bits_or (m n u v : Nat) (hu : u < 2^m) : bits (m + n) (u ||| (v <<< m)) = bits m u ++ bits n v := by
  apply List.ext_getElem
  · simp [bits_length]
  · intro i h1 h2
    rw [bits_get, List.getElem_append, Nat.testBit_or, Nat.testBit_shiftLeft]
    split
    · rename_i h; rw [bits_length] at h
      rw [bits_get]; simp [show ¬ i ≥ m by omega]
    · rename_i h; rw [bits_length] at h
      rw [bits_get, bits_length, Nat.testBit_lt_two_pow (Nat.lt_of_lt_of_le hu (Nat.pow_le_pow_right (by omega) (by omega)))]
      simp [show i ≥ m by omega]

/-- Bits are taken from below. -/
theorem bits_take (m n v : Nat) : bits (m + n) v = bits m (v &&& (2^m - 1)) ++ bits n (v >>> m) := by
  apply List.ext_getElem
  · simp [bits_length]
  · intro i h1 h2
    rw [bits_get, List.getElem_append]
    split
    · rename_i h; rw [bits_length] at h
      rw [bits_get, Nat.testBit_and, Nat.testBit_two_pow_sub_one]; simp [h]
    · rename_i h; rw [bits_length] at h
      rw [bits_get, bits_length, Nat.testBit_shiftRight]
      congr 1; omega

theorem bits_inj (n u v : Nat) (hu : u < 2^n) (hv : v < 2^n) (h : bits n u = bits n v) : u = v := by
  apply Nat.eq_of_testBit_eq
  intro i
  by_cases hi : i < n
  · have h1 : (bits n u)[i]? = some (u.testBit i) := by
      rw [List.getElem?_eq_getElem (by rw [bits_length]; exact hi), bits_get]
    have h2 : (bits n v)[i]? = some (v.testBit i) := by
      rw [List.getElem?_eq_getElem (by rw [bits_length]; exact hi), bits_get]
    rw [h, h2] at h1
    exact (Option.some.inj h1).symm
  · rw [Nat.testBit_lt_two_pow (Nat.lt_of_lt_of_le hu (Nat.pow_le_pow_right (by omega) (by omega))),
      Nat.testBit_lt_two_pow (Nat.lt_of_lt_of_le hv (Nat.pow_le_pow_right (by omega) (by omega)))]

/-- The bits of codes of `n` bits each; of bytes. -/
def codeBits (n : Nat) (l : List Nat) : List Bool := l.flatMap (bits n)
def byteBits (l : List Byte) : List Bool := l.flatMap fun o => bits 8 o.toNat

theorem codeBits_length (n : Nat) (l : List Nat) : (codeBits n l).length = l.length*n := by
  induction l with
  | nil => simp [codeBits]
  | cons c l ih =>
    unfold codeBits at ih ⊢
    rw [List.flatMap_cons, List.length_append, ih, bits_length, List.length_cons]
    rw [Nat.add_mul]; omega

/-- Codes are found again at the beginning of their bits. -/
theorem codeBits_prefix (n : Nat) (hn : 0 < n) : ∀ (d e : List Nat) (r : List Bool), (∀ c ∈ d, c < 2^n) →
    (∀ c ∈ e, c < 2^n) → codeBits n e = codeBits n d ++ r → d = e.take d.length := by
  intro d
  induction d with
  | nil => intro e r _ _ _; rfl
  | cons c d ih =>
    intro e r hd he h
    rcases e with _ | ⟨f, e⟩
    · have := congrArg List.length h
      rw [List.length_append, codeBits_length, codeBits_length] at this
      simp only [List.length_nil, Nat.zero_mul, List.length_cons, Nat.add_mul] at this
      omega
    · unfold codeBits at h
      rw [List.flatMap_cons, List.flatMap_cons, List.append_assoc] at h
      have := List.append_inj h (by rw [bits_length, bits_length])
      have hc := bits_inj n f c (he f (List.mem_cons_self ..)) (hd c (List.mem_cons_self ..)) this.1
      rw [List.length_cons, List.take_succ_cons, hc]
      congr 1
      exact ih e r (fun x hx => hd x (List.mem_cons_of_mem _ hx)) (fun x hx => he x (List.mem_cons_of_mem _ hx)) this.2

/-! ## The bands over many codes -/

def lowRun (s : Band) : List Nat → Option Band
  | [] => some s
  | c :: l => (lowNext s c).bind fun s => lowRun s l

def highRun (s : Band) : List Nat → Option Band
  | [] => some s
  | c :: l => (highNext s c).bind fun s => highRun s l

theorem lowRun_append (l m : List Nat) (s : Band) : lowRun s (l ++ m) = (lowRun s l).bind fun s => lowRun s m := by
  induction l generalizing s with
  | nil => rfl
  | cons c l ih =>
    simp only [List.cons_append, lowRun, Option.bind_assoc]
    congr 1
    funext s
    exact ih s

theorem highRun_append (l m : List Nat) (s : Band) : highRun s (l ++ m) = (highRun s l).bind fun s => highRun s m := by
  induction l generalizing s with
  | nil => rfl
  | cons c l ih =>
    simp only [List.cons_append, highRun, Option.bind_assoc]
    congr 1
    funext s
    exact ih s

/-! ## Encoding -/

/-- How many samples go into a code, or come from one. -/
def width (g : Cfg) : Nat := if g.eightK then 1 else 2

/-- What encoding comes to: the codes `fulls`, of eight bits, change the bands, and their upper bits are
written. -/
structure Encoded (g : Cfg) (s : Codec) (n : Nat) (e : Codec) (bytes : List Byte) (fulls : List Nat) : Prop where
  good : Good e
  count : n = fulls.length*width g
  lt : ∀ f ∈ fulls, f < 256
  low : lowRun s.low (fulls.map fun f => f % 64 / 4) = some e.low
  high : g.eightK = false → highRun s.high (fulls.map fun f => f/64) = some e.high
  plain : g.packed = false → bytes = fulls.map fun f => BitVec.ofNat 8 (f >>> (8 - g.bits))
  packed : g.packed = true → s.buf < 2^s.nbits → s.nbits < 8 →
    bits s.nbits s.buf ++ codeBits g.bits (fulls.map fun f => f >>> (8 - g.bits)) =
      byteBits bytes ++ bits e.nbits e.buf ∧ e.buf < 2^e.nbits ∧ e.nbits < 8

theorem emit_bands (g : Cfg) (s : Codec) (code : Nat) (h : Good s) :
    Good (emit g s code).1 ∧ (emit g s code).1.low = s.low ∧ (emit g s code).1.high = s.high := by
  unfold emit
  split
  · simp only
    split <;> exact ⟨⟨h.low, h.high, h.x, h.y, h.ptr⟩, rfl, rfl⟩
  · exact ⟨h, rfl, rfl⟩

theorem emit_packed (g : Cfg) (s : Codec) (code : Nat) (hp : g.packed = true) (hb : g.bits ≤ 8) (hc : code < 2^g.bits)
    (h1 : s.buf < 2^s.nbits) (h2 : s.nbits < 8) :
    bits s.nbits s.buf ++ bits g.bits code =
      byteBits (emit g s code).2 ++ bits (emit g s code).1.nbits (emit g s code).1.buf ∧
    (emit g s code).1.buf < 2^(emit g s code).1.nbits ∧ (emit g s code).1.nbits < 8 := by
  have hlt : s.buf ||| (code <<< s.nbits) < 2^(s.nbits + g.bits) := by
    apply Nat.or_lt_two_pow
    · exact Nat.lt_of_lt_of_le h1 (Nat.pow_le_pow_right (by omega) (by omega))
    · rw [Nat.shiftLeft_eq, Nat.pow_add, Nat.mul_comm]
      exact Nat.mul_lt_mul_of_pos_left hc (Nat.pow_pos (by omega))
  rw [← bits_or _ _ _ _ h1]
  unfold emit
  rw [if_pos hp]
  simp only
  by_cases h : s.nbits + g.bits ≥ 8
  · rw [if_pos h]
    simp only
    refine ⟨?_, ?_, by omega⟩
    · rw [show s.nbits + g.bits = 8 + (s.nbits + g.bits - 8) by omega, bits_take 8]
      congr 1
      · simp only [byteBits, List.flatMap_cons, List.flatMap_nil, List.append_nil, BitVec.toNat_ofNat]
        congr 1
        rw [Nat.and_two_pow_sub_one_eq_mod _ 8, Nat.mod_mod]
      · congr 1; omega
    · rw [Nat.shiftRight_eq_div_pow, Nat.div_lt_iff_lt_mul (by decide), ← Nat.pow_add]
      rw [show s.nbits + g.bits - 8 + 8 = s.nbits + g.bits by omega]
      exact hlt
  · rw [if_neg h]
    exact ⟨by simp [byteBits], hlt, by show s.nbits + g.bits < 8; omega⟩

theorem encoded_nil (g : Cfg) (s : Codec) (h : Good s) : Encoded g s 0 s [] [] :=
  ⟨h, by simp, by simp, rfl, fun _ => rfl, fun _ => rfl, fun _ h1 h2 => ⟨by simp [codeBits, byteBits], h1, h2⟩⟩

/-- One code before. -/
theorem encoded_cons (g : Cfg) (hg : g.Valid) (s s1 : Codec) (full n : Nat) (hf : full < 256)
    (hb : s1.buf = s.buf ∧ s1.nbits = s.nbits) (hl : lowNext s.low (full % 64 / 4) = some s1.low)
    (hh : g.eightK = false → highNext s.high (full/64) = some s1.high) (e : Codec) (bytes : List Byte)
    (fulls : List Nat) (h1 : Good s1)
    (h : Encoded g (emit g s1 (full >>> (8 - g.bits))).1 n e bytes fulls) :
    Encoded g s (n + width g) e ((emit g s1 (full >>> (8 - g.bits))).2 ++ bytes) (full :: fulls) := by
  obtain ⟨-, b1, b2⟩ := emit_bands g s1 (full >>> (8 - g.bits)) h1
  have hc := (full_code g.bits full hg hf).2.2
  refine ⟨h.good, ?_, ?_, ?_, ?_, ?_, ?_⟩
  · rw [h.count, List.length_cons, Nat.add_mul, Nat.one_mul]
  · intro f hm
    rcases List.mem_cons.mp hm with rfl | hm
    · exact hf
    · exact h.lt f hm
  · simp only [List.map_cons, lowRun, hl, Option.bind_some]
    rw [← b1]; exact h.low
  · intro hk
    simp only [List.map_cons, highRun, hh hk, Option.bind_some]
    rw [← b2]; exact h.high hk
  · intro hp
    rw [h.plain hp]
    simp [emit, hp]
  · intro hp g1 g2
    obtain ⟨q1, q2, q3⟩ := emit_packed g s1 (full >>> (8 - g.bits)) hp (by rcases hg with h | h | h <;> omega) hc
      (by rw [hb.1, hb.2]; exact g1) (by rw [hb.2]; exact g2)
    obtain ⟨p1, p2⟩ := h.packed hp q2 q3
    refine ⟨?_, p2⟩
    have e1 : codeBits g.bits ((full :: fulls).map fun f => f >>> (8 - g.bits)) =
        bits g.bits (full >>> (8 - g.bits)) ++ codeBits g.bits (fulls.map fun f => f >>> (8 - g.bits)) := rfl
    have e2 : ∀ l m : List Byte, byteBits (l ++ m) = byteBits l ++ byteBits m := by
      intro l m; unfold byteBits; exact List.flatMap_append
    rw [e1, ← List.append_assoc, ← hb.1, ← hb.2, q1, e2, List.append_assoc, p1, List.append_assoc]

theorem encode_ok (g : Cfg) (hg : g.Valid) : ∀ (n : Nat) (l : List Int) (s : Codec), l.length = n → Good s →
    (∀ a ∈ l, Fits a) → l.length % width g = 0 →
    ∃ e bytes fulls, encode g s l = some (e, bytes) ∧ Encoded g s l.length e bytes fulls := by
  intro n
  induction n using Nat.strongRecOn with
  | _ n ih =>
    intro l s hl hs hf hw
    rcases l with _ | ⟨a, l⟩
    · exact ⟨s, [], [], by unfold encode; rfl, encoded_nil g s hs⟩
    cases hk : g.eightK with
    | true =>
      obtain ⟨s1, full, e1, h1, h2, h3, h4, h5⟩ := encode8_ok g s a hs
      obtain ⟨e, bytes, fulls, e2, h6⟩ := ih l.length (by rw [← hl]; simp) l
        (emit g s1 (full >>> (8 - g.bits))).1 rfl (emit_bands g s1 _ h2).1
        (fun x hx => hf x (List.mem_cons_of_mem _ hx)) (by simp [width, hk, Nat.mod_one])
      refine ⟨e, (emit g s1 (full >>> (8 - g.bits))).2 ++ bytes, full :: fulls, ?_, ?_⟩
      · unfold encode
        rw [if_pos hk, e1, Option.bind_some]
        simp only
        rw [e2]; rfl
      · have := encoded_cons g hg s s1 full l.length h1 ⟨h3, h4⟩ h5 (by simp [hk]) e bytes fulls h2 h6
        simpa [width, hk] using this
    | false =>
      rcases l with _ | ⟨b, l⟩
      · simp [width, hk] at hw
      obtain ⟨s1, full, e1, h1, h2, h3, h4, h5, h5'⟩ := encode16_ok g s a b hs (hf a (by simp)) (hf b (by simp))
      obtain ⟨e, bytes, fulls, e2, h6⟩ := ih l.length (by rw [← hl]; simp; omega) l
        (emit g s1 (full >>> (8 - g.bits))).1 rfl (emit_bands g s1 _ h2).1
        (fun x hx => hf x (List.mem_cons_of_mem _ (List.mem_cons_of_mem _ hx)))
        (by simp only [width, hk, List.length_cons] at hw ⊢; simp at hw ⊢; omega)
      refine ⟨e, (emit g s1 (full >>> (8 - g.bits))).2 ++ bytes, full :: fulls, ?_, ?_⟩
      · unfold encode
        rw [if_neg (by simp [hk])]
        simp only
        rw [e1, Option.bind_some]
        simp only
        rw [e2]; rfl
      · have := encoded_cons g hg s s1 full l.length h1 ⟨h3, h4⟩ h5 (fun _ => h5') e bytes fulls h2 h6
        simpa [width, hk] using this

/-! ## Decoding -/

structure Decoded (g : Cfg) (s : Codec) (bytes : List Byte) (d : Codec) (out : List Int) (codes : List Nat) :
    Prop where
  good : Good d
  count : out.length = codes.length*width g
  fits : ∀ a ∈ out, Fits a
  low : lowRun s.low (codes.map (low4 g.bits)) = some d.low
  high : g.eightK = false → highRun s.high (codes.map (high2 g.bits)) = some d.high
  plain : g.packed = false → codes = bytes.map BitVec.toNat
  packed : g.packed = true →
    bits s.nbits s.buf ++ byteBits bytes = codeBits g.bits codes ++ bits d.nbits d.buf ∧
      d.buf < 2^d.nbits ∧ d.nbits < 8 ∧ ∀ c ∈ codes, c < 2^g.bits

theorem decoded_nil (g : Cfg) (s : Codec) (h : Good s) (hb : s.buf < 2^s.nbits) (hn : s.nbits < 8) :
    Decoded g s [] s [] [] :=
  ⟨h, by simp, by simp, rfl, fun _ => rfl, fun _ => rfl, fun _ => ⟨by simp [codeBits, byteBits], hb, hn, by simp⟩⟩

/-- One code is taken from the data. -/
theorem pull_ok (g : Cfg) (hg : g.Valid) (s : Codec) (o : Byte) (l : List Byte) (hb : s.buf < 2^s.nbits)
    (hn : s.nbits < 8) :
    ∃ code s1 l1, pull g s o l = (code, s1, l1) ∧ s1.low = s.low ∧ s1.high = s.high ∧ (Good s → Good s1) ∧
      s1.buf < 2^s1.nbits ∧ s1.nbits < 8 ∧ 8*l1.length + s1.nbits < 8*(o :: l).length + s.nbits ∧
      (g.packed = false → code = o.toNat ∧ l1 = l ∧ s1 = s) ∧
      (g.packed = true → bits s.nbits s.buf ++ byteBits (o :: l) =
        bits g.bits code ++ (bits s1.nbits s1.buf ++ byteBits l1) ∧ code < 2^g.bits) := by
  have hv : 6 ≤ g.bits ∧ g.bits ≤ 8 := by rcases hg with h | h | h <;> omega
  have shr : ∀ v m n : Nat, v < 2^(m + n) → v >>> m < 2^n := by
    intro v m n h
    rw [Nat.shiftRight_eq_div_pow, Nat.div_lt_iff_lt_mul (Nat.pow_pos (by omega)), ← Nat.pow_add, Nat.add_comm n m]
    exact h
  have andlt : ∀ v n : Nat, v &&& (2^n - 1) < 2^n := by
    intro v n; rw [Nat.and_two_pow_sub_one_eq_mod]; exact Nat.mod_lt _ (Nat.pow_pos (by omega))
  unfold pull
  cases hp : g.packed with
  | false =>
    refine ⟨_, _, _, rfl, rfl, rfl, id, hb, hn, ?_, fun _ => ⟨rfl, rfl, rfl⟩, by simp⟩
    simp only [List.length_cons]; omega
  | true =>
    rw [if_pos rfl]
    by_cases hlt : s.nbits < g.bits
    · rw [if_pos hlt]
      have ho : o.toNat < 2^8 := o.isLt
      have hl : s.buf ||| (o.toNat <<< s.nbits) < 2^(g.bits + (s.nbits + 8 - g.bits)) := by
        rw [show g.bits + (s.nbits + 8 - g.bits) = s.nbits + 8 by omega]
        apply Nat.or_lt_two_pow
        · exact Nat.lt_of_lt_of_le hb (Nat.pow_le_pow_right (by omega) (by omega))
        · rw [Nat.shiftLeft_eq, Nat.pow_add, Nat.mul_comm]
          exact Nat.mul_lt_mul_of_pos_left ho (Nat.pow_pos (by omega))
      refine ⟨_, _, _, rfl, rfl, rfl, fun h => ⟨h.low, h.high, h.x, h.y, h.ptr⟩, shr _ _ _ hl, ?_, ?_, by simp, fun _ => ⟨?_, andlt _ _⟩⟩
      · show s.nbits + 8 - g.bits < 8; omega
      · simp only [List.length_cons]; omega
      · simp only
        have := bits_or s.nbits 8 s.buf o.toNat hb
        rw [← List.append_assoc, ← bits_take, show g.bits + (s.nbits + 8 - g.bits) = s.nbits + 8 by omega, this,
          List.append_assoc]
        rfl
    · rw [if_neg hlt]
      refine ⟨_, _, _, rfl, rfl, rfl, fun h => ⟨h.low, h.high, h.x, h.y, h.ptr⟩, ?_, ?_, ?_, by simp, fun _ => ⟨?_, andlt _ _⟩⟩
      · apply shr; rw [show g.bits + (s.nbits - g.bits) = s.nbits by omega]; exact hb
      · show s.nbits - g.bits < 8; omega
      · simp only [List.length_cons]; omega
      · simp only
        rw [← List.append_assoc, ← bits_take, show g.bits + (s.nbits - g.bits) = s.nbits by omega]

theorem decodeLoop_ok (g : Cfg) (hg : g.Valid) : ∀ (k : Nat) (l : List Byte) (s : Codec), Good s →
    s.buf < 2^s.nbits → s.nbits < 8 → 8*l.length + s.nbits ≤ k →
    ∃ d out codes, decodeLoop g k s l = some (d, out) ∧ Decoded g s l d out codes := by
  intro k
  induction k with
  | zero =>
    intro l s hs hb hn hk
    rcases l with _ | ⟨o, l⟩
    · exact ⟨s, [], [], by unfold decodeLoop; rfl, decoded_nil g s hs hb hn⟩
    · simp only [List.length_cons] at hk; omega
  | succ k ih =>
    intro l s hs hb hn hk
    rcases l with _ | ⟨o, l⟩
    · exact ⟨s, [], [], by unfold decodeLoop; rfl, decoded_nil g s hs hb hn⟩
    obtain ⟨code, s1, l1, ep, el, eh, hg1, hb1, hn1, hm, hplain, hpack⟩ := pull_ok g hg s o l hb hn
    obtain ⟨s2, a, e2, g2, f2, len2, b2, n2, low2, hi2, hi2'⟩ := decodeCode_ok g hg s1 code (hg1 hs)
    obtain ⟨d, out, codes, e3, h3⟩ := ih l1 s2 g2 (by rw [b2, n2]; exact hb1) (by rw [n2]; exact hn1) (by rw [n2]; omega)
    refine ⟨d, a ++ out, code :: codes, ?_, ?_⟩
    · unfold decodeLoop
      rw [ep]
      simp only
      rw [e2, Option.bind_some]
      simp only
      rw [e3]; rfl
    · refine ⟨h3.good, ?_, ?_, ?_, ?_, ?_, ?_⟩
      · rw [List.length_append, h3.count, len2, List.length_cons, Nat.add_mul, Nat.one_mul, width]; omega
      · intro x hx
        rcases List.mem_append.mp hx with hx | hx
        · exact f2 x hx
        · exact h3.fits x hx
      · simp only [List.map_cons, lowRun]
        rw [← el, low2, Option.bind_some]; exact h3.low
      · intro hk
        simp only [List.map_cons, highRun]
        rw [← eh, hi2' hk, Option.bind_some]; exact h3.high hk
      · intro hp
        obtain ⟨q1, q2, -⟩ := hplain hp
        rw [h3.plain hp, q1, q2, List.map_cons]
      · intro hp
        obtain ⟨q1, q2⟩ := hpack hp
        obtain ⟨p1, p2, p3, p4⟩ := h3.packed hp
        refine ⟨?_, p2, p3, ?_⟩
        · rw [q1, ← b2, ← n2, p1, ← List.append_assoc]
          rfl
        · intro c hc
          rcases List.mem_cons.mp hc with rfl | hc
          · exact q2
          · exact p4 c hc

theorem byteBits_length (l : List Byte) : (byteBits l).length = 8*l.length := by
  induction l with
  | nil => rfl
  | cons o l ih =>
    unfold byteBits at ih ⊢
    rw [List.flatMap_cons, List.length_append, ih, bits_length, List.length_cons]; omega

/-- Without packing nothing is left over. -/
theorem decodeLoop_plain (g : Cfg) (hg : g.Valid) (hp : g.packed = false) :
    ∀ (k : Nat) (l : List Byte) (s d : Codec) (out : List Int), Good s → s.buf < 2^s.nbits → s.nbits < 8 →
      decodeLoop g k s l = some (d, out) → d.buf = s.buf ∧ d.nbits = s.nbits := by
  intro k
  induction k with
  | zero =>
    intro l s d out _ _ _ h
    rcases l with _ | ⟨o, l⟩
    · unfold decodeLoop at h; simp only [Option.some.injEq, Prod.mk.injEq] at h; rw [h.1]; exact ⟨rfl, rfl⟩
    · unfold decodeLoop at h; cases h
  | succ k ih =>
    intro l s d out hs hb hn h
    rcases l with _ | ⟨o, l⟩
    · unfold decodeLoop at h; simp only [Option.some.injEq, Prod.mk.injEq] at h; rw [h.1]; exact ⟨rfl, rfl⟩
    · obtain ⟨s2, a, e2, g2, f2, len2, b2, n2, -⟩ := decodeCode_ok g hg s o.toNat hs
      unfold decodeLoop at h
      have ep : pull g s o l = (o.toNat, s, l) := by unfold pull; simp [hp]
      rw [ep] at h
      simp only at h
      rw [e2, Option.bind_some] at h
      simp only at h
      rw [Option.map_eq_some_iff] at h
      obtain ⟨⟨d', o'⟩, h1, h2⟩ := h
      simp only [Prod.mk.injEq] at h2
      have := ih l s2 d' o' g2 (by rw [b2, n2]; exact hb) (by rw [n2]; exact hn) h1
      rw [← h2.1, this.1, this.2]; exact ⟨b2, n2⟩

/-- At 8000 samples a second the upper band stays as it is. -/
theorem decodeLoop_high (g : Cfg) (hg : g.Valid) (hk : g.eightK = true) :
    ∀ (k : Nat) (l : List Byte) (s d : Codec) (out : List Int), Good s → s.buf < 2^s.nbits → s.nbits < 8 →
      decodeLoop g k s l = some (d, out) → d.high = s.high := by
  intro k
  induction k with
  | zero =>
    intro l s d out _ _ _ h
    rcases l with _ | ⟨o, l⟩
    · unfold decodeLoop at h; simp only [Option.some.injEq, Prod.mk.injEq] at h; rw [h.1]
    · unfold decodeLoop at h; cases h
  | succ k ih =>
    intro l s d out hs hb hn h
    rcases l with _ | ⟨o, l⟩
    · unfold decodeLoop at h; simp only [Option.some.injEq, Prod.mk.injEq] at h; rw [h.1]
    · obtain ⟨code, s1, l1, ep, el, eh, hg1, hb1, hn1, -⟩ := pull_ok g hg s o l hb hn
      obtain ⟨s2, a, e2, g2, f2, len2, b2, n2, -, hi2, -⟩ := decodeCode_ok g hg s1 code (hg1 hs)
      unfold decodeLoop at h
      rw [ep] at h
      simp only at h
      rw [e2, Option.bind_some] at h
      simp only at h
      rw [Option.map_eq_some_iff] at h
      obtain ⟨⟨d', o'⟩, h1, h2⟩ := h
      simp only [Prod.mk.injEq] at h2
      have := ih l1 s2 d' o' g2 (by rw [b2, n2]; exact hb1) (by rw [n2]; exact hn1) h1
      rw [← h2.1, this, hi2 hk, eh]

/-- Two runs of the encoder. -/
theorem encoded_append (g : Cfg) (s e1 e2 : Codec) (n1 n2 : Nat) (b1 b2 : List Byte)
    (f1 f2 : List Nat) (h1 : Encoded g s n1 e1 b1 f1) (h2 : Encoded g e1 n2 e2 b2 f2) :
    Encoded g s (n1 + n2) e2 (b1 ++ b2) (f1 ++ f2) := by
  refine ⟨h2.good, ?_, ?_, ?_, ?_, ?_, ?_⟩
  · rw [h1.count, h2.count, List.length_append, Nat.add_mul]
  · intro f hf
    rcases List.mem_append.mp hf with hf | hf
    · exact h1.lt f hf
    · exact h2.lt f hf
  · rw [List.map_append, lowRun_append, h1.low, Option.bind_some]; exact h2.low
  · intro hk; rw [List.map_append, highRun_append, h1.high hk, Option.bind_some]; exact h2.high hk
  · intro hp; rw [h1.plain hp, h2.plain hp, List.map_append]
  · intro hp g1 g2
    obtain ⟨p1, p2, p3⟩ := h1.packed hp g1 g2
    obtain ⟨q1, q2⟩ := h2.packed hp p2 p3
    refine ⟨?_, q2⟩
    have e1' : ∀ l m : List Nat, codeBits g.bits (l ++ m) = codeBits g.bits l ++ codeBits g.bits m := by
      intro l m; unfold codeBits; exact List.flatMap_append
    have e2' : ∀ l m : List Byte, byteBits (l ++ m) = byteBits l ++ byteBits m := by
      intro l m; unfold byteBits; exact List.flatMap_append
    rw [List.map_append, e1', ← List.append_assoc, p1, List.append_assoc, q1, e2', List.append_assoc]

/-! ## Calls -/

theorem decodeLoop_more (g : Cfg) (hg : g.Valid) : ∀ (k : Nat) (l : List Byte) (s : Codec), Good s →
    s.buf < 2^s.nbits → s.nbits < 8 → 8*l.length + s.nbits ≤ k → ∀ j,
    decodeLoop g (k + j) s l = decodeLoop g k s l := by
  intro k
  induction k with
  | zero =>
    intro l s hs hb hn hk j
    rcases l with _ | ⟨o, l⟩
    · unfold decodeLoop; rfl
    · simp only [List.length_cons] at hk; omega
  | succ k ih =>
    intro l s hs hb hn hk j
    rcases l with _ | ⟨o, l⟩
    · unfold decodeLoop; rfl
    obtain ⟨code, s1, l1, ep, el, eh, hg1, hb1, hn1, hm, hplain, hpack⟩ := pull_ok g hg s o l hb hn
    obtain ⟨s2, a, e2, g2, f2, len2, b2, n2, low2, hi2, hi2'⟩ := decodeCode_ok g hg s1 code (hg1 hs)
    have := ih l1 s2 g2 (by rw [b2, n2]; exact hb1) (by rw [n2]; exact hn1) (by rw [n2]; omega) j
    rw [show k + 1 + j = (k + j) + 1 by omega]
    unfold decodeLoop
    rw [ep]
    simp only
    rw [e2, Option.bind_some, Option.bind_some]
    simp only
    rw [this]

theorem pull_append (g : Cfg) (s : Codec) (o : Byte) (l m : List Byte) :
    pull g s o (l ++ m) = ((pull g s o l).1, (pull g s o l).2.1, (pull g s o l).2.2 ++ m) := by
  unfold pull
  split
  · split <;> rfl
  · rfl

theorem decodeLoop_append (g : Cfg) (hg : g.Valid) (m : List Byte) : ∀ (k : Nat) (l : List Byte) (s : Codec), Good s →
    s.buf < 2^s.nbits → s.nbits < 8 → 8*(l.length + m.length) + s.nbits ≤ k →
    decodeLoop g k s (l ++ m) = (decodeLoop g k s l).bind fun (s, o) =>
      (decodeLoop g k s m).map fun (s, o') => (s, o ++ o') := by
  intro k
  induction k with
  | zero =>
    intro l s hs hb hn hk
    have h1 : l = [] := List.length_eq_zero_iff.mp (by omega)
    have h2 : m = [] := List.length_eq_zero_iff.mp (by omega)
    subst h1; subst h2
    simp [decodeLoop]
  | succ k ih =>
    intro l s hs hb hn hk
    rcases l with _ | ⟨o, l⟩
    · rw [List.nil_append]
      show _ = (decodeLoop g (k + 1) s []).bind _
      rw [show decodeLoop g (k + 1) s [] = some (s, []) by unfold decodeLoop; rfl, Option.bind_some]
      simp
    obtain ⟨code, s1, l1, ep, el, eh, hg1, hb1, hn1, hm, hplain, hpack⟩ := pull_ok g hg s o l hb hn
    obtain ⟨s2, a, e2, g2, f2, len2, b2, n2, low2, hi2, hi2'⟩ := decodeCode_ok g hg s1 code (hg1 hs)
    simp only [List.length_cons] at hm hk
    obtain ⟨d, out, codes, e3, h3⟩ := decodeLoop_ok g hg k l1 s2 g2 (by rw [b2, n2]; exact hb1) (by rw [n2]; exact hn1)
      (by rw [n2]; omega)
    have hi := ih l1 s2 g2 (by rw [b2, n2]; exact hb1) (by rw [n2]; exact hn1) (by rw [n2]; omega)
    have ea : decodeLoop g (k + 1) s (o :: l) = some (d, a ++ out) := by
      unfold decodeLoop
      rw [ep]
      simp only
      rw [e2, Option.bind_some]
      simp only
      rw [e3]; rfl
    rw [ea, Option.bind_some]
    rw [List.cons_append]
    have eb : decodeLoop g (k + 1) s (o :: (l ++ m)) =
        (decodeLoop g k s2 (l1 ++ m)).map fun (s, as) => (s, a ++ as) := by
      conv => lhs; unfold decodeLoop
      rw [pull_append, ep]
      simp only
      rw [e2, Option.bind_some]
    rw [eb, hi, e3, Option.bind_some]
    simp only
    have hd : decodeLoop g (k + 1) d m = decodeLoop g k d m := by
      have hnb : d.buf < 2^d.nbits ∧ d.nbits < 8 ∧ 8*m.length + d.nbits ≤ k := by
        cases hp : g.packed with
        | true =>
          obtain ⟨p1, p2, p3, p4⟩ := h3.packed hp
          have := congrArg List.length p1
          simp only [List.length_append, bits_length, codeBits_length, byteBits_length] at this
          exact ⟨p2, p3, by omega⟩
        | false =>
          have q := decodeLoop_plain g hg hp k l1 s2 d out g2 (by rw [b2, n2]; exact hb1) (by rw [n2]; exact hn1) e3
          obtain ⟨-, q2, q3⟩ := hplain hp
          rw [q3] at b2 n2
          rw [q.1, q.2, b2, n2]
          exact ⟨hb, hn, by omega⟩
      exact decodeLoop_more g hg k m d h3.good hnb.1 hnb.2.1 hnb.2.2 1
    rw [hd, Option.map_map]
    congr 1
    funext ⟨x, y⟩
    simp [List.append_assoc]

theorem encode_cons8 (g : Cfg) (hk : g.eightK = true) (s : Codec) (a : Int) (l : List Int) :
    encode g s (a :: l) = (encode8 g s a).bind fun p =>
      (encode g (emit g p.1 p.2).1 l).map fun (s, os) => (s, (emit g p.1 p.2).2 ++ os) := by
  conv => lhs; unfold encode
  rw [if_pos hk]

theorem encode_cons16 (g : Cfg) (hk : g.eightK = false) (s : Codec) (a b : Int) (l : List Int) :
    encode g s (a :: b :: l) = (encode16 g s a b).bind fun p =>
      (encode g (emit g p.1 p.2).1 l).map fun (s, os) => (s, (emit g p.1 p.2).2 ++ os) := by
  conv => lhs; unfold encode
  rw [if_neg (by simp [hk])]

theorem encode_append (g : Cfg) (m : List Int) : ∀ (n : Nat) (l : List Int) (s : Codec), l.length = n →
    l.length % width g = 0 →
    encode g s (l ++ m) = (encode g s l).bind fun (s, o) => (encode g s m).map fun (s, o') => (s, o ++ o') := by
  intro n
  induction n using Nat.strongRecOn with
  | _ n ih =>
    intro l s hl hw
    rcases l with _ | ⟨a, l⟩
    · rw [List.nil_append, show encode g s [] = some (s, []) by unfold encode; rfl, Option.bind_some]
      simp
    rw [List.cons_append]
    have rest : ∀ (s1 : Codec) (o : List Byte) (l : List Int), l.length < n → l.length % width g = 0 →
        ((encode g s1 (l ++ m)).map fun (s, os) => (s, o ++ os)) =
        ((encode g s1 l).map fun (s, os) => (s, o ++ os)).bind fun (s, o) =>
          (encode g s m).map fun (s, o') => (s, o ++ o') := by
      intro s1 o l h1 h2
      rw [ih l.length h1 l s1 rfl h2]
      cases encode g s1 l with
      | none => rfl
      | some p =>
        rw [Option.map_some, Option.bind_some, Option.bind_some, Option.map_map]
        congr 1
        funext ⟨x, y⟩
        simp [List.append_assoc]
    cases hk : g.eightK with
    | true =>
      rw [encode_cons8 g hk, encode_cons8 g hk]
      cases encode8 g s a with
      | none => rfl
      | some p =>
        obtain ⟨s1, code⟩ := p
        rw [Option.bind_some, Option.bind_some]
        exact rest (emit g s1 code).1 (emit g s1 code).2 l (by rw [← hl]; simp) (by simp [width, hk, Nat.mod_one])
    | false =>
      rcases l with _ | ⟨b, l⟩
      · simp [width, hk] at hw
      rw [List.cons_append]
      rw [encode_cons16 g hk, encode_cons16 g hk]
      cases encode16 g s a b with
      | none => rfl
      | some p =>
        obtain ⟨s1, code⟩ := p
        rw [Option.bind_some, Option.bind_some]
        exact rest (emit g s1 code).1 (emit g s1 code).2 l (by rw [← hl]; simp; omega)
          (by simp only [width, hk, List.length_cons] at hw ⊢; simp at hw ⊢; omega)

end G722
