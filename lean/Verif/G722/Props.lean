import Verif.G722.Run
import Verif.G722.Spec

/-!
# The properties of G.722

`Pcm`, `perCode`, `cut`, `encodeCalls` and `decodeCalls` are defined in `Spec`.  A result other than `none` means
that nothing overflowed, no conversion changed a value, and no table, sample or buffer was left.
-/

namespace G722

theorem width_eq (g : Cfg) : width g = perCode g := rfl

/-- A coder with bits left over as it always has. -/
def Ready (s : Codec) : Prop := Good s ∧ s.buf < 2^s.nbits ∧ s.nbits < 8

theorem init_ready : Ready init := ⟨init_good, by decide, by decide⟩

theorem decode_ready (g : Cfg) (hg : g.Valid) (s : Codec) (hs : Ready s) (l : List Byte) :
    ∃ d out codes, decode g s l = some (d, out) ∧ Decoded g s l d out codes ∧ Ready d := by
  obtain ⟨d, out, codes, e, h⟩ := decodeLoop_ok g hg (8*l.length + s.nbits) l s hs.1 hs.2.1 hs.2.2 (Nat.le_refl _)
  refine ⟨d, out, codes, e, h, h.good, ?_⟩
  cases hp : g.packed with
  | true => have := h.packed hp; exact ⟨this.2.1, this.2.2.1⟩
  | false => have := decodeLoop_plain g hg hp _ l s d out hs.1 hs.2.1 hs.2.2 e; rw [this.1, this.2]; exact hs.2

theorem decode_append (g : Cfg) (hg : g.Valid) (s : Codec) (hs : Ready s) (l m : List Byte) :
    decode g s (l ++ m) = (decode g s l).bind fun (s, o) => (decode g s m).map fun (s, o') => (s, o ++ o') := by
  obtain ⟨d, out, codes, e, h, hd⟩ := decode_ready g hg s hs l
  unfold decode at e ⊢
  rw [List.length_append, decodeLoop_append g hg m _ l s hs.1 hs.2.1 hs.2.2 (Nat.le_refl _)]
  have e1 : decodeLoop g (8*(l.length + m.length) + s.nbits) s l = some (d, out) := by
    rw [show 8*(l.length + m.length) + s.nbits = (8*l.length + s.nbits) + 8*m.length by omega,
      decodeLoop_more g hg _ l s hs.1 hs.2.1 hs.2.2 (Nat.le_refl _), e]
  rw [e1, e, Option.bind_some, Option.bind_some]
  simp only
  have hle : 8*m.length + d.nbits ≤ 8*(l.length + m.length) + s.nbits := by
    cases hp : g.packed with
    | true =>
      have := congrArg List.length (h.packed hp).1
      simp only [List.length_append, bits_length, codeBits_length, byteBits_length] at this
      omega
    | false => rw [(decodeLoop_plain g hg hp _ l s d out hs.1 hs.2.1 hs.2.2 e).2]; omega
  obtain ⟨j, hj⟩ : ∃ j, 8*(l.length + m.length) + s.nbits = (8*m.length + d.nbits) + j := ⟨_, (Nat.add_sub_cancel' hle).symm⟩
  rw [hj, decodeLoop_more g hg _ m d hd.1 hd.2.1 hd.2.2 (Nat.le_refl _)]

/-- Any data whatever, in any calls, are decoded without fault: into sixteen bit samples, without packing as
many as there should be for each byte.  And it does not matter how the data are cut into calls. -/
theorem decode_any (rate : Int) (eightK packed : Bool) (calls : List (List Byte)) :
    ∃ d out, decodeCalls (cfg rate eightK packed) init calls = some (d, out) ∧ Pcm out ∧
      decode (cfg rate eightK packed) init calls.flatten = some (d, out) ∧
      ((cfg rate eightK packed).packed = false →
        out.length = calls.flatten.length*perCode (cfg rate eightK packed)) := by
  have hg := cfg_valid rate eightK packed
  generalize cfg rate eightK packed = g at hg
  have key : ∀ (calls : List (List Byte)) (s : Codec), Ready s →
      decodeCalls g s calls = decode g s calls.flatten := by
    intro calls
    induction calls with
    | nil => intro s _; simp [decodeCalls, decode, decodeLoop]
    | cons l ls ih =>
      intro s hs
      obtain ⟨d, out, codes, e, h, hd⟩ := decode_ready g hg s hs l
      rw [List.flatten_cons, decode_append g hg s hs, e, Option.bind_some]
      simp only [decodeCalls]
      rw [e, Option.bind_some]
      simp only
      rw [ih d hd]
  obtain ⟨d, out, codes, e, h, -⟩ := decode_ready g hg init init_ready calls.flatten
  refine ⟨d, out, by rw [key _ _ init_ready, e], h.fits, e, ?_⟩
  intro hp
  rw [h.count, width_eq, h.plain hp, List.length_map]

/-- Any samples, in any calls which have whole pairs of them at 16000 a second, are encoded without fault:
without packing into one byte for each code.  And it does not matter how the samples are cut into calls. -/
theorem encode_any_partial (rate : Int) (eightK packed : Bool) (calls : List (List Int)) (hp : ∀ l ∈ calls, Pcm l)
    (hw : ∀ l ∈ calls, l.length % perCode (cfg rate eightK packed) = 0) :
    ∃ e out, encodeCalls (cfg rate eightK packed) init calls = some (e, out) ∧
      encode (cfg rate eightK packed) init calls.flatten = some (e, out) ∧
      ((cfg rate eightK packed).packed = false →
        out.length*perCode (cfg rate eightK packed) = calls.flatten.length) := by
  have hg := cfg_valid rate eightK packed
  generalize cfg rate eightK packed = g at hg hw
  have key : ∀ (calls : List (List Int)) (s : Codec), Good s → (∀ l ∈ calls, Pcm l) →
      (∀ l ∈ calls, l.length % perCode g = 0) →
      encodeCalls g s calls = encode g s calls.flatten := by
    intro calls
    induction calls with
    | nil => intro s _ _ _; simp [encodeCalls, encode]
    | cons l ls ih =>
      intro s hs h1 h2
      obtain ⟨e, bytes, fulls, ee, h⟩ := encode_ok g hg _ l s rfl hs (h1 l (by simp)) (h2 l (by simp))
      rw [List.flatten_cons, encode_append g _ _ l s rfl (h2 l (by simp)), ee, Option.bind_some]
      simp only [encodeCalls]
      rw [ee, Option.bind_some]
      simp only
      rw [ih e h.good (fun l hl => h1 l (List.mem_cons_of_mem _ hl)) (fun l hl => h2 l (List.mem_cons_of_mem _ hl))]
  have hf : ∀ a ∈ calls.flatten, Fits a := by
    intro a ha
    rw [List.mem_flatten] at ha
    obtain ⟨l, hl, ha⟩ := ha
    exact hp l hl a ha
  have hm : calls.flatten.length % width g = 0 := by
    rw [width_eq]
    clear hf hp key
    induction calls with
    | nil => simp
    | cons l ls ih =>
      have h1 := hw l (by simp)
      have h2 := ih (fun l hl => hw l (List.mem_cons_of_mem _ hl))
      rw [List.flatten_cons, List.length_append, Nat.add_mod, h1, h2]; simp
  obtain ⟨e, bytes, fulls, ee, h⟩ := encode_ok g hg _ calls.flatten init rfl init_good hf hm
  refine ⟨e, bytes, by rw [key _ _ init_good hp hw, ee], ee, ?_⟩
  intro hk
  rw [h.count, width_eq, h.plain hk, List.length_map]

example : (encodeCalls (cfg 48000 false true) init [[100, -200, 3000, 4000], [-30000, 30000, 5, 6]]).map
      (fun p => p.2.length) = some 3 ∧
    (decodeCalls (cfg 48000 false true) init [[0x12#8], [], [0x34#8, 0x56#8]]).map (fun p => p.2.length) =
      some 6 := by decide +kernel

/-! ## The encoder and the decoder stay together -/

/-- The decoder follows the encoder: after any samples the predictors and scales of its lower band are the
encoder's, and so are those of the upper band if both work at 16000 samples a second.  This is so at each
rate, and also if bits are cut from the codes on the way for a decoder with a lower rate. -/
theorem lockstep (rateE rateD : Int) (eE eD : Bool) (l : List Int) (hl : Pcm l)
    (hw : l.length % perCode (cfg rateE eE false) = 0)
    (hb : (cfg rateD eD false).bits ≤ (cfg rateE eE false).bits) :
    ∃ e bytes d out, encode (cfg rateE eE false) init l = some (e, bytes) ∧
      decode (cfg rateD eD false) init
        (bytes.map (cut ((cfg rateE eE false).bits - (cfg rateD eD false).bits))) = some (d, out) ∧
      d.low = e.low ∧ (eE = false → eD = false → d.high = e.high) := by
  have hgE := cfg_valid rateE eE false
  have hgD := cfg_valid rateD eD false
  have pE : (cfg rateE eE false).packed = false := rfl
  have pD : (cfg rateD eD false).packed = false := rfl
  have kE : (cfg rateE eE false).eightK = eE := rfl
  have kD : (cfg rateD eD false).eightK = eD := rfl
  generalize cfg rateE eE false = gE at *
  generalize cfg rateD eD false = gD at *
  obtain ⟨e, bytes, fulls, ee, h⟩ := encode_ok gE hgE _ l init rfl init_good hl hw
  obtain ⟨d, out, codes, ed, hd, -⟩ := decode_ready gD hgD init init_ready
    (bytes.map (cut (gE.bits - gD.bits)))
  have hc : codes = fulls.map fun f => f >>> (8 - gD.bits) := by
    rw [hd.plain pD, h.plain pE, List.map_map, List.map_map]
    apply List.map_congr_left
    intro f hf
    have := h.lt f hf
    simp only [Function.comp, cut, BitVec.toNat_ushiftRight, BitVec.toNat_ofNat]
    have h8 : f >>> (8 - gE.bits) < 256 := Nat.lt_of_le_of_lt (Nat.shiftRight_le _ _) this
    rw [Nat.mod_eq_of_lt h8, ← Nat.shiftRight_add]
    congr 1
    rcases hgE with h | h | h <;> rcases hgD with h' | h' | h' <;> omega
  have hlow : codes.map (low4 gD.bits) = fulls.map fun f => f % 64 / 4 := by
    rw [hc, List.map_map]
    apply List.map_congr_left
    intro f hf
    exact (full_code gD.bits f hgD (h.lt f hf)).1
  have hhigh : codes.map (high2 gD.bits) = fulls.map fun f => f/64 := by
    rw [hc, List.map_map]
    apply List.map_congr_left
    intro f hf
    exact (full_code gD.bits f hgD (h.lt f hf)).2.1
  refine ⟨e, bytes, d, out, ee, ed, ?_, ?_⟩
  · have h1 := hd.low
    rw [hlow, h.low] at h1
    exact (Option.some.inj h1).symm
  · intro k1 k2
    have h1 := hd.high (by rw [kD, k2])
    rw [hhigh, h.high (by rw [kE, k1])] at h1
    exact (Option.some.inj h1).symm

/-- The codes are embedded in each other: whatever the data, a decoder which gets only the upper six or seven
bits of each code has the same predictors and scales as one which gets all eight. -/
theorem embedded (rate : Int) (eightK : Bool) (l : List Byte) :
    ∃ d out d' out', decode (cfg 64000 eightK false) init l = some (d, out) ∧
      decode (cfg rate eightK false) init (l.map (cut (8 - (cfg rate eightK false).bits))) =
        some (d', out') ∧
      d'.low = d.low ∧ d'.high = d.high ∧ out'.length = out.length := by
  have hg := cfg_valid rate eightK false
  have p : (cfg rate eightK false).packed = false := rfl
  have k : (cfg rate eightK false).eightK = eightK := rfl
  generalize cfg rate eightK false = g at *
  have hg8 : (cfg 64000 eightK false).Valid := cfg_valid _ _ _
  obtain ⟨d, out, codes, ed, hd, -⟩ := decode_ready (cfg 64000 eightK false) hg8 init init_ready l
  obtain ⟨d', out', codes', ed', hd', -⟩ := decode_ready g hg init init_ready (l.map (cut (8 - g.bits)))
  have hc := hd.plain rfl
  have hc' := hd'.plain p
  have lt : ∀ o : Byte, o.toNat < 256 := fun o => o.isLt
  have b8 : (cfg 64000 eightK false).bits = 8 := rfl
  have hlow : codes'.map (low4 g.bits) = codes.map (low4 (cfg 64000 eightK false).bits) := by
    rw [hc, hc', List.map_map, List.map_map, List.map_map]
    apply List.map_congr_left
    intro o _
    simp only [Function.comp, cut, BitVec.toNat_ushiftRight]
    rw [(full_code g.bits o.toNat hg (lt o)).1, b8, ← (full_code 8 o.toNat (by omega) (lt o)).1]
    rfl
  have hhigh : codes'.map (high2 g.bits) = codes.map (high2 (cfg 64000 eightK false).bits) := by
    rw [hc, hc', List.map_map, List.map_map, List.map_map]
    apply List.map_congr_left
    intro o _
    simp only [Function.comp, cut, BitVec.toNat_ushiftRight]
    rw [(full_code g.bits o.toNat hg (lt o)).2.1, b8, ← (full_code 8 o.toNat (by omega) (lt o)).2.1]
    rfl
  refine ⟨d, out, d', out', ed, ed', ?_, ?_, ?_⟩
  · have h1 := hd'.low
    rw [hlow, hd.low] at h1
    exact (Option.some.inj h1).symm
  · cases hk : eightK with
    | false =>
      have h1 := hd'.high (by rw [k, hk])
      rw [hhigh, hd.high hk] at h1
      exact (Option.some.inj h1).symm
    | true =>
      rw [decodeLoop_high g hg (by rw [k, hk]) _ _ _ _ _ init_good init_ready.2.1 init_ready.2.2 ed',
        decodeLoop_high _ hg8 hk _ _ _ _ _ init_good init_ready.2.1 init_ready.2.2 ed]
  · rw [hd'.count, hd.count]
    have : width g = width (cfg 64000 eightK false) := by unfold width; rw [k]; rfl
    rw [this, hc, hc']; simp

/-- With packing the decoder is never more than two codes behind: what it has decoded from the bytes is
what the encoder had after all but at most two of its codes. -/
theorem packed_lockstep (rate : Int) (eightK : Bool) (l : List Int) (hl : Pcm l)
    (hw : l.length % perCode (cfg rate eightK true) = 0) :
    ∃ e bytes d out, encode (cfg rate eightK true) init l = some (e, bytes) ∧
      decode (cfg rate eightK true) init bytes = some (d, out) ∧
      out.length ≤ l.length ∧ l.length ≤ out.length + 2*perCode (cfg rate eightK true) ∧
      ∃ e' bytes', encode (cfg rate eightK true) init (l.take out.length) = some (e', bytes') ∧
        d.low = e'.low ∧ (eightK = false → d.high = e'.high) := by
  have hg := cfg_valid rate eightK true
  have k : (cfg rate eightK true).eightK = eightK := rfl
  generalize cfg rate eightK true = g at *
  have hpos : 0 < width g := by unfold width; split <;> omega
  obtain ⟨e, bytes, fulls0, ee, h0⟩ := encode_ok g hg _ l init rfl init_good hl hw
  obtain ⟨d, out, codes, ed, hd, -⟩ := decode_ready g hg init init_ready bytes
  have nil0 : bits init.nbits init.buf = [] := rfl
  have hv : 6 ≤ g.bits ∧ g.bits ≤ 8 := by rcases hg with h | h | h <;> omega
  have main : ∀ fulls, Encoded g init l.length e bytes fulls →
      codes = (fulls.map fun f => f >>> (8 - g.bits)).take codes.length ∧ codes.length ≤ fulls.length ∧
        fulls.length ≤ codes.length + 2 := by
    intro fulls h
    have hlt : ∀ c ∈ fulls.map (fun f => f >>> (8 - g.bits)), c < 2^g.bits := by
      intro c hc
      rw [List.mem_map] at hc
      obtain ⟨f, hf, rfl⟩ := hc
      exact (full_code g.bits f hg (h.lt f hf)).2.2
    cases hp : g.packed with
    | true =>
      obtain ⟨p1, -, p3⟩ := h.packed hp (by decide) (by decide)
      obtain ⟨q1, -, q3, q4⟩ := hd.packed hp
      rw [nil0, List.nil_append] at p1 q1
      rw [q1, List.append_assoc] at p1
      have h1 := codeBits_prefix g.bits (by omega) codes _ _ q4 hlt p1
      have h2 := congrArg List.length p1
      simp only [List.length_append, codeBits_length, List.length_map, bits_length] at h2
      refine ⟨h1, ?_, ?_⟩
      · exact Nat.le_of_mul_le_mul_right (by omega : codes.length*g.bits ≤ fulls.length*g.bits) (by omega)
      · apply Nat.le_of_lt_succ
        apply Nat.lt_of_mul_lt_mul_right (a := g.bits)
        rw [show (codes.length + 2).succ = codes.length + 3 by omega, Nat.add_mul]
        omega
    | false =>
      have h1 := hd.plain hp
      rw [h.plain hp, List.map_map] at h1
      have h2 : codes = fulls.map fun f => f >>> (8 - g.bits) := by
        rw [h1]
        apply List.map_congr_left
        intro f hf
        simp only [Function.comp, BitVec.toNat_ofNat]
        exact Nat.mod_eq_of_lt (Nat.lt_of_le_of_lt (Nat.shiftRight_le _ _) (h.lt f hf))
      refine ⟨?_, ?_, ?_⟩
      · conv => lhs; rw [h2]
        rw [List.take_of_length_le (by rw [h2])]
      · rw [h2]; simp
      · rw [h2]; simp
  obtain ⟨-, m2, m3⟩ := main fulls0 h0
  have hlen : out.length ≤ l.length := by
    rw [hd.count, h0.count]; exact Nat.mul_le_mul_right _ m2
  have hmod : (l.take out.length).length % width g = 0 := by
    rw [List.length_take, Nat.min_eq_left hlen, hd.count]; exact Nat.mul_mod_left _ _
  obtain ⟨e', bytes', fulls', ee', h'⟩ := encode_ok g hg _ (l.take out.length) init rfl init_good
    (fun a ha => hl a (List.mem_of_mem_take ha)) hmod
  obtain ⟨e2, bytes2, fulls2, ee2, h2⟩ := encode_ok g hg _ (l.drop out.length) e' rfl h'.good
    (fun a ha => hl a (List.mem_of_mem_drop ha))
    (by rw [List.length_drop, hd.count, h0.count, ← Nat.sub_mul]; exact Nat.mul_mod_left _ _)
  have hj := encode_append g (l.drop out.length) _ (l.take out.length) init rfl hmod
  rw [List.take_append_drop, ee, ee', Option.bind_some] at hj
  simp only at hj
  rw [ee2, Option.map_some, Option.some.injEq, Prod.mk.injEq] at hj
  have hcat := encoded_append g init e' e2 _ _ bytes' bytes2 fulls' fulls2 h' h2
  simp only at hj
  rw [← hj.1, ← hj.2, ← List.length_append, List.take_append_drop] at hcat
  obtain ⟨n1, n2, -⟩ := main _ hcat
  have hf : fulls'.length = codes.length := by
    have := h'.count
    rw [List.length_take, Nat.min_eq_left hlen, hd.count] at this
    exact (Nat.eq_of_mul_eq_mul_right hpos this).symm
  have hcodes : codes = fulls'.map fun f => f >>> (8 - g.bits) := by
    rw [n1, List.map_append, List.take_left' (by rw [List.length_map, hf])]
  refine ⟨e, bytes, d, out, ee, ed, hlen, ?_, e', bytes', ee', ?_, ?_⟩
  · rw [← width_eq, hd.count, h0.count, ← Nat.add_mul]; exact Nat.mul_le_mul_right _ m3
  · have h1 := hd.low
    rw [hcodes, List.map_map] at h1
    have : (fulls'.map (low4 g.bits ∘ fun f => f >>> (8 - g.bits))) = fulls'.map fun f => f % 64 / 4 :=
      List.map_congr_left fun f hf => (full_code g.bits f hg (h'.lt f hf)).1
    rw [this, h'.low] at h1
    exact (Option.some.inj h1).symm
  · intro hk
    have h1 := hd.high (by rw [k, hk])
    rw [hcodes, List.map_map] at h1
    have : (fulls'.map (high2 g.bits ∘ fun f => f >>> (8 - g.bits))) = fulls'.map fun f => f/64 :=
      List.map_congr_left fun f hf => (full_code g.bits f hg (h'.lt f hf)).2.1
    rw [this, h'.high (by rw [k, hk])] at h1
    exact (Option.some.inj h1).symm

/-- Speech-like samples; the decoder of the codes with two bits cut off has the encoder's bands, which
are no longer those of the beginning. -/
def exPcm : List Int := [0, 1200, 2400, 3000, 2000, -500, -3000, -4000, -1000, 2000, 3500, 1000, 0, -2000, 50, 60]

example : (encode (cfg 64000 false false) init exPcm).bind (fun e =>
      (decode (cfg 48000 false false) init (e.2.map (cut 2))).map fun d =>
        (decide (d.1.low = e.1.low), decide (d.1.high = e.1.high), decide (d.1.low.s = 0), d.2.length)) =
      some (true, true, false, 16) ∧
    (encode (cfg 48000 false true) init exPcm).bind (fun e =>
      (decode (cfg 48000 false true) init e.2).map fun d => (e.2.length, d.2.length)) = some (6, 14) := by
  decide +kernel

end G722
