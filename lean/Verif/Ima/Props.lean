import Verif.Ima.Vdvi

/-!
# The IMA, DVI and VDVI ADPCM codecs (src/ima_adpcm.c)
-/

namespace Ima
open Spec

theorem valid_init (v : Variant) (c : Int) : Valid (init v c) := by unfold Valid init; simp

/-! ## Helper lemmas -/

theorem encodeNibbles_append (lf : Bool) (a b : List Int) : ∀ (s : State), encodeNibbles lf s (a ++ b) = (do
    let (s', e) ← encodeNibbles lf s a
    let (s'', e') ← encodeNibbles lf s' b
    return (s'', e ++ e')) := by
  induction a with
  | nil => intro s; simp only [List.nil_append, encodeNibbles, Option.bind_eq_bind, Option.bind_some]; cases encodeNibbles lf s b <;> simp
  | cons x a ih =>
    intro s
    cases he : encode s x with
    | none => simp [encodeNibbles, he]
    | some v =>
      obtain ⟨s1, c⟩ := v
      by_cases hb : s1.bits = 2147483647
      · simp [encodeNibbles, he, hb]
      · rw [List.cons_append, encodeNibbles_cons lf s s1 x _ c he hb, encodeNibbles_cons lf s s1 x _ c he hb, ih]
        simp only [Option.bind_eq_bind, Option.pure_def]
        cases encodeNibbles lf { s1 with imaByte := (fill lf s1.imaByte c).setWidth 16, bits := s1.bits + 1 } a with
        | none => simp
        | some v =>
          simp only [Option.bind_some]
          cases encodeNibbles lf v.1 b with
          | none => simp
          | some w => simp only [Option.bind_some]; split <;> simp

theorem decodeNibbles_append (lf : Bool) (a b : List Byte) : ∀ (s : State), decodeNibbles lf s (a ++ b) = (do
    let (s', e) ← decodeNibbles lf s a
    let (s'', e') ← decodeNibbles lf s' b
    return (s'', e ++ e')) := by
  induction a with
  | nil => intro s; simp only [List.nil_append, decodeNibbles, Option.bind_eq_bind, Option.bind_some]; cases decodeNibbles lf s b <;> simp
  | cons x a ih =>
    intro s
    simp only [List.cons_append, decodeNibbles, Option.bind_eq_bind]
    cases decode s (if lf = true then x.toNat % 16 else x.toNat / 16) with
    | none => simp
    | some v =>
      simp only [Option.bind_some]
      cases decode v.1 (if lf = true then x.toNat / 16 else x.toNat % 16) with
      | none => simp
      | some w =>
        simp only [Option.bind_some]
        rw [ih]
        simp only [Option.bind_eq_bind, Option.pure_def]
        cases decodeNibbles lf w.1 a with
        | none => simp
        | some u =>
          simp only [Option.bind_some]
          cases decodeNibbles lf u.1 b <;> simp

/-- The order of the nibbles in a variant. -/
def lowFirst : Variant → Bool
  | .ima4 => true
  | _ => false

theorem encodeNibbles_config (lf : Bool) (xs : List Int) : ∀ (s s' : State) (bs : List Byte), encodeNibbles lf s xs = some (s', bs) →
    s'.variant = s.variant ∧ s'.chunkSize = s.chunkSize := by
  induction xs with
  | nil => intro s s' bs h; simp only [encodeNibbles, Option.some.injEq, Prod.mk.injEq] at h; obtain ⟨rfl, _⟩ := h; exact ⟨rfl, rfl⟩
  | cons x xs ih =>
    intro s s' bs h
    cases he : encode s x with
    | none => simp [encodeNibbles, he] at h
    | some v =>
      obtain ⟨s1, c⟩ := v
      have h1 : s1.variant = s.variant ∧ s1.chunkSize = s.chunkSize := by
        unfold encode at he
        simp only [Option.bind_eq_bind, Option.bind_eq_some_iff] at he
        obtain ⟨ss, h1, l, h2, i, h3, h4⟩ := he
        simp only [Option.pure_def, Option.some.injEq, Prod.mk.injEq] at h4
        obtain ⟨rfl, rfl⟩ := h4
        exact ⟨rfl, rfl⟩
      by_cases hb : s1.bits = 2147483647
      · simp [encodeNibbles, he, hb] at h
      · rw [encodeNibbles_cons lf s s1 x _ c he hb] at h
        simp only [Option.bind_eq_bind, Option.bind_eq_some_iff, Option.pure_def, Option.some.injEq, Prod.mk.injEq] at h
        obtain ⟨⟨s2, bs2⟩, h2, rfl, _⟩ := h
        have := ih _ _ _ h2
        exact ⟨this.1.trans h1.1, this.2.trans h1.2⟩

theorem imaEncode_plain (s : State) (hv : s.variant = .ima4 ∨ s.variant = .dvi4) (hc : s.chunkSize ≠ 0) (xs : List Int) :
    imaEncode s xs = encodeNibbles (lowFirst s.variant) s xs := by
  unfold imaEncode
  rcases hv with h | h <;> simp [h, hc, lowFirst]

theorem imaDecode_plain (s : State) (hv : s.variant = .ima4 ∨ s.variant = .dvi4) (hc : s.chunkSize ≠ 0) (bs : List Byte) :
    imaDecode s bs = decodeNibbles (lowFirst s.variant) s bs := by
  unfold imaDecode
  rcases hv with h | h <;> simp [h, hc, lowFirst]

theorem encodeCalls_plain (calls : List (List Int)) : ∀ (s : State), (s.variant = .ima4 ∨ s.variant = .dvi4) → s.chunkSize ≠ 0 →
    encodeCalls s calls = encodeNibbles (lowFirst s.variant) s calls.flatten := by
  induction calls with
  | nil => intro s _ _; rfl
  | cons x calls ih =>
    intro s hv hc
    rw [List.flatten_cons, encodeNibbles_append]
    simp only [encodeCalls, imaEncode_plain s hv hc]
    cases h : encodeNibbles (lowFirst s.variant) s x with
    | none => rfl
    | some v =>
      obtain ⟨s1, bs⟩ := v
      have := encodeNibbles_config _ _ _ _ _ h
      simp only [Option.bind_eq_bind, Option.bind_some]
      rw [ih s1 (by rw [this.1]; exact hv) (by rw [this.2]; exact hc), this.1]

theorem decodeCalls_plain (calls : List (List Byte)) : ∀ (s : State), (s.variant = .ima4 ∨ s.variant = .dvi4) → s.chunkSize ≠ 0 → Valid s →
    decodeCalls s calls = decodeNibbles (lowFirst s.variant) s calls.flatten := by
  induction calls with
  | nil => intro s _ _ _; rfl
  | cons x calls ih =>
    intro s hv hc hval
    rw [List.flatten_cons, decodeNibbles_append]
    simp only [decodeCalls, imaDecode_plain s hv hc]
    obtain ⟨l, i, xs, h, hval', _⟩ := decodeNibbles_total (lowFirst s.variant) x s hval
    simp only [h, Option.bind_eq_bind, Option.bind_some]
    rw [ih { s with last := l, stepIndex := i } hv hc hval']

theorem estimates_take (xs : List Int) (n : Nat) (s s' : State) (es : List (Nat × Int)) (hv : Valid s) (hx : ∀ x ∈ xs, Sample x)
    (h : estimates s xs = some (s', es)) : ∃ s'', estimates s (xs.take n) = some (s'', es.take n) := by
  have hx1 : ∀ x ∈ xs.take n, Sample x := fun x hx' => hx x (List.mem_of_mem_take hx')
  have hx2 : ∀ x ∈ xs.drop n, Sample x := fun x hx' => hx x (List.mem_of_mem_drop hx')
  obtain ⟨l, i, e1, h1, hv1, hlen1, _⟩ := estimates_ok (xs.take n) s hv hx1
  obtain ⟨l2, i2, e2, h2, _, hlen2, _⟩ := estimates_ok (xs.drop n) _ hv1 hx2
  have := estimates_append (xs.take n) (xs.drop n) s
  rw [List.take_append_drop, h, h1] at this
  simp only [Option.bind_eq_bind, Option.bind_some, h2, Option.pure_def, Option.some.injEq, Prod.mk.injEq] at this
  refine ⟨{ s with last := l, stepIndex := i }, ?_⟩
  rw [this.2]
  by_cases hn : n ≤ xs.length
  · rw [List.take_append_of_le_length (by rw [hlen1, List.length_take]; omega), List.take_of_length_le (l := e1) (by rw [hlen1, List.length_take]; omega)]
    exact h1
  · have : e2 = [] := by
      rw [← List.length_eq_zero_iff, hlen2, List.length_drop]; omega
    subst this
    rw [List.append_nil, List.take_of_length_le (l := e1) (by rw [hlen1, List.length_take]; omega)]
    exact h1

theorem pack_length (lf : Bool) (cs : List Nat) : (pack lf cs).length = cs.length / 2 := by
  match cs with
  | [] => rfl
  | [_] => simp [pack]
  | a :: b :: cs =>
    simp only [pack, List.length_cons, pack_length lf cs]; omega

theorem int16_octets (x : Int) (h : Sample x) : int16 (octets x).1 (octets x).2 = x := by
  unfold Sample at h
  unfold int16 octets
  simp only
  have e : (BitVec.ofInt 8 (x / 256) ++ BitVec.ofInt 8 x).toNat = 256 * (BitVec.ofInt 8 (x / 256)).toNat + (BitVec.ofInt 8 x).toNat := by
    rw [BitVec.toNat_append, Nat.shiftLeft_eq, Nat.mul_comm]
    exact (Nat.two_pow_add_eq_or_of_lt (BitVec.isLt _) _).symm
  have h1 : ((BitVec.ofInt 8 (x / 256)).toNat : Int) = x / 256 % 256 := by rw [BitVec.toNat_ofInt]; omega
  have h2 : ((BitVec.ofInt 8 x).toNat : Int) = x % 256 := by rw [BitVec.toNat_ofInt]; omega
  rw [BitVec.toInt_eq_toNat_cond, e]
  simp only [Nat.reduceAdd, Nat.reducePow]
  split <;> omega

theorem toNat_index (s : State) (hv : Valid s) : ((BitVec.ofInt 8 s.stepIndex).toNat : Int) = s.stepIndex := by
  unfold Valid at hv
  rw [BitVec.toNat_ofInt]; omega

theorem ima4Chunks_frame (w : BitVec 16) (b : Int) (calls : List (List Int)) : ∀ (s : State) (ys : List (List Int)), ima4Chunks s calls = some ys →
    ima4Chunks { s with imaByte := w, bits := b } calls = some ys := by
  induction calls with
  | nil => intro s ys h; exact h
  | cons c calls ih =>
    intro s ys h
    cases c with
    | nil => simp [ima4Chunks] at h
    | cons x xs =>
      simp only [ima4Chunks, Option.bind_eq_bind, Option.bind_eq_some_iff, Option.pure_def] at h
      obtain ⟨⟨s1, es⟩, h1, ys1, h2, h3⟩ := h
      have := estimates_frame w b xs _ _ _ h1
      simp only [ima4Chunks, Option.bind_eq_bind]
      rw [this]
      simp only [Option.bind_some, Option.pure_def]
      rw [ih _ _ h2]
      exact h3

theorem dvi4Chunks_frame (w : BitVec 16) (b : Int) (calls : List (List Int)) : ∀ (s : State) (ys : List (List Int)), dvi4Chunks s calls = some ys →
    dvi4Chunks { s with imaByte := w, bits := b } calls = some ys := by
  induction calls with
  | nil => intro s ys h; exact h
  | cons xs calls ih =>
    intro s ys h
    simp only [dvi4Chunks, Option.bind_eq_bind, Option.bind_eq_some_iff, Option.pure_def] at h
    obtain ⟨⟨s1, es⟩, h1, ys1, h2, h3⟩ := h
    simp only [dvi4Chunks, estimates_frame w b xs _ _ _ h1, ih _ _ h2, Option.bind_eq_bind, Option.bind_some, Option.pure_def]
    exact h3

/-- What one run of the packed encoder and decoder gives. -/
theorem nibbles_round_trip (lf : Bool) (xs : List Int) (s t : State) (hv : Valid s) (hx : ∀ x ∈ xs, Sample x) (hw : s.imaByte.toNat < 256)
    (hb : s.bits % 2 = 0) (hlen : s.bits + xs.length ≤ 2147483647) (hl : t.last = s.last) (hi : t.stepIndex = s.stepIndex) :
    ∃ l i es w bs t', estimates s xs = some ({ s with last := l, stepIndex := i }, es) ∧ Valid { s with last := l, stepIndex := i } ∧
      encodeNibbles lf s xs = some ({ s with last := l, stepIndex := i, imaByte := w, bits := s.bits + xs.length }, bs) ∧
      w.toNat < 256 ∧ bs.length = xs.length / 2 ∧ es.length = xs.length ∧ (∀ e ∈ es, Sample e.2) ∧
      decodeNibbles lf t bs = some (t', (es.map (·.2)).take (2 * (xs.length / 2))) ∧
      (xs.length % 2 = 0 → t' = { t with last := l, stepIndex := i }) ∧ (∃ l i, t' = { t with last := l, stepIndex := i }) := by
  obtain ⟨s', es, w, hes, hen, hw'⟩ := encodeNibbles_pack lf xs s hv hx hw hb hlen
  obtain ⟨l, i, es2, hes2, hv2, hlen2, hall2, hrun⟩ := estimates_ok xs s hv hx
  rw [hes] at hes2
  simp only [Option.some.injEq, Prod.mk.injEq] at hes2
  obtain ⟨rfl, rfl⟩ := hes2
  obtain ⟨s3, h3⟩ := estimates_take xs (2 * (xs.length / 2)) s _ _ hv hx hes
  obtain ⟨l4, i4, es4, h4, _, _, _, hrun4⟩ := estimates_ok (xs.take (2 * (xs.length / 2))) s hv (fun x h => hx x (List.mem_of_mem_take h))
  rw [h3] at h4
  simp only [Option.some.injEq, Prod.mk.injEq] at h4
  obtain ⟨rfl, rfl⟩ := h4
  have hd := decode_pack lf (es.map (·.1)) (by
    intro c hc
    obtain ⟨e, he, rfl⟩ := List.mem_map.1 hc
    exact (hall2 e he).1) t
  rw [List.length_map, hlen2, ← List.map_take, hrun4 t hl hi] at hd
  refine ⟨l, i, es, w, _, { t with last := l4, stepIndex := i4 }, hes, hv2, hen, hw', by rw [pack_length, List.length_map, hlen2], hlen2, fun e he => (hall2 e he).2, ?_, ?_, ⟨_, _, rfl⟩⟩
  · rw [hd, List.map_take]
  · intro h0
    have : xs.take (2 * (xs.length / 2)) = xs := List.take_of_length_le (by omega)
    rw [this] at h3
    rw [hes] at h3
    simp only [Option.some.injEq, Prod.mk.injEq, State.mk.injEq, true_and, and_true] at h3
    rw [h3.1.1, h3.1.2]

/-! ## The quantiser -/

/-- The prediction after a sample is within about an eighth of a step of the sample, provided the
sample was within two steps of the prediction before it. The step is at least 7, so the error is
never more than half a step. -/
theorem ima_quantisation (s : State) (x ss : Int) (hi0 : 0 ≤ s.stepIndex) (hi1 : s.stepIndex ≤ 88) (hl : Sample s.last) (hx : Sample x)
    (hss : stepSize[s.stepIndex.toNat]? = some ss) (hclose : s.last - 2 * ss < x ∧ x < s.last + 2 * ss) :
    ∃ s' c, encode s x = some (s', c) ∧ c < 16 ∧ Sample s'.last ∧ 8 * (s'.last - x) ≤ ss + 20 ∧ -(ss + 20) ≤ 8 * (s'.last - x) := by
  have hv : Valid s := ⟨hi0, hi1, hl⟩
  have hss' : at? stepSize s.stepIndex = some ss := by unfold at?; rw [if_pos hi0]; exact hss
  obtain ⟨ss2, hss2, h7, h8⟩ := step_at hi0 hi1
  rw [hss'] at hss2
  cases hss2
  obtain ⟨c, j, hc, hj, h0, h1, he, hb⟩ := encode_eq s x ss hss' hv h7 h8
  have hb := hb (by split <;> omega)
  refine ⟨_, _, he, hc, clamp_range _, ?_⟩
  unfold Sample at hx
  simp only [Saturated.clamp]
  repeat' split
  all_goals omega

example : (encode { init .ima4 1 with stepIndex := 40, last := 1000 } 1500).any (fun r => decide (8 * (r.1.last - 1500) ≤ 337 + 20 ∧ -(337 + 20) ≤ 8 * (r.1.last - 1500))) = true := by
  decide +kernel

/-! ## C19: the decoder stays in step -/

/-- IMA4 and DVI4 without headers: however the samples are divided into calls of the encoder, and
the octets into calls of the decoder, the decoder gives exactly the encoder's own predictions. A
code which has no partner is kept back. -/
theorem ima_lockstep (v : Variant) (hv : v = .ima4 ∨ v = .dvi4) (chunkSize : Int) (hc : chunkSize ≠ 0) (calls : List (List Int))
    (hx : ∀ x ∈ calls.flatten, Sample x) (hlen : calls.flatten.length < 2 ^ 31) :
    ∃ s' o sf es, encodeCalls (init v chunkSize) calls = some (s', o) ∧ o.length = calls.flatten.length / 2 ∧
      estimates (init v chunkSize) calls.flatten = some (sf, es) ∧ es.length = calls.flatten.length ∧ (∀ e ∈ es, Sample e.2) ∧
      ∀ blocks : List (List Byte), blocks.flatten = o → ∃ t',
        decodeCalls (init v chunkSize) blocks = some (t', (es.map (·.2)).take (2 * (calls.flatten.length / 2))) ∧
        0 ≤ t'.stepIndex ∧ t'.stepIndex ≤ 88 := by
  have hval := valid_init v chunkSize
  obtain ⟨l, i, es, w, bs, t', hes, hval', hen, hw, hbl, hel, hall, hde, _, l2, i2, rfl⟩ := nibbles_round_trip (lowFirst v) calls.flatten (init v chunkSize) (init v chunkSize)
    hval hx (by simp [init]) rfl (by simp only [init]; omega) rfl rfl
  refine ⟨{ init v chunkSize with last := l, stepIndex := i, imaByte := w, bits := (init v chunkSize).bits + (calls.flatten.length : Int) }, bs, _, es, ?_, hbl, hes, hel, hall, ?_⟩
  · rw [encodeCalls_plain calls (init v chunkSize) hv hc]; exact hen
  · intro blocks hb
    refine ⟨{ init v chunkSize with last := l2, stepIndex := i2 }, ?_, ?_⟩
    · rw [decodeCalls_plain blocks (init v chunkSize) hv hc hval, hb]; exact hde
    · obtain ⟨l3, i3, xs, h2, hv2, _⟩ := decodeNibbles_total (lowFirst v) bs (init v chunkSize) hval
      rw [h2] at hde
      simp only [Option.some.injEq, Prod.mk.injEq, State.mk.injEq, true_and, and_true] at hde
      simp only [← hde.1.2]
      exact ⟨hv2.1, hv2.2.1⟩

example : ((encodeCalls (init .ima4 160) [[100, -2000, 3000], [4000], [5000, 123, -32768]]).bind fun r =>
    (decodeCalls (init .ima4 160) (r.2.map fun b => [b]))).any (fun r => r.2.length == 6) = true := by decide +kernel

/-- The count of samples in the encoder's state is an `int`, and is never wound back: after 2^31 - 1
samples the next one overflows it. -/
theorem ima_encode_overflow (v : Variant) (hv : v = .ima4 ∨ v = .dvi4) (chunkSize : Int) (hc : chunkSize ≠ 0) (calls : List (List Int))
    (hx : ∀ x ∈ calls.flatten, Sample x) : encodeCalls (init v chunkSize) calls = none ↔ 2 ^ 31 ≤ calls.flatten.length := by
  have key : ∀ (lf : Bool) (xs : List Int) (s : State), Valid s → (∀ x ∈ xs, Sample x) → s.bits ≤ 2147483647 → 2147483647 < s.bits + xs.length →
      encodeNibbles lf s xs = none := by
    intro lf xs
    induction xs with
    | nil => intro s _ _ h1 h2; simp at h2; omega
    | cons x xs ih =>
      intro s hv hx h1 h2
      obtain ⟨l, i, c, he, _, hv', _⟩ := lockstep s s x hv (hx x (by simp)) rfl rfl
      by_cases hb : s.bits = 2147483647
      · simp [encodeNibbles, he, hb]
      · rw [encodeNibbles_cons lf s _ x xs c he hb]
        simp only [List.length_cons] at h2
        simp only
        rw [ih { s with last := l, stepIndex := i, imaByte := (fill lf s.imaByte c).setWidth 16, bits := s.bits + 1 } hv' (fun y hy => hx y (by simp [hy]))
          (by simp only; omega) (by push_cast at h2; simp only; omega)]
        rfl
  constructor
  · intro h
    have := ima_lockstep v hv chunkSize hc calls hx
    by_cases h' : calls.flatten.length < 2 ^ 31
    · obtain ⟨s', o, _, _, he, _⟩ := this h'
      rw [he] at h; simp at h
    · omega
  · intro h
    rw [encodeCalls_plain calls (init v chunkSize) hv hc]
    exact key _ _ _ (valid_init v chunkSize) hx (by simp [init]) (by simp only [init]; omega)

/-- IMA4 with a header in each chunk: each chunk is decoded to its own first sample and then the
encoder's own predictions. -/
theorem ima4_chunk_lockstep (calls : List (List Int)) (hne : ∀ c ∈ calls, c ≠ []) (hx : ∀ c ∈ calls, ∀ x ∈ c, Sample x)
    (hlen : ∀ c ∈ calls, c.length < 2 ^ 31) :
    ∃ ys, blocks (init .ima4 0) (init .ima4 0) calls = some ys ∧ ima4Chunks (init .ima4 0) calls = some ys := by
  have key : ∀ (calls : List (List Int)) (s t : State), Valid s → s.variant = .ima4 → s.chunkSize = 0 → t.variant = .ima4 → t.chunkSize = 0 →
      s.imaByte.toNat < 256 → (∀ c ∈ calls, c ≠ []) → (∀ c ∈ calls, ∀ x ∈ c, Sample x) → (∀ c ∈ calls, c.length < 2 ^ 31) →
      ∃ ys, blocks s t calls = some ys ∧ ima4Chunks s calls = some ys := by
    intro calls
    induction calls with
    | nil => intro s t _ _ _ _ _ _ _ _ _; exact ⟨[], rfl, rfl⟩
    | cons c calls ih =>
      intro s t hv hsv hsc htv htc hw hne hx hlen
      match c, hne c (by simp) with
      | [], h => exact absurd rfl h
      | x :: xs, _ =>
        have hsx : Sample x := hx (x :: xs) (by simp) x (by simp)
        have hlx := hlen (x :: xs) (by simp)
        simp only [List.length_cons] at hlx
        have hv1 : Valid { s with last := x, bits := 0 } := ⟨hv.1, hv.2.1, hsx⟩
        obtain ⟨l, i, es, w, bs, t', hes, hval', hen, hw', hbl, hel, hall, hde, _, l2, i2, rfl⟩ := nibbles_round_trip true xs { s with last := x, bits := 0 }
          { t with stepIndex := s.stepIndex, last := x } hv1 (fun y hy => hx (x :: xs) (by simp) y (by simp [hy])) hw rfl (by simp only; omega) rfl rfl
        obtain ⟨ys, h1, h2⟩ := ih { s with last := l, stepIndex := i, imaByte := w, bits := 0 + (xs.length : Int) } { t with last := l2, stepIndex := i2 } hval'
          hsv hsc htv htc hw' (fun c h => hne c (by simp [h])) (fun c h => hx c (by simp [h])) (fun c h => hlen c (by simp [h]))
        refine ⟨(x :: (es.map (·.2)).take (2 * (xs.length / 2))) :: ys, ?_, ?_⟩
        · have he : imaEncode s (x :: xs) = some ({ s with last := l, stepIndex := i, imaByte := w, bits := 0 + (xs.length : Int) },
              (octets x).2 :: (octets x).1 :: BitVec.ofInt 8 s.stepIndex :: 0 :: bs) := by
            unfold imaEncode
            simp only [hsv, hsc, if_true, List.getElem?_cons_zero, Option.bind_eq_bind, Option.bind_some, List.drop_succ_cons, List.drop_zero, Option.pure_def]
            simp only [hsv, hsc] at hen
            rw [hen]; rfl
          have hd : imaDecode t ((octets x).2 :: (octets x).1 :: BitVec.ofInt 8 s.stepIndex :: 0 :: bs) =
              some ({ t with last := l2, stepIndex := i2 }, x :: (es.map (·.2)).take (2 * (xs.length / 2))) := by
            unfold imaDecode
            simp only [htv, htc, if_true, List.getElem?_cons_zero, List.getElem?_cons_succ, Option.bind_eq_bind, Option.bind_some, List.drop_succ_cons, List.drop_zero, Option.pure_def]
            simp only [htv, htc] at hde
            rw [int16_octets x hsx, toNat_index s hv, hde]; rfl
          simp only [blocks, he, hd, h1, Option.bind_eq_bind, Option.bind_some, Option.pure_def]
        · have hes' := estimates_frame s.imaByte s.bits xs _ _ _ hes
          have h2' := ima4Chunks_frame s.imaByte s.bits calls _ _ h2
          simp only [ima4Chunks, Option.bind_eq_bind]
          rw [hes']
          simp only [Option.bind_some, Option.pure_def]
          simp only at h2'
          rw [h2']
          rfl
  exact key calls _ _ (valid_init _ _) rfl rfl rfl rfl (by decide) hne hx hlen

example : (blocks (init .ima4 0) (init .ima4 0) [[100, -2000, 3000], [4000], [5000, 123, -32768]]).any (fun r => r.map List.length == [3, 1, 3]) = true := by
  decide +kernel

/-- DVI4 with a header in each chunk, for chunks of an even number of samples. -/
theorem dvi4_chunk_lockstep_partial (calls : List (List Int)) (heven : ∀ c ∈ calls, c.length % 2 = 0) (hx : ∀ c ∈ calls, ∀ x ∈ c, Sample x)
    (hlen : calls.flatten.length < 2 ^ 31) :
    ∃ ys, blocks (init .dvi4 0) (init .dvi4 0) calls = some ys ∧ dvi4Chunks (init .dvi4 0) calls = some ys := by
  have key : ∀ (calls : List (List Int)) (s t : State), Valid s → s.variant = .dvi4 → s.chunkSize = 0 → t.variant = .dvi4 → t.chunkSize = 0 →
      s.imaByte.toNat < 256 → s.bits % 2 = 0 → (∀ c ∈ calls, c.length % 2 = 0) → (∀ c ∈ calls, ∀ x ∈ c, Sample x) →
      s.bits + calls.flatten.length ≤ 2147483647 →
      ∃ ys, blocks s t calls = some ys ∧ dvi4Chunks s calls = some ys := by
    intro calls
    induction calls with
    | nil => intro s t _ _ _ _ _ _ _ _ _ _; exact ⟨[], rfl, rfl⟩
    | cons xs calls ih =>
      intro s t hv hsv hsc htv htc hw hbe heven hx hlen
      rw [List.flatten_cons, List.length_append] at hlen
      push_cast at hlen
      have hex := heven xs (by simp)
      obtain ⟨l, i, es, w, bs, t', hes, hval', hen, hw', hbl, hel, hall, hde, _, l2, i2, rfl⟩ := nibbles_round_trip false xs s
        { t with stepIndex := s.stepIndex, last := s.last } hv (hx xs (by simp)) hw hbe (by omega) rfl rfl
      obtain ⟨ys, h1, h2⟩ := ih { s with last := l, stepIndex := i, imaByte := w, bits := s.bits + (xs.length : Int) } { t with last := l2, stepIndex := i2 } hval'
        hsv hsc htv htc hw' (by simp only; omega) (fun c h => heven c (by simp [h])) (fun c h => hx c (by simp [h])) (by simp only; omega)
      rw [List.take_of_length_le (by rw [List.length_map]; omega)] at hde
      refine ⟨es.map (·.2) :: ys, ?_, ?_⟩
      · have he : imaEncode s xs = some ({ s with last := l, stepIndex := i, imaByte := w, bits := s.bits + (xs.length : Int) },
            (octets s.last).1 :: (octets s.last).2 :: BitVec.ofInt 8 s.stepIndex :: 0 :: bs) := by
          unfold imaEncode
          simp only [hsv, hsc, if_true, Option.bind_eq_bind, Option.pure_def]
          rw [hen]; simp only [hsv, hsc, Option.bind_some]
        have hd : imaDecode t ((octets s.last).1 :: (octets s.last).2 :: BitVec.ofInt 8 s.stepIndex :: 0 :: bs) =
            some ({ t with last := l2, stepIndex := i2 }, es.map (·.2)) := by
          unfold imaDecode
          simp only [htv, htc, if_true, List.getElem?_cons_zero, List.getElem?_cons_succ, Option.bind_eq_bind, Option.bind_some, List.drop_succ_cons, List.drop_zero]
          simp only [htv, htc] at hde
          rw [int16_octets s.last hv.2.2, toNat_index s hv, hde]
        simp only [blocks, he, hd, h1, Option.bind_eq_bind, Option.bind_some, Option.pure_def]
      · have h2' := dvi4Chunks_frame s.imaByte s.bits calls _ _ h2
        simp only [dvi4Chunks, hes, Option.bind_eq_bind, Option.bind_some, Option.pure_def]
        rw [h2']
        rfl
  exact key calls _ _ (valid_init _ _) rfl rfl rfl rfl (by decide) rfl heven hx (by simp only [init]; omega)

example : (blocks (init .dvi4 0) (init .dvi4 0) [[100, -2000], [4000, 0], [], [5000, 123, -32768, 7]]).any (fun r => r.map List.length == [2, 2, 0, 4]) = true := by
  decide +kernel

/-- With a chunk of an odd number of samples the code left over is sent in the next chunk, where the
header has already accounted for it: the link goes out of step. -/
theorem dvi4_odd_chunk_breaks : ∃ calls : List (List Int), (∀ c ∈ calls, ∀ x ∈ c, Sample x) ∧
    ∃ ys zs, blocks (init .dvi4 0) (init .dvi4 0) calls = some ys ∧ dvi4Chunks (init .dvi4 0) calls = some zs ∧
      ys.map List.length = [0, 2, 2] ∧ zs.map List.length = [1, 2, 1] ∧ ys.flatten ≠ zs.flatten := by
  have hs : ∀ c ∈ ([[30000], [30000, 20000], [-5000]] : List (List Int)), ∀ x ∈ c, -32768 ≤ x ∧ x ≤ 32767 := by decide
  refine ⟨[[30000], [30000, 20000], [-5000]], hs, [[], [41, 104], [240, -53]], [[11], [41, 104], [-32]], ?_⟩
  decide +kernel

/-- VDVI, with or without a header, whose calls are all self contained. -/
theorem vdvi_lockstep (chunkSize : Int) (calls : List (List Int)) (hx : ∀ c ∈ calls, ∀ x ∈ c, Sample x) :
    ∃ ys, blocks (init .vdvi chunkSize) (init .vdvi chunkSize) calls = some ys ∧ dvi4Chunks (init .vdvi chunkSize) calls = some ys := by
  have key : ∀ (calls : List (List Int)) (s t : State), Valid s → s.variant = .vdvi → s.chunkSize = chunkSize → t.variant = .vdvi → t.chunkSize = chunkSize →
      t.last = s.last → t.stepIndex = s.stepIndex → (∀ c ∈ calls, ∀ x ∈ c, Sample x) →
      ∃ ys, blocks s t calls = some ys ∧ dvi4Chunks s calls = some ys := by
    intro calls
    induction calls with
    | nil => intro s t _ _ _ _ _ _ _ _; exact ⟨[], rfl, rfl⟩
    | cons xs calls ih =>
      intro s t hv hsv hsc htv htc htl hti hx
      have hv0 : Valid { s with bits := 0 } := hv
      obtain ⟨s', es, w, b, bs, k, hes, hen, hk, hbits⟩ := encodeVdvi_bits xs { s with bits := 0 } 0 hv0 (hx xs (by simp)) rfl (by omega)
      obtain ⟨l, i, es2, hes2, hv2, hel, hall, hrun⟩ := estimates_ok xs { s with bits := 0 } hv0 (hx xs (by simp))
      rw [hes] at hes2
      simp only [Option.some.injEq, Prod.mk.injEq] at hes2
      obtain ⟨rfl, rfl⟩ := hes2
      have hrun' := hrun { t with bits := 0 } htl hti
      have hlen := congrArg List.length hbits
      have hbl : ∀ l : List Byte, (l.flatMap octetBits).length = 8 * l.length := by
        intro l; induction l with
        | nil => rfl
        | cons a l ih => rw [List.flatMap_cons, List.length_append, octetBits_length, ih, List.length_cons]; omega
      have hcl : ∀ l : List (Nat × Int), (∀ e ∈ l, e.1 < 16) → 2 * l.length ≤ (l.flatMap (fun e => codeWord e.1)).length := by
        intro l; induction l with
        | nil => intro _; simp
        | cons a l ih =>
          intro h
          have := codeWord_ne a.1 (h a (by simp))
          have := ih (fun e he => h e (by simp [he]))
          rw [List.flatMap_cons, List.length_append, List.length_cons]; omega
      have hcl := hcl es (fun e he => (hall e he).1)
      simp only [low, List.range_zero, List.map_nil, List.nil_append, List.length_append, List.length_replicate] at hlen
      rw [hbl] at hlen
      have hdec : ∀ fuel, es.length < fuel → ∃ b', vdviLoop fuel { t with last := s.last, stepIndex := s.stepIndex, bits := 0 } 0 bs =
          some ({ t with last := l, stepIndex := i, bits := b' }, es.map (·.2)) := by
        intro fuel hf
        rw [← htl, ← hti]
        obtain ⟨b', hb'⟩ := vdviLoop_bits (es.map (·.1)) fuel { t with bits := 0 } _ 0 [] bs k (es.map (·.2)) (by intro i hi; simp [BitVec.getMsbD]) rfl (by simp)
          (by rw [List.nil_append, hbits, low]; simp [List.flatMap_map]) hk (by
            intro c hc
            obtain ⟨e, he, rfl⟩ := List.mem_map.1 hc
            exact (hall e he).1) (by simpa using hf) hrun'
        exact ⟨b', hb'⟩
      by_cases h0 : chunkSize = 0
      · obtain ⟨b', hd⟩ := hdec (4 * (bs.length + 1 + 1 + 1 + 1) + 8) (by omega)
        obtain ⟨ys, h1, h2⟩ := ih { s with last := l, stepIndex := i, imaByte := w, bits := b } { t with last := l, stepIndex := i, bits := b' } hv2
          hsv hsc htv htc rfl rfl (fun c h => hx c (by simp [h]))
        refine ⟨es.map (·.2) :: ys, ?_, ?_⟩
        · have he : imaEncode s xs = some ({ s with last := l, stepIndex := i, imaByte := w, bits := b },
              (octets s.last).1 :: (octets s.last).2 :: BitVec.ofInt 8 s.stepIndex :: 0 :: bs) := by
            unfold imaEncode
            simp only [hsv, hsc, h0, if_true, Option.bind_eq_bind, Option.pure_def]
            simp only [hsv, hsc, h0] at hen
            rw [hen]; rfl
          have hd : imaDecode t ((octets s.last).1 :: (octets s.last).2 :: BitVec.ofInt 8 s.stepIndex :: 0 :: bs) =
              some ({ t with last := l, stepIndex := i, bits := b' }, es.map (·.2)) := by
            unfold imaDecode
            simp only [htv, htc, h0, if_true, List.getElem?_cons_zero, List.getElem?_cons_succ, Option.bind_eq_bind, Option.bind_some, List.drop_succ_cons, List.drop_zero,
              List.length_cons]
            simp only [htv, htc, h0] at hd
            rw [int16_octets s.last hv.2.2, toNat_index s hv, hd]
          simp only [blocks, he, hd, h1, Option.bind_eq_bind, Option.bind_some, Option.pure_def]
        · have h2' := dvi4Chunks_frame s.imaByte s.bits calls _ _ h2
          have hes' := estimates_frame s.imaByte s.bits xs _ _ _ hes
          simp only [dvi4Chunks, Option.bind_eq_bind]
          rw [show ({ s with imaByte := s.imaByte, bits := s.bits } : State) = s from rfl] at hes'
          rw [hes']
          simp only [Option.bind_some, Option.pure_def]
          rw [h2']
          rfl
      · obtain ⟨b', hd⟩ := hdec (4 * bs.length + 8) (by omega)
        obtain ⟨ys, h1, h2⟩ := ih { s with last := l, stepIndex := i, imaByte := w, bits := b } { t with last := l, stepIndex := i, bits := b' } hv2
          hsv hsc htv htc rfl rfl (fun c h => hx c (by simp [h]))
        refine ⟨es.map (·.2) :: ys, ?_, ?_⟩
        · have he : imaEncode s xs = some ({ s with last := l, stepIndex := i, imaByte := w, bits := b }, bs) := by
            unfold imaEncode
            simp only [hsv, hsc, h0, if_false]
            simp only [hsv, hsc] at hen
            rw [hen]
          have hd : imaDecode t bs = some ({ t with last := l, stepIndex := i, bits := b' }, es.map (·.2)) := by
            unfold imaDecode
            simp only [htv, htc, h0, if_false]
            simp only [htv, htc] at hd
            rw [← htl, ← hti] at hd
            exact hd
          simp only [blocks, he, hd, h1, Option.bind_eq_bind, Option.bind_some, Option.pure_def]
        · have h2' := dvi4Chunks_frame s.imaByte s.bits calls _ _ h2
          have hes' := estimates_frame s.imaByte s.bits xs _ _ _ hes
          simp only [dvi4Chunks, Option.bind_eq_bind]
          rw [show ({ s with imaByte := s.imaByte, bits := s.bits } : State) = s from rfl] at hes'
          rw [hes']
          simp only [Option.bind_some, Option.pure_def]
          rw [h2']
          rfl
  exact key calls _ _ (valid_init _ _) rfl rfl rfl rfl rfl rfl hx

example : (blocks (init .vdvi 1) (init .vdvi 1) [[100, -2000, 17], [4000, 0], [], [5000, 123, -32768, 7, 9]]).any (fun r => r.map List.length == [3, 2, 0, 5]) = true := by
  decide +kernel

/-! ## C21: VDVI packing -/

/-- On the wire a VDVI call is the code words of its codes, then fewer than eight ones. -/
theorem vdvi_wire (chunkSize : Int) (hc : chunkSize ≠ 0) (xs : List Int) (hx : ∀ x ∈ xs, Sample x) :
    ∃ s' o sf es k, imaEncode (init .vdvi chunkSize) xs = some (s', o) ∧ estimates (init .vdvi chunkSize) xs = some (sf, es) ∧ k < 8 ∧
      o.flatMap octetBits = (es.map (·.1)).flatMap codeWord ++ List.replicate k true := by
  obtain ⟨s', es, w, b, bs, k, hes, hen, hk, hbits⟩ := encodeVdvi_bits xs (init .vdvi chunkSize) 0 (valid_init _ _) hx rfl (by omega)
  refine ⟨{ s' with imaByte := w, bits := b }, bs, s', es, k, ?_, hes, hk, ?_⟩
  · unfold imaEncode
    simp only [init, hc, if_false]
    exact hen
  · rw [hbits, low]; simp [List.flatMap_map]

/-- Any octets whose bits are the code words of some codes, then fewer than eight ones, are decoded as
exactly those codes, one sample each. -/
theorem vdvi_decodes (chunkSize : Int) (hc : chunkSize ≠ 0) (cs : List Nat) (hcs : ∀ c ∈ cs, c < 16) (o : List Byte) (k : Nat) (hk : k < 8)
    (ho : o.flatMap octetBits = cs.flatMap codeWord ++ List.replicate k true) :
    ∃ t t' xs, imaDecode (init .vdvi chunkSize) o = some (t, xs) ∧ xs.length = cs.length ∧
      runDecode (init .vdvi chunkSize) cs = some (t', xs) := by
  have hbl : ∀ l : List Byte, (l.flatMap octetBits).length = 8 * l.length := by
    intro l; induction l with
    | nil => rfl
    | cons a l ih => rw [List.flatMap_cons, List.length_append, octetBits_length, ih, List.length_cons]; omega
  have hcl : ∀ l : List Nat, (∀ e ∈ l, e < 16) → 2 * l.length ≤ (l.flatMap codeWord).length := by
    intro l; induction l with
    | nil => intro _; simp
    | cons a l ih =>
      intro h
      have := codeWord_ne a (h a (by simp))
      have := ih (fun e he => h e (by simp [he]))
      rw [List.flatMap_cons, List.length_append, List.length_cons]; omega
  have hlen := congrArg List.length ho
  rw [hbl, List.length_append, List.length_replicate] at hlen
  have hcl := hcl cs hcs
  have hrun : ∀ (cs : List Nat) (s : State), Valid s → ∃ t' xs, runDecode s cs = some (t', xs) ∧ xs.length = cs.length := by
    intro cs; induction cs with
    | nil => intro s _; exact ⟨s, [], rfl, rfl⟩
    | cons c cs ih =>
      intro s hv
      obtain ⟨l, i, h1, hv1⟩ := decode_total s c hv
      obtain ⟨t', xs, h2, h3⟩ := ih _ hv1
      exact ⟨t', l :: xs, by simp [runDecode, h1, h2], by simp [h3]⟩
  obtain ⟨t', xs, h1, h2⟩ := hrun cs (init .vdvi chunkSize) (valid_init _ _)
  obtain ⟨b', hb'⟩ := vdviLoop_bits cs (4 * o.length + 8) (init .vdvi chunkSize) _ 0 [] o k xs (by intro i hi; simp [BitVec.getMsbD]) rfl (by simp)
    (by rw [List.nil_append, ho]) hk hcs (by omega) h1
  refine ⟨{ t' with bits := b' }, t', xs, ?_, h2, h1⟩
  unfold imaDecode
  simp only [init, hc, if_false]
  exact hb'

example : ([0b01010011#8, 0b11111110#8, 0b01111111#8] : List Byte).flatMap octetBits =
    ([1, 8, 9, 7, 9] : List Nat).flatMap codeWord ++ List.replicate 5 true := by decide

/-! ## C20: any octets -/

/-- The decoder goes outside its table or its input exactly when a header is expected and is too
short, or has a step index of 89 or more and there is something to decode. -/
theorem ima_decode_undefined_iff (s : State) (hi0 : 0 ≤ s.stepIndex) (hi1 : s.stepIndex ≤ 88) (hl : Sample s.last) (data : List Byte) :
    imaDecode s data = none ↔ s.chunkSize = 0 ∧ (data.length < 3 ∨ (∃ b, data[2]? = some b ∧ 89 ≤ b.toNat) ∧ 5 ≤ data.length) := by
  have hv : Valid s := ⟨hi0, hi1, hl⟩
  by_cases hc : s.chunkSize = 0
  · -- A header is expected.
    have hs16 : ∀ a b : Byte, Sample (int16 a b) := by
      intro a b
      unfold int16 Sample
      have h1 := BitVec.le_toInt (a ++ b)
      have h2 := BitVec.toInt_lt (x := a ++ b)
      simp only [Nat.reduceAdd, Nat.reduceSub] at h1 h2
      omega
    have hbad : ∀ (s : State) (c : Nat), 89 ≤ s.stepIndex → decode s c = none := by
      intro s c h
      unfold decode
      cases h' : at? stepSize s.stepIndex with
      | none => rfl
      | some ss => have := (step_at_iff s.stepIndex).1 ⟨ss, h'⟩; omega
    have hnib : ∀ (lf : Bool) (s : State) (bs : List Byte), 0 ≤ s.stepIndex → Sample s.last →
        (decodeNibbles lf s bs = none ↔ 89 ≤ s.stepIndex ∧ 0 < bs.length) := by
      intro lf s bs h0 hl
      by_cases h : 89 ≤ s.stepIndex
      · cases bs with
        | nil => simp [decodeNibbles]
        | cons b bs => simp [decodeNibbles, hbad s _ h, h]
      · obtain ⟨_, _, _, h', _⟩ := decodeNibbles_total lf bs s ⟨h0, by omega, hl⟩
        rw [h']; simp; omega
    have hvd : ∀ (fuel : Nat) (s : State) (bs : List Byte), 4 * bs.length < fuel → s.bits = 0 → 0 ≤ s.stepIndex → Sample s.last →
        (vdviLoop fuel s 0 bs = none ↔ 89 ≤ s.stepIndex ∧ 0 < bs.length) := by
      intro fuel s bs hf hb h0 hl
      by_cases h : 89 ≤ s.stepIndex
      · obtain ⟨f, rfl⟩ : ∃ f, fuel = f + 1 := ⟨fuel - 1, by omega⟩
        cases bs with
        | nil => simp [vdviLoop, vdviTail, hb]
        | cons b bs =>
          obtain ⟨j, hj, _⟩ := match_lt (0 ||| (b.setWidth 16 <<< (8 - s.bits).toNat))
          simp only [vdviLoop, if_pos (show s.bits ≤ 8 by omega), hj, Option.bind_eq_bind, Option.bind_some, hbad { s with bits := s.bits + 8 } j h]
          simp [h]
      · obtain ⟨_, _, _, _, h', _⟩ := vdviLoop_total fuel s 0 bs ⟨h0, by omega, hl⟩ (by omega) (by omega)
        rw [h']; simp; omega
    match data with
    | [] => unfold imaDecode; cases s.variant <;> simp [hc]
    | [a] => unfold imaDecode; cases s.variant <;> simp [hc]
    | [a, b] => unfold imaDecode; cases s.variant <;> simp [hc]
    | a :: b :: c :: rest =>
      have hR : (s.chunkSize = 0 ∧ ((a :: b :: c :: rest).length < 3 ∨ (∃ b', (a :: b :: c :: rest)[2]? = some b' ∧ 89 ≤ b'.toNat) ∧ 5 ≤ (a :: b :: c :: rest).length)) ↔
          89 ≤ (c.toNat : Int) ∧ 0 < ((a :: b :: c :: rest).drop 4).length := by
        simp [hc]; omega
      rw [hR]
      unfold imaDecode
      cases hsv : s.variant
      · simp only [hc, if_true, List.getElem?_cons_zero, List.getElem?_cons_succ, Option.bind_eq_bind, Option.bind_some, Option.pure_def, Option.bind_eq_none_iff]
        rw [← hnib true { s with stepIndex := c.toNat, last := int16 b a } ((a :: b :: c :: rest).drop 4) (by simp only; omega) (hs16 _ _)]
        simp only [hsv, hc]
        constructor
        · intro h
          cases hd : decodeNibbles true { variant := Variant.ima4, chunkSize := 0, last := int16 b a, stepIndex := c.toNat, imaByte := s.imaByte, bits := s.bits }
              ((a :: b :: c :: rest).drop 4) with
          | none => rfl
          | some v => simpa using h v hd
        · intro h v hd
          rw [h] at hd; simp at hd
      · simp only [hc, if_true, List.getElem?_cons_zero, List.getElem?_cons_succ, Option.bind_eq_bind, Option.bind_some]
        rw [← hnib false { s with stepIndex := c.toNat, last := int16 a b } ((a :: b :: c :: rest).drop 4) (by simp only; omega) (hs16 _ _)]
        simp only [hsv, hc]
      · simp only [hc, if_true, List.getElem?_cons_zero, List.getElem?_cons_succ, Option.bind_eq_bind, Option.bind_some]
        rw [← hvd (4 * (a :: b :: c :: rest).length + 8) { s with stepIndex := c.toNat, last := int16 a b, bits := 0 } ((a :: b :: c :: rest).drop 4)
          (by simp only [List.length_drop]; omega) rfl (by simp only; omega) (hs16 _ _)]
        simp only [hsv, hc]
  · simp only [hc, false_and, iff_false]
    unfold imaDecode
    cases hsv : s.variant
    · simp only [hc, if_false]
      obtain ⟨_, _, _, h', _⟩ := decodeNibbles_total true data s hv
      rw [h']; simp
    · simp only [hc, if_false]
      obtain ⟨_, _, _, h', _⟩ := decodeNibbles_total false data s hv
      rw [h']; simp
    · simp only [hc, if_false]
      obtain ⟨_, _, _, _, h', _⟩ := vdviLoop_total (4 * data.length + 8) { s with bits := 0 } 0 data hv (by simp) (by simp only; omega)
      simp only [hsv] at h'
      rw [h']; simp

/-- A header can drive the decoder outside its table of step sizes. -/
theorem ima_decode_bad_header : imaDecode (init .ima4 0) [0, 0, 89, 0, 0] = none ∧ imaDecode (init .dvi4 0) [0, 0, 255, 0, 0] = none ∧
    imaDecode (init .vdvi 0) [0, 0, 89, 0, 0] = none := by decide +kernel

theorem imaDecode_total (s : State) (hv : Valid s) (data : List Byte) (hh : s.chunkSize ≠ 0 ∨ ∃ b, data[2]? = some b ∧ b.toNat ≤ 88) :
    ∃ t xs, imaDecode s data = some (t, xs) ∧ (∀ x ∈ xs, Sample x) ∧ Valid t ∧ t.chunkSize = s.chunkSize := by
  have hs16 : ∀ a b : Byte, Sample (int16 a b) := by
    intro a b
    unfold int16 Sample
    have h1 := BitVec.le_toInt (a ++ b)
    have h2 := BitVec.toInt_lt (x := a ++ b)
    simp only [Nat.reduceAdd, Nat.reduceSub] at h1 h2
    omega
  by_cases hc : s.chunkSize = 0
  · have hh : ∃ b, data[2]? = some b ∧ b.toNat ≤ 88 := by
      rcases hh with h | h
      · exact absurd hc h
      · exact h
    obtain ⟨c, h2, h88⟩ := hh
    have hlt := (List.getElem?_eq_some_iff.1 h2).1
    have h0 : data[0]? = some data[0] := List.getElem?_eq_getElem _
    have h1 : data[1]? = some data[1] := List.getElem?_eq_getElem _
    unfold imaDecode
    cases hsv : s.variant
    · simp only [hc, if_true, h0, h1, h2, Option.bind_eq_bind, Option.bind_some, Option.pure_def]
      obtain ⟨l, i, xs, h', hv', _, hx⟩ := decodeNibbles_total true (data.drop 4) { s with stepIndex := c.toNat, last := int16 data[1] data[0] } ⟨by simp only; omega, by simp only; omega, hs16 _ _⟩
      simp only [hsv, hc] at h'
      rw [h']
      refine ⟨_, _, rfl, ?_, ⟨hv'.1, hv'.2.1, hv'.2.2⟩, rfl⟩
      intro x hx'
      rcases List.mem_cons.1 hx' with rfl | hx'
      · exact hs16 _ _
      · exact hx x hx'
    · simp only [hc, if_true, h0, h1, h2, Option.bind_eq_bind, Option.bind_some]
      obtain ⟨l, i, xs, h', hv', _, hx⟩ := decodeNibbles_total false (data.drop 4) { s with stepIndex := c.toNat, last := int16 data[0] data[1] } ⟨by simp only; omega, by simp only; omega, hs16 _ _⟩
      simp only [hsv, hc] at h'
      rw [h']
      exact ⟨_, _, rfl, hx, ⟨hv'.1, hv'.2.1, hv'.2.2⟩, rfl⟩
    · simp only [hc, if_true, h0, h1, h2, Option.bind_eq_bind, Option.bind_some]
      obtain ⟨l, i, b, xs, h', hv', _, hx⟩ := vdviLoop_total (4 * data.length + 8) { s with stepIndex := c.toNat, last := int16 data[0] data[1], bits := 0 } 0 (data.drop 4)
        ⟨by simp only; omega, by simp only; omega, hs16 _ _⟩ (by simp) (by simp only [List.length_drop]; omega)
      simp only [hsv, hc] at h'
      rw [h']
      exact ⟨_, _, rfl, hx, ⟨hv'.1, hv'.2.1, hv'.2.2⟩, rfl⟩
  · unfold imaDecode
    cases hsv : s.variant
    · simp only [hc, if_false]
      obtain ⟨l, i, xs, h', hv', _, hx⟩ := decodeNibbles_total true data s hv
      exact ⟨_, _, h', hx, hv', rfl⟩
    · simp only [hc, if_false]
      obtain ⟨l, i, xs, h', hv', _, hx⟩ := decodeNibbles_total false data s hv
      exact ⟨_, _, h', hx, hv', rfl⟩
    · simp only [hc, if_false]
      obtain ⟨l, i, b, xs, h', hv', _, hx⟩ := vdviLoop_total (4 * data.length + 8) { s with bits := 0 } 0 data hv (by simp) (by simp only; omega)
      simp only [hsv] at h'
      exact ⟨_, _, h', hx, ⟨hv'.1, hv'.2.1, hv'.2.2⟩, rfl⟩

/-- The decoder is safe for any octets in any number of calls, if no headers are expected or they
are long enough and have a step index which is in the table. -/
theorem ima_decode_safe_partial (v : Variant) (chunkSize : Int) (calls : List (List Byte))
    (hh : chunkSize ≠ 0 ∨ ∀ c ∈ calls, ∃ b, c[2]? = some b ∧ b.toNat ≤ 88) :
    ∃ t xs, decodeCalls (init v chunkSize) calls = some (t, xs) ∧ (∀ x ∈ xs, Sample x) ∧ 0 ≤ t.stepIndex ∧ t.stepIndex ≤ 88 := by
  have key : ∀ (calls : List (List Byte)) (s : State), Valid s → (s.chunkSize ≠ 0 ∨ ∀ c ∈ calls, ∃ b, c[2]? = some b ∧ b.toNat ≤ 88) →
      ∃ t xs, decodeCalls s calls = some (t, xs) ∧ (∀ x ∈ xs, Sample x) ∧ 0 ≤ t.stepIndex ∧ t.stepIndex ≤ 88 := by
    intro calls
    induction calls with
    | nil => intro s hv _; exact ⟨s, [], rfl, by simp, hv.1, hv.2.1⟩
    | cons c calls ih =>
      intro s hv hh
      obtain ⟨t, xs, h1, hx, hv', hcs⟩ := imaDecode_total s hv c (hh.imp id (fun h => h c (by simp)))
      obtain ⟨t', xs', h2, hx', h3⟩ := ih t hv' (by rw [hcs]; exact hh.imp id (fun h d hd => h d (by simp [hd])))
      refine ⟨t', xs ++ xs', ?_, ?_, h3⟩
      · simp only [decodeCalls, h1, h2, Option.bind_eq_bind, Option.bind_some, Option.pure_def]
      · intro x hx''
        rcases List.mem_append.1 hx'' with h | h
        · exact hx x h
        · exact hx' x h
  exact key calls _ (valid_init _ _) hh

example : (decodeCalls (init .vdvi 0) [[1, 2, 3, 4, 5], [255, 255, 88, 0, 255, 254]]).any (fun r => r.2.length == 5) = true := by decide +kernel

end Ima
