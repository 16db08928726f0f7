import Verif.Oki.Slow

/-!
# Properties of the OKI ADPCM codec
-/

namespace Oki
open Spec

/-! ## C22: the OKI ADPCM codec -/

/-- The initial state satisfies the invariants. -/
theorem init_ok (rate : Int) (s : State) (h : init rate = some s) :
    Valid s ∧ Ring s [] ∧ s.phase = 0 ∧ s.mark = 0 ∧ s.bitRate = rate ∧ s.last = 0 ∧ s.stepIndex = 0 ∧ (rate = 32000 ∨ rate = 24000) := by
  unfold init at h
  split at h
  · simp at h
  · rename_i hr
    simp only [Option.some.injEq] at h
    subst h
    refine ⟨⟨by simp, by simp, by simp, by simp⟩, ⟨by simp, by simp, by simp, ?_⟩, rfl, rfl, rfl, rfl, rfl, by omega⟩
    intro k hk
    simp only [List.getD_nil]
    rw [List.getElem?_replicate, if_pos (by omega)]

/-- Only the two rates are accepted. -/
theorem oki_rates (rate : Int) : (init rate).isSome = true ↔ rate = 32000 ∨ rate = 24000 := by
  unfold init
  split
  · simp; omega
  · simp; omega

/-- At 32kbps: however the samples are divided among calls to the encoder, and however the octets are divided
among calls to the decoder, the decoder's output is the encoder's own running estimate of each sample, and nothing
outside a buffer or a table is touched. A last odd sample stays in the encoder. -/
theorem oki_round_trip_32k (fir : List (Nat × Int) → Int) (s0 : State) (h0 : init 32000 = some s0) (calls : List (List Int))
    (hn : calls.flatten.length ≤ 2147483647) :
    ∃ s' es, estimates s0 calls.flatten = some (s', es) ∧ es.length = calls.flatten.length ∧ (∀ e ∈ es, Sample12 e.2) ∧
      ∃ se bs, encodeCalls fir s0 calls = some (se, bs) ∧ bs.length = calls.flatten.length / 2 ∧
        ∀ chunks : List (List Byte), chunks.flatten = bs →
          ∃ t', decodeCalls fir s0 chunks = some (t', (es.map (·.2 * 16)).take (2 * (calls.flatten.length / 2))) := by
  obtain ⟨hv, hr, hp, hm, hb, hl0, hi0, _⟩ := init_ok _ _ h0
  obtain ⟨l, i, es, he, _, _, _, hlen, hes⟩ := estimates_ok calls.flatten s0.last s0.stepIndex hv.1 hv.2.1 ⟨hv.2.2.1, hv.2.2.2⟩
  have he0 : estimates s0 calls.flatten = some (put s0 l i, es) := he s0
  have hc : ∀ c ∈ es.map (·.1), c < 16 := by
    intro c h; obtain ⟨e, he, rfl⟩ := List.mem_map.1 h; exact (hes e he).1
  refine ⟨_, es, he0, hlen, fun e h => (hes e h).2, ?_⟩
  obtain ⟨w, hw⟩ := emitAll_pack (es.map (·.1)) s0 hc (by rw [hm]; rfl) (by rw [hm, List.length_map, hlen]; omega)
  refine ⟨_, pack (es.map (·.1)), by rw [encodeCalls32 fir calls s0 hb, encode32_eq calls.flatten s0 _ es he0 hv, hw]; rfl, by rw [pack_length, List.length_map, hlen], ?_⟩
  intro chunks hch
  have hrun := runDecode_estimates calls.flatten s0 _ s0 es hv rfl rfl he0
  have hsplit : es.map (·.1) = unpack chunks.flatten ++ (es.map (·.1)).drop (2 * (calls.flatten.length / 2)) := by
    rw [hch, unpack_pack _ hc, List.length_map, hlen, List.take_append_drop]
  rw [hsplit, runDecode_append] at hrun
  obtain ⟨l1, i1, vs1, h1, h2, _, _⟩ := runDecode_total (unpack chunks.flatten) s0 hv
  rw [h1] at hrun
  simp only [Option.bind_eq_bind, Option.bind_some, Option.bind_eq_some_iff, Option.pure_def, Option.some.injEq, Prod.mk.injEq] at hrun
  obtain ⟨⟨t2, vs2⟩, _, _, h3⟩ := hrun
  refine ⟨put s0 l1 i1, ?_⟩
  rw [decodeCalls32 fir chunks s0 _ vs1 hb hv h1]
  have hl1 : vs1.length = 2 * (calls.flatten.length / 2) := by
    rw [h2, hch, unpack_pack _ hc, List.length_take, List.length_map, hlen]; omega
  have : es.map (·.2 * 16) = (es.map (·.2)).map (· * 16) := by rw [List.map_map]; rfl
  rw [this, ← h3, List.map_append, ← hl1, List.take_append_of_le_length (by simp), List.take_of_length_le (by simp)]

/-- At 24kbps: the samples are reduced from four to three, coded, decoded to the encoder's own estimates, and raised
from three to four, whatever the division of either side into calls, provided no call to the encoder is empty. -/
theorem oki_round_trip_24k (fir : List (Nat × Int) → Int) (s0 : State) (h0 : init 24000 = some s0) (calls : List (List Int)) (hne : ∀ c ∈ calls, c ≠ [])
    (hn : (decimate fir [] 0 calls.flatten).length ≤ 2147483647) :
    ∃ s' es, estimates s0 (decimate fir [] 0 calls.flatten) = some (s', es) ∧ es.length = (decimate fir [] 0 calls.flatten).length ∧ (∀ e ∈ es, Sample12 e.2) ∧
      ∃ se bs, encodeCalls fir s0 calls = some (se, bs) ∧ bs.length = es.length / 2 ∧
        ∀ chunks : List (List Byte), chunks.flatten = bs →
          ∃ t', decodeCalls fir s0 chunks = some (t', interpolate fir [] 0 ((es.map (·.2 * 16)).take (2 * (es.length / 2)))) := by
  obtain ⟨hv, hr, hp, hm, hb, hl0, hi0, _⟩ := init_ok _ _ h0
  obtain ⟨l, i, es, he, _, _, _, hlen, hes⟩ := estimates_ok (decimate fir [] 0 calls.flatten) s0.last s0.stepIndex hv.1 hv.2.1 ⟨hv.2.2.1, hv.2.2.2⟩
  have he0 : estimates s0 (decimate fir [] 0 calls.flatten) = some (put s0 l i, es) := he s0
  have hc : ∀ c ∈ es.map (·.1), c < 16 := by
    intro c h; obtain ⟨e, he, rfl⟩ := List.mem_map.1 h; exact (hes e he).1
  refine ⟨_, es, he0, hlen, fun e h => (hes e h).2, ?_⟩
  obtain ⟨w, hw⟩ := emitAll_pack (es.map (·.1)) s0 hc (by rw [hm]; rfl) (by rw [hm, List.length_map, hlen]; omega)
  obtain ⟨hist, ptr, ph, past', hen, _⟩ := enc_eq fir calls.flatten s0 _ _ [] 0 es _ hv hr (by rw [hp]; rfl) (by omega) he0 hw
  refine ⟨_, pack (es.map (·.1)), by rw [encodeCalls24 fir calls s0 (by rw [hb]; decide) hne, hen], by rw [pack_length, List.length_map], ?_⟩
  intro chunks hch
  have hrun := runDecode_estimates _ s0 _ s0 es hv rfl rfl he0
  have hsplit : es.map (·.1) = unpack chunks.flatten ++ (es.map (·.1)).drop (2 * (es.length / 2)) := by
    rw [hch, unpack_pack _ hc, List.length_map, List.take_append_drop]
  rw [hsplit, runDecode_append] at hrun
  obtain ⟨l1, i1, vs1, h1, h2, _, _⟩ := runDecode_total (unpack chunks.flatten) s0 hv
  rw [h1] at hrun
  simp only [Option.bind_eq_bind, Option.bind_some, Option.bind_eq_some_iff, Option.pure_def, Option.some.injEq, Prod.mk.injEq] at hrun
  obtain ⟨⟨t2, vs2⟩, _, _, h3⟩ := hrun
  obtain ⟨u, hu⟩ := decodeCalls24 fir chunks s0 _ vs1 [] 0 (by rw [hb]; decide) hv hr (by rw [hp]; rfl) (by omega) h1
  refine ⟨u, ?_⟩
  rw [hu]
  have hl1 : vs1.length = 2 * (es.length / 2) := by
    rw [h2, hch, unpack_pack _ hc, List.length_take, List.length_map]; omega
  have : es.map (·.2 * 16) = (es.map (·.2)).map (· * 16) := by rw [List.map_map]; rfl
  rw [this, ← h3, List.map_append, ← hl1, List.take_append_of_le_length (by simp), List.take_of_length_le (by simp)]

/-- Whatever octets arrive, in whatever pieces, the decoder stays inside its tables and its history. At 32kbps each
octet makes two samples, multiples of 16 in the range of an `int16_t`. -/
theorem oki_decode_defined (fir : List (Nat × Int) → Int) (rate : Int) (s0 : State) (h0 : init rate = some s0) (chunks : List (List Byte)) :
    ∃ t xs, decodeCalls fir s0 chunks = some (t, xs) ∧
      (rate = 32000 → xs.length = 2 * chunks.flatten.length ∧ ∀ x ∈ xs, Sample x ∧ x % 16 = 0) := by
  obtain ⟨hv, hr, hp, hm, hb, hl0, hi0, hrate⟩ := init_ok _ _ h0
  obtain ⟨l, i, vs, h1, h2, h3, _⟩ := runDecode_total (unpack chunks.flatten) s0 hv
  by_cases h : rate = 32000
  · refine ⟨_, _, decodeCalls32 fir chunks s0 _ vs (by rw [hb]; exact h) hv h1, ?_⟩
    intro _
    have hul : ∀ c : List Byte, (unpack c).length = 2 * c.length := by
      intro c; induction c with
      | nil => rfl
      | cons b c ih => unfold unpack at ih; simp [unpack, ih]; omega
    refine ⟨by rw [List.length_map, h2, hul], ?_⟩
    intro x hx
    obtain ⟨v, hv, rfl⟩ := List.mem_map.1 hx
    have := h3 v hv
    unfold Sample12 at this
    unfold Sample
    omega
  · obtain ⟨u, hu⟩ := decodeCalls24 fir chunks s0 _ vs [] 0 (by rw [hb]; exact h) hv hr (by rw [hp]; rfl) (by omega) h1
    exact ⟨u, _, hu, fun h' => absurd h' h⟩

/-- The number of samples which have been encoded is kept in an `int`: exactly when there are more than it can hold,
the encoder's behaviour is undefined. -/
theorem oki_encode_overflow (fir : List (Nat × Int) → Int) (s0 : State) (h0 : init 32000 = some s0) (calls : List (List Int)) :
    encodeCalls fir s0 calls = none ↔ 2147483647 < calls.flatten.length := by
  constructor
  · intro h
    by_cases hn : calls.flatten.length ≤ 2147483647
    · obtain ⟨_, _, _, _, _, se, bs, h1, _⟩ := oki_round_trip_32k fir s0 h0 calls hn
      rw [h1] at h; simp at h
    · omega
  · intro hn
    obtain ⟨hv, hr, hp, hm, hb, hl0, hi0, _⟩ := init_ok _ _ h0
    obtain ⟨l, i, es, he, _, _, _, hlen, hes⟩ := estimates_ok calls.flatten s0.last s0.stepIndex hv.1 hv.2.1 ⟨hv.2.2.1, hv.2.2.2⟩
    have he0 : estimates s0 calls.flatten = some (put s0 l i, es) := he s0
    rw [encodeCalls32 fir calls s0 hb, encode32_eq calls.flatten s0 _ es he0 hv, emitAll_overflow (es.map (·.1)) s0 (by omega) (by rw [List.length_map, hlen]; omega)]
    rfl

/-- The encoder at 24kbps reads a sample before it looks at the length: an empty call reads outside the buffer. -/
theorem oki_encode_empty_24k (fir : List (Nat × Int) → Int) (s : State) (h : s.bitRate = 24000) : okiEncode fir s [] = none := by
  unfold okiEncode
  rw [if_neg (by omega)]
  exact encode24_none fir s

/-- At 32kbps an empty call does nothing. -/
theorem oki_encode_empty_32k (fir : List (Nat × Int) → Int) (s : State) (h : s.bitRate = 32000) : okiEncode fir s [] = some (s, []) := by
  unfold okiEncode
  rw [if_pos h]
  rfl

/-- Wherever an encoder has got to, if a sample is within reach of two steps of the running estimate, the new estimate is
within about an eighth of a step of it. -/
theorem oki_quantisation (rate : Int) (s0 s : State) (h0 : init rate = some s0) (xs : List Int) (es : List (Nat × Int)) (hs : estimates s0 xs = some (s, es))
    (ss x : Int) (hss : at? stepSize s.stepIndex = some ss) (hx : Sample x) (hc : s.last - 2 * ss < x / 16 ∧ x / 16 < s.last + 2 * ss) :
    ∃ s' c, encode s x = some (s', c) ∧ c < 16 ∧ 8 * (s'.last - x / 16) ≤ ss + 20 ∧ -(ss + 20) ≤ 8 * (s'.last - x / 16) := by
  obtain ⟨hv0, _⟩ := init_ok _ _ h0
  obtain ⟨l, i, es', he, hi0, hi1, hl, _, _⟩ := estimates_ok xs s0.last s0.stepIndex hv0.1 hv0.2.1 ⟨hv0.2.2.1, hv0.2.2.2⟩
  have he0 : estimates s0 xs = some (put s0 l i, es') := he s0
  rw [hs] at he0
  simp only [Option.some.injEq, Prod.mk.injEq] at he0
  obtain ⟨rfl, rfl⟩ := he0
  have hv : Valid (put s0 l i) := ⟨hi0, hi1, hl.1, hl.2⟩
  obtain ⟨ss', hss', h7, h8⟩ := step_at hi0 hi1
  rw [show (put s0 l i).stepIndex = i from rfl, hss'] at hss
  simp only [Option.some.injEq] at hss
  subst hss
  obtain ⟨a, ha, ha0, ha1⟩ := adjustment (choose ss' l x)
  have hd := decode_eq (put s0 l i) (choose ss' l x) ss' a hss' ha hv h7 h8 ha0 ha1
  have hen := encode_eq (put s0 l i) x ss' hss' _ _ hd rfl
  refine ⟨_, _, hen, choose_lt _ _ _, ?_⟩
  have hq := quantise ss' l x h7 h8 hl hx hc
  simp only at hq hc ⊢
  unfold Sample at hx
  unfold Sample12 at hl
  unfold clip
  repeat' split
  all_goals omega

/-! ### The hypotheses are met -/

/-- A filter which is enough to tell the taps apart. -/
def testFir (t : List (Nat × Int)) : Int := i16 ((t.map fun (k, x) => (k : Int) * x / 64).sum)

example : (init 32000).isSome = true ∧ (init 24000).isSome = true ∧ (init 16000).isSome = false := by decide

example : ((do
    let s ← init 32000
    let (_, b) ← encodeCalls testFir s [[100, -2000], [], [30000, 29000, -30000]]
    let (_, x) ← decodeCalls testFir s [b]
    return (b.length, x)) : Option _).any (fun r => r = (2, [96, -384, 624, 2800])) = true := by decide +kernel

example : ((do
    let s ← init 24000
    let (_, b) ← encodeCalls testFir s [[100, -2000, 5], [3000, 2900, -3000], [7, 8]]
    let (_, x) ← decodeCalls testFir s [b, []]
    return (b.length, x.length)) : Option _).any (fun r => r = (3, 8)) = true := by decide +kernel

example : ((do
    let s ← init 32000
    let (s, _) ← estimates s [100, 200, -300]
    let ss ← at? stepSize s.stepIndex
    return (s.last, ss)) : Option _).any (fun r => decide (r.1 - 2 * r.2 < 300 / 16 ∧ 300 / 16 < r.1 + 2 * r.2)) = true := by decide +kernel

end Oki
