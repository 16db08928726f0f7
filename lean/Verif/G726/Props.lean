import Verif.G726.Run
import Verif.G726.Tandem

/-!
# G.726
-/

namespace G726

theorem cfg_valid {rate : Int} {c : Coding} {p : Packing} {g : Cfg} (h : cfg rate c p = some g) :
    g.t.Valid ∧ g.coding = c ∧ g.packing = p ∧ (g.t.bits : Int)*8000 = rate := by
  unfold cfg at h
  split at h
  · rename_i hr; rw [Option.some.injEq] at h; subst h; exact ⟨Or.inl rfl, rfl, rfl, by rw [hr]; show (tab16.bits : Int)*8000 = 16000; decide⟩
  split at h
  · rename_i hr; rw [Option.some.injEq] at h; subst h; exact ⟨Or.inr (Or.inl rfl), rfl, rfl, by rw [hr]; show (tab24.bits : Int)*8000 = 24000; decide⟩
  split at h
  · rename_i hr; rw [Option.some.injEq] at h; subst h; exact ⟨Or.inr (Or.inr (Or.inl rfl)), rfl, rfl, by rw [hr]; show (tab32.bits : Int)*8000 = 32000; decide⟩
  split at h
  · rename_i hr; rw [Option.some.injEq] at h; subst h; exact ⟨Or.inr (Or.inr (Or.inr rfl)), rfl, rfl, by rw [hr]; show (tab40.bits : Int)*8000 = 40000; decide⟩
  · simp at h

/-! ## Any samples and any data -/

theorem pending_init (p : Packing) : pending p init = [] := by cases p <;> rfl

theorem encodeCalls_eq (g : Cfg) : ∀ (calls : List (List Int)) (s : Codec), encodeCalls g s calls = encode g s calls.flatten := by
  intro calls
  induction calls with
  | nil => intro s; rfl
  | cons l ls ih =>
    intro s
    rw [encodeCalls, List.flatten_cons, encode_append]
    congr 1
    funext x
    rw [ih]
    cases encode g x.1 ls.flatten <;> rfl

/-- C91: an encoder takes any samples, in any number of calls, and how they are divided makes no difference.  Each
sample gives one code, in an octet of its own or packed; what does not fill an octet waits. -/
theorem encode_any (rate : Int) (c : Coding) (p : Packing) (g : Cfg) (hg : cfg rate c p = some g)
    (calls : List (List Int)) (h : ∀ l ∈ calls, ∀ a ∈ l, I16 a) :
    ∃ e bytes, encodeCalls g init calls = some (e, bytes) ∧ encode g init calls.flatten = some (e, bytes) ∧
      (p = .none → bytes.length = calls.flatten.length ∧ ∀ o ∈ bytes, o.toNat < 2^g.t.bits) ∧
      (p ≠ .none → bytes.length = calls.flatten.length*g.t.bits/8) := by
  obtain ⟨v, -, hp, -⟩ := cfg_valid hg
  obtain ⟨e, bytes, codes, q⟩ := encode_spec g v calls.flatten init (good_init g) (by
    intro a ha
    obtain ⟨l, hl, ha⟩ := List.mem_flatten.mp ha
    exact h l hl a ha)
  refine ⟨e, bytes, by rw [encodeCalls_eq, q.eq], q.eq, ?_, ?_⟩
  · intro h0
    rw [q.plain (by rw [hp]; exact h0)]
    refine ⟨by rw [List.length_map, q.count], ?_⟩
    intro o ho
    obtain ⟨c, hc, rfl⟩ := List.mem_map.mp ho
    have := q.lt c hc
    rw [BitVec.toNat_ofNat]
    exact Nat.lt_of_le_of_lt (Nat.mod_le _ _) this
  · intro h0
    have := congrArg List.length (q.packed (by rw [hp]; exact h0))
    rw [pending_init, List.nil_append, codesOf_length, List.length_append, octetsOf_length, q.count] at this
    have hr := q.good.residue
    simp only [pending, ord_length, G722.bits_length] at this
    omega

example : ∃ e, encodeCalls ⟨tab24, .linear, .left⟩ init [[1000, -2000], [32767, -32768, 5]] = some (e, [0x71#8]) ∧ e.residue = 7 := by
  refine ⟨((encode ⟨tab24, .linear, .left⟩ init [1000, -2000, 32767, -32768, 5]).getD (init, [])).1, ?_, ?_⟩ <;> decide +kernel

theorem decode_ok (g : Cfg) (hg : g.t.Valid) (s : Codec) (h : Good g s) (l : List Byte) :
    ∃ e out codes, decode g s l = some (e, out) ∧ Decoded g s l e out codes :=
  decode_spec g hg _ s l h (by have := h.residue; omega)

theorem decode_append (g : Cfg) (hg : g.t.Valid) (s e f : Codec) (h : Good g s) (l m : List Byte) (a b : List Int)
    (h1 : decode g s l = some (e, a)) (h2 : decode g e m = some (f, b)) : decode g s (l ++ m) = some (f, a ++ b) := by
  obtain ⟨f', o, codes, h3, -⟩ := decode_ok g hg s h (l ++ m)
  have h4 := decodeLoop_append g m _ _ s l e f a b h1 h2
  have h5 := decodeLoop_more g _ 5 s (l ++ m) _ h3
  rw [List.length_append, show 4*(l.length + m.length) + 5 + 5 = 4*l.length + 5 + (4*m.length + 5) by omega, h4] at h5
  rw [h3, h5]

theorem decode_nil (g : Cfg) (s : Codec) (h : g.packing ≠ .none → s.residue < g.t.bits) : decode g s [] = some (s, []) := by
  rw [decode, decodeLoop_succ]
  have : pull g s [] = none := by
    unfold pull
    rcases hp : g.packing with _ | _ | _
    · rfl
    · have := h (by rw [hp]; decide)
      simp only [if_pos this]
    · have := h (by rw [hp]; decide)
      simp only [if_pos this]
  rw [this]

theorem decodeCalls_eq (g : Cfg) (hg : g.t.Valid) : ∀ (calls : List (List Byte)) (s : Codec), Good g s →
    (g.packing ≠ .none → s.residue < g.t.bits) → decodeCalls g s calls = decode g s calls.flatten := by
  intro calls
  induction calls with
  | nil => intro s _ h; exact (decode_nil g s h).symm
  | cons l ls ih =>
    intro s h _
    obtain ⟨e, a, codes, h1, q⟩ := decode_ok g hg s h l
    obtain ⟨f, b, codes', h2, -⟩ := decode_ok g hg e q.good ls.flatten
    rw [decodeCalls, h1, Option.bind_some, ih e q.good (fun hp => (q.packed hp).1), h2, List.flatten_cons,
      decode_append g hg s e f h l _ a b h1 h2]
    rfl

theorem speak_range (t : Tab) (ht : t.Valid) (c : Coding) : ∀ (l : List Byte) (s p : Pred) (out : List Int), Ok s →
    speak t c s l = some (p, out) → ∀ x ∈ out, if c = .linear then I16 x else 0 ≤ x ∧ x ≤ 255 := by
  intro l
  induction l with
  | nil =>
    intro s p out _ h
    simp only [speak, Option.some.injEq, Prod.mk.injEq] at h
    rw [← h.2]; simp
  | cons o l ih =>
    intro s p out hs h
    simp only [speak, Option.bind_eq_some_iff] at h
    obtain ⟨⟨s', a⟩, h1, ⟨p', out'⟩, h2, h3⟩ := h
    simp only [Option.some.injEq, Prod.mk.injEq] at h3
    obtain ⟨rfl, rfl⟩ := h3
    obtain ⟨s1, se, y, sr, a1, e1, -, ok, ho⟩ := decoder_ok t ht c s hs o
    rw [h1] at e1
    simp only [Option.some.injEq, Prod.mk.injEq] at e1
    obtain ⟨rfl, rfl⟩ := e1
    intro x hx
    rcases List.mem_cons.mp hx with rfl | hx
    · cases c
      · simp only [output, Option.some.injEq] at ho
        rw [if_pos rfl, ← ho]
        exact s16_range _
      · simp only [output, Option.map_eq_some_iff] at ho
        obtain ⟨z, -, rfl⟩ := ho
        have := z.isLt
        rw [if_neg (by decide)]
        omega
      · simp only [output, Option.map_eq_some_iff] at ho
        obtain ⟨z, -, rfl⟩ := ho
        have := z.isLt
        rw [if_neg (by decide)]
        omega
    · exact ih s' p' out' ok h2 x hx

/-- C91: a decoder takes any octets, in any number of calls, and how they are divided makes no difference.  It gives
a sample for each code which the octets hold. -/
theorem decode_any (rate : Int) (c : Coding) (p : Packing) (g : Cfg) (hg : cfg rate c p = some g) (calls : List (List Byte)) :
    ∃ d out, decodeCalls g init calls = some (d, out) ∧ decode g init calls.flatten = some (d, out) ∧
      (p = .none → out.length = calls.flatten.length) ∧
      (p ≠ .none → out.length = calls.flatten.length*8/g.t.bits) ∧
      ∀ x ∈ out, if c = .linear then I16 x else 0 ≤ x ∧ x ≤ 255 := by
  obtain ⟨v, hc, hp, -⟩ := cfg_valid hg
  have hb := bits_of g.t v
  obtain ⟨d, out, codes, h1, q⟩ := decode_ok g v init (good_init g) calls.flatten
  refine ⟨d, out, ?_, h1, ?_, ?_, ?_⟩
  · rw [decodeCalls_eq g v calls init (good_init g) (fun _ => by show 0 < _; omega), h1]
  · intro h0
    rw [q.count, q.plain (by rw [hp]; exact h0)]
  · intro h0
    obtain ⟨k1, -, k2⟩ := q.packed (by rw [hp]; exact h0)
    have := congrArg List.length k2
    rw [pending_init, List.nil_append, octetsOf_length, List.length_append, codesOf_length, List.length_map, ← q.count] at this
    simp only [pending, ord_length, G722.bits_length] at this
    rw [Nat.mul_comm, show 8*calls.flatten.length = out.length*g.t.bits + d.residue by omega, Nat.mul_comm out.length,
      Nat.mul_add_div (by omega), Nat.div_eq_of_lt k1]
    omega
  · rw [← hc]
    exact speak_range g.t v g.coding codes _ _ _ ok_init q.heard

example : ∃ d, decodeCalls ⟨tab40, .ulaw, .right⟩ init [[0x12#8], [0xFF#8, 0x80#8]] = some (d, [111, 120, 254, 255]) := by
  refine ⟨((decode ⟨tab40, .ulaw, .right⟩ init [0x12#8, 0xFF#8, 0x80#8]).getD (init, [])).1, ?_⟩
  decide +kernel

/-! ## The same predictor -/

theorem run_same (g : Cfg) (hg : g.t.Valid) (s : Codec) (hs : Good g s) (l m : List Int) (hl : ∀ a ∈ l, I16 a) (hm : ∀ a ∈ m, I16 a)
    (h : codesRun g.t s.p (l.map (linearise g.coding)) = codesRun g.t s.p (m.map (linearise g.coding))) :
    encode g s l = encode g s m := by
  induction l generalizing s m with
  | nil =>
    rcases m with _ | ⟨b, m⟩
    · rfl
    · obtain ⟨e, bytes, codes, q⟩ := encode_spec g hg (b :: m) s hs hm
      rw [q.ran] at h
      simp only [List.map_nil, codesRun, Option.some.injEq, Prod.mk.injEq] at h
      have := q.count
      rw [← h.2] at this
      simp at this
  | cons a l ih =>
    rcases m with _ | ⟨b, m⟩
    · obtain ⟨e, bytes, codes, q⟩ := encode_spec g hg (a :: l) s hs hl
      rw [q.ran] at h
      simp only [List.map_nil, codesRun, Option.some.injEq, Prod.mk.injEq] at h
      have := q.count
      rw [h.2] at this
      simp at this
    · have ha := hl a (List.mem_cons_self ..)
      have hb := hm b (List.mem_cons_self ..)
      obtain ⟨s1, _, _, _, i1, e1, n1, f1, ok1, -⟩ := encoder_ok g.t hg s.p hs.ok _ (linearise_range g.coding a ha)
      obtain ⟨s2, _, _, _, i2, e2, n2, f2, ok2, -⟩ := encoder_ok g.t hg s.p hs.ok _ (linearise_range g.coding b hb)
      obtain ⟨g1, p1, -⟩ := emit_spec g hg { s with p := s1 } ⟨ok1, hs.residue, hs.high⟩ i1 n1
      obtain ⟨g2, p2, -⟩ := emit_spec g hg { s with p := s2 } ⟨ok2, hs.residue, hs.high⟩ i2 n2
      obtain ⟨t1, b1, c1, q1⟩ := encode_spec g hg l _ g1 (fun x hx => hl x (List.mem_cons_of_mem _ hx))
      obtain ⟨t2, b2, c2, q2⟩ := encode_spec g hg m _ g2 (fun x hx => hm x (List.mem_cons_of_mem _ hx))
      have r1 := q1.ran
      have r2 := q2.ran
      rw [p1] at r1
      rw [p2] at r2
      simp only at r1 r2
      simp only [List.map_cons, codesRun, e1, e2, Option.bind_some, r1, r2, Option.some.injEq, Prod.mk.injEq,
        List.cons.injEq] at h
      obtain ⟨h1, rfl, h2⟩ := h
      rw [f1] at f2
      simp only [Option.some.injEq, Prod.mk.injEq] at f2
      obtain ⟨rfl, -⟩ := f2
      rw [encode_cons, encode_cons, e1, e2, Option.bind_some, Option.bind_some]
      rw [ih _ g1 m (fun x hx => hl x (List.mem_cons_of_mem _ hx)) (fun x hx => hm x (List.mem_cons_of_mem _ hx))
        (by rw [p1]; simp only; rw [r1, r2, h1, h2])]

/-- What the decoder finds is what the encoder put in. -/
theorem heard (rate : Int) (c c' : Coding) (p : Packing) (g h : Cfg) (hg : cfg rate c p = some g) (hh : cfg rate c' p = some h)
    (l : List Int) (hl : ∀ a ∈ l, I16 a) :
    ∃ e bytes d out, encode g init l = some (e, bytes) ∧ decode h init bytes = some (d, out) ∧
      out.length = (if p = .none then l.length else l.length*g.t.bits/8*8/g.t.bits) ∧
      ∃ codes codes', h.t = g.t ∧ Encoded g init l e bytes codes ∧ Decoded h init bytes d out codes' ∧
        codes'.map (fun c => c.toNat % 2^h.t.bits) = codes.take out.length ∧ (∀ c ∈ codes, c < 2^5) ∧
        (p ≠ .none → ∀ c ∈ codes', c.toNat < 2^h.t.bits) := by
  obtain ⟨v, hc, hp, hr⟩ := cfg_valid hg
  obtain ⟨v', hc', hp', hr'⟩ := cfg_valid hh
  have hb := bits_of g.t v
  have ht : h.t = g.t := by
    rcases v with e | e | e | e <;> rcases v' with e' | e' | e' | e' <;> rw [e, e'] <;> rw [e] at hr <;> rw [e'] at hr' <;>
      first | rfl | exact absurd hr' (by rw [← hr]; decide)
  obtain ⟨e, bytes, codes, q⟩ := encode_spec g v l init (good_init g) hl
  obtain ⟨d, out, codes', hd, r⟩ := decode_ok h v' init (good_init h) bytes
  obtain ⟨d2, out2, -, hd2, n1, n2, -⟩ := decode_any rate c' p h hh [bytes]
  obtain ⟨e2, bytes2, -, he2, m1, m2⟩ := encode_any rate c p g hg [l] (by simpa using hl)
  simp only [List.flatten_cons, List.flatten_nil, List.append_nil] at hd2 he2 n1 n2 m1 m2
  rw [hd, Option.some.injEq, Prod.mk.injEq] at hd2
  rw [q.eq, Option.some.injEq, Prod.mk.injEq] at he2
  obtain ⟨rfl, rfl⟩ := hd2
  obtain ⟨rfl, rfl⟩ := he2
  have hlen : out.length = (if p = .none then l.length else l.length*g.t.bits/8*8/g.t.bits) := by
    split
    · rename_i h0; rw [n1 h0, (m1 h0).1]
    · rename_i h0; rw [n2 h0, m2 h0, ht]
  have hcodes : codes'.map (fun c => c.toNat % 2^h.t.bits) = codes.take out.length := by
    rw [ht]
    by_cases h0 : p = .none
    · rw [hlen, if_pos h0, ← q.count, List.take_length, r.plain (by rw [hp']; exact h0), q.plain (by rw [hp]; exact h0), List.map_map]
      conv => rhs; rw [← List.map_id codes]
      apply List.map_congr_left
      intro i hi
      have h1 := q.lt i hi
      have h2 : i < 2^5 := Nat.lt_of_lt_of_le h1 (Nat.pow_le_pow_right (by omega) hb.2)
      show (BitVec.ofNat 8 i).toNat % _ = i
      rw [ofNat_toNat i h2, Nat.mod_eq_of_lt h1]
    · obtain ⟨k1, k2, k3⟩ := r.packed (by rw [hp']; exact h0)
      have k4 := q.packed (by rw [hp]; exact h0)
      rw [ht] at k1 k2 k3
      rw [pending_init, List.nil_append, hp'] at k3
      rw [pending_init, List.nil_append, hp, k3, List.append_assoc] at k4
      have hle : (codes'.map BitVec.toNat).length ≤ codes.length := by
        rw [List.length_map, ← r.count, hlen, if_neg h0, q.count]
        have := Nat.div_mul_le_self (l.length*g.t.bits) 8
        calc l.length*g.t.bits/8*8/g.t.bits ≤ l.length*g.t.bits/g.t.bits := Nat.div_le_div_right this
          _ = l.length := Nat.mul_div_cancel _ (by omega)
      have := codesOf_prefix p g.t.bits (codes'.map BitVec.toNat) codes (pending p d ++ pending p e) [] (by
        intro c hc
        obtain ⟨o, ho, rfl⟩ := List.mem_map.mp hc
        exact k2 o ho) q.lt hle (by rw [List.append_nil]; exact k4)
      rw [r.count, ← List.length_map (f := BitVec.toNat), ← this]
      apply List.map_congr_left
      intro o ho
      exact Nat.mod_eq_of_lt (k2 o ho)
  refine ⟨e, bytes, d, out, q.eq, hd, hlen, codes, codes', ht, q, r, hcodes, ?_, ?_⟩
  · intro c hc
    exact Nat.lt_of_lt_of_le (q.lt c hc) (Nat.pow_le_pow_right (by omega) hb.2)
  · intro h0
    exact (r.packed (by rw [hp']; exact h0)).2.1

/-- C92: a decoder which is given all that an encoder sends comes to the state of the encoder. -/
theorem lockstep (rate : Int) (c c' : Coding) (p : Packing) (g h : Cfg) (hg : cfg rate c p = some g) (hh : cfg rate c' p = some h)
    (l : List Int) (hl : ∀ a ∈ l, I16 a) :
    ∃ e bytes d out, encode g init l = some (e, bytes) ∧ decode h init bytes = some (d, out) ∧
      out.length = (if p = .none then l.length else l.length*g.t.bits/8*8/g.t.bits) ∧
      ∃ e' bytes', encode g init (l.take out.length) = some (e', bytes') ∧ e'.p = d.p := by
  obtain ⟨e, bytes, d, out, he, hd, hlen, codes, codes', ht, q, r, hcodes, -⟩ := heard rate c c' p g h hg hh l hl
  refine ⟨e, bytes, d, out, he, hd, hlen, ?_⟩
  obtain ⟨e', bytes', cs, q'⟩ := encode_spec g (cfg_valid hg).1 (l.take out.length) init (good_init g)
    (fun a ha => hl a (List.mem_of_mem_take ha))
  refine ⟨e', bytes', q'.eq, ?_⟩
  obtain ⟨p', hp2⟩ := codesRun_take g.t _ _ _ _ q.ran out.length
  rw [← List.map_take, q'.ran, Option.some.injEq, Prod.mk.injEq] at hp2
  have h1 := q'.pred
  have h2 := r.pred
  rw [hp2.2, ← hcodes] at h1
  rw [ht] at h1 h2
  rw [h1, Option.some.injEq] at h2
  exact h2

example : ∃ e d, encode ⟨tab32, .linear, .none⟩ init [1000, -2000, 30000] = some (e, [7#8, 8#8, 7#8]) ∧
    decode ⟨tab32, .alaw, .none⟩ init [7#8, 8#8, 7#8] = some (d, [208, 83, 221]) ∧ e.p = d.p := by
  refine ⟨((encode ⟨tab32, .linear, .none⟩ init [1000, -2000, 30000]).getD (init, [])).1,
    ((decode ⟨tab32, .alaw, .none⟩ init [7#8, 8#8, 7#8]).getD (init, [])).1, ?_, ?_, ?_⟩ <;> decide +kernel

/-! ## Tandem -/

theorem speak_mod (t : Tab) (c : Coding) : ∀ (l m : List Byte) (s : Pred),
    l.map (fun c => c.toNat % 2^t.bits) = m.map (fun c => c.toNat % 2^t.bits) → speak t c s l = speak t c s m := by
  intro l
  induction l with
  | nil =>
    intro m s h
    rcases m with _ | ⟨b, m⟩
    · rfl
    · simp at h
  | cons a l ih =>
    intro m s h
    rcases m with _ | ⟨b, m⟩
    · simp at h
    · simp only [List.map_cons, List.cons.injEq] at h
      rw [speak, speak, decoder_eq, decoder_eq, h.1]
      congr 1
      funext r
      rw [ih m r.1 h.2]

/-- C94: what a decoder makes of coded A-law or u-law may be coded again.  The second coding sends what the first sent,
so no more is lost, however often it is done. -/
theorem tandem (rate : Int) (c : Coding) (hc : c ≠ .linear) (p : Packing) (g : Cfg) (hg : cfg rate c p = some g)
    (l : List Int) (hl : ∀ a ∈ l, 0 ≤ a ∧ a ≤ 255) :
    ∃ e bytes d out, encode g init l = some (e, bytes) ∧ decode g init bytes = some (d, out) ∧
      out.length = (if p = .none then l.length else l.length*g.t.bits/8*8/g.t.bits) ∧
      (∀ x ∈ out, 0 ≤ x ∧ x ≤ 255) ∧ encode g init out = encode g init (l.take out.length) := by
  obtain ⟨v, hcc, hp, -⟩ := cfg_valid hg
  have hb := bits_of g.t v
  have hl' : ∀ a ∈ l, I16 a := fun a ha => by have := hl a ha; unfold I16; omega
  obtain ⟨e, bytes, d, out, he, hd, hlen, codes, codes', -, q, r, hcodes, h5, -⟩ := heard rate c c p g g hg hg l hl'
  obtain ⟨p', hp2⟩ := codesRun_take g.t _ _ _ _ q.ran out.length
  rw [← List.map_take] at hp2
  obtain ⟨out', o1, o2, o3⟩ := tandem_run g.t v g.coding (by rw [hcc]; exact hc) (l.take out.length) init.p p' _ ok_init
    (fun a ha => hl' a (List.mem_of_mem_take ha)) hp2
  have hsp : speak g.t g.coding init.p codes' = speak g.t g.coding init.p ((codes.take out.length).map (BitVec.ofNat 8)) := by
    apply speak_mod
    rw [hcodes, List.map_map]
    conv => lhs; rw [← List.map_id (codes.take out.length)]
    apply List.map_congr_left
    intro i hi
    have h1 := q.lt i (List.mem_of_mem_take hi)
    have h2 := h5 i (List.mem_of_mem_take hi)
    show i = (BitVec.ofNat 8 i).toNat % _
    rw [ofNat_toNat i h2, Nat.mod_eq_of_lt h1]
  rw [r.heard, o1, Option.some.injEq, Prod.mk.injEq] at hsp
  obtain ⟨-, rfl⟩ := hsp
  refine ⟨e, bytes, d, out, he, hd, hlen, o2, ?_⟩
  exact run_same g v init (good_init g) _ _ (fun a ha => by have := o2 a ha; unfold I16; omega)
    (fun a ha => hl' a (List.mem_of_mem_take ha)) (by rw [o3]; exact hp2.symm)

example : ∃ e d out, encode ⟨tab16, .ulaw, .none⟩ init [0x10, 0x92, 0x80, 0x33] = some (e, [2#8, 1#8, 1#8, 2#8]) ∧
    decode ⟨tab16, .ulaw, .none⟩ init [2#8, 1#8, 1#8, 2#8] = some (d, out) ∧ out ≠ [0x10, 0x92, 0x80, 0x33] ∧
    encode ⟨tab16, .ulaw, .none⟩ init out = some (e, [2#8, 1#8, 1#8, 2#8]) := by
  refine ⟨((encode ⟨tab16, .ulaw, .none⟩ init [0x10, 0x92, 0x80, 0x33]).getD (init, [])).1,
    ((decode ⟨tab16, .ulaw, .none⟩ init [2#8, 1#8, 1#8, 2#8]).getD (init, [])).1,
    ((decode ⟨tab16, .ulaw, .none⟩ init [2#8, 1#8, 1#8, 2#8]).getD (init, [])).2, ?_, ?_, ?_, ?_⟩ <;> decide +kernel

/-! ## Close to the sample -/

/-- C93: the code of a sample, and the value which a decoder with linear output gives for it, are on the same side of all
decision levels, whatever has been coded before. -/
theorem same_cell (rate : Int) (c : Coding) (g h : Cfg) (hg : cfg rate c .none = some g) (hh : cfg rate .linear .none = some h)
    (l : List Int) (hl : ∀ a ∈ l, I16 a) (a : Int) (ha : I16 a) :
    ∃ e bytes d out, encode g init l = some (e, bytes) ∧ decode h init bytes = some (d, out) ∧
      ∃ e' o d' x se sr, encode g e [a] = some (e', [o]) ∧ decode h d [o] = some (d', [x]) ∧
        estimate d.p = some se ∧ o.toNat < 2^g.t.bits ∧
        Cell g.t (stepSize d.p) o.toNat (linearise c a - se) ∧ Cell g.t (stepSize d.p) o.toNat (sr - se) ∧
        x = s16 (sr*4) ∧ -31488 ≤ sr ∧ sr ≤ 31487 := by
  obtain ⟨v, hcc, hp, -⟩ := cfg_valid hg
  obtain ⟨v', hcc', hp', -⟩ := cfg_valid hh
  have hb := bits_of g.t v
  obtain ⟨e, bytes, d, out, he, hd, hlen, codes, codes', ht, q, r, hcodes, h5, -⟩ := heard rate c .linear .none g h hg hh l hl
  rw [if_pos rfl, ← q.count] at hlen
  have hpp : d.p = e.p := by
    have h1 := q.pred
    have h2 := r.pred
    rw [hcodes, hlen, List.take_length, ht, h1, Option.some.injEq] at h2
    exact h2.symm
  obtain ⟨s', i, se, sr, e1, hi, hf, -, hes, c1, c2, hr, -⟩ := encoder_close g.t v e.p q.good.ok (linearise g.coding a)
    (linearise_range _ _ ha)
  have hi5 : i < 2^5 := Nat.lt_of_lt_of_le hi (Nat.pow_le_pow_right (by omega) hb.2)
  have hmod : (BitVec.ofNat 8 i).toNat % 2^g.t.bits = i := by rw [ofNat_toNat i hi5, Nat.mod_eq_of_lt hi]
  refine ⟨e, bytes, d, out, he, hd, { e with p := s' }, BitVec.ofNat 8 i, { d with p := s' }, s16 (sr*4), se, sr, ?_, ?_, ?_, ?_, ?_, ?_, rfl, hr⟩
  · rw [encode_cons, e1, Option.bind_some]
    unfold emit
    rw [hp]
    rfl
  · have hdec : decoder h.t h.coding d.p (BitVec.ofNat 8 i) = some (s', s16 (sr*4)) := by
      rw [decoder_eq, ht, hmod, hpp, hf, Option.bind_some, hcc']
      rfl
    have hpl : pull h d [BitVec.ofNat 8 i] = some (BitVec.ofNat 8 i, d, []) := by
      unfold pull; rw [hp']
    rw [decode, List.length_singleton, show 4*1 + 5 = 8 + 1 by rfl, decodeLoop_succ, hpl]
    simp only
    rw [hdec, Option.bind_some, decodeLoop_more h 5 3 { d with p := s' } [] _ (decode_nil h _ (fun h0 => absurd hp' h0))]
    rfl
  · rw [hpp]; exact hes
  · rw [ofNat_toNat i hi5]; exact hi
  · rw [ofNat_toNat i hi5, hpp, ← hcc]; exact c1
  · rw [ofNat_toNat i hi5, hpp]; exact c2

/-- C93: so unless the decoder is driven beyond full scale, its output is off by no more than the width of a cell. -/
theorem error_bound_partial (t : Tab) (y a se sr x : Int) (i : Nat) (ha : Cell t y i (a/4 - se)) (hs : Cell t y i (sr - se))
    (hx : x = s16 (sr*4)) (hr : -8192 ≤ sr ∧ sr ≤ 8191) (lo hi : Int) (hi0 : 0 < index t i) (h1 : t.q[index t i - 1]? = some lo)
    (h2 : t.q[index t i]? = some hi) : (x - a).natAbs ≤ 4*(level (hi + y/4) - level (lo + y/4)) + 3 := by
  have a1 := ha.lower lo hi0 h1
  have a2 := ha.upper hi h2
  have a3 := ha.sign hi0
  have b1 := hs.lower lo hi0 h1
  have b2 := hs.upper hi h2
  have b3 := hs.sign hi0
  rw [s16_id _ (by omega) (by omega)] at hx
  split at a3 <;> rename_i hc <;> simp only [hc, if_true, if_false] at b3 <;> omega

example : (encode ⟨tab40, .linear, .none⟩ init [30]).map (fun e => e.2) = some [5#8] ∧
    (decode ⟨tab40, .linear, .none⟩ init [5#8]).map (fun d => d.2) = some [28] ∧ index tab40 5 = 5 ∧
    tab40.q[4]? = some 198 ∧ tab40.q[5]? = some 250 ∧ stepSize init.p/4 = 136 ∧
    4*(level (250 + 136) - level (198 + 136)) + 3 = 11 := by decide +kernel

end G726
