import Verif.Qm.Safe
import Verif.Qm.Flush

/-!
# A caller which goes through all the decisions
-/

namespace Qm

attribute [local irreducible] u32 sub32 decode decision renormd

theorem fill_marker (n : Nat) (a c : Nat) (st : Cx → St) (ct : Int) (su np : Bool) (x : List Nat) (hn : x.length ≤ n) (h : (fill a c st ct su np x).2 = .marker) :
    (fill a c st ct su np x).1.nopadding = false := by
  induction n generalizing c ct x with
  | zero =>
    rw [List.length_eq_zero_iff.1 (show x.length = 0 by omega)] at h ⊢
    rw [fill.eq_def] at h ⊢
    by_cases hl : ct ≤ 8 ∧ ct ≥ 0
    · rw [if_pos hl] at h; cases h
    · rw [if_neg hl] at h; cases h
  | succ n ih =>
    rw [fill.eq_def] at h ⊢
    by_cases hl : ct ≤ 8 ∧ ct ≥ 0
    · rw [if_pos hl] at h ⊢
      match x with
      | [] => cases h
      | b :: t =>
        dsimp only at h ⊢
        by_cases hff : b = 0xFF
        · rw [if_pos hff] at h ⊢
          match t with
          | [] => cases h
          | b' :: t' =>
            dsimp only at h ⊢
            by_cases hz : b' = 0
            · rw [if_pos hz] at h ⊢
              exact ih _ _ t' (by simp only [List.length_cons] at hn; omega) h
            · rw [if_neg hz] at h ⊢
              cases np with
              | true => rfl
              | false => cases h
        · rw [if_neg hff] at h ⊢
          exact ih _ _ t (by simp only [List.length_cons] at hn; omega) h
    · rw [if_neg hl] at h; cases h

theorem renormd_marker (n : Nat) (d : Dec) (h : (renormd n d).2 = .marker) : (renormd n d).1.nopadding = false := by
  induction n generalizing d with
  | zero => rw [renormd] at h; cases h
  | succ n ih =>
    by_cases hl : d.a < 0x8000 ∨ d.startup = true
    · have hf := fill_marker _ d.a d.c d.st d.ct d.startup d.nopadding d.data (Nat.le_refl _)
      obtain ⟨q, r, e⟩ := pair_eq (fill d.a d.c d.st d.ct d.startup d.nopadding d.data)
      rw [e] at hf
      cases r with
      | ok x => rw [renormd_round hl e] at h ⊢; exact ih _ h
      | moreData => rw [renormd_stop hl (fun h => by cases h) e] at h; cases h
      | marker => rw [renormd_stop hl (fun h => by cases h) e]; exact hf rfl
    · rw [renormd_done hl] at h; cases h

theorem decode_np {d d' : Dec} {cx : Cx} (h : decode d cx = (d', .marker)) : d'.nopadding = false := by
  have hm := renormd_marker 17 d
  obtain ⟨q, r, e⟩ := pair_eq (renormd 17 d)
  rw [e] at hm
  cases r with
  | ok x => rw [decode_ok e] at h; cases (Prod.mk.inj h).2
  | moreData => rw [decode_moreData e] at h; cases (Prod.mk.inj h).2
  | marker =>
    rw [decode_marker e] at h
    obtain ⟨rfl, _⟩ := Prod.mk.inj h
    exact hm rfl

/-- Without `nopadding` the answer is never -2. -/
theorem decode_no_marker {d d' : Dec} (hs : d.Safe) (h : d.nopadding = false) {cx : Cx} {r : Ret Bool} (hd : decode d cx = (d', r)) :
    r ≠ .marker ∧ d'.nopadding = false := by
  obtain ⟨_, s2, s3⟩ := decode_safe hs cx
  rw [hd] at s2 s3
  constructor
  · rintro rfl
    have := s2.2
    rw [h] at this
    cases this
  · cases hn : d'.nopadding with
    | false => rfl
    | true => rw [h] at s3; exact (s3 hn).symm

theorem decodeAgain_marker {d d' : Dec} {cx : Cx} (h : decode d cx = (d', .marker)) : decodeAgain d cx = decode d' cx := by
  unfold decodeAgain
  rw [h]

theorem decodeAgain_other {d d' : Dec} {cx : Cx} {r : Ret Bool} (hr : r ≠ .marker) (h : decode d cx = (d', r)) : decodeAgain d cx = (d', r) := by
  unfold decodeAgain
  rw [h]
  cases r with
  | ok x => rfl
  | moreData => rfl
  | marker => exact absurd rfl hr

theorem decode_safe' {d d' : Dec} (hs : d.Safe) {cx : Cx} {r : Ret Bool} (h : decode d cx = (d', r)) : d'.Safe := by
  have := (decode_safe hs cx).1
  rw [h] at this
  exact this

theorem decodeAgain_append {d : Dec} (h : d.Safe) (cx : Cx) {y : List Nat} (hy : ∀ b ∈ y, b < 256) :
    ∃ d' r, decodeAgain d cx = (d', r) ∧ d'.Safe ∧ r ≠ .marker ∧ (r ≠ .moreData → decodeAgain (d.more y) cx = (d'.more y, r)) ∧
      (r = .moreData → decodeAgain (d.more y) cx = decodeAgain (d'.more y) cx) := by
  obtain ⟨a1, a2⟩ := decode_append h cx hy
  obtain ⟨q, r, e⟩ := pair_eq (decode d cx)
  have hq := decode_safe' h e
  cases hr : r with
  | ok x =>
    subst hr
    have e' := a1 q _ e (fun h => by cases h)
    exact ⟨q, _, decodeAgain_other (fun h => by cases h) e, hq, fun h => (by cases h), fun _ => decodeAgain_other (fun h => by cases h) e',
      fun h => (by cases h)⟩
  | moreData =>
    subst hr
    have e' := a2 q e
    refine ⟨q, _, decodeAgain_other (fun h => by cases h) e, hq, fun h => (by cases h), fun h => absurd rfl h, fun _ => ?_⟩
    unfold decodeAgain
    rw [e']
  | marker =>
    subst hr
    have e' := a1 q _ e (fun h => by cases h)
    have hn := decode_np e
    rw [decodeAgain_marker e, decodeAgain_marker e']
    obtain ⟨b1, b2⟩ := decode_append hq cx hy
    obtain ⟨q2, r2, e2⟩ := pair_eq (decode q cx)
    obtain ⟨n1, n2⟩ := decode_no_marker hq hn e2
    have hq2 := decode_safe' hq e2
    refine ⟨q2, r2, e2, hq2, n1, fun hr => b1 q2 r2 e2 hr, fun hr => ?_⟩
    subst hr
    rw [b2 q2 e2]
    obtain ⟨q3, r3, e3⟩ := pair_eq (decode (q2.more y) cx)
    rw [e3, decodeAgain_other (decode_no_marker (hq2.more hy) n2 e3).1 e3]

theorem more_nil (d : Dec) : d.more [] = d := by
  unfold Dec.more
  rw [List.append_nil]

theorem more_more (d : Dec) (x y : List Nat) : (d.more x).more y = d.more (x ++ y) := by
  unfold Dec.more
  simp only [List.append_assoc]

theorem fed_ok {d d' : Dec} {cx : Cx} {pix : Bool} (h : decodeAgain d cx = (d', .ok pix)) (l : List Cx) (ys : List (List Nat)) :
    decodeFed d (cx :: l) ys = (decodeFed d' l ys).map (fun r => (r.1, pix :: r.2)) := by
  rw [decodeFed.eq_def]
  dsimp only
  rw [h]

theorem fed_more {d d' : Dec} {cx : Cx} (h : decodeAgain d cx = (d', .moreData)) (l : List Cx) (y : List Nat) (ys : List (List Nat)) :
    decodeFed d (cx :: l) (y :: ys) = decodeFed (d'.more y) (cx :: l) ys := by
  rw [decodeFed.eq_def]
  dsimp only
  rw [h]

theorem fed_none {d d' : Dec} {cx : Cx} (h : decodeAgain d cx = (d', .moreData)) (l : List Cx) : decodeFed d (cx :: l) [] = none := by
  rw [decodeFed.eq_def]
  dsimp only
  rw [h]

theorem fed_congr {d d' : Dec} {cx : Cx} (h : decodeAgain d cx = decodeAgain d' cx) (l : List Cx) (ys : List (List Nat)) :
    decodeFed d (cx :: l) ys = decodeFed d' (cx :: l) ys := by
  obtain ⟨q, r, e⟩ := pair_eq (decodeAgain d cx)
  rw [decodeFed.eq_def, decodeFed.eq_def d']
  dsimp only
  rw [← h, e]

/-- The decisions do not depend on the pieces in which the data arrives. -/
theorem fed_all (n : Nat) {d : Dec} (h : d.Safe) (l : List Cx) (ys : List (List Nat)) (hy : ∀ y ∈ ys, ∀ b ∈ y, b < 256) (hn : l.length + ys.length ≤ n)
    {d' : Dec} {pix : List Bool} (hf : decodeFed (d.more ys.flatten) l [] = some (d', pix)) :
    ∃ d'', decodeFed d l ys = some (d'', pix) ∧ d''.st = d'.st := by
  induction n generalizing d l ys d' pix with
  | zero =>
    have : l = [] := List.length_eq_zero_iff.1 (by omega)
    subst this
    rw [decodeFed] at hf ⊢
    obtain ⟨rfl, rfl⟩ := Prod.mk.inj (Option.some.inj hf)
    exact ⟨d, rfl, rfl⟩
  | succ n ih =>
    match l with
    | [] =>
      rw [decodeFed] at hf ⊢
      obtain ⟨rfl, rfl⟩ := Prod.mk.inj (Option.some.inj hf)
      exact ⟨d, rfl, rfl⟩
    | cx :: l =>
      have hfl : ∀ b ∈ ys.flatten, b < 256 := by
        intro b hb
        obtain ⟨y, hy1, hy2⟩ := List.mem_flatten.1 hb
        exact hy y hy1 b hy2
      obtain ⟨q, r, e, hq, hr, c1, c2⟩ := decodeAgain_append h cx hfl
      cases r with
      | ok x =>
        rw [fed_ok (c1 (fun h => by cases h))] at hf
        rw [fed_ok e]
        obtain ⟨⟨d2, p2⟩, g1, g2⟩ := Option.map_eq_some_iff.1 hf
        obtain ⟨d3, g3, g4⟩ := ih hq l ys hy (by simp only [List.length_cons] at hn; omega) g1
        rw [g3]
        obtain ⟨rfl, rfl⟩ := Prod.mk.inj g2
        exact ⟨d3, rfl, g4⟩
      | moreData =>
        rw [fed_congr (c2 rfl)] at hf
        match ys with
        | [] =>
          rw [List.flatten_nil, more_nil] at hf
          rw [List.flatten_nil, more_nil, more_nil] at c2
          rw [fed_congr (c2 rfl)]
          exact ⟨d', hf, rfl⟩
        | y :: ys =>
          rw [fed_more e]
          rw [List.flatten_cons, ← more_more] at hf
          refine ih (hq.more (hy y (by simp))) (cx :: l) ys (fun z hz => hy z (by simp [hz])) ?_ hf
          simp only [List.length_cons] at hn ⊢
          omega
      | marker => exact absurd rfl hr

/-! ## The decisions -/

theorem narrow_enough {i : Iv} (h : i.Ok) (cx : Cx) (pix : Bool) (n : Nat) (hn : 15 ≤ n) : Enough n false (i.narrow cx pix).a := by
  obtain ⟨p1, p2, p3, p4⟩ := part_facts (h.good cx) h.lo h.hi pix
  refine ⟨p1, ?_⟩
  rw [if_neg (by decide)]
  refine ⟨p4, ?_⟩
  have h1 := pow_bound hn
  have h2 : 1 * 2 ^ n ≤ (i.narrow cx pix).a * 2 ^ n := Nat.mul_le_mul_right _ p1
  omega

theorem narrow_grow {i : Iv} (h : i.Ok) (cx : Cx) (pix : Bool) : (i.narrow cx pix).grow 17 false = i.step cx pix := by
  rw [Iv.grow_more 16 (narrow_enough h cx pix 16 (by decide)) 17 (by decide), Iv.grow_renorm]
  rfl

theorem decode_spec {B tail : List Nat} (hb : ∀ b ∈ B, b < 256) {m : Nat} {rest : List Nat} (htail : tail = 0xFF :: m :: rest) (hm : m ≠ 0)
    {d : Dec} {j i : Iv} (h : DecR d j B tail) (hn : Enough 17 d.startup j.a) (hg : j.grow 17 d.startup = i) (hok : i.Ok) (cx : Cx) (pix : Bool)
    (hp : (i.narrow cx pix).Has B) : ∃ d', decodeAgain d cx = (d', .ok pix) ∧ DecR d' (i.narrow cx pix) B tail ∧ d'.startup = false := by
  obtain ⟨q, c, _⟩ := renormd_spec hb htail hm 17 h hn
  rcases c with ⟨c1, c2, c3⟩ | ⟨c1, c2, c3, j', c4, c5, c6⟩
  · rw [hg] at c3
    obtain ⟨d', e1, e2, e3, _⟩ := decision_spec hb c3 hok cx pix hp
    refine ⟨d', ?_, e2, e3.trans c2⟩
    refine decodeAgain_other (fun h => by cases h) ?_
    rw [decode_ok c1, e1]
  · rw [decodeAgain_marker (decode_marker c1 cx)]
    obtain ⟨q2, d1, _⟩ := renormd_spec hb htail hm 17 c4 c5
    rcases d1 with ⟨d1, d2, d3⟩ | ⟨_, d2, _⟩
    · rw [c6, hg] at d3
      obtain ⟨d', e1, e2, e3, _⟩ := decision_spec hb d3 hok cx pix hp
      refine ⟨d', ?_, e2, e3.trans d2⟩
      rw [decode_ok d1, e1]
    · rw [c3] at d2; cases d2

theorem steps_cons (i : Iv) (x : Cx × Bool) (l : List (Cx × Bool)) : i.steps (x :: l) = (i.step x.1 x.2).steps l := rfl

theorem decode_all {B tail : List Nat} (hb : ∀ b ∈ B, b < 256) {m : Nat} {rest : List Nat} (htail : tail = 0xFF :: m :: rest) (hm : m ≠ 0)
    (l : List (Cx × Bool)) {d : Dec} {j i : Iv} (h : DecR d j B tail) (hn : Enough 17 d.startup j.a) (hg : j.grow 17 d.startup = i) (hst : j.st = i.st)
    (hok : i.Ok) (hp : (i.steps l).Has B) : ∃ d', decodeFed d (l.map (·.1)) [] = some (d', l.map (·.2)) ∧ d'.st = (i.steps l).st := by
  induction l generalizing d j i with
  | nil =>
    refine ⟨d, ?_, ?_⟩
    · rw [List.map_nil, List.map_nil, decodeFed]
    · rw [h.st, hst]; rfl
  | cons x l ih =>
    rw [steps_cons] at hp ⊢
    obtain ⟨w1, w2⟩ := Iv.steps_ok l (i.step_ok hok x.1 x.2)
    have hnar : (i.narrow x.1 x.2).Has B := hp.within (w2.trans (Iv.renorm_within _ _))
    obtain ⟨q, e1, e2, e3⟩ := decode_spec hb htail hm h hn hg hok x.1 x.2 hnar
    have hen := narrow_enough hok x.1 x.2 17 (by decide)
    have hgr := narrow_grow hok x.1 x.2
    rw [← e3] at hen hgr
    have hs : (i.narrow x.1 x.2).st = (i.step x.1 x.2).st := (Iv.renorm_st _ _).symm
    obtain ⟨d', g1, g2⟩ := ih e2 hen hgr hs (i.step_ok hok x.1 x.2) hp
    refine ⟨d', ?_, g2⟩
    rw [List.map_cons, fed_ok e1, g1]
    rfl

/-! ## The start -/

theorem stuff_bytes {B : List Nat} (h : ∀ b ∈ B, b < 256) : ∀ b ∈ stuff B, b < 256 := by
  induction B with
  | nil => simp [stuff]
  | cons x B ih =>
    have hx := h x (by simp)
    have ih := ih (fun b hb => h b (by simp [hb]))
    intro b hb
    rw [stuff] at hb
    split at hb
    · rcases List.mem_cons.1 hb with rfl | hb
      · exact hx
      · rcases List.mem_cons.1 hb with rfl | hb
        · decide
        · exact ih b hb
    · rcases List.mem_cons.1 hb with rfl | hb
      · exact hx
      · exact ih b hb

theorem stuff_no_marker (B : List Nat) : ∀ k, (stuff B)[k]? = some 0xFF → (stuff B)[k + 1]? = some 0x00 := by
  induction B with
  | nil => intro k h; simp [stuff] at h
  | cons x B ih =>
    intro k h
    rw [stuff] at h ⊢
    by_cases hx : x = 0xFF
    · rw [if_pos hx] at h ⊢
      match k with
      | 0 => rfl
      | 1 => cases h
      | k + 2 => exact ih k h
    · rw [if_neg hx] at h ⊢
      match k with
      | 0 => exact absurd (Option.some.inj h) hx
      | k + 1 => exact ih k h

theorem start_enough : Enough 17 true 1 := ⟨by decide, by rw [if_pos rfl]; exact ⟨0, by decide, rfl, by decide⟩⟩

theorem start_safe {st : Cx → St} (h : ∀ cx, Good (st cx)) (reuse np : Bool) : (decodeRestart st reuse np []).Safe := by
  refine ⟨start_enough, ?_, ?_, ?_, ?_, fun _ => ?_, ?_⟩
  · cases reuse with
    | true => exact h
    | false => intro cx; show index 0 < prob.length; decide
  · show 0 < 1 * 2 ^ 16; decide
  · show (-1 : Int) ≤ 0; decide
  · show (0 : Int) ≤ 16; decide
  · show 0 % _ = 0; exact Nat.zero_mod _
  · intro b hb; cases hb

theorem start_decR {B : List Nat} (hb : ∀ b ∈ B, b < 256) (m : Nat) (rest : List Nat) (st : Cx → St) (reuse np : Bool) :
    DecR (decodeRestart st reuse np (stuff B ++ 0xFF :: m :: rest)) ⟨0, 1, 0, if reuse then st else fun _ => 0⟩ B (0xFF :: m :: rest) := by
  refine ⟨rfl, rfl, by show 1 ≤ 0x10000; decide, ⟨?_, ?_⟩, .inl ⟨0, 0, rfl, by decide, rfl, by omega, ?_, ?_⟩⟩
  · simp
  · have := val_lt B hb
    simpa using this
  · simp [decodeRestart, val]
  · simp [decodeRestart]

theorem after_safe (l : List DecEv) {d : Dec} (h : d.Safe) (hl : ∀ y, DecEv.data y ∈ l → ∀ b ∈ y, b < 256) : (d.after l).Safe := by
  induction l generalizing d with
  | nil => exact h
  | cons e l ih =>
    cases e with
    | data y => exact ih (h.more (hl y (by simp))) (fun y hy => hl y (by simp [hy]))
    | call cx => exact ih (decode_safe h cx).1 (fun y hy => hl y (by simp [hy]))

/-! ## The output only grows -/

theorem putStuffed_grows (s : Enc) (b : Nat) : s.out <+: (s.putStuffed b).out := by
  unfold Enc.putStuffed
  split
  · exact ⟨[b, 0], by simp [Enc.put]⟩
  · exact ⟨[b], by simp [Enc.put]⟩

theorem putBuffer_grows (s : Enc) (k : Nat) : s.out <+: (s.putBuffer k).out := by
  unfold Enc.putBuffer
  split
  · exact putStuffed_grows _ _
  · exact List.prefix_refl _

theorem repeat_grows (s : Enc) (b n : Nat) : s.out <+: (Nat.repeat (Enc.putStuffed · b) n s).out := by
  induction n with
  | zero => exact List.prefix_refl _
  | succ n ih => exact ih.trans (putStuffed_grows (Nat.repeat (Enc.putStuffed · b) n s) b)

theorem putPending_grows (s : Enc) (b : Nat) : s.out <+: (s.putPending b).out := repeat_grows s b s.sc

theorem byteout_grows (s : Enc) : s.out <+: (byteout s).out := by
  unfold byteout
  generalize s.c / 2 ^ 19 = t
  dsimp only
  by_cases h1 : t > 0xFF
  · rw [if_pos h1]; exact (putBuffer_grows s 1).trans (putPending_grows _ _)
  · rw [if_neg h1]
    by_cases h2 : t = 0xFF
    · rw [if_pos h2]; exact List.prefix_refl _
    · rw [if_neg h2]; exact (putBuffer_grows s 0).trans (putPending_grows _ _)

theorem renormeStep_grows (s : Enc) : s.out <+: (renormeStep s).out := by
  unfold renormeStep
  dsimp only
  by_cases h : s.ct - 1 = 0
  · rw [if_pos h]; exact byteout_grows { s with a := u32 (2 * s.a), c := u32 (2 * s.c), ct := s.ct - 1 }
  · rw [if_neg h]; exact List.prefix_refl _

theorem renorme_grows (n : Nat) (s : Enc) : s.out <+: (renorme n s).out := by
  induction n generalizing s with
  | zero => exact List.prefix_refl _
  | succ n ih =>
    rw [renorme]
    by_cases h : (renormeStep s).a < 0x8000
    · rw [if_pos h]; exact (renormeStep_grows s).trans (ih _)
    · rw [if_neg h]; exact renormeStep_grows s

theorem encode_grows (s : Enc) (cx : Cx) (pix : Bool) : s.out <+: (encode s cx pix).out := by
  unfold encode
  dsimp only
  generalize sub32 s.a (lsz (s.st cx)) = m
  by_cases h1 : pix ≠ mps (s.st cx)
  · rw [if_pos h1]
    by_cases h2 : m ≥ lsz (s.st cx)
    · rw [if_pos h2]; exact renorme_grows 16 { s with a := lsz (s.st cx), c := u32 (s.c + m), st := setSt s.st cx (afterLps (s.st cx)) }
    · rw [if_neg h2]; exact renorme_grows 16 { s with a := m, st := setSt s.st cx (afterLps (s.st cx)) }
  · rw [if_neg h1]
    by_cases h2 : m < 0x8000
    · rw [if_pos h2]
      by_cases h3 : m < lsz (s.st cx)
      · rw [if_pos h3]; exact renorme_grows 16 { s with a := lsz (s.st cx), c := u32 (s.c + m), st := setSt s.st cx (afterMps (s.st cx)) }
      · rw [if_neg h3]; exact renorme_grows 16 { s with a := m, st := setSt s.st cx (afterMps (s.st cx)) }
    · rw [if_neg h2]; exact List.prefix_refl _

theorem encodeAll_append (s : Enc) (l l' : List (Cx × Bool)) : encodeAll s (l ++ l') = encodeAll (encodeAll s l) l' := List.foldl_append

theorem encodeAll_grows (l : List (Cx × Bool)) (s : Enc) : s.out <+: (encodeAll s l).out := by
  induction l generalizing s with
  | nil => exact List.prefix_refl _
  | cons x l ih => exact (encode_grows s x.1 x.2).trans (ih _)

theorem finalBytes_grows (s : Enc) : s.out <+: (finalBytes s).out := by
  unfold finalBytes
  generalize s.c &&& 0x7FFF800 = x
  by_cases h : x ≠ 0
  · rw [if_pos h]
    dsimp only
    generalize (s.putStuffed (s.c / 2 ^ 19 % 256)).c &&& 0x7F800 = y
    by_cases h2 : y ≠ 0
    · rw [if_pos h2]; exact (putStuffed_grows _ _).trans (putStuffed_grows _ _)
    · rw [if_neg h2]; exact putStuffed_grows _ _
  · rw [if_neg h]; exact List.prefix_refl _

theorem finalZeros_grows (s : Enc) : s.out <+: (finalZeros s).out := by
  unfold finalZeros
  generalize s.c &&& 0x7FFF800 = x
  by_cases h : x ≠ 0
  · rw [if_pos h]; exact putPending_grows _ _
  · rw [if_neg h]; exact List.prefix_refl _

theorem flush_grows (s : Enc) : s.out <+: (flush s).out := by
  unfold flush finalWrites
  dsimp only
  generalize u32 (clearBits s.c s.a * 2 ^ s.ct) = w
  refine List.IsPrefix.trans ?_ (finalBytes_grows _)
  by_cases h : w > 0x7FFFFFF
  · rw [if_pos h]; exact (putBuffer_grows { s with c := w } 1).trans (finalZeros_grows _)
  · rw [if_neg h]; exact (putBuffer_grows { s with c := w } 0).trans (putPending_grows _ _)

end Qm
