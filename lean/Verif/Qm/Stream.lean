import Verif.Qm.Session

/-!
# A stripe of decisions, and what follows it

The decoder has read all the bytes of a stripe after the last decision, and with `nopadding` it does not make the last decision before it has seen the marker.
-/

namespace Qm

attribute [local irreducible] u32 sub32 decode decision renormd

/-- The decisions which a decoder will make, until it has read everything up to `tail`, and then has the states `fin`. -/
def Comes (tail : List Nat) (fin : Cx → St) : Dec → List (Cx × Bool) → Prop
  | d, [] => d.data = tail ∧ d.st = fin
  | d, x :: l => (∃ d', decodeAgain d x.1 = (d', .ok x.2) ∧ Comes tail fin d' l) ∧ (l = [] → d.nopadding = true → ∀ b, (decode d x.1).2 ≠ .ok b)

/-! ## Without a marker there are at least eight bits -/

def Dec.Fresh (d : Dec) : Prop := d.nopadding = true → 0 ≤ d.ct ∧ (d.startup = true ∨ 8 ≤ d.ct)

theorem fill_np (n : Nat) (a c : Nat) (st : Cx → St) (ct : Int) (su np : Bool) (x : List Nat) (hn : x.length ≤ n) (hct : 0 ≤ ct) (h : (fill a c st ct su np x).2 = .ok ()) :
    (fill a c st ct su np x).1.nopadding = np ∧ (np = true → 8 < (fill a c st ct su np x).1.ct) := by
  induction n generalizing c ct x with
  | zero =>
    rw [List.length_eq_zero_iff.1 (show x.length = 0 by omega)] at h ⊢
    rw [fill.eq_def] at h ⊢
    by_cases hl : ct ≤ 8 ∧ ct ≥ 0
    · rw [if_pos hl] at h; cases h
    · rw [if_neg hl]; exact ⟨rfl, fun _ => by dsimp only; omega⟩
  | succ n ih =>
    rw [fill.eq_def] at h ⊢
    by_cases hl : ct ≤ 8 ∧ ct ≥ 0
    · rw [if_pos hl] at h ⊢
      match x with
      | [] => cases h
      | b :: t =>
        dsimp only at h ⊢
        by_cases hff : b = 0xFF
        · rw [if_pos hff] at h ⊢
          match t with
          | [] => cases h
          | b' :: t' =>
            dsimp only at h ⊢
            by_cases hz : b' = 0
            · rw [if_pos hz] at h ⊢
              exact ih _ _ t' (by simp only [List.length_cons] at hn; omega) (by omega) h
            · rw [if_neg hz] at h ⊢
              cases np with
              | true => cases h
              | false => exact ⟨rfl, fun h => by cases h⟩
        · rw [if_neg hff] at h ⊢
          exact ih _ _ t (by simp only [List.length_cons] at hn; omega) (by omega) h
    · rw [if_neg hl]; exact ⟨rfl, fun _ => by dsimp only; omega⟩

theorem fill_same_np (n : Nat) (a c : Nat) (st : Cx → St) (ct : Int) (su np : Bool) (x : List Nat) (hn : x.length ≤ n) (h : (fill a c st ct su np x).2 ≠ .marker) :
    (fill a c st ct su np x).1.nopadding = np := by
  induction n generalizing c ct x with
  | zero =>
    rw [List.length_eq_zero_iff.1 (show x.length = 0 by omega)] at h ⊢
    rw [fill.eq_def] at h ⊢
    by_cases hl : ct ≤ 8 ∧ ct ≥ 0
    · rw [if_pos hl]
    · rw [if_neg hl]
  | succ n ih =>
    rw [fill.eq_def] at h ⊢
    by_cases hl : ct ≤ 8 ∧ ct ≥ 0
    · rw [if_pos hl] at h ⊢
      match x with
      | [] => rfl
      | b :: t =>
        dsimp only at h ⊢
        by_cases hff : b = 0xFF
        · rw [if_pos hff] at h ⊢
          match t with
          | [] => rfl
          | b' :: t' =>
            dsimp only at h ⊢
            by_cases hz : b' = 0
            · rw [if_pos hz] at h ⊢
              exact ih _ _ t' (by simp only [List.length_cons] at hn; omega) h
            · rw [if_neg hz] at h ⊢
              cases np with
              | true => exact absurd rfl h
              | false => rfl
        · rw [if_neg hff] at h ⊢
          exact ih _ _ t (by simp only [List.length_cons] at hn; omega) h
    · rw [if_neg hl]

theorem renormd_same_np (n : Nat) (d : Dec) (h : (renormd n d).2 ≠ .marker) : (renormd n d).1.nopadding = d.nopadding := by
  induction n generalizing d with
  | zero => rw [renormd]
  | succ n ih =>
    by_cases hl : d.a < 0x8000 ∨ d.startup = true
    · have hf := fill_same_np _ d.a d.c d.st d.ct d.startup d.nopadding d.data (Nat.le_refl _)
      obtain ⟨q, r, e⟩ := pair_eq (fill d.a d.c d.st d.ct d.startup d.nopadding d.data)
      rw [e] at hf
      cases r with
      | ok x => rw [renormd_round hl e] at h ⊢; exact (ih _ h).trans (hf (fun h => by cases h))
      | moreData => rw [renormd_stop hl (fun h => by cases h) e]; exact hf (fun h => by cases h)
      | marker => rw [renormd_stop hl (fun h => by cases h) e] at h; exact absurd rfl h
    · rw [renormd_done hl]

theorem renormd_fresh (n : Nat) (d : Dec) (hf : d.Fresh) (h : (renormd n d).2 = .ok ()) : (renormd n d).1.Fresh := by
  induction n generalizing d with
  | zero => rw [renormd]; exact hf
  | succ n ih =>
    by_cases hl : d.a < 0x8000 ∨ d.startup = true
    · have hs := fill_same_np _ d.a d.c d.st d.ct d.startup d.nopadding d.data (Nat.le_refl _)
      have hn := fill_np _ d.a d.c d.st d.ct d.startup d.nopadding d.data (Nat.le_refl _)
      obtain ⟨q, r, e⟩ := pair_eq (fill d.a d.c d.st d.ct d.startup d.nopadding d.data)
      rw [e] at hs hn
      cases r with
      | ok x =>
        rw [renormd_round hl e] at h ⊢
        refine ih _ ?_ h
        intro hq
        have hq' : q.nopadding = true := hq
        have hd : d.nopadding = true := by rw [← hs (fun h => by cases h)]; exact hq'
        have h8 : 8 < q.ct := (hn (hf hd).1 rfl).2 hd
        have e : (Dec.shifted q).ct = q.ct - 1 := by
          show (if q.ct ≥ 0 then q.ct - 1 else q.ct) = q.ct - 1
          rw [if_pos (by omega)]
        rw [e]
        exact ⟨by omega, .inr (by omega)⟩
      | moreData => rw [renormd_stop hl (fun h => by cases h) e] at h; cases h
      | marker => rw [renormd_stop hl (fun h => by cases h) e] at h; cases h
    · rw [renormd_done hl]; exact hf

theorem decode_same_np {d d' : Dec} {cx : Cx} {r : Ret Bool} (h : decode d cx = (d', r)) (hr : r ≠ .marker) : d'.nopadding = d.nopadding := by
  have hm := renormd_same_np 17 d
  obtain ⟨q, r', e⟩ := pair_eq (renormd 17 d)
  rw [e] at hm
  cases r' with
  | ok x =>
    rw [decode_ok e] at h
    obtain ⟨rfl, rfl⟩ := Prod.mk.inj h
    obtain ⟨a, c, st, pix, hf⟩ := decision_frame q cx
    have := hf q.data
    rw [show decision q cx = _ from this]
    exact hm (fun h => by cases h)
  | moreData =>
    rw [decode_moreData e] at h
    obtain ⟨rfl, rfl⟩ := Prod.mk.inj h
    exact hm (fun h => by cases h)
  | marker =>
    rw [decode_marker e] at h
    exact absurd (Prod.mk.inj h).2.symm hr

/-! ## The scale of the last decision -/

theorem Iv.renorm_t (n k : Nat) (i : Iv) (h : 0x8000 ≤ i.a * 2 ^ k) : (i.renorm n).t ≤ i.t + k := by
  induction n generalizing i k with
  | zero => rw [Iv.renorm]; omega
  | succ n ih =>
    rw [Iv.renorm]
    by_cases hl : i.a < 0x8000
    · rw [if_pos hl]
      match k with
      | 0 => simp at h; omega
      | k + 1 =>
        have := ih k (i.finer 1) (by rw [Iv.finer_a, Nat.mul_comm 2, Nat.mul_assoc, ← Nat.pow_succ']; exact h)
        have e : (i.finer 1).t = i.t + 1 := rfl
        omega
    · rw [if_neg hl]; omega

theorem step_t {i : Iv} (h : i.Ok) (cx : Cx) (pix : Bool) : (i.step cx pix).t ≤ i.t + 15 := by
  obtain ⟨p1, p2⟩ := narrow_enough h cx pix 15 (Nat.le_refl _)
  rw [if_neg (by decide)] at p2
  exact Iv.renorm_t 16 15 (i.narrow cx pix) p2.2

theorem DecR.read_all {d : Dec} {i : Iv} {B tail : List Nat} (h : DecR d i B tail) (hl : 8 * B.length ≤ i.t + 7) : d.data = tail := by
  rcases h.num with ⟨k, ct, e, h1, h2, h3, h4, h5⟩ | ⟨_, _, h5⟩
  · rw [h5, List.drop_eq_nil_of_le (by omega)]
    rfl
  · exact h5

/-! ## All the decisions -/

theorem decode_fresh {d d' : Dec} {cx : Cx} {b : Bool} (hf : d.Fresh) (h : decode d cx = (d', .ok b)) : d'.Fresh := by
  have hm := renormd_fresh 17 d hf
  obtain ⟨q, r', e⟩ := pair_eq (renormd 17 d)
  rw [e] at hm
  cases r' with
  | ok x =>
    rw [decode_ok e] at h
    obtain ⟨rfl, _⟩ := Prod.mk.inj h
    obtain ⟨a, c, st, pix, hf⟩ := decision_frame q cx
    have := hf q.data
    rw [show decision q cx = _ from this]
    exact hm rfl
  | moreData => rw [decode_moreData e] at h; cases (Prod.mk.inj h).2
  | marker => rw [decode_marker e] at h; cases (Prod.mk.inj h).2

/-- After a decision, which may have needed a second call. -/
theorem decodeAgain_fresh {d d' : Dec} {cx : Cx} {b : Bool} (hs : d.Safe) (hf : d.Fresh) (h : decodeAgain d cx = (d', .ok b)) : d'.Fresh := by
  obtain ⟨q, r, e⟩ := pair_eq (decode d cx)
  cases r with
  | ok x =>
    rw [decodeAgain_other (fun h => by cases h) e] at h
    obtain ⟨rfl, _⟩ := Prod.mk.inj h
    exact decode_fresh hf e
  | moreData => rw [decodeAgain_other (fun h => by cases h) e] at h; cases (Prod.mk.inj h).2
  | marker =>
    rw [decodeAgain_marker e] at h
    intro hn
    rw [(decode_no_marker (decode_safe' hs e) (decode_np e) h).2] at hn
    cases hn

theorem decodeAgain_safe {d d' : Dec} {cx : Cx} {r : Ret Bool} (hs : d.Safe) (h : decodeAgain d cx = (d', r)) : d'.Safe := by
  obtain ⟨q, r', e⟩ := pair_eq (decode d cx)
  cases r' with
  | ok x =>
    rw [decodeAgain_other (fun h => by cases h) e] at h
    obtain ⟨rfl, _⟩ := Prod.mk.inj h
    exact decode_safe' hs e
  | moreData =>
    rw [decodeAgain_other (fun h => by cases h) e] at h
    obtain ⟨rfl, _⟩ := Prod.mk.inj h
    exact decode_safe' hs e
  | marker =>
    rw [decodeAgain_marker e] at h
    exact decode_safe' (decode_safe' hs e) h

theorem comes_all {B tail : List Nat} (hb : ∀ b ∈ B, b < 256) {m : Nat} {rest : List Nat} (htail : tail = 0xFF :: m :: rest) (hm : m ≠ 0)
    (l : List (Cx × Bool)) {d : Dec} {j i : Iv} (h : DecR d j B tail) (hn : Enough 17 d.startup j.a) (hg : j.grow 17 d.startup = i) (hst : j.st = i.st)
    (hok : i.Ok) (hp : (i.steps l).Has B) (hs : d.Safe) (hf : d.Fresh) (hl : 8 * B.length + 8 ≤ (i.steps l).t) (he : l = [] → d.data = tail) :
    Comes tail (i.steps l).st d l := by
  induction l generalizing d j i with
  | nil => exact ⟨he rfl, by rw [h.st, hst]; rfl⟩
  | cons x l ih =>
    rw [steps_cons] at hp hl ⊢
    obtain ⟨w1, w2⟩ := Iv.steps_ok l (i.step_ok hok x.1 x.2)
    have hnar : (i.narrow x.1 x.2).Has B := hp.within (w2.trans (Iv.renorm_within _ _))
    obtain ⟨q, e1, e2, e3⟩ := decode_spec hb htail hm h hn hg hok x.1 x.2 hnar
    have hen := narrow_enough hok x.1 x.2 17 (by decide)
    have hgr := narrow_grow hok x.1 x.2
    rw [← e3] at hen hgr
    have hs' : (i.narrow x.1 x.2).st = (i.step x.1 x.2).st := (Iv.renorm_st _ _).symm
    have hsq := decodeAgain_safe hs e1
    have hfq := decodeAgain_fresh hs hf e1
    have ht := step_t hok x.1 x.2
    have hnt : (i.narrow x.1 x.2).t = i.t := rfl
    refine ⟨⟨q, e1, ih e2 hen hgr hs' (i.step_ok hok x.1 x.2) hp hsq hfq hl ?_⟩, ?_⟩
    · rintro rfl
      refine e2.read_all ?_
      rw [hnt]
      have : 8 * B.length + 8 ≤ (i.step x.1 x.2).t := hl
      omega
    · rintro rfl hnp b hbb
      have hl' : 8 * B.length + 8 ≤ (i.step x.1 x.2).t := hl
      obtain ⟨q', r', e⟩ := pair_eq (decode d x.1)
      rw [e] at hbb
      have hbb' : r' = .ok b := hbb
      subst hbb'
      rw [decodeAgain_other (fun h => by cases h) e] at e1
      obtain ⟨rfl, _⟩ := Prod.mk.inj e1
      have hnp' : q'.nopadding = true := by rw [decode_same_np e (fun h => by cases h)]; exact hnp
      obtain ⟨f1, f2⟩ := hfq hnp'
      rw [e3] at f2
      have f3 : 8 ≤ q'.ct := by
        rcases f2 with f2 | f2
        · cases f2
        · exact f2
      rcases e2.num with ⟨k, ct, n0, n1, n2, n3, n4, n5⟩ | ⟨n0, _, n5⟩
      · rw [hnt] at n2
        omega
      · omega

/-- The bytes of a stripe, behind them a marker, and behind it anything. -/
theorem comes_start (st : Cx → St) (hst : ∀ cx, index (st cx) < prob.length) (np : Bool) (l : List (Cx × Bool)) (hne : l ≠ []) (m : Nat) (hm : m ≠ 0) (hm' : m < 256)
    (rest : List Nat) (hrest : ∀ b ∈ rest, b < 256) :
    ∃ B, (flush (encodeAll (encodeRestart st true) l)).out = stuff B ∧ (∀ b ∈ B, b < 256) ∧
      Comes (0xFF :: m :: rest) (encodeAll (encodeRestart st true) l).st ((decodeRestart st true np []).more (stuff B ++ 0xFF :: m :: rest)) l := by
  have hok : (Iv.start st).Ok := Iv.start_ok hst
  obtain ⟨done, hr⟩ := encodeAll_spec l (encR_start st true) hok
  obtain ⟨w1, w2⟩ := Iv.steps_ok l hok
  obtain ⟨B, b1, b2, b3, b4⟩ := flush_spec hr w1
  refine ⟨B, b1, b2, ?_⟩
  rw [hr.st]
  have hbytes : ∀ b ∈ stuff B ++ 0xFF :: m :: rest, b < 256 := by
    intro b hmem
    rcases List.mem_append.1 hmem with hx | hx
    · exact stuff_bytes b2 b hx
    · rcases List.mem_cons.1 hx with hx | hx
      · omega
      · rcases List.mem_cons.1 hx with rfl | hx
        · exact hm'
        · exact hrest b hx
  have hsafe := (start_safe hst true np).more hbytes
  have hg : (⟨0, 1, 0, st⟩ : Iv).grow 17 (decodeRestart st true np (stuff B ++ 0xFF :: m :: rest)).startup = Iv.start st := Iv.grow_start _
  refine comes_all b2 (tail := 0xFF :: m :: rest) rfl hm l (start_decR b2 m rest st true np) start_enough hg rfl hok b3 hsafe ?_ b4 (fun h => absurd h hne)
  exact fun _ => ⟨Int.le_refl _, .inl rfl⟩

/-! ## A part of the data -/

/-- A call while only a part of the data is there. -/
theorem comes_step {tail : List Nat} {fin : Cx → St} {d : Dec} {y : List Nat} {x : Cx × Bool} {l : List (Cx × Bool)} (h : Comes tail fin (d.more y) (x :: l))
    (hs : d.Safe) (hy : ∀ b ∈ y, b < 256) :
    ∃ d', d'.Safe ∧ (∃ R, d.data = stuff R ++ d'.data) ∧
      ((decode d x.1 = (d', .ok x.2) ∧ Comes tail fin (d'.more y) l ∧ d'.nopadding = d.nopadding ∧ (l = [] → d.nopadding = false)) ∨
      (decode d x.1 = (d', .moreData) ∧ Comes tail fin (d'.more y) (x :: l) ∧ d'.nopadding = d.nopadding ∧ (d'.data = [] ∨ d'.data = [0xFF])) ∨
      (decode d x.1 = (d', .marker) ∧ Comes tail fin (d'.more y) (x :: l) ∧ d.nopadding = true ∧ ∃ m r, d'.data = 0xFF :: m :: r ∧ m ≠ 0)) := by
  obtain ⟨⟨q, h1, h2⟩, h3⟩ := h
  obtain ⟨a1, a2⟩ := decode_append hs x.1 hy
  obtain ⟨d', r, e⟩ := pair_eq (decode d x.1)
  have hs' := decode_safe' hs e
  have hre := (decode_safe hs x.1).2.1
  rw [e] at hre
  cases r with
  | ok b =>
    have e' := a1 d' _ e (fun h => by cases h)
    rw [decodeAgain_other (fun h => by cases h) e'] at h1
    obtain ⟨hq, hb⟩ := Prod.mk.inj h1
    obtain rfl : b = x.2 := by injection hb
    refine ⟨d', hs', hre, .inl ⟨e, by rw [hq]; exact h2, decode_same_np e (fun h => by cases h), fun hl => ?_⟩⟩
    cases hn : d.nopadding with
    | false => rfl
    | true =>
      have := h3 hl hn x.2
      rw [e'] at this
      exact absurd rfl this
  | moreData =>
    have e' := a2 d' e
    obtain ⟨R, r1, r2⟩ := hre
    have hnp := decode_same_np e (fun h => by cases h)
    refine ⟨d', hs', ⟨R, r1⟩, .inr (.inl ⟨e, ⟨⟨q, ?_, h2⟩, fun hl hn b => ?_⟩, hnp, r2⟩)⟩
    · unfold decodeAgain at h1 ⊢
      rw [← e']
      exact h1
    · rw [← e']
      exact h3 hl (by show d.nopadding = true; rw [← hnp]; exact hn) b
  | marker =>
    have e' := a1 d' _ e (fun h => by cases h)
    obtain ⟨⟨R, r1, r2⟩, r3⟩ := hre
    have hnp := decode_np e
    refine ⟨d', hs', ⟨R, r1⟩, .inr (.inr ⟨e, ⟨⟨q, ?_, h2⟩, fun hl hn b => ?_⟩, r3, r2⟩)⟩
    · rw [decodeAgain_marker e'] at h1
      exact decodeAgain_other (fun h => by cases h) h1
    · have : d'.nopadding = true := hn
      rw [hnp] at this
      cases this

/-! ## The padding is allowed -/

def Dec.pad (d : Dec) : Dec := { d with nopadding := false }

theorem fill_pad (n : Nat) (a c : Nat) (st : Cx → St) (ct : Int) (su np : Bool) (x : List Nat) (hn : x.length ≤ n) :
    ((fill a c st ct su np x).2 ≠ .marker → fill a c st ct su false x = ((fill a c st ct su np x).1.pad, (fill a c st ct su np x).2)) ∧
    ((fill a c st ct su np x).2 = .marker → fill a c st ct su false x = ((fill a c st ct su np x).1, .ok ()) ∧ (fill a c st ct su np x).1.ct = -1 ∧
      (fill a c st ct su np x).1.a = a ∧ (fill a c st ct su np x).1.startup = su ∧ (fill a c st ct su np x).1.nopadding = false) := by
  induction n generalizing c ct x with
  | zero =>
    rw [List.length_eq_zero_iff.1 (show x.length = 0 by omega)]
    rw [fill.eq_def, fill.eq_def (nopadding := false)]
    by_cases hl : ct ≤ 8 ∧ ct ≥ 0
    · simp only [if_pos hl]; exact ⟨fun _ => rfl, fun h => by cases h⟩
    · simp only [if_neg hl]; exact ⟨fun _ => rfl, fun h => by cases h⟩
  | succ n ih =>
    rw [fill.eq_def, fill.eq_def (nopadding := false)]
    by_cases hl : ct ≤ 8 ∧ ct ≥ 0
    · simp only [if_pos hl]
      match x with
      | [] => exact ⟨fun _ => rfl, fun h => by cases h⟩
      | b :: t =>
        dsimp only
        by_cases hff : b = 0xFF
        · simp only [if_pos hff]
          match t with
          | [] => exact ⟨fun _ => rfl, fun h => by cases h⟩
          | b' :: t' =>
            dsimp only
            by_cases hz : b' = 0
            · simp only [if_pos hz]
              exact ih _ _ t' (by simp only [List.length_cons] at hn; omega)
            · simp only [if_neg hz]
              cases np with
              | true => exact ⟨fun h => absurd rfl h, fun _ => ⟨rfl, rfl, rfl, rfl, rfl⟩⟩
              | false => exact ⟨fun _ => rfl, fun h => by cases h⟩
        · simp only [if_neg hff]
          exact ih _ _ t (by simp only [List.length_cons] at hn; omega)
    · simp only [if_neg hl]; exact ⟨fun _ => rfl, fun h => by cases h⟩

theorem renormd_pad (n : Nat) {d q : Dec} {r : Ret Unit} (hs : d.Safe) (hn : Enough n d.startup d.a) (h : renormd n d = (q, r)) :
    (r ≠ .marker → renormd n d.pad = (q.pad, r)) ∧ (r = .marker → renormd n d.pad = renormd n q ∧ q.Safe ∧ Enough n q.startup q.a) := by
  induction n generalizing d with
  | zero =>
    rw [renormd] at h ⊢
    obtain ⟨rfl, rfl⟩ := Prod.mk.inj h
    exact ⟨fun _ => rfl, fun h => by cases h⟩
  | succ n ih =>
    by_cases hl : d.a < 0x8000 ∨ d.startup = true
    · obtain ⟨f1, f2⟩ := fill_pad _ d.a d.c d.st d.ct d.startup d.nopadding d.data (Nat.le_refl _)
      have fs := fill_safe _ (Nat.le_refl _) hs
      obtain ⟨q', r', e⟩ := pair_eq (fill d.a d.c d.st d.ct d.startup d.nopadding d.data)
      rw [e] at fs
      have hlp : d.pad.a < 0x8000 ∨ d.pad.startup = true := hl
      cases r' with
      | ok x =>
        have e' : fill d.pad.a d.pad.c d.pad.st d.pad.ct d.pad.startup d.pad.nopadding d.pad.data = (q'.pad, .ok x) := by
          have := f1 (by rw [e]; exact fun h => by cases h)
          rw [e] at this
          exact this
        rw [renormd_round hl e] at h
        rw [renormd_round hlp e']
        obtain ⟨g1, g2⟩ := ih (fs.1.shift (by rw [fs.2.2.1, fs.2.2.2.2.1]; exact hl)) (hn.shifted hl fs.2.2.1 fs.2.2.2.2.1) h
        refine ⟨g1, fun hr => ?_⟩
        obtain ⟨k1, k2, k3⟩ := g2 hr
        refine ⟨?_, k2, k3.more _ (by omega)⟩
        rw [renormd_more n k2 k3 (n + 1) (by omega), ← k1]
        rfl
      | moreData =>
        have e' : fill d.pad.a d.pad.c d.pad.st d.pad.ct d.pad.startup d.pad.nopadding d.pad.data = (q'.pad, .moreData) := by
          have := f1 (by rw [e]; exact fun h => by cases h)
          rw [e] at this
          exact this
        rw [renormd_stop hl (fun h => by cases h) e] at h
        rw [renormd_stop hlp (fun h => by cases h) e']
        obtain ⟨rfl, rfl⟩ := Prod.mk.inj h
        exact ⟨fun _ => rfl, fun h => by cases h⟩
      | marker =>
        obtain ⟨g1, g2, g3, g4, g5⟩ := f2 (by rw [e])
        rw [e] at g1 g2 g3 g4 g5
        dsimp only at g1 g2 g3 g4 g5
        have e' : fill d.pad.a d.pad.c d.pad.st d.pad.ct d.pad.startup d.pad.nopadding d.pad.data = (q', .ok ()) := g1
        rw [renormd_stop hl (fun h => by cases h) e] at h
        rw [renormd_round hlp e']
        obtain ⟨rfl, rfl⟩ := Prod.mk.inj h
        refine ⟨fun h => absurd rfl h, fun _ => ⟨?_, fs.1, by rw [g3, g4]; exact hn⟩⟩
        have hlq : q'.a < 0x8000 ∨ q'.startup = true := by rw [g3, g4]; exact hl
        have e2 : fill q'.a q'.c q'.st q'.ct q'.startup q'.nopadding q'.data = (q', .ok ()) := by
          rw [fill.eq_def, if_neg (by omega)]
        rw [renormd_round hlq e2]
    · have hlp : ¬(d.pad.a < 0x8000 ∨ d.pad.startup = true) := hl
      rw [renormd_done hl] at h
      rw [renormd_done hlp]
      obtain ⟨rfl, rfl⟩ := Prod.mk.inj h
      exact ⟨fun _ => rfl, fun h => by cases h⟩

theorem decision_eq (a c : Nat) (st : Cx → St) (ct : Int) (data : List Nat) (su np : Bool) (cx : Cx) :
    decision ⟨a, c, st, ct, data, su, np⟩ cx =
      if c / 2 ^ 16 ≥ sub32 a (lsz (st cx)) then
        if sub32 a (lsz (st cx)) < lsz (st cx) then
          (⟨lsz (st cx), sub32 c (u32 (sub32 a (lsz (st cx)) * 2 ^ 16)), setSt st cx (afterMps (st cx)), ct, data, su, np⟩, mps (st cx))
        else (⟨lsz (st cx), sub32 c (u32 (sub32 a (lsz (st cx)) * 2 ^ 16)), setSt st cx (afterLps (st cx)), ct, data, su, np⟩, !mps (st cx))
      else if sub32 a (lsz (st cx)) < 0x8000 then
        if sub32 a (lsz (st cx)) < lsz (st cx) then
          (⟨sub32 a (lsz (st cx)), c, setSt st cx (afterLps (st cx)), ct, data, su, np⟩, !mps (st cx))
        else (⟨sub32 a (lsz (st cx)), c, setSt st cx (afterMps (st cx)), ct, data, su, np⟩, mps (st cx))
      else (⟨sub32 a (lsz (st cx)), c, st, ct, data, su, np⟩, mps (st cx)) := by
  unfold decision
  rfl

theorem decision_pad (d : Dec) (cx : Cx) : decision d.pad cx = ((decision d cx).1.pad, (decision d cx).2) := by
  obtain ⟨a, c, st, ct, data, su, np⟩ := d
  show decision ⟨a, c, st, ct, data, su, false⟩ cx = _
  rw [decision_eq, decision_eq]
  generalize sub32 a (lsz (st cx)) = m
  by_cases h1 : c / 2 ^ 16 ≥ m
  · simp only [if_pos h1]
    by_cases h2 : m < lsz (st cx)
    · simp only [if_pos h2, Dec.pad]
    · simp only [if_neg h2, Dec.pad]
  · simp only [if_neg h1]
    by_cases h3 : m < 0x8000
    · simp only [if_pos h3]
      by_cases h2 : m < lsz (st cx)
      · simp only [if_pos h2, Dec.pad]
      · simp only [if_neg h2, Dec.pad]
    · simp only [if_neg h3, Dec.pad]

theorem pad_pad {d : Dec} (h : d.nopadding = false) : d.pad = d := by
  unfold Dec.pad
  rw [← h]

theorem pair_pad {u v : Dec × Bool} {d : Dec} {b : Bool} (h : u = (v.1.pad, v.2)) (h1 : v.1 = d) (h2 : v.2 = b) : (u.1, Ret.ok u.2) = (d.pad, Ret.ok b) := by
  subst h h1 h2
  rfl

theorem decode_pad {d d' : Dec} {cx : Cx} {b : Bool} (hs : d.Safe) (h : decodeAgain d cx = (d', .ok b)) : decode d.pad cx = (d'.pad, .ok b) := by
  obtain ⟨q, r, e⟩ := pair_eq (renormd 17 d)
  obtain ⟨p1, p2⟩ := renormd_pad 17 hs hs.enough e
  cases r with
  | ok x =>
    have e' : renormd 17 d.pad = (q.pad, .ok ()) := p1 (fun h => by cases h)
    have ed := decode_ok e cx
    rw [decodeAgain_other (fun h => by cases h) ed] at h
    obtain ⟨h1, h2⟩ := Prod.mk.inj h
    have h3 : (decision q cx).2 = b := by injection h2
    have hd := decision_pad q cx
    exact (decode_ok e' cx).trans (pair_pad hd h1 h3)
  | moreData =>
    have ed := decode_moreData e cx
    rw [decodeAgain_other (fun h => by cases h) ed] at h
    cases (Prod.mk.inj h).2
  | marker =>
    obtain ⟨g1, g2, g3⟩ := p2 rfl
    have g1' : renormd 17 d.pad = renormd 17 q := g1
    have ed := decode_marker e cx
    rw [decodeAgain_marker ed] at h
    have hn : d'.nopadding = false := (decode_no_marker g2 (decode_np ed) h).2
    rw [decode_congr g1' cx, h, pad_pad hn]

/-- The end of a stripe, where padding is allowed. -/
theorem comes_pad {tail : List Nat} {fin : Cx → St} (l : List (Cx × Bool)) {d : Dec} (h : Comes tail fin d l) (hs : d.Safe) : Comes tail fin d.pad l := by
  induction l generalizing d with
  | nil => exact h
  | cons x l ih =>
    obtain ⟨⟨q, h1, h2⟩, _⟩ := h
    refine ⟨⟨q.pad, decodeAgain_other (fun h => by cases h) (decode_pad hs h1), ih h2 (decodeAgain_safe hs h1)⟩, fun _ hn => ?_⟩
    cases hn

end Qm
