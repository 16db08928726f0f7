import Verif.V42bis.Send

/-! # The compressor and the decompressor in step -/

namespace V42bis

/-- What is always true of the compressor `E`, the decompressor `D` which has seen all codes and the decompressor `Dr` which has seen all octets. -/
structure Base (E D Dr : S) : Prop where
  ep : E.p0 = true
  dp : D.p0 = true
  n2 : D.n2 = E.n2
  n7 : D.n7 = E.n7
  n2lo : 512 ≤ E.n2
  n7lo : 2 ≤ E.n7
  eok : E.w.o.Ok
  dok : D.w.o.Ok
  c2 : E.w.c2 = D.w.c2
  c2lo : 9 ≤ D.w.c2
  c2hi : D.w.c2 ≤ 12
  c3 : E.w.c3 = 2 ^ E.w.c2
  esc : D.esc = E.esc
  escd : D.escaped = false
  tr : D.transparent = E.transparent
  ge : GoodK E.n2 E.n7 E.core
  gd : GoodK E.n2 E.n7 D.core
  lag : Lag E.w D Dr
  lm3 : E.lastMatched = 0 ∨ 3 ≤ E.lastMatched

/-- Compressed mode. -/
structure Cmp (E D : S) : Prop where
  tr : E.transparent = false
  fl : E.flushed = 0
  lm : D.lastMatched = 0
  str : D.str = []
  dfl : D.flushed = 0

/-- The data which the two sides have seen, and the length of the data when the compressor was flushed. -/
structure Data (data : List Byte) (f : Int) (E D : S) : Prop where
  out : D.w.o.total ++ D.str ++ E.str = data
  fl : E.flushed ≠ 0 → (data.length : Int) ≤ f + E.str.length

/-- Between two calls. -/
def R0 (data : List Byte) (f : Int) (E D Dr : S) : Prop :=
  Base E D Dr ∧ Data data f E D ∧
    ((E.transparent = true ∧ E.w.bitCount = 0 ∧ kRun E.n2 E.n7 D.core E.str = .ok E.core) ∨
     (Cmp E D ∧
       ((E.lastMatched = 0 ∧ E.str = [] ∧ D.dict = E.dict ∧ D.c1 = E.c1 ∧ D.updateAt = E.updateAt ∧
          (E.updateAt ≠ 0 → E.w.bitCount = 0)) ∨
        (∃ p r, E.str = p :: r ∧ E.updateAt = 0 ∧ Path E.dict E.lastMatched E.str ∧ Upd D E.dict E.c1 E.lastAdded E.lastMatched p))))

/-- Before the match of `b`. -/
def RM (data : List Byte) (f : Int) (E D Dr : S) (b : Byte) : Prop :=
  Base E D Dr ∧ Data data f E D ∧ E.updateAt = 0 ∧
    ((E.transparent = true ∧ E.w.bitCount = 0 ∧ ∃ k, kRun E.n2 E.n7 D.core E.str = .ok k ∧
        (kIter E.n2 E.n7 k b = kIter E.n2 E.n7 E.core b ∨ (E.lastMatched = 0 ∧ kTwice E.n2 E.n7 k b = kTwice E.n2 E.n7 E.core b))) ∨
     (Cmp E D ∧ Path E.dict E.lastMatched E.str ∧
        ∃ p, ((E.str = [] ∧ p = b) ∨ ∃ r, E.str = p :: r) ∧ Upd D E.dict E.c1 E.lastAdded E.lastMatched p))

/-- The dictionaries agree, and the next octet is `b`. -/
def CPend (E D : S) (b : Byte) : Prop :=
  Cmp E D ∧ D.dict = E.dict ∧ D.c1 = E.c1 ∧
    (D.updateAt = E.updateAt ∨ (E.updateAt = 0 ∧ ∃ p, p ≠ 0 ∧ matchOctet D.dict D.updateAt b = .ok p))

/-- When `b` has ended a string. -/
def RB (data : List Byte) (f : Int) (E D Dr : S) (b : Byte) : Prop :=
  Base E D Dr ∧ Data data f E D ∧ E.lastMatched = 0 ∧ E.str = [] ∧
    ((E.transparent = true ∧ E.w.bitCount = 0 ∧ kIter E.n2 E.n7 D.core b = .ok (E.core, false)) ∨ CPend E D b)

/-- When `b` has ended a string, after the mode has been looked at. -/
def RP (data : List Byte) (f : Int) (E D Dr : S) (b : Byte) : Prop :=
  Base E D Dr ∧ Data data f E D ∧ E.lastMatched = 0 ∧ E.str = [] ∧
    ((E.transparent = true ∧ E.w.bitCount = 0 ∧ kTwice E.n2 E.n7 D.core b = kTwice E.n2 E.n7 E.core b) ∨ CPend E D b)

/-! ## The update -/

theorem kUpdate_zero {n2 k b} (h : k.ua = 0) : kUpdate n2 k b = .ok k := by unfold kUpdate; rw [if_neg (by simpa using h)]

theorem kIter_upd {n2 n7 k k1 b} (h : kUpdate n2 k b = .ok k1) (h0 : k1.ua = 0) : kIter n2 n7 k b = kIter n2 n7 k1 b := by
  unfold kIter
  rw [h, kUpdate_zero h0]

theorem kTwice_upd {n2 n7 k k1 b} (h : kUpdate n2 k b = .ok k1) (h0 : k1.ua = 0) : kTwice n2 n7 k b = kTwice n2 n7 k1 b := by
  unfold kTwice
  rw [kIter_upd h h0]

theorem setK_self (E : S) : setK E E.core = E := by cases E; rfl

theorem Base.setK {E D Dr} (h : Base E D Dr) {k : Core} (g : GoodK E.n2 E.n7 k) (h1 : k.lm = E.lastMatched) (h2 : k.len = E.str.length + E.flushed) :
    Base (setK E k) D Dr ∧ (setK E k).core = k := by
  have hk : (V42bis.setK E k).core = k := by
    cases k
    simp only [S.core, V42bis.setK] at h2 ⊢
    rw [h2]
  refine ⟨⟨h.ep, h.dp, h.n2, h.n7, h.n2lo, h.n7lo, h.eok, h.dok, h.c2, h.c2lo, h.c2hi, h.c3, h.esc, h.escd, h.tr, ?_, h.gd, h.lag, ?_⟩, hk⟩
  · rw [hk]; exact g
  · show k.lm = 0 ∨ 3 ≤ k.lm
    rw [h1]; exact h.lm3

theorem update_R0 {data f E D Dr} (h : R0 data f E D Dr) (b : Byte) :
    ∃ E', update E b = .ok E' ∧ RM data f E' D Dr b ∧ E'.w = E.w ∧ E'.lastMatched = E.lastMatched ∧ (E.updateAt = 0 → E' = E) := by
  obtain ⟨hB, hD, hR⟩ := h
  obtain ⟨k1, u1, g1, u2, u3, u4, u5⟩ := kUpdate_ok hB.ge b
  have hu := update_eq E b k1 u1 u3
  have hz : E.updateAt = 0 → setK E k1 = E := by
    intro h0
    rw [kUpdate_zero (show E.core.ua = 0 from h0)] at u1
    cases u1
    exact setK_self E
  obtain ⟨hB', hk⟩ := hB.setK g1 u3 u4
  refine ⟨setK E k1, hu, ⟨hB', ⟨hD.out, hD.fl⟩, u2, ?_⟩, rfl, u3, hz⟩
  rcases hR with ⟨r1, r2, r3⟩ | ⟨hC, r⟩
  · refine Or.inl ⟨r1, r2, E.core, r3, Or.inl ?_⟩
    rw [hk]
    exact kIter_upd u1 u2
  · refine Or.inr ⟨⟨hC.tr, hC.fl, hC.lm, hC.str, hC.dfl⟩, ?_⟩
    rcases r with ⟨r1, r2, r3, r4, r5, _⟩ | ⟨p, r, r1, r2, r3, r4⟩
    · refine ⟨?_, b, Or.inl ⟨r2, rfl⟩, ?_⟩
      · show Path k1.dict k1.lm E.str
        rw [u3, r2, show E.core.lm = 0 from r1]; exact Path.nil
      · show Upd D k1.dict k1.c1 k1.la k1.lm b
        rcases u5 with ⟨v1, v2, v3, v4⟩ | ⟨v1, v2, v3, v4⟩
        · left
          refine ⟨v1.trans r3.symm, v2.trans r4.symm, ?_⟩
          rw [r3, r5]; exact v4
        · right
          rw [r3, r4, r5, hB.n2]
          refine ⟨v1, v2, v3, v4, ?_⟩
          have := hB.ge.wf.c1lo
          have e : k1.lm = 0 := u3.trans r1
          have e' : E.core.c1 = E.c1 := rfl
          omega
    · rw [hz r2]
      exact ⟨r3, p, Or.inr ⟨r, r1⟩, r4⟩

theorem update_RP {data f E D Dr b} (h : RP data f E D Dr b) :
    ∃ E', update E b = .ok E' ∧ RM data f E' D Dr b ∧ E'.w = E.w ∧ E'.lastMatched = 0 := by
  obtain ⟨hB, hD, hlm, hstr, hR⟩ := h
  obtain ⟨k1, u1, g1, u2, u3, u4, u5⟩ := kUpdate_ok hB.ge b
  have hu := update_eq E b k1 u1 u3
  obtain ⟨hB', hk⟩ := hB.setK g1 u3 u4
  refine ⟨setK E k1, hu, ⟨hB', ⟨hD.out, hD.fl⟩, u2, ?_⟩, rfl, u3.trans hlm⟩
  rcases hR with ⟨r1, r2, r3⟩ | ⟨hC, r1, r2, r3⟩
  · refine Or.inl ⟨r1, r2, D.core, ?_, Or.inr ⟨u3.trans hlm, ?_⟩⟩
    · show kRun E.n2 E.n7 D.core E.str = .ok D.core
      rw [hstr]; rfl
    · show kTwice E.n2 E.n7 D.core b = kTwice E.n2 E.n7 _ b
      rw [hk, r3]
      exact kTwice_upd u1 u2
  · refine Or.inr ⟨⟨hC.tr, hC.fl, hC.lm, hC.str, hC.dfl⟩, ?_, b, Or.inl ⟨hstr, rfl⟩, ?_⟩
    · show Path k1.dict k1.lm E.str
      rw [u3, hstr, show E.core.lm = 0 from hlm]; exact Path.nil
    · show Upd D k1.dict k1.c1 k1.la k1.lm b
      rcases r3 with r3 | ⟨r3, r4⟩
      · rcases u5 with ⟨v1, v2, v3, v4⟩ | ⟨v1, v2, v3, v4⟩
        · left
          refine ⟨v1.trans r1.symm, v2.trans r2.symm, ?_⟩
          rw [r1, r3]; exact v4
        · right
          rw [r1, r2, r3, hB.n2]
          refine ⟨v1, v2, v3, v4, ?_⟩
          have := hB.ge.wf.c1lo
          have e : k1.lm = 0 := u3.trans hlm
          have e' : E.core.c1 = E.c1 := rfl
          omega
      · rw [kUpdate_zero (show E.core.ua = 0 from r3)] at u1
        cases u1
        exact Or.inl ⟨r1.symm, r2.symm, Or.inr r4⟩

/-! ## The match of one octet -/

/-- One turn of `matchString`. -/
def eMatch (s : S) (b : Byte) : M (S × Bool) := do
  let code ← matchOctet s.dict s.lastMatched b
  if code = 0 then do
    let s ← sendEncoded { s with updateAt := s.lastMatched } s.lastMatched
    .ok ({ s with lastMatched := 0 }, false)
  else if code = s.lastAdded then do
    let s ← sendEncoded { s with lastAdded := 0 } s.lastMatched
    .ok ({ s with lastMatched := 0 }, false)
  else do
    let s ← appendStr { s with lastMatched := code } b
    if s.str.length + s.flushed = s.n7 then do
      let s ← sendEncoded s s.lastMatched
      .ok ({ s with lastMatched := 0 }, true)
    else .ok (s, true)

theorem matchString_cons (s : S) (b : Byte) (t : List Byte) :
    matchString s (b :: t) = (do
      let r ← eMatch s b
      if r.2 = false then .ok (r.1, b :: t) else if r.1.lastMatched = 0 then .ok (r.1, t) else matchString r.1 t) := by
  rw [matchString, eMatch]
  cases matchOctet s.dict s.lastMatched b with
  | error e => rfl
  | ok code =>
    simp only [ok_bind]
    by_cases h0 : code = 0
    · rw [if_pos h0, if_pos h0]
      cases sendEncoded { s with updateAt := s.lastMatched } s.lastMatched with
      | error e => rfl
      | ok s1 => simp
    · rw [if_neg h0, if_neg h0]
      by_cases h1 : code = s.lastAdded
      · rw [if_pos h1, if_pos h1]
        cases sendEncoded { s with lastAdded := 0 } s.lastMatched with
        | error e => rfl
        | ok s1 => simp
      · rw [if_neg h1, if_neg h1]
        unfold appendStr
        by_cases h2 : s.str.length < maxString
        · rw [if_pos (show ({ s with lastMatched := code } : S).str.length < maxString from h2)]
          simp only [ok_bind]
          split
          · cases sendEncoded { s with lastMatched := code, str := s.str ++ [b] } code with
            | error e => rfl
            | ok s1 => simp
          · simp [h0]
        · rw [if_neg (show ¬ ({ s with lastMatched := code } : S).str.length < maxString from h2)]
          rfl

theorem match_ge3 {d c1 n2 n7} (w : WF d c1 n2 n7) {a : Nat} {l : List Byte} (hc : a ≠ c1) (p : Path d a l) {b : Byte} {r : Nat}
    (h : matchOctet d a b = .ok r) (h0 : r ≠ 0) : 3 ≤ r := by
  obtain ⟨r', h1, h2⟩ := match_ok w hc p b
  rw [h] at h1
  cases h1
  rcases h2 with h2 | ⟨_, _, _, _, ⟨h2, h3⟩ | ⟨h2, h3⟩⟩
  · exact absurd h2.1 h0
  · rw [h2] at h
    unfold matchOctet at h
    rw [if_pos rfl] at h
    cases h
    omega
  · omega

theorem taken_of {n2 n7 k k' ke b} (h : kIter n2 n7 k b = kIter n2 n7 ke b ∨ kTwice n2 n7 k b = kTwice n2 n7 ke b)
    (ht : kIter n2 n7 ke b = .ok (k', true)) : kTwice n2 n7 k b = .ok k' := by
  rcases h with h | h
  · simp [kTwice, h, ht]
  · rw [h]; simp [kTwice, ht]

/-- The base when a string has been sent in transparent mode. -/
theorem Base.sentT {E D D' E1 : S} {o' : Out} {e' : Byte} (h : Base E D D) (hb : E.w.bitCount = 0) (ho : o'.Ok) (t : Took D D' E1.str)
    (he : D'.esc = e') (hx : D'.escaped = false) (ge : GoodK E.n2 E.n7 ({ sent E1 { E.w with o := o' } e' with lastMatched := 0 } : S).core)
    (gd : GoodK E.n2 E.n7 D'.core) (a1 : E1.p0 = E.p0) (a2 : E1.n2 = E.n2) (a3 : E1.n7 = E.n7) (a4 : E1.transparent = E.transparent) :
    Base { sent E1 { E.w with o := o' } e' with lastMatched := 0 } D' D' := by
  obtain ⟨l1, l2, l3, l4⟩ := h.lag
  have hbuf : E.w.bitBuf = 0 := by
    rcases l4 with l4 | l4
    · exact l4.2.1
    · omega
  have e1 := t.bb; have e2 := t.bc
  exact ⟨a1.trans h.ep, t.p0.trans h.dp, (t.n2.trans h.n2).trans a2.symm, (t.n7.trans h.n7).trans a3.symm, by show 512 ≤ E1.n2; rw [a2]; exact h.n2lo,
    by show 2 ≤ E1.n7; rw [a3]; exact h.n7lo, ho, t.ok, h.c2.trans t.c2.symm, by rw [t.c2]; exact h.c2lo, by rw [t.c2]; exact h.c2hi, h.c3, he, hx,
    (t.tr.trans h.tr).trans a4.symm, by show GoodK E1.n2 E1.n7 _; rw [a2, a3]; exact ge, by show GoodK E1.n2 E1.n7 _; rw [a2, a3]; exact gd,
    ⟨by rw [e1, l1], by rw [e2, l2], l3, Or.inl ⟨hb, hbuf, rfl⟩⟩, Or.inl rfl⟩

theorem Lag.eq {w D Dr} (h : Lag w D Dr) (hb : w.bitCount = 0) : Dr = D := by
  obtain ⟨l1, l2, l3, l4⟩ := h
  rcases l4 with l4 | l4
  · exact l4.2.2
  · omega

/-- The match of an octet in transparent mode. -/
theorem eMatch_transparent {data f E D b} (hB : Base E D D) (hD : Data data f E D) (hu : E.updateAt = 0) (ht : E.transparent = true)
    (hbc : E.w.bitCount = 0) {k : Core} (hk : kRun E.n2 E.n7 D.core E.str = .ok k)
    (hi : kIter E.n2 E.n7 k b = kIter E.n2 E.n7 E.core b ∨ (E.lastMatched = 0 ∧ kTwice E.n2 E.n7 k b = kTwice E.n2 E.n7 E.core b)) :
    ∃ E' tk D', eMatch E b = .ok (E', tk) ∧ Adv E.w.o E'.w.o D D' ∧ (E.lastMatched = 0 → tk = true) ∧ E'.transparent = true ∧
      (tk = true → R0 (data ++ [b]) f E' D' D' ∧ E'.updateAt = 0) ∧ (tk = false → RB data f E' D' D' b) := by
  obtain ⟨k1, code, u1, g1, u2, u3, u4, hm, hc⟩ := kIter_ok hB.ge hB.n7lo b
  rw [kUpdate_zero (show E.core.ua = 0 from hu)] at u1
  cases u1
  have hm' : matchOctet E.dict E.lastMatched b = .ok code := hm
  have gd : GoodK D.n2 D.n7 D.core := by rw [hB.n2, hB.n7]; exact hB.gd
  have hn7 : 2 ≤ D.n7 := by rw [hB.n7]; exact hB.n7lo
  have hlen : E.str.length < maxString := by
    have h1 := hB.ge.len; have h2 := hB.ge.wf.n7le
    have h3 : E.core.len = E.str.length + E.flushed := rfl
    show _ < 250
    omega
  have hk' : kRun D.n2 D.n7 D.core E.str = .ok k := by rw [hB.n2, hB.n7]; exact hk
  have htr : D.transparent = true := hB.tr.trans ht
  unfold eMatch
  rw [hm', ok_bind]
  have tk : ∀ k', kIter E.n2 E.n7 E.core b = .ok (k', true) → kRun E.n2 E.n7 D.core (E.str ++ [b]) = .ok k' := by
    intro k' h'
    rw [kRun_append _ _ _ _ _ _ hk]
    have := taken_of (hi.imp id And.right) h'
    simp [kRun, this]
  have brk : E.lastMatched ≠ 0 → kIter E.n2 E.n7 k b = kIter E.n2 E.n7 E.core b := by
    intro h
    rcases hi with hi | hi
    · exact hi
    · exact absurd hi.1 h
  rcases hc with ⟨h0, h1, h2, h3⟩ | ⟨h0, hla, h1, h2, h3⟩ | ⟨h0, hla, _, hcc, hpath, ⟨h7, h2, h3⟩ | ⟨h7, h2, h3⟩⟩
  · rw [if_pos h0]
    obtain ⟨o', e', D', s1, s2, s3, s4, s5, s6, s7, s8⟩ := send_transparent (E := { E with updateAt := E.lastMatched }) E.lastMatched ht hB.eok hB.dok htr
      hB.escd hB.esc gd hn7 hk'
    rw [s1, ok_bind]
    rw [hB.n2, hB.n7] at s5
    refine ⟨_, false, D', rfl, s3, fun h => absurd h h1, ht, fun h => (by cases h), fun _ => ⟨?_, ⟨?_, fun h => absurd rfl h⟩, rfl, rfl, Or.inl ⟨ht, hbc, ?_⟩⟩⟩
    · exact hB.sentT (E1 := { E with updateAt := E.lastMatched }) hbc s2 s6 s7 s8 h3 (by rw [s4]; exact s5) rfl rfl rfl rfl
    · show D'.w.o.total ++ D'.str ++ [] = data
      rw [s6.out, List.append_nil]; exact hD.out
    · show kIter E.n2 E.n7 D'.core b = _
      rw [s4, brk h1, h2]
      rfl
  · rw [if_neg h0, if_pos (show code = E.lastAdded from hla)]
    obtain ⟨o', e', D', s1, s2, s3, s4, s5, s6, s7, s8⟩ := send_transparent (E := { E with lastAdded := 0 }) E.lastMatched ht hB.eok hB.dok htr
      hB.escd hB.esc gd hn7 hk'
    rw [s1, ok_bind]
    rw [hB.n2, hB.n7] at s5
    refine ⟨_, false, D', rfl, s3, fun h => absurd h h1, ht, fun h => (by cases h), fun _ => ⟨?_, ⟨?_, fun h => absurd rfl h⟩, rfl, rfl, Or.inl ⟨ht, hbc, ?_⟩⟩⟩
    · exact hB.sentT (E1 := { E with lastAdded := 0 }) hbc s2 s6 s7 s8 h3 (by rw [s4]; exact s5) rfl rfl rfl rfl
    · show D'.w.o.total ++ D'.str ++ [] = data
      rw [s6.out, List.append_nil]; exact hD.out
    · show kIter E.n2 E.n7 D'.core b = _
      rw [s4, brk h1, h2]
      rfl
  · rw [if_neg h0, if_neg (show ¬ code = E.lastAdded from hla)]
    unfold appendStr
    rw [if_pos (show ({ E with lastMatched := code } : S).str.length < maxString from hlen)]
    simp only [ok_bind]
    rw [if_pos (by have h7' : E.str.length + E.flushed + 1 = E.n7 := h7; simp only [List.length_append, List.length_singleton]; omega)]
    have hkk := tk _ h2
    obtain ⟨o', e', D', s1, s2, s3, s4, s5, s6, s7, s8⟩ := send_transparent (E := { E with lastMatched := code, str := E.str ++ [b] }) code ht hB.eok
      hB.dok htr hB.escd hB.esc gd hn7 (by rw [hB.n2, hB.n7]; exact hkk)
    rw [s1, ok_bind]
    rw [hB.n2, hB.n7] at s5
    refine ⟨_, true, D', rfl, s3, fun _ => rfl, ht, fun _ => ⟨⟨?_, ⟨?_, fun h => absurd rfl h⟩, Or.inl ⟨ht, hbc, ?_⟩⟩, hu⟩, fun h => (by cases h)⟩
    · exact hB.sentT (E1 := { E with lastMatched := code, str := E.str ++ [b] }) hbc s2 s6 s7 s8 h3 (by rw [s4]; exact s5) rfl rfl rfl rfl
    · show D'.w.o.total ++ D'.str ++ [] = data ++ [b]
      rw [s6.out, List.append_nil, ← hD.out]; simp
    · show kRun E.n2 E.n7 D'.core [] = _
      rw [s4]
      rfl
  · rw [if_neg h0, if_neg (show ¬ code = E.lastAdded from hla)]
    unfold appendStr
    rw [if_pos (show ({ E with lastMatched := code } : S).str.length < maxString from hlen)]
    simp only [ok_bind]
    rw [if_neg (by have h7' : E.str.length + E.flushed + 1 ≠ E.n7 := h7; simp only [List.length_append, List.length_singleton]; omega)]
    have hkk := tk _ h2
    obtain ⟨l, p, _⟩ := hB.ge.str
    have hlc : ({ E with lastMatched := code, str := E.str ++ [b] } : S).core = { E.core with lm := code, len := E.core.len + 1 } := by
      simp only [S.core, List.length_append, List.length_singleton]
      congr 1
      omega
    refine ⟨_, true, D, rfl, Adv.refl _ _, fun _ => rfl, ht, fun _ => ⟨⟨?_, ⟨?_, ?_⟩, Or.inl ⟨ht, hbc, ?_⟩⟩, hu⟩, fun h => (by cases h)⟩
    · exact ⟨hB.ep, hB.dp, hB.n2, hB.n7, hB.n2lo, hB.n7lo, hB.eok, hB.dok, hB.c2, hB.c2lo, hB.c2hi, hB.c3, hB.esc, hB.escd, hB.tr,
        by rw [hlc]; exact h3, hB.gd, hB.lag, Or.inr (match_ge3 hB.ge.wf hB.ge.lmc p hm h0)⟩
    · show D.w.o.total ++ D.str ++ (E.str ++ [b]) = data ++ [b]
      rw [← hD.out]; simp
    · intro h
      have := hD.fl h
      simp only [List.length_append, List.length_singleton]
      omega
    · rw [hlc]; exact hkk

/-- A string has been sent in compressed mode. -/
theorem send_C {E D Dr E1 : S} {code : Nat} {p : Byte} {r : List Byte} (hB : Base E D Dr) (hC : Cmp E D) (a1 : E1.p0 = E.p0) (a2 : E1.n2 = E.n2)
    (a3 : E1.n7 = E.n7) (a4 : E1.transparent = E.transparent) (a5 : E1.w = E.w) (a6 : E1.esc = E.esc) (hs : E1.str = p :: r) {la : Nat}
    (hu : Upd D E.dict E.c1 la code p) (hp : Path E.dict code (p :: r)) (h3 : 3 ≤ code) (hc : code ≠ E.c1) (hl : (p :: r).length ≤ E.n7)
    (ge : GoodK E.n2 E.n7 ⟨E1.dict, E1.c1, E1.updateAt, 0, E1.lastAdded, 0⟩) :
    ∃ w' e' D' Dr', sendEncoded E1 code = .ok (sent E1 w' e') ∧ Adv E.w.o w'.o Dr Dr' ∧ Base { sent E1 w' e' with lastMatched := 0 } D' Dr' ∧
      Cmp { sent E1 w' e' with lastMatched := 0 } D' ∧ D'.dict = E.dict ∧ D'.c1 = E.c1 ∧
      D'.updateAt = (if (p :: r).length = E.n7 then 0 else code) ∧ D'.w.o.total ++ D'.str = D.w.o.total ++ D.str ++ (p :: r) := by
  have gd : GoodK D.n2 D.n7 D.core := by rw [hB.n2, hB.n7]; exact hB.gd
  obtain ⟨w', c2, c3, la', Dr', s1, s2, s3, s4, s5, s6, s7, s8, s9⟩ := send_compressed (E := E1) (D := D) (Dr := Dr) (d := E.dict) (c1 := E.c1) (la := la)
    (code := code) (p := p) (r := r) (a4.trans hC.tr) (by rw [a5]; exact hB.lag) (hB.tr.trans hC.tr) (by rw [hB.n2]; exact hB.n2lo) hB.c2lo hB.c2hi
    (by rw [a5]; exact hB.c2) (by rw [a5]; exact hB.c3) (by rw [a5]; exact hB.eok) gd hC.str hC.dfl hC.lm hu hp h3 hc (by rw [hB.n7]; exact hl)
  rw [a5] at s7
  have hok : (strD (sized D c2 c3) E.dict E.c1 la' (p :: r) code).w.o.total = D.w.o.total ++ (p :: r) := pushAll_total hB.dok _
  refine ⟨w', _, strD (sized D c2 c3) E.dict E.c1 la' (p :: r) code, Dr', s1, s7, ?_, ⟨a4.trans hC.tr, rfl, hC.lm, rfl, rfl⟩, rfl, rfl, ?_, ?_⟩
  · refine ⟨a1.trans hB.ep, hB.dp, hB.n2.trans a2.symm, hB.n7.trans a3.symm, by show 512 ≤ E1.n2; rw [a2]; exact hB.n2lo,
      by show 2 ≤ E1.n7; rw [a3]; exact hB.n7lo, s2, pushAll_ok hB.dok _, s5, s3, s4, ?_, ?_, hB.escd, hB.tr.trans a4.symm,
      by show GoodK E1.n2 E1.n7 _; rw [a2, a3]; exact ge, ?_, s8, Or.inl rfl⟩
    · show w'.c3 = 2 ^ w'.c2
      rw [s6, s5]
    · show escapes D.esc (p :: r) = escapes E1.esc E1.str
      rw [a6, hs, hB.esc]
    · show GoodK E1.n2 E1.n7 _
      rw [a2, a3, ← hB.n2, ← hB.n7]; exact s9
  · show (if (p :: r).length = D.n7 then 0 else code) = _
    rw [hB.n7]
  · rw [hok, hC.str]
    show _ ++ [] = _
    simp

/-- The match of an octet in compressed mode. -/
theorem eMatch_compressed {data f E D Dr b p} (hB : Base E D Dr) (hD : Data data f E D) (hu : E.updateAt = 0) (hC : Cmp E D)
    (hP : Path E.dict E.lastMatched E.str) (hp : (E.str = [] ∧ p = b) ∨ ∃ r, E.str = p :: r)
    (hU : Upd D E.dict E.c1 E.lastAdded E.lastMatched p) :
    ∃ E' tk D' Dr', eMatch E b = .ok (E', tk) ∧ Adv E.w.o E'.w.o Dr Dr' ∧ (E.lastMatched = 0 → tk = true) ∧ E'.transparent = false ∧
      (tk = true → R0 (data ++ [b]) f E' D' Dr' ∧ E'.updateAt = 0) ∧ (tk = false → RB data f E' D' Dr' b) := by
  obtain ⟨k1, code, u1, g1, u2, u3, u4, hm, hc⟩ := kIter_ok hB.ge hB.n7lo b
  rw [kUpdate_zero (show E.core.ua = 0 from hu)] at u1
  cases u1
  have hm' : matchOctet E.dict E.lastMatched b = .ok code := hm
  have hcl : E.core.len = E.str.length := by
    show E.str.length + E.flushed = _
    rw [hC.fl]; rfl
  have hlt : E.str.length < E.n7 := by rw [← hcl]; exact hB.ge.len
  have hlen : E.str.length < maxString := by
    have h2 := hB.ge.wf.n7le
    show _ < 250
    omega
  have ne : E.lastMatched ≠ 0 → ∃ r, E.str = p :: r := by
    intro h
    rcases hp with ⟨h1, _⟩ | h1
    · have := hP.length_pos h
      rw [h1] at this
      simp at this
    · exact h1
  have hh : ∃ r, E.str ++ [b] = p :: r := by
    rcases hp with ⟨h1, h2⟩ | ⟨r, h1⟩
    · exact ⟨[], by rw [h1, h2]; rfl⟩
    · exact ⟨r ++ [b], by rw [h1]; rfl⟩
  have hU' : ∀ c, c ≠ E.lastAdded → Upd D E.dict E.c1 E.lastAdded c p := by
    intro c hcl'
    rcases hU with h | ⟨v1, v2, v3, v4, v5⟩
    · exact Or.inl h
    · exact Or.inr ⟨v1, v2, v3, v4, by rw [← v4]; exact hcl'⟩
  unfold eMatch
  rw [hm', ok_bind]
  rcases hc with ⟨h0, h1, h2, h3⟩ | ⟨h0, hla, h1, h2, h3⟩ | ⟨h0, hla, h4, hcc, hpath, ⟨h7, h2, h3⟩ | ⟨h7, h2, h3⟩⟩
  · rw [if_pos h0]
    have h1' : E.lastMatched ≠ 0 := h1
    obtain ⟨r, hr⟩ := ne h1'
    have hlm3 : 3 ≤ E.lastMatched := by rcases hB.lm3 with h | h <;> omega
    obtain ⟨w', e', D', Dr', s1, s2, s3, s4, s5, s6, s7, s8⟩ := send_C (E1 := { E with updateAt := E.lastMatched }) (code := E.lastMatched) (p := p) (r := r)
      hB hC rfl rfl rfl rfl rfl rfl hr hU (by rw [← hr]; exact hP) hlm3 hB.ge.lmc (by rw [← hr]; omega) h3
    rw [s1, ok_bind]
    refine ⟨_, false, D', Dr', rfl, s2, fun h => absurd h h1, hC.tr, fun h => (by cases h), fun _ => ⟨s3, ⟨?_, fun h => absurd rfl h⟩, rfl, rfl,
      Or.inr ⟨s4, s5, s6, Or.inl ?_⟩⟩⟩
    · show D'.w.o.total ++ D'.str ++ [] = data
      rw [s8, List.append_nil, ← hr]; exact hD.out
    · rw [s7, ← hr, if_neg (by omega)]; rfl
  · rw [if_neg h0, if_pos (show code = E.lastAdded from hla)]
    have h1' : E.lastMatched ≠ 0 := h1
    obtain ⟨r, hr⟩ := ne h1'
    have hlm3 : 3 ≤ E.lastMatched := by rcases hB.lm3 with h | h <;> omega
    obtain ⟨w', e', D', Dr', s1, s2, s3, s4, s5, s6, s7, s8⟩ := send_C (E1 := { E with lastAdded := 0 }) (code := E.lastMatched) (p := p) (r := r)
      hB hC rfl rfl rfl rfl rfl rfl hr hU (by rw [← hr]; exact hP) hlm3 hB.ge.lmc (by rw [← hr]; omega) h3
    rw [s1, ok_bind]
    refine ⟨_, false, D', Dr', rfl, s2, fun h => absurd h h1, hC.tr, fun h => (by cases h), fun _ => ⟨s3, ⟨?_, fun h => absurd rfl h⟩, rfl, rfl,
      Or.inr ⟨s4, s5, s6, Or.inr ⟨hu, code, h0, ?_⟩⟩⟩⟩
    · show D'.w.o.total ++ D'.str ++ [] = data
      rw [s8, List.append_nil, ← hr]; exact hD.out
    · rw [s7, ← hr, if_neg (by omega), s5]; exact hm'
  · rw [if_neg h0, if_neg (show ¬ code = E.lastAdded from hla)]
    unfold appendStr
    rw [if_pos (show ({ E with lastMatched := code } : S).str.length < maxString from hlen)]
    simp only [ok_bind]
    have h7' : E.str.length + 1 = E.n7 := by rw [← hcl]; exact h7
    rw [if_pos (by simp only [List.length_append, List.length_singleton, hC.fl]; omega)]
    obtain ⟨r, hr⟩ := hh
    have hlr : (p :: r).length = E.n7 := by rw [← hr, List.length_append]; exact h7'
    obtain ⟨w', e', D', Dr', s1, s2, s3, s4, s5, s6, s7, s8⟩ := send_C (E1 := { E with lastMatched := code, str := E.str ++ [b] }) (code := code) (p := p)
      (r := r) hB hC rfl rfl rfl rfl rfl rfl hr (hU' code hla) (by rw [← hr]; exact hpath _ hP) (match_ge3 hB.ge.wf hB.ge.lmc hP hm h0) hcc
      (Nat.le_of_eq hlr) h3
    rw [s1, ok_bind]
    refine ⟨_, true, D', Dr', rfl, s2, fun _ => rfl, hC.tr, fun _ => ⟨⟨s3, ⟨?_, fun h => absurd rfl h⟩, Or.inr ⟨s4, Or.inl ⟨rfl, rfl, s5, s6, ?_, fun h => absurd hu h⟩⟩⟩, hu⟩,
      fun h => (by cases h)⟩
    · show D'.w.o.total ++ D'.str ++ [] = data ++ [b]
      rw [s8, List.append_nil, ← hr, ← hD.out, List.append_assoc, List.append_assoc, List.append_assoc]
    · rw [s7, if_pos hlr]; exact hu.symm
  · rw [if_neg h0, if_neg (show ¬ code = E.lastAdded from hla)]
    unfold appendStr
    rw [if_pos (show ({ E with lastMatched := code } : S).str.length < maxString from hlen)]
    simp only [ok_bind]
    have h7' : E.str.length + 1 ≠ E.n7 := by rw [← hcl]; exact h7
    rw [if_neg (by simp only [List.length_append, List.length_singleton, hC.fl]; omega)]
    obtain ⟨r, hr⟩ := hh
    have hlc : ({ E with lastMatched := code, str := E.str ++ [b] } : S).core = { E.core with lm := code, len := E.core.len + 1 } := by
      simp only [S.core, List.length_append, List.length_singleton]
      congr 1
      omega
    refine ⟨_, true, D, Dr, rfl, Adv.refl _ _, fun _ => rfl, hC.tr, fun _ => ⟨⟨?_, ⟨?_, fun h => absurd hC.fl h⟩, Or.inr ⟨⟨hC.tr, hC.fl, hC.lm, hC.str, hC.dfl⟩,
      Or.inr ⟨p, r, hr, hu, hpath _ hP, hU' code hla⟩⟩⟩, hu⟩, fun h => (by cases h)⟩
    · exact ⟨hB.ep, hB.dp, hB.n2, hB.n7, hB.n2lo, hB.n7lo, hB.eok, hB.dok, hB.c2, hB.c2lo, hB.c2hi, hB.c3, hB.esc, hB.escd, hB.tr,
        by rw [hlc]; exact h3, hB.gd, hB.lag, Or.inr (match_ge3 hB.ge.wf hB.ge.lmc hP hm h0)⟩
    · show D.w.o.total ++ D.str ++ (E.str ++ [b]) = data ++ [b]
      rw [← hD.out]; simp

theorem eMatch_ok {data f E D Dr b} (h : RM data f E D Dr b) :
    ∃ E' tk D' Dr', eMatch E b = .ok (E', tk) ∧ Adv E.w.o E'.w.o Dr Dr' ∧ (E.lastMatched = 0 → tk = true) ∧ E'.transparent = E.transparent ∧
      (tk = true → R0 (data ++ [b]) f E' D' Dr' ∧ E'.updateAt = 0) ∧ (tk = false → RB data f E' D' Dr' b) := by
  obtain ⟨hB, hD, hu, ⟨h1, h2, k, h3, h4⟩ | ⟨h1, h2, p, h3, h4⟩⟩ := h
  · have hL := hB.lag.eq h2
    subst hL
    obtain ⟨E', tk, D', a1, a2, a3, a4, a5, a6⟩ := eMatch_transparent hB hD hu h1 h2 h3 h4
    exact ⟨E', tk, D', D', a1, a2, a3, a4.trans h1.symm, a5, a6⟩
  · obtain ⟨E', tk, D', Dr', a1, a2, a3, a4, a5, a6⟩ := eMatch_compressed hB hD hu h1 h2 h3 h4
    exact ⟨E', tk, D', Dr', a1, a2, a3, a4.trans h1.tr.symm, a5, a6⟩

end V42bis
