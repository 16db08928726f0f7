import Verif.V42bis.Dict

/-! # The matching of strings, which the two sides have in common -/

namespace V42bis

/-! ## Output -/

/-- All that has been put out, whether the handler has seen it or not. -/
def Out.total (o : Out) : List Byte := o.sent.flatten ++ o.buf

@[simp] theorem push_total (o : Out) (b : Byte) : (o.push b).total = o.total ++ [b] := by
  unfold Out.push Out.total
  split <;> simp

@[simp] theorem flush_total (o : Out) : o.flush.total = o.total := by
  unfold Out.flush Out.total
  split <;> simp

@[simp] theorem flush_buf (o : Out) : o.flush.buf = [] := by
  unfold Out.flush
  split
  · rfl
  · rename_i h
    exact List.eq_nil_of_length_eq_zero (by omega)

theorem Out.flush_sent (o : Out) : o.flush.sent.flatten = o.total := by
  have h := flush_total o
  unfold Out.total at h
  rw [flush_buf, List.append_nil] at h
  exact h

/-- The output buffer is never full. -/
structure Out.Ok (o : Out) : Prop where
  pos : 1 ≤ o.maxOut
  max : o.maxOut ≤ 1024
  room : o.buf.length < o.maxOut
  msg : ∀ m ∈ o.sent, m.length ≤ o.maxOut

theorem push_ok {o : Out} (h : o.Ok) (b : Byte) : (o.push b).Ok := by
  have := h.pos; have := h.room
  unfold Out.push
  split
  · refine ⟨h.pos, h.max, by simpa using Nat.lt_of_lt_of_le Nat.zero_lt_one h.pos, ?_⟩
    intro m hm
    simp only [List.mem_append, List.mem_singleton] at hm
    rcases hm with hm | hm
    · exact h.msg m hm
    · rw [hm]; simp; omega
  · exact ⟨h.pos, h.max, by simp; omega, h.msg⟩

theorem flush_ok {o : Out} (h : o.Ok) : o.flush.Ok := by
  have := h.pos; have := h.room
  unfold Out.flush
  split
  · refine ⟨h.pos, h.max, by simpa using Nat.lt_of_lt_of_le Nat.zero_lt_one h.pos, ?_⟩
    intro m hm
    simp only [List.mem_append, List.mem_singleton] at hm
    rcases hm with hm | hm
    · exact h.msg m hm
    · rw [hm]; show o.buf.length ≤ o.maxOut; omega
  · exact h

theorem pushChunks_spec : ∀ (n : Nat) (o : Out) (l : List Byte), o.Ok → l.length < n →
    (o.pushChunks n l).Ok ∧ (o.pushChunks n l).total = o.total ++ l ∧ (o.pushChunks n l).maxOut = o.maxOut := by
  intro n
  induction n with
  | zero => intro o l _ h; omega
  | succ n ih =>
    intro o l h hl
    have := h.pos; have := h.room
    unfold Out.pushChunks
    dsimp only
    split
    · rename_i hc
      have h' : Out.Ok { o with sent := o.sent ++ [o.buf ++ l.take (o.maxOut - o.buf.length)], buf := [] } := by
        refine ⟨h.pos, h.max, by simpa using Nat.lt_of_lt_of_le Nat.zero_lt_one h.pos, ?_⟩
        intro m hm
        simp only [List.mem_append, List.mem_singleton] at hm
        rcases hm with hm | hm
        · exact h.msg m hm
        · rw [hm]; simp; omega
      obtain ⟨a1, a2, a3⟩ := ih _ (l.drop (o.maxOut - o.buf.length)) h' (by simp; omega)
      refine ⟨a1, ?_, a3⟩
      rw [a2]
      simp [Out.total, List.append_assoc]
    · refine ⟨⟨h.pos, h.max, by simp; omega, h.msg⟩, ?_, rfl⟩
      simp [Out.total]

theorem pushAll_total {o : Out} (h : o.Ok) (l : List Byte) : (o.pushAll l).total = o.total ++ l :=
  (pushChunks_spec _ o l h (Nat.lt_succ_self _)).2.1

theorem pushAll_ok {o : Out} (h : o.Ok) (l : List Byte) : (o.pushAll l).Ok := (pushChunks_spec _ o l h (Nat.lt_succ_self _)).1

/-! ## The state of the matching -/

structure Core where
  dict : Dict
  c1 : Nat
  ua : Nat
  lm : Nat
  la : Nat
  len : Nat

def S.core (s : S) : Core := ⟨s.dict, s.c1, s.updateAt, s.lastMatched, s.lastAdded, s.str.length + s.flushed⟩

def kUpdate (n2 : Nat) (k : Core) (b : Byte) : M Core :=
  if k.ua ≠ 0 then do
    let m ← matchOctet k.dict k.ua b
    if m = 0 then do
      let r ← addOctet k.dict k.c1 n2 k.ua b
      .ok { k with dict := r.1, c1 := r.2, la := k.c1, ua := 0 }
    else .ok { k with ua := 0 }
  else .ok k

def kIter (n2 n7 : Nat) (k : Core) (b : Byte) : M (Core × Bool) := do
  let k ← kUpdate n2 k b
  let code ← matchOctet k.dict k.lm b
  if code = 0 then .ok ({ k with ua := k.lm, lm := 0, len := 0 }, false)
  else if code = k.la then .ok ({ k with la := 0, lm := 0, len := 0 }, false)
  else if k.len + 1 = n7 then .ok ({ k with lm := 0, len := 0 }, true)
  else .ok ({ k with lm := code, len := k.len + 1 }, true)

def kTwice (n2 n7 : Nat) (k : Core) (b : Byte) : M Core := do
  let r ← kIter n2 n7 k b
  if r.2 then .ok r.1
  else do
    let r ← kIter n2 n7 r.1 b
    if r.2 then .ok r.1 else .error .fault

def kRun (n2 n7 : Nat) : Core → List Byte → M Core
  | k, [] => .ok k
  | k, b :: t => do
    let k ← kTwice n2 n7 k b
    kRun n2 n7 k t

theorem kRun_append (n2 n7 : Nat) : ∀ (l t : List Byte) (k k' : Core), kRun n2 n7 k l = .ok k' → kRun n2 n7 k (l ++ t) = kRun n2 n7 k' t := by
  intro l
  induction l with
  | nil => intro t k k' h; cases h; rfl
  | cons b l ih =>
    intro t k k' h
    simp only [kRun, List.cons_append] at h ⊢
    cases h1 : kTwice n2 n7 k b with
    | error e => rw [h1] at h; cases h
    | ok k1 => rw [h1] at h; simp only [ok_bind] at h ⊢; exact ih t k1 k' h

/-- What is true of the matching at all times. -/
structure GoodK (n2 n7 : Nat) (k : Core) : Prop where
  wf : WF k.dict k.c1 n2 n7
  str : ∃ l, Path k.dict k.lm l ∧ l.length = k.len
  lmc : k.lm ≠ k.c1
  len : k.len < n7
  upd : k.ua ≠ 0 → k.lm = 0 ∧ k.ua ≠ k.c1 ∧ ∃ l, Path k.dict k.ua l ∧ l.length < n7
  la : k.la = 0 ∨ 259 ≤ k.la

theorem Path.lt {d e l} (p : Path d e l) (h : e ≠ 0) : e < 4096 := by
  cases p with
  | nil => exact absurd rfl h
  | cons _ h _ => exact h

theorem GoodK.len0 {n2 n7 k} (g : GoodK n2 n7 k) (h : k.lm = 0) : k.len = 0 := by
  obtain ⟨l, p, hl⟩ := g.str
  rw [h] at p
  rw [← hl, p.zero]; rfl

theorem WF.c1lo {d c1 n2 n7} (w : WF d c1 n2 n7) : 259 ≤ c1 := by obtain ⟨K, w⟩ := w; exact w.c1lo
theorem WF.c1hi {d c1 n2 n7} (w : WF d c1 n2 n7) : c1 < n2 := by obtain ⟨K, w⟩ := w; exact w.c1hi
theorem WF.n2le {d c1 n2 n7} (w : WF d c1 n2 n7) : n2 ≤ 4096 := by obtain ⟨K, w⟩ := w; exact w.n2le
theorem WF.n7le {d c1 n2 n7} (w : WF d c1 n2 n7) : n7 ≤ 250 := by obtain ⟨K, w⟩ := w; exact w.n7le

/-- The update of the dictionary before a match. -/
theorem kUpdate_ok {n2 n7 k} (g : GoodK n2 n7 k) (b : Byte) :
    ∃ k', kUpdate n2 k b = .ok k' ∧ GoodK n2 n7 k' ∧ k'.ua = 0 ∧ k'.lm = k.lm ∧ k'.len = k.len ∧
      ((k'.dict = k.dict ∧ k'.c1 = k.c1 ∧ k'.la = k.la ∧ (k.ua = 0 ∨ ∃ p, p ≠ 0 ∧ matchOctet k.dict k.ua b = .ok p)) ∨
       (k.ua ≠ 0 ∧ matchOctet k.dict k.ua b = .ok 0 ∧ addOctet k.dict k.c1 n2 k.ua b = .ok (k'.dict, k'.c1) ∧ k'.la = k.c1)) := by
  by_cases h0 : k.ua = 0
  · exact ⟨k, by simp [kUpdate, h0], g, h0, rfl, rfl, Or.inl ⟨rfl, rfl, rfl, Or.inl h0⟩⟩
  · obtain ⟨h1, h2, l, p, hl⟩ := g.upd h0
    obtain ⟨m, hm, hm'⟩ := match_ok g.wf h2 p b
    have hc := g.wf.c1lo
    by_cases hz : m = 0
    · obtain ⟨d', c1', e1, e2, e3, e4⟩ := addOctet_ok g.wf b h0 h2 (p.lt h0) ⟨l, p, hl⟩
      refine ⟨{ k with dict := d', c1 := c1', la := k.c1, ua := 0 }, ?_, ?_, rfl, rfl, rfl, Or.inr ⟨h0, hz ▸ hm, e1, rfl⟩⟩
      · simp [kUpdate, h0, hm, hz, e1]
      · refine ⟨e2, ⟨[], ?_, ?_⟩, ?_, g.len, fun h => absurd rfl h, Or.inr hc⟩
        · show Path d' k.lm []
          rw [h1]; exact Path.nil
        · exact (g.len0 h1).symm
        · have := e2.c1lo
          show k.lm ≠ c1'
          omega
    · refine ⟨{ k with ua := 0 }, ?_, ?_, rfl, rfl, rfl, Or.inl ⟨rfl, rfl, rfl, Or.inr ⟨m, hz, hm⟩⟩⟩
      · simp [kUpdate, h0, hm, hz]
      · exact ⟨g.wf, g.str, g.lmc, g.len, fun h => absurd rfl h, g.la⟩

/-- One turn. -/
theorem kIter_ok {n2 n7 k} (g : GoodK n2 n7 k) (hn : 2 ≤ n7) (b : Byte) :
    ∃ k1 code, kUpdate n2 k b = .ok k1 ∧ GoodK n2 n7 k1 ∧ k1.ua = 0 ∧ k1.lm = k.lm ∧ k1.len = k.len ∧ matchOctet k1.dict k1.lm b = .ok code ∧
      ((code = 0 ∧ k1.lm ≠ 0 ∧ kIter n2 n7 k b = .ok ({ k1 with ua := k1.lm, lm := 0, len := 0 }, false) ∧
          GoodK n2 n7 { k1 with ua := k1.lm, lm := 0, len := 0 }) ∨
       (code ≠ 0 ∧ code = k1.la ∧ k1.lm ≠ 0 ∧ kIter n2 n7 k b = .ok ({ k1 with la := 0, lm := 0, len := 0 }, false) ∧
          GoodK n2 n7 { k1 with la := 0, lm := 0, len := 0 }) ∨
       (code ≠ 0 ∧ code ≠ k1.la ∧ code < 4096 ∧ code ≠ k1.c1 ∧ (∀ l, Path k1.dict k1.lm l → Path k1.dict code (l ++ [b])) ∧
          ((k1.len + 1 = n7 ∧ kIter n2 n7 k b = .ok ({ k1 with lm := 0, len := 0 }, true) ∧ GoodK n2 n7 { k1 with lm := 0, len := 0 }) ∨
           (k1.len + 1 ≠ n7 ∧ kIter n2 n7 k b = .ok ({ k1 with lm := code, len := k1.len + 1 }, true) ∧
              GoodK n2 n7 { k1 with lm := code, len := k1.len + 1 })))) := by
  obtain ⟨k1, u1, g1, u2, u3, u4, _⟩ := kUpdate_ok g b
  obtain ⟨l, p, hl⟩ := g1.str
  obtain ⟨code, hm, hm'⟩ := match_ok g1.wf g1.lmc p b
  have hc := g1.wf.c1lo
  have hlen := g1.len
  have gz : ∀ la, (la = 0 ∨ 259 ≤ la) → GoodK n2 n7 { k1 with la := la, lm := 0, len := 0 } := by
    intro la hla
    exact ⟨g1.wf, ⟨[], Path.nil, rfl⟩, by show 0 ≠ k1.c1; omega, by show 0 < n7; omega, fun h => absurd u2 h, hla⟩
  refine ⟨k1, code, u1, g1, u2, u3, u4, hm, ?_⟩
  rcases hm' with ⟨z1, z2⟩ | ⟨z1, z2, z3, z4, z5⟩
  · refine Or.inl ⟨z1, z2, by simp [kIter, u1, hm, z1], ?_⟩
    refine ⟨g1.wf, ⟨[], Path.nil, rfl⟩, by show 0 ≠ k1.c1; omega, by show 0 < n7; omega, fun _ => ⟨rfl, g1.lmc, l, p, by omega⟩, g1.la⟩
  · by_cases hla : code = k1.la
    · refine Or.inr (Or.inl ⟨z1, hla, ?_, by simp [kIter, u1, hm, z1, ← hla], gz 0 (Or.inl rfl)⟩)
      rcases z5 with ⟨y1, y2⟩ | ⟨y1, y2⟩
      · rcases g1.la with h | h
        · exact absurd (hla.trans h) z1
        · omega
      · exact y1
    · refine Or.inr (Or.inr ⟨z1, hla, z2, z3, ?_, ?_⟩)
      · intro l' p'
        rw [p'.det p]; exact z4
      · by_cases h7 : k1.len + 1 = n7
        · exact Or.inl ⟨h7, by simp [kIter, u1, hm, z1, hla, h7], gz k1.la g1.la⟩
        · refine Or.inr ⟨h7, by simp [kIter, u1, hm, z1, hla, h7], ?_⟩
          exact ⟨g1.wf, ⟨_, z4, by simp [hl]⟩, z3, by show k1.len + 1 < n7; omega, fun h => absurd u2 h, g1.la⟩

/-- The short form. -/
theorem kIter_good {n2 n7 k} (g : GoodK n2 n7 k) (hn : 2 ≤ n7) (b : Byte) :
    ∃ k' t, kIter n2 n7 k b = .ok (k', t) ∧ GoodK n2 n7 k' ∧ (k.lm = 0 → t = true) ∧ (t = true → k'.ua = 0) ∧
      (t = false → k'.lm = 0 ∧ k'.len = 0) ∧ (t = true → k'.lm ≠ 0 → k'.len = k.len + 1) := by
  obtain ⟨k1, code, u1, g1, u2, u3, u4, hm, h⟩ := kIter_ok g hn b
  rcases h with ⟨_, h1, h2, h3⟩ | ⟨_, _, h1, h2, h3⟩ | ⟨_, _, _, _, _, ⟨_, h2, h3⟩ | ⟨_, h2, h3⟩⟩
  · exact ⟨_, _, h2, h3, fun h => absurd (u3.trans h) h1, fun h => (by cases h), fun _ => ⟨rfl, rfl⟩, fun h => (by cases h)⟩
  · exact ⟨_, _, h2, h3, fun h => absurd (u3.trans h) h1, fun h => (by cases h), fun _ => ⟨rfl, rfl⟩, fun h => (by cases h)⟩
  · exact ⟨_, _, h2, h3, fun _ => rfl, fun _ => u2, fun h => (by cases h), fun _ h => absurd rfl h⟩
  · exact ⟨_, _, h2, h3, fun _ => rfl, fun _ => u2, fun h => (by cases h), fun _ _ => by show k1.len + 1 = _; rw [u4]⟩

theorem kTwice_good {n2 n7 k} (g : GoodK n2 n7 k) (hn : 2 ≤ n7) (b : Byte) :
    ∃ k', kTwice n2 n7 k b = .ok k' ∧ GoodK n2 n7 k' ∧ k'.ua = 0 := by
  obtain ⟨k1, t, h1, h2, h3, h4, h5, _⟩ := kIter_good g hn b
  cases t with
  | true => exact ⟨k1, by simp [kTwice, h1], h2, h4 rfl⟩
  | false =>
    obtain ⟨k2, t, i1, i2, i3, i4, i5, _⟩ := kIter_good h2 hn b
    have := i3 (h5 rfl).1
    subst this
    exact ⟨k2, by simp [kTwice, h1, i1], i2, i4 rfl⟩

/-! ## The turns of the decompressor -/

def setK (s : S) (k : Core) : S :=
  { s with dict := k.dict, c1 := k.c1, updateAt := k.ua, lastMatched := k.lm, lastAdded := k.la }

/-- The effect of a turn of the decompressor. -/
def absorb (s : S) (k : Core) (t : Bool) (b : Byte) : S :=
  if t = true ∧ k.lm ≠ 0 then { setK s k with str := s.str ++ [b] }
  else { setK s k with w := { s.w with o := s.w.o.pushAll (s.str ++ if t then [b] else []) }, str := [], flushed := 0 }

theorem update_eq (s : S) (b : Byte) (k : Core) (h : kUpdate s.n2 s.core b = .ok k) (hl : k.lm = s.lastMatched) : update s b = .ok (setK s k) := by
  unfold kUpdate S.core at h
  dsimp only at h
  unfold update
  split
  · rename_i h0
    rw [if_pos h0] at h
    cases h1 : matchOctet s.dict s.updateAt b with
    | error e => rw [h1] at h; cases h
    | ok m =>
      rw [h1] at h
      simp only [ok_bind] at h ⊢
      split
      · rename_i hz
        rw [if_pos hz] at h
        cases h2 : addOctet s.dict s.c1 s.n2 s.updateAt b with
        | error e => rw [h2] at h; cases h
        | ok r => rw [h2] at h; simp only [ok_bind] at h ⊢; cases h; rfl
      · rename_i hz
        rw [if_neg hz] at h
        cases h; rfl
  · rename_i h0
    rw [if_neg h0] at h
    cases h
    rfl

theorem matchOnce_eq {s : S} (g : GoodK s.n2 s.n7 s.core) (hn : 2 ≤ s.n7) (b : Byte) {k : Core} {t : Bool}
    (h : kIter s.n2 s.n7 s.core b = .ok (k, t)) : matchOnce s b = .ok (absorb s k t b, t) := by
  obtain ⟨k1, code, u1, g1, u2, u3, u4, hm, hc⟩ := kIter_ok g hn b
  have hu := update_eq s b k1 u1 u3
  have hlen : s.str.length < 250 := by
    have h1 := g.len; have h2 := g.wf.n7le
    have h3 : s.core.len = s.str.length + s.flushed := rfl
    omega
  have hl1 : k1.len = s.str.length + s.flushed := u4
  have hm' : matchOctet (setK s k1).dict (setK s k1).lastMatched b = .ok code := hm
  unfold matchOnce
  rw [hu, ok_bind, hm', ok_bind]
  rcases hc with ⟨h0, h1, h2, h3⟩ | ⟨h0, hla, h1, h2, h3⟩ | ⟨h0, hla, _, _, _, ⟨h7, h2, h3⟩ | ⟨h7, h2, h3⟩⟩
  · rw [h2] at h
    cases h
    rw [if_pos h0]
    simp [absorb, sendString, setK]
  · rw [h2] at h
    cases h
    rw [if_neg h0, if_pos (show code = (setK s k1).lastAdded from hla)]
    simp [absorb, sendString, setK]
  · rw [h2] at h
    cases h
    rw [if_neg h0, if_neg (show ¬ code = (setK s k1).lastAdded from hla)]
    simp [absorb, sendString, setK, appendStr, hlen]
    omega
  · rw [h2] at h
    cases h
    rw [if_neg h0, if_neg (show ¬ code = (setK s k1).lastAdded from hla)]
    simp [absorb, sendString, setK, appendStr, hlen, h0]
    omega

theorem absorb_core {s : S} (g : GoodK s.n2 s.n7 s.core) (hn : 2 ≤ s.n7) (b : Byte) {k : Core} {t : Bool}
    (h : kIter s.n2 s.n7 s.core b = .ok (k, t)) : (absorb s k t b).core = k := by
  obtain ⟨k', t', h1, h2, h3, h4, h5, h6⟩ := kIter_good g hn b
  rw [h1] at h
  cases h
  unfold absorb
  split
  · rename_i hc
    have := h6 hc.1 hc.2
    simp only [S.core, setK]
    have e : s.core.len = s.str.length + s.flushed := rfl
    simp only [List.length_append, List.length_singleton]
    rw [show s.str.length + 1 + s.flushed = k.len by omega]
  · rename_i hc
    have h0 : k.lm = 0 := by
      cases ht : t with
      | true => rw [ht] at hc; by_cases hz : k.lm = 0
                · exact hz
                · exact absurd ⟨rfl, hz⟩ hc
      | false => exact (h5 ht).1
    have := h2.len0 h0
    simp only [S.core, setK, List.length_nil]
    rw [show 0 + 0 = k.len by omega]

/-- What the two turns of the decompressor do for an octet. -/
structure Took (s s' : S) (l : List Byte) : Prop where
  p0 : s'.p0 = s.p0
  n2 : s'.n2 = s.n2
  n7 : s'.n7 = s.n7
  tr : s'.transparent = s.transparent
  bb : s'.w.bitBuf = s.w.bitBuf
  bc : s'.w.bitCount = s.w.bitCount
  c2 : s'.w.c2 = s.w.c2
  ok : s'.w.o.Ok
  out : s'.w.o.total ++ s'.str = s.w.o.total ++ s.str ++ l

theorem absorb_took {s : S} (ho : s.w.o.Ok) (k : Core) (t : Bool) (b : Byte) : Took s (absorb s k t b) (if t then [b] else []) ∧
    (absorb s k t b).esc = s.esc ∧ (absorb s k t b).escaped = s.escaped := by
  unfold absorb
  split
  · rename_i h
    rw [h.1]
    exact ⟨⟨rfl, rfl, rfl, rfl, rfl, rfl, rfl, ho, by simp [setK]⟩, rfl, rfl⟩
  · refine ⟨⟨rfl, rfl, rfl, rfl, rfl, rfl, rfl, pushAll_ok ho _, ?_⟩, rfl, rfl⟩
    simp [pushAll_total ho]

theorem matchTwice_eq {s : S} (g : GoodK s.n2 s.n7 s.core) (hn : 2 ≤ s.n7) (ho : s.w.o.Ok) (b : Byte) {k : Core}
    (h : kTwice s.n2 s.n7 s.core b = .ok k) :
    ∃ s', matchTwice s b = .ok s' ∧ s'.core = k ∧ Took s s' [b] ∧ s'.esc = s.esc ∧ s'.escaped = s.escaped := by
  obtain ⟨k1, t, h1, h2, h3, h4, h5, _⟩ := kIter_good g hn b
  have e1 := matchOnce_eq g hn b h1
  have c1 := absorb_core g hn b h1
  obtain ⟨t1, x1, y1⟩ := absorb_took ho k1 t b
  cases t with
  | true =>
    simp only [kTwice, h1, ok_bind, if_true] at h
    cases h
    exact ⟨_, by simp [matchTwice, e1], c1, t1, x1, y1⟩
  | false =>
    obtain ⟨s1, hs1⟩ : ∃ s1, s1 = absorb s k1 false b := ⟨_, rfl⟩
    rw [← hs1] at e1 c1 t1 x1 y1
    obtain ⟨k2, t, i1, i2, i3, i4, i5, _⟩ := kIter_good h2 hn b
    have := i3 (h5 rfl).1
    subst this
    simp only [kTwice, h1, ok_bind, i1, if_true] at h
    cases h
    have n2e := t1.n2; have n7e := t1.n7
    rw [← c1, ← n2e, ← n7e] at i1 h2
    have hn' : 2 ≤ s1.n7 := by rw [n7e]; exact hn
    have e2 := matchOnce_eq h2 hn' b i1
    have c2 := absorb_core h2 hn' b i1
    obtain ⟨t2, x2, y2⟩ := absorb_took t1.ok k true b
    refine ⟨_, by simp [matchTwice, e1, e2], c2, ?_, x2.trans x1, y2.trans y1⟩
    exact ⟨t2.p0.trans t1.p0, t2.n2.trans t1.n2, t2.n7.trans t1.n7, t2.tr.trans t1.tr, t2.bb.trans t1.bb, t2.bc.trans t1.bc, t2.c2.trans t1.c2, t2.ok,
      by rw [t2.out, t1.out]; simp⟩

end V42bis
