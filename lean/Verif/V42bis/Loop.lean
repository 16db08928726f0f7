import Verif.V42bis.Sync

/-! # Changes of mode, and whole calls of the compressor -/

namespace V42bis

/-! ## To compressed mode -/

/-- The compressor after the escape to compressed mode. -/
def ecmE (E : S) : S := { E with w := { E.w with o := (E.w.o.push E.esc).push 0, bitBuf := 0 }, transparent := false }

/-- The decompressor after the escape to compressed mode. -/
def ecmD (D : S) : S := { sendString D with transparent := false, updateAt := D.lastMatched, lastMatched := 0 }

theorem ecm_base {E D : S} (hB : Base E D D) (ht : E.transparent = true) (hbc : E.w.bitCount = 0) (hf : E.flushed = 0) :
    Adv E.w.o (ecmE E).w.o D (ecmD D) ∧ Base (ecmE E) (ecmD D) (ecmD D) ∧ Cmp (ecmE E) (ecmD D) ∧ (ecmD D).w.o.total ++ (ecmD D).str = D.w.o.total ++ D.str := by
  have htr : D.transparent = true := hB.tr.trans ht
  have hlo : 259 ≤ D.c1 := hB.gd.wf.c1lo
  have hn7 := hB.n7lo
  have hok : (D.w.o.pushAll D.str).total = D.w.o.total ++ D.str := pushAll_total hB.dok _
  refine ⟨⟨[D.esc, 0], ?_, ecm_ok htr hB.escd⟩, ?_, ⟨rfl, hf, rfl, rfl, rfl⟩, ?_⟩
  · show ((E.w.o.push E.esc).push 0).total = _
    rw [push_total, push_total, hB.esc]; simp
  · refine ⟨hB.ep, hB.dp, hB.n2, hB.n7, hB.n2lo, hB.n7lo, push_ok (push_ok hB.eok _) _, pushAll_ok hB.dok _, hB.c2, hB.c2lo, hB.c2hi, hB.c3, hB.esc, hB.escd, rfl,
      hB.ge, ?_, ?_, hB.lm3⟩
    · refine ⟨hB.gd.wf, ⟨[], Path.nil, rfl⟩, ?_, ?_, ?_, hB.gd.la⟩
      · show 0 ≠ D.c1
        omega
      · show 0 + 0 < E.n7
        omega
      · intro _
        obtain ⟨l, p, hl⟩ := hB.gd.str
        refine ⟨rfl, hB.gd.lmc, l, p, ?_⟩
        rw [hl]; exact hB.gd.len
    · exact ⟨hB.lag.1, hB.lag.2.1, hB.lag.2.2.1, Or.inl ⟨hbc, rfl, rfl⟩⟩
  · show (D.w.o.pushAll D.str).total ++ [] = _
    rw [hok, List.append_nil]

theorem goCompressed_R0 {data f E D Dr} (h : R0 data f E D Dr) (hu : E.updateAt = 0) (ht : E.transparent = true) :
    ∃ E' D' Dr', goCompressed E = .ok E' ∧ Adv E.w.o E'.w.o Dr Dr' ∧ R0 data f E' D' Dr' := by
  obtain ⟨hB, hD, ⟨_, hbc, hk⟩ | ⟨hC, _⟩⟩ := h
  · have hL := hB.lag.eq hbc
    subst hL
    unfold goCompressed
    rw [if_pos ht]
    unfold sendPending
    by_cases hlm : E.lastMatched = 0
    · rw [if_neg (by simpa using hlm), ok_bind]
      have hlen : E.str.length + E.flushed = 0 := hB.ge.len0 hlm
      have hs : E.str = [] := List.eq_nil_of_length_eq_zero (by omega)
      obtain ⟨a1, a2, a3, a4⟩ := ecm_base hB ht hbc (by omega)
      rw [hs] at hk
      have hk' : Dr.core = E.core := Except.ok.inj hk
      refine ⟨ecmE E, ecmD Dr, ecmD Dr, rfl, a1, a2, ⟨?_, fun h => absurd a3.fl h⟩, Or.inr ⟨a3, Or.inl ⟨hlm, hs, ?_, ?_, ?_, fun _ => hbc⟩⟩⟩
      · rw [a4]; exact hD.out
      · exact congrArg Core.dict hk'
      · exact congrArg Core.c1 hk'
      · exact (congrArg Core.lm hk').trans (hlm.trans hu.symm)
    · rw [if_pos hlm]
      obtain ⟨o', e', D', s1, s2, s3, s4, s5, s6, s7, s8⟩ := send_transparent (E := { E with updateAt := E.lastMatched }) E.lastMatched ht hB.eok hB.dok
        (hB.tr.trans ht) hB.escd hB.esc (by rw [hB.n2, hB.n7]; exact hB.gd) (by rw [hB.n7]; exact hB.n7lo) (by rw [hB.n2, hB.n7]; exact hk)
      have hlm' : ∃ l, Path E.dict E.lastMatched l ∧ l.length < E.n7 := by
        obtain ⟨l, p, hl⟩ := hB.ge.str
        exact ⟨l, p, by rw [hl]; exact hB.ge.len⟩
      have hlo : 259 ≤ E.c1 := hB.ge.wf.c1lo
      have hn7 := hB.n7lo
      have ge : GoodK E.n2 E.n7 ⟨E.dict, E.c1, E.lastMatched, 0, E.lastAdded, 0⟩ :=
        ⟨hB.ge.wf, ⟨[], Path.nil, rfl⟩, by show 0 ≠ E.c1; omega, by show 0 < E.n7; omega, fun _ => ⟨rfl, hB.ge.lmc, hlm'⟩, hB.ge.la⟩
      have hB1 := hB.sentT (E1 := { E with updateAt := E.lastMatched }) (o' := o') (e' := e') hbc s2 s6 s7 s8 ge
        (by rw [s4]; rw [hB.n2, hB.n7] at s5; exact s5) rfl rfl rfl rfl
      obtain ⟨a1, a2, a3, a4⟩ := ecm_base hB1 ht hbc rfl
      rw [s1]
      refine ⟨_, ecmD D', ecmD D', rfl, Adv.trans s3 a1, a2, ⟨?_, fun h => absurd a3.fl h⟩, Or.inr ⟨a3, Or.inl ⟨rfl, rfl, ?_, ?_, ?_, fun _ => hbc⟩⟩⟩
      · show (ecmD D').w.o.total ++ (ecmD D').str ++ [] = data
        rw [a4, s6.out, List.append_nil]; exact hD.out
      · exact congrArg Core.dict s4
      · exact congrArg Core.c1 s4
      · exact congrArg Core.lm s4
  · rw [hC.tr] at ht; cases ht

theorem goCompressed_RB {data f E D Dr b} (h : RB data f E D Dr b) (ht : E.transparent = true) :
    ∃ E' D' Dr', goCompressed E = .ok E' ∧ Adv E.w.o E'.w.o Dr Dr' ∧ RP data f E' D' Dr' b := by
  obtain ⟨hB, hD, hlm, hs, ⟨_, hbc, hk⟩ | ⟨hC, _⟩⟩ := h
  · have hL := hB.lag.eq hbc
    subst hL
    unfold goCompressed
    rw [if_pos ht]
    unfold sendPending
    rw [if_neg (by simpa using hlm), ok_bind]
    have hlen : E.str.length + E.flushed = 0 := hB.ge.len0 hlm
    obtain ⟨a1, a2, a3, a4⟩ := ecm_base hB ht hbc (by omega)
    refine ⟨ecmE E, ecmD Dr, ecmD Dr, rfl, a1, a2, ⟨?_, fun h => absurd a3.fl h⟩, hlm, hs, Or.inr ⟨a3, ?_⟩⟩
    · rw [a4]; exact hD.out
    · obtain ⟨k1, code, u1, g1, u2, u3, u4, hm, hc⟩ := kIter_ok hB.gd hB.n7lo b
      have hne : Dr.lastMatched ≠ 0 := by
        intro h0
        obtain ⟨k', t, h1, h2, h3, _⟩ := kIter_good hB.gd hB.n7lo b
        rw [hk] at h1
        cases h1
        have := h3 h0
        cases this
      have hua : Dr.core.ua = 0 := by
        by_cases h0 : Dr.core.ua = 0
        · exact h0
        · exact absurd (hB.gd.upd h0).1 hne
      rw [kUpdate_zero hua] at u1
      cases u1
      rcases hc with ⟨h0, h1, h2, h3⟩ | ⟨h0, hla, h1, h2, h3⟩ | ⟨h0, hla, h4, hcc, hpath, ⟨h7, h2, h3⟩ | ⟨h7, h2, h3⟩⟩
      · rw [h2] at hk
        have hk' : ({ Dr.core with ua := Dr.core.lm, lm := 0, len := 0 } : Core) = E.core := (Prod.mk.inj (Except.ok.inj hk)).1
        exact ⟨congrArg Core.dict hk', congrArg Core.c1 hk', Or.inl (congrArg Core.ua hk')⟩
      · rw [h2] at hk
        have hk' : ({ Dr.core with la := 0, lm := 0, len := 0 } : Core) = E.core := (Prod.mk.inj (Except.ok.inj hk)).1
        refine ⟨congrArg Core.dict hk', congrArg Core.c1 hk', Or.inr ⟨?_, code, h0, hm⟩⟩
        exact (congrArg Core.ua hk').symm.trans hua
      · rw [h2] at hk; have := (Prod.mk.inj (Except.ok.inj hk)).2; cases this
      · rw [h2] at hk; have := (Prod.mk.inj (Except.ok.inj hk)).2; cases this
  · rw [hC.tr] at ht; cases ht

/-! ## To transparent mode -/

/-- The compressor after the code for transparent mode. -/
def etmE (E : S) : S := { E with lastAdded := 0, w := pushAlign (pushCode E.w 0), transparent := true }

/-- The decompressor after the code for transparent mode. -/
def etmD (D : S) : S := { D with w := { D.w with bitCount := 0 }, transparent := true, lastMatched := 0, lastAdded := 0 }

theorem etm_base {E D Dr : S} (hB : Base E D Dr) (hC : Cmp E D) :
    Adv E.w.o (etmE E).w.o Dr (etmD D) ∧ Base (etmE E) (etmD D) (etmD D) ∧ (etmE E).w.bitCount = 0 := by
  have hd : decCode D 0 = .ok (etmD D) := rfl
  obtain ⟨a1, a2, a3, a4, a5, os, a6, a7⟩ := pushAlign_lag hB.lag (hB.tr.trans hC.tr) hB.c2lo (by have := hB.c2hi; omega) hB.c2 hB.eok (v := 0) (by omega) hd
  refine ⟨⟨os, a6, a7⟩, ?_, a4⟩
  refine ⟨hB.ep, hB.dp, hB.n2, hB.n7, hB.n2lo, hB.n7lo, a3, hB.dok, a1.trans hB.c2, hB.c2lo, hB.c2hi, ?_, hB.esc, hB.escd, rfl, ?_, ?_, ?_, hB.lm3⟩
  · show (pushAlign (pushCode E.w 0)).c3 = 2 ^ (pushAlign (pushCode E.w 0)).c2
    rw [a1, a2]; exact hB.c3
  · have g := hB.ge
    exact ⟨g.wf, g.str, g.lmc, g.len, g.upd, Or.inl rfl⟩
  · have g := hB.gd
    refine ⟨g.wf, ?_, ?_, g.len, ?_, Or.inl rfl⟩
    · obtain ⟨l, p, hl⟩ := g.str
      refine ⟨l, ?_, hl⟩
      show Path D.dict 0 l
      have e : D.core.lm = 0 := hC.lm
      rw [e] at p; exact p
    · have := g.lmc
      have e : D.core.lm = 0 := hC.lm
      rw [e] at this; exact this
    · intro h
      exact ⟨rfl, (g.upd h).2⟩
  · exact ⟨hB.lag.1, rfl, by show (pushAlign (pushCode E.w 0)).bitCount < 8; omega, Or.inl ⟨a4, a5, rfl⟩⟩

theorem etm_core {E D : S} (hC : Cmp E D) (hlm : E.lastMatched = 0) (hs : E.str = []) (h1 : D.dict = E.dict) (h2 : D.c1 = E.c1) :
    (etmE E).core = { (etmD D).core with ua := E.updateAt } := by
  simp only [S.core, etmE, etmD, hlm, hs, h1, h2, hC.fl, hC.str, hC.dfl]

/-- The pending string in compressed mode. -/
theorem sendPending_C {data f E D Dr} (h : R0 data f E D Dr) (hC : Cmp E D) :
    ∃ E' D' Dr', sendPending E = .ok E' ∧ Adv E.w.o E'.w.o Dr Dr' ∧ Base E' D' Dr' ∧ Cmp E' D' ∧ Data data f E' D' ∧ E'.lastMatched = 0 ∧ E'.str = [] ∧
      D'.dict = E'.dict ∧ D'.c1 = E'.c1 ∧ D'.updateAt = E'.updateAt := by
  obtain ⟨hB, hD, ⟨ht, _⟩ | ⟨_, hR⟩⟩ := h
  · rw [hC.tr] at ht; cases ht
  · unfold sendPending
    rcases hR with ⟨r1, r2, r3, r4, r5, _⟩ | ⟨p, r, r1, r2, r3, r4⟩
    · rw [if_neg (by simpa using r1)]
      exact ⟨E, D, Dr, rfl, Adv.refl _ _, hB, hC, hD, r1, r2, r3, r4, r5⟩
    · have hne : E.lastMatched ≠ 0 := by
        intro h0
        rw [h0] at r3
        rw [r3.zero] at r1
        cases r1
      rw [if_pos hne]
      have hlm3 : 3 ≤ E.lastMatched := by rcases hB.lm3 with h | h <;> omega
      have hlen : E.str.length < E.n7 := by
        have h1 := hB.ge.len
        have h2 : E.core.len = E.str.length + E.flushed := rfl
        omega
      have hlo : 259 ≤ E.c1 := hB.ge.wf.c1lo
      have hn7 := hB.n7lo
      have ge : GoodK E.n2 E.n7 ⟨E.dict, E.c1, E.lastMatched, 0, E.lastAdded, 0⟩ :=
        ⟨hB.ge.wf, ⟨[], Path.nil, rfl⟩, by show 0 ≠ E.c1; omega, by show 0 < E.n7; omega, fun _ => ⟨rfl, hB.ge.lmc, _, r3, hlen⟩, hB.ge.la⟩
      obtain ⟨w', e', D', Dr', s1, s2, s3, s4, s5, s6, s7, s8⟩ := send_C (E1 := { E with updateAt := E.lastMatched }) (code := E.lastMatched) (p := p) (r := r)
        hB hC rfl rfl rfl rfl rfl rfl r1 r4 (by rw [← r1]; exact r3) hlm3 hB.ge.lmc (by rw [← r1]; omega) ge
      rw [s1]
      refine ⟨_, D', Dr', rfl, s2, s3, s4, ⟨?_, fun h => absurd rfl h⟩, rfl, rfl, s5, s6, ?_⟩
      · show D'.w.o.total ++ D'.str ++ [] = data
        rw [s8, List.append_nil, ← r1]; exact hD.out
      · rw [s7, ← r1, if_neg (by omega)]; rfl

theorem goTransparent_R0 {data f E D Dr} (h : R0 data f E D Dr) (ht : E.transparent = false) :
    ∃ E' D' Dr', goTransparent E = .ok E' ∧ Adv E.w.o E'.w.o Dr Dr' ∧ R0 data f E' D' Dr' := by
  have h' := h
  obtain ⟨hB, hD, ⟨ht', _⟩ | ⟨hC, _⟩⟩ := h
  · rw [ht] at ht'; cases ht'
  · obtain ⟨E1, D1, Dr1, a1, a2, a3, a4, a5, a6, a7, a8, a9, a10⟩ := sendPending_C h' hC
    obtain ⟨b1, b2, b3⟩ := etm_base a3 a4
    unfold goTransparent
    rw [if_neg (by rw [ht]; simp), a1]
    refine ⟨etmE E1, etmD D1, etmD D1, rfl, Adv.trans a2 b1, b2, ⟨a5.out, a5.fl⟩, Or.inl ⟨rfl, b3, ?_⟩⟩
    rw [etm_core a4 a6 a7 a8 a9, show (etmE E1).str = [] from a7, ← a10]
    rfl

theorem goTransparent_RB {data f E D Dr b} (h : RB data f E D Dr b) (ht : E.transparent = false) :
    ∃ E' D' Dr', goTransparent E = .ok E' ∧ Adv E.w.o E'.w.o Dr Dr' ∧ RP data f E' D' Dr' b := by
  obtain ⟨hB, hD, hlm, hs, ⟨ht', _⟩ | ⟨hC, r1, r2, r3⟩⟩ := h
  · rw [ht] at ht'; cases ht'
  · obtain ⟨b1, b2, b3⟩ := etm_base hB hC
    have hc := etm_core hC hlm hs r1 r2
    unfold goTransparent sendPending
    rw [if_neg (by rw [ht]; simp), if_neg (by simpa using hlm)]
    refine ⟨etmE E, etmD D, etmD D, rfl, b1, b2, ⟨hD.out, hD.fl⟩, hlm, hs, Or.inl ⟨rfl, b3, ?_⟩⟩
    show kTwice E.n2 E.n7 _ b = kTwice E.n2 E.n7 _ b
    rw [hc]
    rcases r3 with r3 | ⟨r3, p, r4, r5⟩
    · rw [← r3]; rfl
    · rw [r3]
      refine kTwice_upd ?_ rfl
      unfold kUpdate
      by_cases h0 : (etmD D).core.ua ≠ 0
      · rw [if_pos h0]
        have r5' : matchOctet (etmD D).core.dict (etmD D).core.ua b = .ok p := r5
        rw [r5', ok_bind, if_neg r4]
      · rw [if_neg h0]
        have h0' : (etmD D).core.ua = 0 := by simpa using h0
        show Except.ok (etmD D).core = Except.ok { (etmD D).core with ua := 0 }
        rw [← h0']

theorem RB.toRP {data f E D Dr b} (h : RB data f E D Dr b) : RP data f E D Dr b := by
  obtain ⟨hB, hD, hlm, hs, hR⟩ := h
  refine ⟨hB, hD, hlm, hs, hR.imp ?_ id⟩
  rintro ⟨h1, h2, h3⟩
  refine ⟨h1, h2, ?_⟩
  obtain ⟨k', t, i1, i2, i3, _⟩ := kIter_good hB.ge hB.n7lo b
  have := i3 hlm
  subst this
  simp [kTwice, h3, i1]

theorem monitor_cases (s : S) : monitor s = .ok s ∨ (s.transparent = true ∧ monitor s = goCompressed s) ∨
    (s.transparent = false ∧ monitor s = goTransparent s) := by
  unfold monitor
  cases h : s.transparent
  · cases s.mode
    · by_cases hp : s.perf > 2048
      · exact Or.inr (Or.inr ⟨rfl, by simp [hp]⟩)
      · exact Or.inl (by simp [hp])
    · exact Or.inl rfl
    · exact Or.inr (Or.inr ⟨rfl, rfl⟩)
  · cases s.mode
    · by_cases hp : s.perf < 2048 - 11
      · exact Or.inr (Or.inl ⟨rfl, by simp [hp]⟩)
      · exact Or.inl (by simp [hp])
    · exact Or.inr (Or.inl ⟨rfl, rfl⟩)
    · exact Or.inl rfl

theorem monitor_R0 {data f E D Dr} (h : R0 data f E D Dr) (hu : E.updateAt = 0) :
    ∃ E' D' Dr', monitor E = .ok E' ∧ Adv E.w.o E'.w.o Dr Dr' ∧ R0 data f E' D' Dr' := by
  rcases monitor_cases E with h1 | ⟨h1, h2⟩ | ⟨h1, h2⟩
  · exact ⟨E, D, Dr, h1, Adv.refl _ _, h⟩
  · rw [h2]; exact goCompressed_R0 h hu h1
  · rw [h2]; exact goTransparent_R0 h h1

theorem monitor_RB {data f E D Dr b} (h : RB data f E D Dr b) :
    ∃ E' D' Dr', monitor E = .ok E' ∧ Adv E.w.o E'.w.o Dr Dr' ∧ RP data f E' D' Dr' b := by
  rcases monitor_cases E with h1 | ⟨h1, h2⟩ | ⟨h1, h2⟩
  · exact ⟨E, D, Dr, h1, Adv.refl _ _, h.toRP⟩
  · rw [h2]; exact goCompressed_RB h h1
  · rw [h2]; exact goTransparent_RB h h1

/-! ## What does not change -/

structure Same (s s' : S) : Prop where
  p0 : s'.p0 = s.p0
  n2 : s'.n2 = s.n2
  n7 : s'.n7 = s.n7
  mode : s'.mode = s.mode
  mo : s'.w.o.maxOut = s.w.o.maxOut

theorem Same.refl (s : S) : Same s s := ⟨rfl, rfl, rfl, rfl, rfl⟩

theorem push_mo (o : Out) (b : Byte) : (o.push b).maxOut = o.maxOut := by
  unfold Out.push; split <;> rfl

theorem flush_mo (o : Out) : o.flush.maxOut = o.maxOut := by
  unfold Out.flush; split <;> rfl

theorem emit_mo : ∀ (k : Nat) (o : Out) (x n : Nat), (emit k o x n).1.maxOut = o.maxOut := by
  intro k
  induction k with
  | zero => intros; rfl
  | succ k ih =>
    intro o x n
    unfold emit
    split
    · rw [ih, push_mo]
    · rfl

theorem pushCode_mo (w : W) (c : Nat) : (pushCode w c).o.maxOut = w.o.maxOut := emit_mo _ _ _ _

theorem pushAlign_mo (w : W) : (pushAlign w).o.maxOut = w.o.maxOut := by
  unfold pushAlign
  split
  · exact emit_mo _ _ _ _
  · rfl

theorem pushEscaped_mo : ∀ (l : List Byte) (x : Out × Byte), (l.foldl pushEscaped x).1.maxOut = x.1.maxOut := by
  intro l
  induction l with
  | nil => intros; rfl
  | cons b l ih =>
    intro x
    rw [List.foldl_cons, ih]
    unfold pushEscaped
    split <;> simp only [push_mo]

theorem stepUps_mo : ∀ (n : Nat) (w w' : W) (c : Nat), stepUps n w c = .ok w' → w'.o.maxOut = w.o.maxOut := by
  intro n
  induction n with
  | zero => intro w w' c h; cases h
  | succ n ih =>
    intro w w' c h
    unfold stepUps at h
    split at h
    · exact (ih _ _ _ h).trans (pushCode_mo _ _)
    · cases h; rfl

theorem Same.trans {a b c : S} (h : Same a b) (h' : Same b c) : Same a c :=
  ⟨h'.p0.trans h.p0, h'.n2.trans h.n2, h'.n7.trans h.n7, h'.mode.trans h.mode, h'.mo.trans h.mo⟩

theorem bind_ok {α β : Type} {x : M α} {f : α → M β} {b : β} (h : x >>= f = .ok b) : ∃ a, x = .ok a ∧ f a = .ok b := by
  cases x with
  | error e => cases h
  | ok a => exact ⟨a, rfl, h⟩

theorem sendEncoded_same {s s' : S} {c : Nat} (h : sendEncoded s c = .ok s') : Same s s' ∧ s'.transparent = s.transparent := by
  unfold sendEncoded at h
  obtain ⟨r, h1, h2⟩ := bind_ok h
  cases h2
  refine ⟨⟨rfl, rfl, rfl, rfl, ?_⟩, rfl⟩
  unfold sendData at h1
  split at h1
  · cases h1
    exact pushEscaped_mo _ _
  · obtain ⟨w, h2, h3⟩ := bind_ok h1
    cases h3
    exact (pushCode_mo _ _).trans (stepUps_mo _ _ _ _ h2)

theorem update_same {s s' : S} {b : Byte} (h : update s b = .ok s') : Same s s' ∧ s'.transparent = s.transparent := by
  unfold update at h
  split at h
  · obtain ⟨m, _, h2⟩ := bind_ok h
    split at h2
    · obtain ⟨r, _, h3⟩ := bind_ok h2
      cases h3
      exact ⟨⟨rfl, rfl, rfl, rfl, rfl⟩, rfl⟩
    · cases h2
      exact ⟨⟨rfl, rfl, rfl, rfl, rfl⟩, rfl⟩
  · cases h
    exact ⟨Same.refl _, rfl⟩

theorem matchString_same : ∀ (l : List Byte) (s s' : S) (t : List Byte), matchString s l = .ok (s', t) → Same s s' ∧ s'.transparent = s.transparent := by
  intro l
  induction l with
  | nil => intro s s' t h; cases h; exact ⟨Same.refl _, rfl⟩
  | cons b l ih =>
    intro s s' t h
    unfold matchString at h
    obtain ⟨code, _, h⟩ := bind_ok h
    split at h
    · obtain ⟨s1, h1, h⟩ := bind_ok h
      cases h
      obtain ⟨a, b⟩ := sendEncoded_same h1
      exact ⟨⟨a.p0, a.n2, a.n7, a.mode, a.mo⟩, b⟩
    · split at h
      · obtain ⟨s1, h1, h⟩ := bind_ok h
        cases h
        obtain ⟨a, b⟩ := sendEncoded_same h1
        exact ⟨⟨a.p0, a.n2, a.n7, a.mode, a.mo⟩, b⟩
      · obtain ⟨s1, h1, h⟩ := bind_ok h
        unfold appendStr at h1
        split at h1
        · cases h1
          split at h
          · obtain ⟨s2, h2, h⟩ := bind_ok h
            cases h
            obtain ⟨a, b⟩ := sendEncoded_same h2
            exact ⟨⟨a.p0, a.n2, a.n7, a.mode, a.mo⟩, b⟩
          · obtain ⟨a, b⟩ := ih _ _ _ h
            exact ⟨⟨a.p0, a.n2, a.n7, a.mode, a.mo⟩, b⟩
        · cases h1

theorem sendPending_same {s s' : S} (h : sendPending s = .ok s') : Same s s' := by
  unfold sendPending at h
  split at h
  · obtain ⟨s1, h1, h⟩ := bind_ok h
    cases h
    obtain ⟨a, b⟩ := sendEncoded_same h1
    exact ⟨a.p0, a.n2, a.n7, a.mode, a.mo⟩
  · cases h; exact Same.refl _

theorem monitor_same {s s' : S} (h : monitor s = .ok s') : Same s s' := by
  rcases monitor_cases s with h1 | ⟨ht, h1⟩ | ⟨_, h1⟩
  · rw [h1] at h; cases h; exact Same.refl _
  · rw [h1] at h
    unfold goCompressed at h
    rw [if_pos ht] at h
    obtain ⟨s1, h2, h⟩ := bind_ok h
    cases h
    have a := sendPending_same h2
    exact ⟨a.p0, a.n2, a.n7, a.mode, ((push_mo _ _).trans (push_mo _ _)).trans a.mo⟩
  · rw [h1] at h
    unfold goTransparent at h
    split at h
    · cases h; exact Same.refl _
    · obtain ⟨s1, h2, h⟩ := bind_ok h
      cases h
      have a := sendPending_same h2
      exact ⟨a.p0, a.n2, a.n7, a.mode, ((pushAlign_mo _).trans (pushCode_mo _ _)).trans a.mo⟩

theorem compressFlush_same {s s' : S} (h : compressFlush s = .ok s') : Same s s' ∧ s'.transparent = s.transparent := by
  unfold compressFlush at h
  split at h
  · cases h; exact ⟨Same.refl _, rfl⟩
  · obtain ⟨s1, h1, h⟩ := bind_ok h
    have a : Same s s1 ∧ s1.transparent = s.transparent := by
      unfold flushPending at h1
      split at h1
      · obtain ⟨s2, h2, h1⟩ := bind_ok h1
        cases h1
        obtain ⟨a, b⟩ := sendEncoded_same h2
        exact ⟨⟨a.p0, a.n2, a.n7, a.mode, a.mo⟩, b⟩
      · cases h1; exact ⟨Same.refl _, rfl⟩
    obtain ⟨a, b⟩ := a
    cases h
    constructor
    · constructor
      · rw [← a.p0]; dsimp only; split <;> rfl
      · rw [← a.n2]; dsimp only; split <;> rfl
      · rw [← a.n7]; dsimp only; split <;> rfl
      · rw [← a.mode]; dsimp only; split <;> rfl
      · rw [← a.mo]; dsimp only; rw [flush_mo]; split
        · rfl
        · exact (pushAlign_mo _).trans (pushCode_mo _ _)
    · rw [← b]; dsimp only; split <;> rfl

/-- The mode of the compressor is the one which was asked for. -/
def Steady (s : S) : Prop := (s.mode = .never ∧ s.transparent = true) ∨ (s.mode = .always ∧ s.transparent = false)

theorem Steady.of {s s' : S} (h : Steady s) (h1 : Same s s' ∧ s'.transparent = s.transparent) : Steady s' := by
  unfold Steady at h ⊢
  rw [h1.1.mode, h1.2]
  exact h

theorem Steady.monitor {s : S} (h : Steady s) : monitor s = .ok s := by
  rcases h with ⟨h1, h2⟩ | ⟨h1, h2⟩
  · unfold V42bis.monitor; rw [h1]; simp [h2]
  · unfold V42bis.monitor; rw [h1]; simp [h2]

/-! ## Calls -/

theorem matchString_ok : ∀ (t : List Byte) (b : Byte) (data : List Byte) (f : Int) (E D Dr : S), RM data f E D Dr b →
    ∃ E' rest pre D' Dr', matchString E (b :: t) = .ok (E', rest) ∧ b :: t = pre ++ rest ∧ Adv E.w.o E'.w.o Dr Dr' ∧
      ((pre ≠ [] ∧ R0 (data ++ pre) f E' D' Dr' ∧ E'.updateAt = 0) ∨
       (∃ b' t', rest = b' :: t' ∧ (E.lastMatched = 0 → pre ≠ []) ∧ RB (data ++ pre) f E' D' Dr' b')) := by
  intro t
  induction t with
  | nil =>
    intro b data f E D Dr h
    obtain ⟨E1, tk, D1, Dr1, a1, a2, a3, _, a4, a5⟩ := eMatch_ok h
    rw [matchString_cons, a1, ok_bind]
    cases tk with
    | false =>
      refine ⟨E1, [b], [], D1, Dr1, rfl, rfl, a2, Or.inr ⟨b, [], rfl, fun h => (by cases a3 h), ?_⟩⟩
      rw [List.append_nil]; exact a5 rfl
    | true =>
      refine ⟨E1, [], [b], D1, Dr1, ?_, rfl, a2, Or.inl ⟨by simp, a4 rfl⟩⟩
      simp only [Bool.true_eq_false, if_false]
      split <;> simp [matchString]
  | cons c t ih =>
    intro b data f E D Dr h
    obtain ⟨E1, tk, D1, Dr1, a1, a2, a3, _, a4, a5⟩ := eMatch_ok h
    rw [matchString_cons, a1, ok_bind]
    cases tk with
    | false =>
      refine ⟨E1, b :: c :: t, [], D1, Dr1, rfl, rfl, a2, Or.inr ⟨b, c :: t, rfl, fun h => (by cases a3 h), ?_⟩⟩
      rw [List.append_nil]; exact a5 rfl
    | true =>
      obtain ⟨r0, ru⟩ := a4 rfl
      simp only [Bool.true_eq_false, if_false]
      by_cases hlm : E1.lastMatched = 0
      · rw [if_pos hlm]
        exact ⟨E1, c :: t, [b], D1, Dr1, rfl, rfl, a2, Or.inl ⟨by simp, r0, ru⟩⟩
      · rw [if_neg hlm]
        obtain ⟨E2, u1, u2, u3, u4, u5⟩ := update_R0 r0 c
        have := u5 ru
        subst this
        obtain ⟨E3, rest, pre, D3, Dr3, c1, c2, c3, c4⟩ := ih c (data ++ [b]) f E2 D1 Dr1 u2
        refine ⟨E3, rest, b :: pre, D3, Dr3, c1, by rw [c2]; rfl, Adv.trans a2 c3, ?_⟩
        rw [List.append_assoc] at c4
        rcases c4 with ⟨d1, d2, d3⟩ | ⟨b', t', d1, d2, d3⟩
        · exact Or.inl ⟨by simp, d2, d3⟩
        · exact Or.inr ⟨b', t', d1, fun _ => by simp, d3⟩

theorem compressLoop_ok : ∀ (n : Nat) (l : List Byte) (data : List Byte) (f : Int) (E D Dr : S),
    (R0 data f E D Dr ∧ 2 * l.length ≤ n ∨ ∃ b t, l = b :: t ∧ RP data f E D Dr b ∧ 2 * l.length ≤ n + 1) →
    ∃ E' D' Dr', compressLoop n E l = .ok E' ∧ Adv E.w.o E'.w.o Dr Dr' ∧ R0 (data ++ l) f E' D' Dr' ∧ Same E E' ∧
      (Steady E → Steady E' ∧ (l ≠ [] → E'.updateAt = 0)) := by
  intro n
  induction n with
  | zero =>
    intro l data f E D Dr h
    rcases h with ⟨h1, h2⟩ | ⟨b, t, h1, _, h2⟩
    · have : l = [] := List.eq_nil_of_length_eq_zero (by omega)
      subst this
      exact ⟨E, D, Dr, by simp [compressLoop], Adv.refl _ _, by rw [List.append_nil]; exact h1, Same.refl _, fun h => ⟨h, fun h => absurd rfl h⟩⟩
    · subst h1; simp at h2; omega
  | succ n ih =>
    intro l data f E D Dr h
    cases l with
    | nil =>
      rcases h with ⟨h1, h2⟩ | ⟨b, t, h1, _, h2⟩
      · exact ⟨E, D, Dr, by simp [compressLoop], Adv.refl _ _, by rw [List.append_nil]; exact h1, Same.refl _, fun h => ⟨h, fun h => absurd rfl h⟩⟩
      · cases h1
    | cons b t =>
      have hup : ∃ E1, update E b = .ok E1 ∧ RM data f E1 D Dr b ∧ E1.w = E.w ∧ (2 * (b :: t).length ≤ n + 1 ∨ E1.lastMatched = 0) ∧
          2 * (b :: t).length ≤ n + 2 := by
        rcases h with ⟨h1, h2⟩ | ⟨b', t', h1, h2, h3⟩
        · obtain ⟨E1, u1, u2, u3, _⟩ := update_R0 h1 b
          exact ⟨E1, u1, u2, u3, Or.inl h2, by omega⟩
        · cases h1
          obtain ⟨E1, u1, u2, u3, u4⟩ := update_RP h2
          exact ⟨E1, u1, u2, u3, Or.inr u4, h3⟩
      obtain ⟨E1, u1, u2, u3, u4, u5⟩ := hup
      obtain ⟨E2, rest, pre, D2, Dr2, m1, m2, m3, m4⟩ := matchString_ok t b data f E1 D Dr u2
      rw [u3] at m3
      have hlen : (b :: t).length = pre.length + rest.length := by rw [m2, List.length_append]
      have k1 := update_same u1
      have k2 := matchString_same _ _ _ _ m1
      simp only [compressLoop]
      rw [u1, ok_bind, m1, ok_bind]
      rcases m4 with ⟨p1, p2, p3⟩ | ⟨b', t', p1, p2, p3⟩
      · obtain ⟨E3, D3, Dr3, q1, q2, q3⟩ := monitor_R0 p2 p3
        dsimp only
        rw [q1, ok_bind]
        have hp : 0 < pre.length := List.length_pos_iff.2 p1
        obtain ⟨E4, D4, Dr4, s1, s2, s3, s4, s5⟩ := ih rest (data ++ pre) f E3 D3 Dr3 (Or.inl ⟨q3, by omega⟩)
        refine ⟨E4, D4, Dr4, s1, (m3.trans q2).trans s2, by rw [m2, ← List.append_assoc]; exact s3, ((k1.1.trans k2.1).trans (monitor_same q1)).trans s4, ?_⟩
        intro st
        have st2 := (st.of k1).of k2
        rw [st2.monitor] at q1
        cases q1
        refine ⟨(s5 st2).1, fun _ => ?_⟩
        cases rest with
        | nil =>
          have : E4 = E2 := by cases n <;> (simp only [compressLoop] at s1; exact (Except.ok.inj s1).symm)
          rw [this]; exact p3
        | cons x rest => exact (s5 st2).2 (by simp)
      · obtain ⟨E3, D3, Dr3, q1, q2, q3⟩ := monitor_RB p3
        dsimp only
        rw [q1, ok_bind]
        obtain ⟨E4, D4, Dr4, s1, s2, s3, s4, s5⟩ := ih rest (data ++ pre) f E3 D3 Dr3 (Or.inr ⟨b', t', p1, q3, by
          rcases u4 with u4 | u4
          · omega
          · have hp : 0 < pre.length := List.length_pos_iff.2 (p2 u4)
            omega⟩)
        refine ⟨E4, D4, Dr4, s1, (m3.trans q2).trans s2, by rw [m2, ← List.append_assoc]; exact s3, ((k1.1.trans k2.1).trans (monitor_same q1)).trans s4, ?_⟩
        intro st
        have st2 := (st.of k1).of k2
        rw [st2.monitor] at q1
        cases q1
        exact ⟨(s5 st2).1, fun _ => (s5 st2).2 (by rw [p1]; simp)⟩

theorem compress_ok {data f E D Dr} (h : R0 data f E D Dr) (l : List Byte) :
    ∃ E' D' Dr', compress E l = .ok E' ∧ Adv E.w.o E'.w.o Dr Dr' ∧ R0 (data ++ l) f E' D' Dr' ∧ Same E E' ∧
      (Steady E → Steady E' ∧ (l ≠ [] → E'.updateAt = 0)) := by
  unfold compress
  rw [if_pos h.1.ep]
  exact compressLoop_ok _ l data f E D Dr (Or.inl ⟨h, Nat.le_refl _⟩)

end V42bis
