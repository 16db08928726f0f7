import Verif.V42bis.Loop

/-! # Flushes -/

namespace V42bis

theorem sendEncoded_upd {E : S} {u code : Nat} {w : W} {e : Byte} (h : sendEncoded { E with updateAt := u } code = .ok (sent { E with updateAt := u } w e)) :
    sendEncoded E code = .ok (sent E w e) := by
  unfold sendEncoded at h ⊢
  change (sendData E.transparent E.w E.esc E.str code >>= _) = _ at h
  cases hs : sendData E.transparent E.w E.esc E.str code with
  | error e => rw [hs] at h; cases h
  | ok r =>
    rw [hs, ok_bind] at h
    rw [ok_bind]
    have h' := Except.ok.inj h
    have h1 : r.1 = w := congrArg S.w h'
    have h2 : r.2 = e := congrArg S.esc h'
    rw [h1, h2]
    rfl

/-- The handler of the output. -/
theorem Base.flush {E D Dr} (h : Base E D Dr) : Base { E with w := { E.w with o := E.w.o.flush } } D Dr :=
  ⟨h.ep, h.dp, h.n2, h.n7, h.n2lo, h.n7lo, flush_ok h.eok, h.dok, h.c2, h.c2lo, h.c2hi, h.c3, h.esc, h.escd, h.tr, h.ge, h.gd, h.lag, h.lm3⟩

theorem Adv.flush (o : Out) (D : S) : Adv o o.flush D D := ⟨[], by simp, rfl⟩

theorem R0.flush {data f E D Dr} (h : R0 data f E D Dr) : R0 data f { E with w := { E.w with o := E.w.o.flush } } D Dr := by
  obtain ⟨hB, hD, hR⟩ := h
  refine ⟨hB.flush, ⟨hD.out, hD.fl⟩, hR.imp id ?_⟩
  rintro ⟨hC, h⟩
  exact ⟨⟨hC.tr, hC.fl, hC.lm, hC.str, hC.dfl⟩, h⟩

theorem flush_code {E D Dr : S} (hB : Base E D Dr) (hC : Cmp E D) :
    ∃ w', w' = pushAlign (pushCode E.w 1) ∧ Adv E.w.o w'.o Dr D ∧ Base { E with w := w' } D D ∧ w'.bitCount = 0 := by
  have hd : decCode D 1 = .ok D := by
    show Except.ok { D with w := { D.w with bitCount := 0 } } = Except.ok D
    have := hB.lag.2.1
    cases D with
    | mk p0 mode tr c1 ua lm la n2 n7 dict str fl perf w esc escd =>
      cases w
      dsimp only at this
      subst this
      rfl
  obtain ⟨a1, a2, a3, a4, a5, os, a6, a7⟩ := pushAlign_lag hB.lag (hB.tr.trans hC.tr) hB.c2lo (by have := hB.c2hi; omega) hB.c2 hB.eok (v := 1) (by omega) hd
  refine ⟨_, rfl, ⟨os, a6, a7⟩, ?_, a4⟩
  refine ⟨hB.ep, hB.dp, hB.n2, hB.n7, hB.n2lo, hB.n7lo, a3, hB.dok, a1.trans hB.c2, hB.c2lo, hB.c2hi, ?_, hB.esc, hB.escd, hB.tr, hB.ge, hB.gd, ?_, hB.lm3⟩
  · show (pushAlign (pushCode E.w 1)).c3 = 2 ^ (pushAlign (pushCode E.w 1)).c2
    rw [a1, a2]; exact hB.c3
  · exact ⟨hB.lag.1, hB.lag.2.1, by show (pushAlign (pushCode E.w 1)).bitCount < 8; omega, Or.inl ⟨a4, a5, rfl⟩⟩

/-- A flush of the compressor. -/
theorem compressFlush_ok {data f E D Dr} (h : R0 data f E D Dr) (hf : E.flushed = 0 ∨ E.transparent = false) :
    ∃ E' D' Dr', compressFlush E = .ok E' ∧ Adv E.w.o E'.w.o Dr Dr' ∧ R0 data data.length E' D' Dr' ∧ E'.str = [] ∧ Dr' = D' ∧
      (E.updateAt = 0 → E'.w.o.buf = []) := by
  have h' := h
  obtain ⟨hB, hD, hR⟩ := h
  have hf0 : E.flushed = 0 := by
    rcases hf with h | h
    · exact h
    · rcases hR with ⟨ht, _⟩ | ⟨hC, _⟩
      · rw [h] at ht; cases ht
      · exact hC.fl
  unfold compressFlush
  by_cases hu : E.updateAt = 0
  · rw [if_neg (by simpa using hu)]
    rcases hR with ⟨ht, hbc, hk⟩ | ⟨hC, hR⟩
    · have hL := hB.lag.eq hbc
      subst hL
      unfold flushPending
      by_cases hlm : E.lastMatched = 0
      · rw [if_neg (by simpa using hlm)]
        have hlen : E.str.length + E.flushed = 0 := hB.ge.len0 hlm
        have hs : E.str = [] := List.eq_nil_of_length_eq_zero (by omega)
        have ht' : (if E.transparent then E else
            { E with updateAt := E.lastMatched, lastMatched := 0, flushed := 0, w := pushAlign (pushCode E.w 1) }) = E := if_pos ht
        have hr := h'.flush
        refine ⟨{ E with w := { E.w with o := E.w.o.flush } }, Dr, Dr, ?_, Adv.flush _ _, ⟨hr.1, ⟨hD.out, fun h => absurd hf0 h⟩, hr.2.2⟩, hs, rfl,
          fun _ => flush_buf _⟩
        rw [ok_bind]
        simp only [ht']
      · rw [if_pos hlm]
        obtain ⟨o', e', D', s1, s2, s3, s4, s5, s6, s7, s8⟩ := send_transparent (E := E) E.lastMatched ht hB.eok hB.dok
          (hB.tr.trans ht) hB.escd hB.esc (by rw [hB.n2, hB.n7]; exact hB.gd) (by rw [hB.n7]; exact hB.n7lo) (by rw [hB.n2, hB.n7]; exact hk)
        rw [s1]
        simp only [ok_bind]
        have hc : ({ sent E { E.w with o := o'.flush } e' with flushed := 0 + E.str.length } : S).core = E.core := by
          simp only [S.core, sent, hf0, List.length_nil]
          congr 1
          omega
        have hbuf : E.w.bitBuf = 0 := by
          obtain ⟨_, _, _, l4 | l4⟩ := hB.lag
          · exact l4.2.1
          · omega
        refine ⟨{ sent E { E.w with o := o'.flush } e' with flushed := 0 + E.str.length }, D', D', ?_, Adv.trans s3 (Adv.flush _ _), ⟨?_, ⟨?_, ?_⟩, Or.inl ⟨ht, hbc, ?_⟩⟩, rfl, rfl,
          fun _ => flush_buf _⟩
        · have ht' : ∀ A B : S, (if (sent E { E.w with o := o' } e').transparent = true then A else B) = A := fun A B => if_pos ht
          rw [ht']
          rfl
        · have e1 := s6.bb; have e2 := s6.bc
          rw [hB.n2, hB.n7] at s5
          exact ⟨hB.ep, s6.p0.trans hB.dp, s6.n2.trans hB.n2, s6.n7.trans hB.n7, hB.n2lo, hB.n7lo, flush_ok s2, s6.ok, hB.c2.trans s6.c2.symm,
            by rw [s6.c2]; exact hB.c2lo, by rw [s6.c2]; exact hB.c2hi, hB.c3, s7, s8, s6.tr.trans hB.tr, by rw [hc]; exact hB.ge,
            by rw [s4]; exact s5, ⟨by rw [e1]; exact hB.lag.1, by rw [e2]; exact hB.lag.2.1, hB.lag.2.2.1, Or.inl ⟨hbc, hbuf, rfl⟩⟩, hB.lm3⟩
        · show D'.w.o.total ++ D'.str ++ [] = data
          rw [s6.out, List.append_nil]; exact hD.out
        · intro _
          show (data.length : Int) ≤ data.length + ((0 : Nat) : Int)
          omega
        · rw [hc]
          show kRun E.n2 E.n7 D'.core [] = _
          rw [s4]; rfl
    · have key : ∃ w1 e1 D1 Dr1 u fl, flushPending E = .ok { E with perf := u, w := w1, esc := e1, str := [], flushed := fl } ∧ Adv E.w.o w1.o Dr Dr1 ∧
          Base { E with perf := u, w := w1, esc := e1, str := [], flushed := 0, updateAt := E.lastMatched, lastMatched := 0 } D1 Dr1 ∧
          Cmp { E with perf := u, w := w1, esc := e1, str := [], flushed := 0, updateAt := E.lastMatched, lastMatched := 0 } D1 ∧
          D1.dict = E.dict ∧ D1.c1 = E.c1 ∧ D1.updateAt = E.lastMatched ∧ D1.w.o.total ++ D1.str = data := by
        unfold flushPending
        rcases hR with ⟨r1, r2, r3, r4, r5, _⟩ | ⟨p, r, r1, r2, r3, r4⟩
        · rw [if_neg (by simpa using r1)]
          have e1 : ({ E with perf := E.perf, w := E.w, esc := E.esc, str := [], flushed := 0, updateAt := E.lastMatched, lastMatched := 0 } : S) = E := by
            cases E
            simp_all
          have e2 : ({ E with perf := E.perf, w := E.w, esc := E.esc, str := [], flushed := 0 } : S) = E := by
            cases E
            simp_all
          refine ⟨E.w, E.esc, D, Dr, E.perf, 0, by rw [e2], Adv.refl _ _, by rw [e1]; exact hB, by rw [e1]; exact hC, r3, r4, by rw [r5, hu, r1], ?_⟩
          have := hD.out
          rw [r2, List.append_nil] at this
          exact this
        · have hne : E.lastMatched ≠ 0 := by
            intro h0
            rw [h0] at r3
            rw [r3.zero] at r1
            cases r1
          have hlm3 : 3 ≤ E.lastMatched := by rcases hB.lm3 with h | h <;> omega
          have hlen : E.str.length < E.n7 := by
            have h1 := hB.ge.len
            have h2 : E.core.len = E.str.length + E.flushed := rfl
            omega
          have hlo : 259 ≤ E.c1 := hB.ge.wf.c1lo
          have hn7 := hB.n7lo
          have ge : GoodK E.n2 E.n7 ⟨E.dict, E.c1, E.lastMatched, 0, E.lastAdded, 0⟩ :=
            ⟨hB.ge.wf, ⟨[], Path.nil, rfl⟩, by show 0 ≠ E.c1; omega, by show 0 < E.n7; omega, fun _ => ⟨rfl, hB.ge.lmc, _, r3, hlen⟩, hB.ge.la⟩
          obtain ⟨w', e', D', Dr', s1, s2, s3, s4, s5, s6, s7, s8⟩ := send_C (E1 := { E with updateAt := E.lastMatched }) (code := E.lastMatched) (p := p)
            (r := r) hB hC rfl rfl rfl rfl rfl rfl r1 r4 (by rw [← r1]; exact r3) hlm3 hB.ge.lmc (by rw [← r1]; omega) ge
          have s1' := sendEncoded_upd s1
          rw [if_pos hne]
          refine ⟨w', e', D', Dr', metric E, 0 + E.str.length, ?_, s2, s3, s4, s5, s6, ?_, ?_⟩
          · dsimp only
            rw [s1']; rfl
          · rw [s7, ← r1, if_neg (by omega)]
          · rw [s8, ← r1]; exact hD.out
      obtain ⟨w1, e1, D1, Dr1, u, fl, k1, k2, k3, k4, k5, k6, k7, k8⟩ := key
      rw [k1]
      simp only [ok_bind]
      obtain ⟨w', f1, f2, f3, f4⟩ := flush_code k3 k4
      have htf : ∀ A B : S, (if E.transparent = true then A else B) = B := fun A B => if_neg (by rw [hC.tr]; simp)
      rw [htf]
      refine ⟨_, D1, D1, rfl, Adv.trans k2 (Adv.trans f2 ?_), ⟨?_, ⟨?_, fun h => absurd rfl h⟩, Or.inr ⟨⟨hC.tr, rfl, k4.lm, k4.str, k4.dfl⟩,
        Or.inl ⟨rfl, rfl, k5, k6, k7, ?_⟩⟩⟩, rfl, rfl, fun _ => flush_buf _⟩
      · rw [f1]; exact Adv.flush _ _
      · have := f3.flush
        rw [f1] at this
        exact this
      · show D1.w.o.total ++ D1.str ++ [] = data
        rw [List.append_nil]; exact k8
      · intro _
        rw [f1] at f4; exact f4
  · rw [if_pos hu]
    have hlm : E.lastMatched = 0 := (hB.ge.upd hu).1
    have hlen : E.str.length + E.flushed = 0 := hB.ge.len0 hlm
    have hs : E.str = [] := List.eq_nil_of_length_eq_zero (by omega)
    refine ⟨E, D, Dr, rfl, Adv.refl _ _, ⟨hB, ⟨hD.out, fun h => absurd hf0 h⟩, hR⟩, hs, ?_, fun h => absurd h hu⟩
    rcases hR with ⟨_, hbc, _⟩ | ⟨hC, ⟨_, _, _, _, _, hb⟩ | ⟨p, r, _, r2, _⟩⟩
    · exact hB.lag.eq hbc
    · exact hB.lag.eq (hb hu)
    · exact absurd r2 hu

end V42bis
