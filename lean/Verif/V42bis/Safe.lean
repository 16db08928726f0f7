import Verif.V42bis.Session

/-! # The decompressor on any input -/

namespace V42bis

/-! ## What has been delivered stays delivered -/

/-- The output goes on. -/
def Grow (s s' : S) : Prop := s'.p0 = s.p0 ∧ (s.w.o.Ok → s'.w.o.Ok ∧ s'.w.o.maxOut = s.w.o.maxOut ∧ ∃ l, s'.w.o.total ++ s'.str = s.w.o.total ++ s.str ++ l)

theorem Grow.refl (s : S) : Grow s s := ⟨rfl, fun h => ⟨h, rfl, [], by simp⟩⟩

theorem Grow.trans {a b c : S} (h : Grow a b) (h' : Grow b c) : Grow a c := by
  refine ⟨h'.1.trans h.1, fun ho => ?_⟩
  obtain ⟨h1, hm, l, h2⟩ := h.2 ho
  obtain ⟨h3, hm', t, h4⟩ := h'.2 h1
  exact ⟨h3, hm'.trans hm, l ++ t, by rw [h4, h2, List.append_assoc]⟩

theorem Grow.of {a b c d : S} (h : Grow a b) (h0 : c.p0 = a.p0) (h1 : c.w.o = a.w.o) (h2 : c.str = a.str) (h0' : d.p0 = b.p0) (h3 : d.w.o = b.w.o)
    (h4 : d.str = b.str) : Grow c d := by
  unfold Grow at h ⊢
  rw [h0, h0', h1, h2, h3, h4]; exact h

theorem grow_send (s : S) : Grow s (sendString s) := by
  refine ⟨rfl, fun h => ?_⟩
  exact ⟨pushAll_ok h _, (pushChunks_spec _ _ _ h (Nat.lt_succ_self _)).2.2, [], by simp [sendString, pushAll_total h]⟩

theorem update_out {s s' : S} {b : Byte} (h : update s b = .ok s') : s'.w = s.w ∧ s'.str = s.str ∧ s'.esc = s.esc ∧ s'.escaped = s.escaped := by
  unfold update at h
  split at h
  · obtain ⟨m, _, h2⟩ := bind_ok h
    split at h2
    · obtain ⟨r, _, h3⟩ := bind_ok h2
      cases h3
      exact ⟨rfl, rfl, rfl, rfl⟩
    · cases h2
      exact ⟨rfl, rfl, rfl, rfl⟩
  · cases h
    exact ⟨rfl, rfl, rfl, rfl⟩

theorem grow_matchOnce {s s' : S} {b : Byte} {t : Bool} (h : matchOnce s b = .ok (s', t)) : Grow s s' := by
  unfold matchOnce at h
  obtain ⟨s1, h1, h⟩ := bind_ok h
  obtain ⟨code, _, h⟩ := bind_ok h
  obtain ⟨u1, u2, _⟩ := update_out h1
  have e1 : s.w.o = s1.w.o := by rw [u1]
  split at h
  · cases h
    exact (grow_send s1).of (update_same h1).1.p0.symm e1 u2.symm rfl rfl rfl
  · split at h
    · cases h
      exact (grow_send s1).of (update_same h1).1.p0.symm e1 u2.symm rfl rfl rfl
    · obtain ⟨s2, h2, h⟩ := bind_ok h
      unfold appendStr at h2
      split at h2
      · cases h2
        have g : Grow s { s1 with lastMatched := code, str := s1.str ++ [b] } := by
          refine ⟨(update_same h1).1.p0, fun ho => ?_⟩
          refine ⟨by rw [e1] at ho; exact ho, by rw [e1], [b], ?_⟩
          show s1.w.o.total ++ (s1.str ++ [b]) = _
          rw [u1, u2, List.append_assoc]
        split at h
        · cases h
          exact g.trans ((grow_send _).of rfl rfl rfl rfl rfl rfl)
        · cases h
          exact g
      · cases h2

theorem grow_matchTwice {s s' : S} {b : Byte} (h : matchTwice s b = .ok s') : Grow s s' := by
  unfold matchTwice at h
  obtain ⟨r, h1, h⟩ := bind_ok h
  split at h
  · cases h
    exact grow_matchOnce (t := r.2) h1
  · obtain ⟨r', h2, h⟩ := bind_ok h
    split at h
    · cases h
      exact (grow_matchOnce (t := r.2) h1).trans (grow_matchOnce (t := r'.2) h2)
    · cases h

theorem decUpdate_out {s s' : S} {c : Nat} (h : decUpdate s c = .ok s') : s'.w = s.w ∧ s'.str = s.str ∧ s'.p0 = s.p0 := by
  unfold decUpdate at h
  split at h
  · obtain ⟨p, _, h⟩ := bind_ok h
    split at h
    · obtain ⟨r, _, h⟩ := bind_ok h
      dsimp only at h
      split at h
      · cases h
      · cases h; exact ⟨rfl, rfl, rfl⟩
    · split at h
      · cases h; exact ⟨rfl, rfl, rfl⟩
      · cases h; exact ⟨rfl, rfl, rfl⟩
  · cases h; exact ⟨rfl, rfl, rfl⟩

theorem grow_decCode {s s' : S} {c : Nat} (h : decCode s c = .ok s') : Grow s s' := by
  unfold decCode at h
  split at h
  · unfold decControl at h
    split at h
    · cases h; exact (Grow.refl s).of rfl rfl rfl rfl rfl rfl
    · split at h
      · cases h; exact (Grow.refl s).of rfl rfl rfl rfl rfl rfl
      · dsimp only at h
        split at h
        · cases h
        · cases h; exact (Grow.refl s).of rfl rfl rfl rfl rfl rfl
  · unfold decString at h
    split at h
    · cases h
    · obtain ⟨s1, h1, h⟩ := bind_ok h
      obtain ⟨s2, h2, h⟩ := bind_ok h
      obtain ⟨u1, u2, u3⟩ := decUpdate_out h2
      cases h
      unfold expand at h1
      obtain ⟨l, _, h1⟩ := bind_ok h1
      split at h1
      · cases h1
        have g : Grow s { s with str := s.str ++ l } := ⟨rfl, fun ho => ⟨ho, rfl, l, by simp⟩⟩
        exact g.trans ((grow_send s2).of (by rw [u3]) (by rw [u1]) (by rw [u2]) rfl rfl rfl)
      · cases h1

theorem grow_decOctet {s s' : S} {b : Byte} (h : decOctet s b = .ok s') : Grow s s' := by
  unfold decOctet at h
  split at h
  · unfold decTransparent at h
    split at h
    · split at h
      · cases h; exact (grow_send s).of rfl rfl rfl rfl rfl rfl
      · split at h
        · exact (grow_matchTwice h).of rfl rfl rfl rfl rfl rfl
        · split at h
          · cases h; exact (grow_send s).of rfl rfl rfl rfl rfl rfl
          · cases h
    · split at h
      · cases h; exact (Grow.refl s).of rfl rfl rfl rfl rfl rfl
      · exact grow_matchTwice h
  · unfold decCompressed at h
    split at h
    · cases h
    · dsimp only at h
      split at h
      · cases h; exact (Grow.refl s).of rfl rfl rfl rfl rfl rfl
      · split at h
        · cases h
        · exact (grow_decCode h).of rfl rfl rfl rfl rfl rfl

theorem grow_decompressLoop : ∀ (l : List Byte) (s s' : S), decompressLoop s l = .ok s' → Grow s s' := by
  intro l
  induction l with
  | nil => intro s s' h; cases h; exact Grow.refl _
  | cons b l ih =>
    intro s s' h
    simp only [decompressLoop] at h
    obtain ⟨s1, h1, h⟩ := bind_ok h
    exact (grow_decOctet h1).trans (ih _ _ h)

/-! ## No undefined behaviour -/

/-- The decompressor in good order. -/
structure SafeD (D : S) : Prop where
  n2lo : 512 ≤ D.n2
  n7lo : 2 ≤ D.n7
  ok : D.w.o.Ok
  c2lo : 9 ≤ D.w.c2
  c2hi : D.w.c2 ≤ 12
  good : GoodK D.n2 D.n7 D.core
  bits : D.w.bitCount < D.w.c2
  cmp : D.transparent = false → D.lastMatched = 0 ∧ D.str = [] ∧ D.flushed = 0

/-- The outcome of a step. -/
def Outcome (r : M S) : Prop := r = .error .invalid ∨ ∃ D', r = .ok D' ∧ (SafeD D' ∨ D'.w.c2 = 13)

theorem matchTwice_safe {D : S} (h : SafeD D) (ht : D.transparent = true) (b : Byte) : Outcome (matchTwice D b) := by
  obtain ⟨k, h1, h2, _⟩ := kTwice_good h.good h.n7lo b
  obtain ⟨D', h3, h4, h5, h6, h7⟩ := matchTwice_eq h.good h.n7lo h.ok b h1
  refine Or.inr ⟨D', h3, Or.inl ⟨by rw [h5.n2]; exact h.n2lo, by rw [h5.n7]; exact h.n7lo, h5.ok, by rw [h5.c2]; exact h.c2lo, by rw [h5.c2]; exact h.c2hi,
    by rw [h5.n2, h5.n7, h4]; exact h2, by rw [h5.bc, h5.c2]; exact h.bits, ?_⟩⟩
  rw [h5.tr, ht]
  intro h; cases h

theorem goodK_init {n2 n7 : Nat} (h1 : 512 ≤ n2) (h2 : n2 ≤ 4096) (h3 : 2 ≤ n7) (h4 : n7 ≤ 250) : GoodK n2 n7 ⟨dict0, 259, 0, 0, 0, 0⟩ :=
  ⟨wf_init h1 h2 (by omega) h4, ⟨[], Path.nil, rfl⟩, by show 0 ≠ 259; omega, by show 0 < n7; omega, fun h => absurd rfl h, Or.inl rfl⟩

theorem transparent_safe {D : S} (h : SafeD D) (ht : D.transparent = true) (b : Byte) : Outcome (decTransparent D b) := by
  have hn2 := h.good.wf.n2le
  have hn7 := h.good.wf.n7le
  have hlo : 259 ≤ D.c1 := h.good.wf.c1lo
  have h7 := h.n7lo
  unfold decTransparent
  split
  · split
    · refine Or.inr ⟨_, rfl, Or.inl ⟨h.n2lo, h.n7lo, pushAll_ok h.ok _, h.c2lo, h.c2hi, ?_, h.bits, fun _ => ⟨rfl, rfl, rfl⟩⟩⟩
      obtain ⟨l, p, hl⟩ := h.good.str
      refine ⟨h.good.wf, ⟨[], Path.nil, rfl⟩, ?_, ?_, fun _ => ⟨rfl, h.good.lmc, l, p, ?_⟩, h.good.la⟩
      · show 0 ≠ D.c1
        omega
      · show 0 + 0 < D.n7
        omega
      · rw [hl]; exact h.good.len
    · split
      · exact matchTwice_safe (D := { D with escaped := false, esc := D.esc + 51 }) ⟨h.n2lo, h.n7lo, h.ok, h.c2lo, h.c2hi, h.good, h.bits, h.cmp⟩ ht D.esc
      · split
        · refine Or.inr ⟨_, rfl, Or.inl ⟨h.n2lo, h.n7lo, pushAll_ok h.ok _, by show 9 ≤ 9; omega, by show 9 ≤ 12; omega, ?_, by show 0 < 9; omega,
            fun h => (by cases h)⟩⟩
          exact goodK_init h.n2lo hn2 h.n7lo hn7
        · exact Or.inl rfl
  · split
    · exact Or.inr ⟨_, rfl, Or.inl ⟨h.n2lo, h.n7lo, h.ok, h.c2lo, h.c2hi, h.good, h.bits, h.cmp⟩⟩
    · exact matchTwice_safe h ht b

theorem decString_safe {D : S} (h : SafeD D) (ht : D.transparent = false) {code : Nat} (h3 : 3 ≤ code) (h4 : code < 4096) : Outcome (decString D code) := by
  obtain ⟨c1, c2, c3⟩ := h.cmp ht
  by_cases hc : code = D.c1
  · left
    unfold decString
    rw [if_pos hc]
  · obtain ⟨K, w⟩ := h.good.wf
    obtain ⟨l, p, hl⟩ := w.depth code (by omega) h4 hc
    have hpos := p.length_pos (by omega)
    obtain ⟨q, r, hqr⟩ : ∃ q r, l = q :: r := by
      cases l with
      | nil => simp at hpos
      | cons q r => exact ⟨q, r, rfl⟩
    subst hqr
    obtain ⟨k, u1, g1, u2, u3, u4, u5⟩ := kUpdate_ok h.good q
    have fin : ∀ la', GoodK D.n2 D.n7 (strD D k.dict k.c1 la' (q :: r) code).core → SafeD (strD D k.dict k.c1 la' (q :: r) code) := by
      intro la' g
      exact ⟨h.n2lo, h.n7lo, pushAll_ok h.ok _, h.c2lo, h.c2hi, g, h.bits, fun _ => ⟨c1, rfl, rfl⟩⟩
    rcases u5 with ⟨v1, v2, v3, v4⟩ | ⟨v1, v2, v3, v4⟩
    · have hu : Upd D k.dict k.c1 k.la code q := Or.inl ⟨v1, v2, v4⟩
      have hp : Path k.dict code (q :: r) := by rw [v1]; exact p
      obtain ⟨la', e1, e2⟩ := decString_ok h.good c2 c3 c1 hu hp (by rw [v2]; exact hc) hl
      exact Or.inr ⟨_, e1, Or.inl (fin _ e2)⟩
    · obtain ⟨_, hne, l0, p0, hl0⟩ := h.good.upd v1
      obtain ⟨d', c1', e1, e2, e3, e4⟩ := addOctet_ok h.good.wf q v1 hne (p0.lt v1) ⟨l0, p0, hl0⟩
      rw [e1] at v3
      have v3' := Except.ok.inj v3
      have hd : d' = k.dict := congrArg Prod.fst v3'
      have hc1 : c1' = k.c1 := congrArg Prod.snd v3'
      subst hd hc1
      have hp : Path k.dict code (q :: r) := e3 _ _ hc p
      by_cases hcc : code = k.c1
      · left
        have hn7 : D.n7 ≤ 250 := h.good.wf.n7le
        have hr : r.length + 1 ≤ 250 := by
          simp only [List.length_cons] at hl
          omega
        have ex : expand D code = .ok { D with str := q :: r } := by
          unfold expand
          rw [path_ok D.dict p _ (show r.length + 1 < 4097 by omega), ok_bind, c2]
          exact if_pos (show 0 + (r.length + 1) ≤ 250 by omega)
        unfold decString
        rw [if_neg hc, ex, ok_bind]
        unfold decUpdate
        dsimp only [List.headD_cons]
        have v1' : D.updateAt ≠ 0 := v1
        have v2' : matchOctet D.dict D.updateAt q = .ok 0 := v2
        have e1' : addOctet D.dict D.c1 D.n2 D.updateAt q = .ok (k.dict, k.c1) := e1
        rw [if_pos v1', v2']
        simp only [ok_bind, if_true]
        rw [e1']
        simp only [ok_bind]
        rw [if_pos hcc]
        rfl
      · have hu : Upd D k.dict k.c1 k.la code q := Or.inr ⟨v1, v2, e1, v4, hc⟩
        obtain ⟨la', f1, f2⟩ := decString_ok h.good c2 c3 c1 hu hp hcc hl
        exact Or.inr ⟨_, f1, Or.inl (fin _ f2)⟩

theorem decCode_safe {D : S} (h : SafeD D) (ht : D.transparent = false) {code : Nat} (h4 : code < 4096) : Outcome (decCode D code) := by
  obtain ⟨c1, c2, c3⟩ := h.cmp ht
  have hlo := h.c2lo
  have hhi := h.c2hi
  unfold decCode
  split
  · unfold decControl
    split
    · refine Or.inr ⟨_, rfl, Or.inl ⟨h.n2lo, h.n7lo, h.ok, h.c2lo, h.c2hi, ?_, by show 0 < D.w.c2; omega, fun h => (by cases h)⟩⟩
      have g := h.good
      have e : D.core.lm = 0 := c1
      refine ⟨g.wf, ?_, ?_, g.len, ?_, Or.inl rfl⟩
      · obtain ⟨l, p, hl⟩ := g.str
        rw [e] at p
        exact ⟨l, p, hl⟩
      · have := g.lmc
        rw [e] at this; exact this
      · intro h
        exact ⟨rfl, (g.upd h).2⟩
    · split
      · exact Or.inr ⟨_, rfl, Or.inl ⟨h.n2lo, h.n7lo, h.ok, h.c2lo, h.c2hi, h.good, by show 0 < D.w.c2; omega, h.cmp⟩⟩
      · dsimp only
        split
        · exact Or.inl rfl
        · refine Or.inr ⟨_, rfl, ?_⟩
          have e : (D.w.c2 + 1) % 65536 = D.w.c2 + 1 := Nat.mod_eq_of_lt (by omega)
          by_cases h12 : D.w.c2 = 12
          · right
            show (D.w.c2 + 1) % 65536 = 13
            rw [e]; omega
          · left
            refine ⟨h.n2lo, h.n7lo, h.ok, ?_, ?_, h.good, ?_, h.cmp⟩
            · show 9 ≤ (D.w.c2 + 1) % 65536
              omega
            · show (D.w.c2 + 1) % 65536 ≤ 12
              omega
            · show D.w.bitCount < (D.w.c2 + 1) % 65536
              have := h.bits
              omega
  · exact decString_safe h ht (by omega) h4

theorem decOctet_safe {D : S} (h : SafeD D) (b : Byte) : Outcome (decOctet D b) := by
  unfold decOctet
  by_cases ht : D.transparent = true
  · rw [if_pos ht]
    exact transparent_safe h ht b
  · rw [if_neg ht]
    have ht' : D.transparent = false := by simpa using ht
    have hb := h.bits
    have hhi := h.c2hi
    have hlo := h.c2lo
    unfold decCompressed
    have hlt : b.toNat < 256 := b.isLt
    have h11 : 2 ^ D.w.bitCount ≤ 2 ^ 11 := Nat.pow_le_pow_right (by omega) (by omega)
    have hm : b.toNat * 2 ^ D.w.bitCount ≤ 256 * 2 ^ 11 := Nat.mul_le_mul (by omega) h11
    rw [if_neg (by omega)]
    dsimp only
    generalize D.w.bitBuf ||| b.toNat * 2 ^ D.w.bitCount = x
    by_cases hn : D.w.bitCount + 8 < D.w.c2
    · rw [if_pos hn]
      exact Or.inr ⟨_, rfl, Or.inl ⟨h.n2lo, h.n7lo, h.ok, h.c2lo, h.c2hi, h.good, hn, h.cmp⟩⟩
    · rw [if_neg hn, if_neg (by omega)]
      refine decCode_safe (D := bits D (x / 2 ^ D.w.c2) (D.w.bitCount + 8 - D.w.c2)) ⟨h.n2lo, h.n7lo, h.ok, h.c2lo, h.c2hi, h.good, ?_, h.cmp⟩ ht' ?_
      · show D.w.bitCount + 8 - D.w.c2 < D.w.c2
        omega
      · have h1 := Nat.mod_lt x (Nat.two_pow_pos D.w.c2)
        have h2 : 2 ^ D.w.c2 ≤ 2 ^ 12 := Nat.pow_le_pow_right (by omega) hhi
        have h3 := Nat.mod_le (x % 2 ^ D.w.c2) 65536
        omega

theorem decompressLoop_safe : ∀ (l : List Byte) (D : S), SafeD D →
    decompressLoop D l = .error .invalid ∨ (∃ D', decompressLoop D l = .ok D' ∧ SafeD D') ∨
      ∃ a c D', l = a ++ c ∧ decompressLoop D a = .ok D' ∧ D'.w.c2 = 13 := by
  intro l
  induction l with
  | nil => intro D h; exact Or.inr (Or.inl ⟨D, rfl, h⟩)
  | cons b l ih =>
    intro D h
    rcases decOctet_safe h b with h1 | ⟨D1, h1, h2 | h2⟩
    · left
      simp only [decompressLoop]
      rw [h1]
      rfl
    · rcases ih D1 h2 with h3 | ⟨D', h3, h4⟩ | ⟨a, c, D', h3, h4, h5⟩
      · left; simp only [decompressLoop]; rw [h1, ok_bind, h3]
      · right; left; exact ⟨D', by simp only [decompressLoop]; rw [h1, ok_bind, h3], h4⟩
      · right; right
        exact ⟨b :: a, c, D', by rw [h3]; rfl, by simp only [decompressLoop]; rw [h1, ok_bind, h4], h5⟩
    · right; right
      exact ⟨[b], l, D1, rfl, by simp only [decompressLoop]; rw [h1]; rfl, h2⟩

end V42bis
