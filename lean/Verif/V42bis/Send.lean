import Verif.V42bis.Wire

/-! # What the compressor puts out, and what the decompressor makes of it -/

namespace V42bis

/-- The octets between two states of the output take the decompressor from `Dr` to `Dr'`. -/
def Adv (o o' : Out) (Dr Dr' : S) : Prop := ∃ os, o'.total = o.total ++ os ∧ decompressLoop Dr os = .ok Dr'

theorem Adv.refl (o : Out) (D : S) : Adv o o D D := ⟨[], by simp, rfl⟩

theorem Adv.trans {o o1 o2 D D1 D2} (h1 : Adv o o1 D D1) (h2 : Adv o1 o2 D1 D2) : Adv o o2 D D2 := by
  obtain ⟨a, a1, a2⟩ := h1
  obtain ⟨b, b1, b2⟩ := h2
  refine ⟨a ++ b, by rw [b1, a1, List.append_assoc], ?_⟩
  rw [decompressLoop_append, a2, ok_bind, b2]

/-- The state after `send_encoded_data`. -/
def sent (E : S) (w : W) (e : Byte) : S := { E with perf := metric E, w := w, esc := e, str := [], flushed := 0 }

/-! ## Transparent mode -/

theorem Took.nil {s : S} (h : s.w.o.Ok) : Took s s [] := ⟨rfl, rfl, rfl, rfl, rfl, rfl, rfl, h, by simp⟩

theorem Took.trans {s s' s'' : S} {l t : List Byte} (h : Took s s' l) (h' : Took s' s'' t) : Took s s'' (l ++ t) :=
  ⟨h'.p0.trans h.p0, h'.n2.trans h.n2, h'.n7.trans h.n7, h'.tr.trans h.tr, h'.bb.trans h.bb, h'.bc.trans h.bc, h'.c2.trans h.c2, h'.ok, by
    rw [h'.out, h.out, List.append_assoc]⟩

/-- An octet in transparent mode. -/
theorem octet_transparent {o : Out} {e : Byte} {D : S} (ho : o.Ok) (hd : D.w.o.Ok) (ht : D.transparent = true) (hx : D.escaped = false) (he : D.esc = e)
    (g : GoodK D.n2 D.n7 D.core) (hn : 2 ≤ D.n7) (b : Byte) {k : Core} (hk : kTwice D.n2 D.n7 D.core b = .ok k) :
    ∃ D', (pushEscaped (o, e) b).1.Ok ∧ Adv o (pushEscaped (o, e) b).1 D D' ∧ D'.core = k ∧ Took D D' [b] ∧ D'.esc = (pushEscaped (o, e) b).2 ∧
      D'.escaped = false := by
  subst he
  unfold pushEscaped
  by_cases hb : b = D.esc
  · subst hb
    simp only [if_true]
    obtain ⟨D', h1, h2, h3, h4, h5⟩ :=
      matchTwice_eq (s := { D with escaped := false, esc := D.esc + 51 }) g hn hd D.esc hk
    refine ⟨D', push_ok (push_ok ho _) _, ⟨[D.esc, 1], by simp, ?_⟩, h2, ?_, h4, h5⟩
    · have e1 : decOctet D D.esc = .ok { D with escaped := true } := by
        unfold decOctet decTransparent; rw [if_pos ht, hx]; simp
      have e2 : decOctet { D with escaped := true } 1 = matchTwice { D with escaped := false, esc := D.esc + 51 } D.esc := by
        unfold decOctet decTransparent
        rw [if_pos (show ({ D with escaped := true } : S).transparent = true from ht)]
        rfl
      simp only [decompressLoop]
      rw [e1, ok_bind, e2, h1]
      rfl
    · exact ⟨h3.p0, h3.n2, h3.n7, h3.tr, h3.bb, h3.bc, h3.c2, h3.ok, h3.out⟩
  · rw [if_neg hb]
    obtain ⟨D', h1, h2, h3, h4, h5⟩ := matchTwice_eq g hn hd b hk
    refine ⟨D', push_ok ho _, ⟨[b], by simp, ?_⟩, h2, h3, h4, h5.trans hx⟩
    have e1 : decOctet D b = matchTwice D b := by
      unfold decOctet decTransparent
      rw [if_pos ht, hx]
      simp [hb]
    simp only [decompressLoop]
    rw [e1, h1]
    rfl

/-- A string in transparent mode. -/
theorem string_transparent : ∀ (l : List Byte) (o : Out) (e : Byte) (D : S), o.Ok → D.w.o.Ok → D.transparent = true → D.escaped = false → D.esc = e →
    GoodK D.n2 D.n7 D.core → 2 ≤ D.n7 → ∀ k, kRun D.n2 D.n7 D.core l = .ok k →
    ∃ D', (l.foldl pushEscaped (o, e)).1.Ok ∧ Adv o (l.foldl pushEscaped (o, e)).1 D D' ∧ D'.core = k ∧ GoodK D.n2 D.n7 k ∧ Took D D' l ∧
      D'.esc = (l.foldl pushEscaped (o, e)).2 ∧ D'.escaped = false := by
  intro l
  induction l with
  | nil =>
    intro o e D ho hd ht hx he g hn k hk
    cases hk
    exact ⟨D, ho, Adv.refl _ _, rfl, g, Took.nil hd, he, hx⟩
  | cons b l ih =>
    intro o e D ho hd ht hx he g hn k hk
    obtain ⟨k1, h1, h2, _⟩ := kTwice_good g hn b
    simp only [kRun] at hk
    rw [h1, ok_bind] at hk
    obtain ⟨D1, a1, a2, a3, a4, a5, a6⟩ := octet_transparent ho hd ht hx he g hn b h1
    have n2e := a4.n2; have n7e := a4.n7
    obtain ⟨D2, b1, b2, b3, b4, b5, b6, b7⟩ := ih (pushEscaped (o, e) b).1 (pushEscaped (o, e) b).2 D1 a1 a4.ok (a4.tr.trans ht) a6 a5
      (by rw [n2e, n7e, a3]; exact h2) (by rw [n7e]; exact hn) k (by rw [n2e, n7e, a3]; exact hk)
    rw [n2e, n7e] at b4
    simp only [List.foldl_cons]
    exact ⟨D2, b1, a2.trans b2, b3, b4, Took.trans a4 b5, b6, b7⟩

/-- `send_encoded_data` in transparent mode. -/
theorem send_transparent {E D : S} (code : Nat) (hE : E.transparent = true) (ho : E.w.o.Ok) (hd : D.w.o.Ok) (ht : D.transparent = true)
    (hx : D.escaped = false) (he : D.esc = E.esc) (g : GoodK D.n2 D.n7 D.core) (hn : 2 ≤ D.n7) {k : Core} (hk : kRun D.n2 D.n7 D.core E.str = .ok k) :
    ∃ o' e' D', sendEncoded E code = .ok (sent E { E.w with o := o' } e') ∧ o'.Ok ∧ Adv E.w.o o' D D' ∧ D'.core = k ∧ GoodK D.n2 D.n7 k ∧
      Took D D' E.str ∧ D'.esc = e' ∧ D'.escaped = false := by
  obtain ⟨D', a1, a2, a3, a4, a5, a6, a7⟩ := string_transparent E.str E.w.o E.esc D ho hd ht hx he g hn k hk
  refine ⟨_, _, D', ?_, a1, a2, a3, a4, a5, a6, a7⟩
  unfold sendEncoded sendData
  rw [if_pos hE]
  rfl

/-- The escape to compressed mode. -/
theorem ecm_ok {D : S} (ht : D.transparent = true) (hx : D.escaped = false) :
    decompressLoop D [D.esc, 0] = .ok { sendString D with transparent := false, updateAt := D.lastMatched, lastMatched := 0 } := by
  have e1 : decOctet D D.esc = .ok { D with escaped := true } := by
    unfold decOctet decTransparent; rw [if_pos ht, hx]; simp
  have e2 : decOctet { D with escaped := true } 0 =
      .ok { sendString { D with escaped := false } with transparent := false, updateAt := D.lastMatched, lastMatched := 0 } := by
    unfold decOctet decTransparent
    rw [if_pos (show ({ D with escaped := true } : S).transparent = true from ht)]
    rfl
  have e3 : ({ D with escaped := false } : S) = D := by cases D; dsimp only at hx; subst hx; rfl
  rw [e3] at e2
  simp only [decompressLoop]
  rw [e1, ok_bind, e2]
  rfl

/-! ## Compressed mode -/

/-- The change of the dictionary by a string which begins with `b`. -/
def Upd (D : S) (d : Dict) (c1 la lm : Nat) (b : Byte) : Prop :=
  (d = D.dict ∧ c1 = D.c1 ∧ (D.updateAt = 0 ∨ ∃ p, p ≠ 0 ∧ matchOctet D.dict D.updateAt b = .ok p)) ∨
  (D.updateAt ≠ 0 ∧ matchOctet D.dict D.updateAt b = .ok 0 ∧ addOctet D.dict D.c1 D.n2 D.updateAt b = .ok (d, c1) ∧ la = D.c1 ∧ lm ≠ D.c1)

/-- The decompressor with a new dictionary. -/
def strD (D : S) (d : Dict) (c1 la : Nat) (l : List Byte) (code : Nat) : S :=
  { D with dict := d, c1 := c1, lastAdded := la, updateAt := if l.length = D.n7 then 0 else code, esc := escapes D.esc l,
           w := { D.w with o := D.w.o.pushAll l }, str := [], flushed := 0 }

theorem decString_ok {D : S} {d : Dict} {c1 la code : Nat} {p : Byte} {r : List Byte} (g : GoodK D.n2 D.n7 D.core) (hs : D.str = []) (hf : D.flushed = 0)
    (hlm : D.lastMatched = 0) (hu : Upd D d c1 la code p) (hp : Path d code (p :: r)) (hc : code ≠ c1) (hl : (p :: r).length ≤ D.n7) :
    ∃ la', decString D code = .ok (strD D d c1 la' (p :: r) code) ∧ GoodK D.n2 D.n7 (strD D d c1 la' (p :: r) code).core := by
  have hn7 := g.wf.n7le
  have hn7' : D.core.len < D.n7 := g.len
  have hlo : 259 ≤ D.c1 := g.wf.c1lo
  have hla : D.lastAdded = 0 ∨ 259 ≤ D.lastAdded := g.la
  have gd : ∀ la', (la' = 0 ∨ 259 ≤ la') → WF d c1 D.n2 D.n7 → GoodK D.n2 D.n7 (strD D d c1 la' (p :: r) code).core := by
    intro la' hla' w
    refine ⟨w, ⟨[], ?_, rfl⟩, ?_, ?_, ?_, hla'⟩
    · show Path d D.lastMatched []
      rw [hlm]; exact Path.nil
    · show D.lastMatched ≠ c1
      have := w.c1lo; omega
    · show 0 + 0 < D.n7
      omega
    · intro hne
      refine ⟨hlm, ?_, p :: r, ?_, ?_⟩
      · show (if (p :: r).length = D.n7 then 0 else code) ≠ c1
        split
        · have := w.c1lo; omega
        · exact hc
      · show Path d (if (p :: r).length = D.n7 then 0 else code) _
        by_cases h7 : (p :: r).length = D.n7
        · exact absurd (if_pos h7) hne
        · rw [if_neg h7]; exact hp
      · by_cases h7 : (p :: r).length = D.n7
        · exact absurd (if_pos h7) hne
        · omega
  have expd : Path D.dict code (p :: r) → expand D code = .ok { D with str := p :: r } := by
    intro q
    unfold expand
    have hr : r.length + 1 ≤ 250 := by
      simp only [List.length_cons] at hl
      exact Nat.le_trans hl hn7
    rw [path_ok D.dict q _ (show r.length + 1 < 4097 by omega), ok_bind, hs]
    exact if_pos (show 0 + (r.length + 1) ≤ 250 by omega)
  rcases hu with ⟨u1, u2, u3⟩ | ⟨u1, u2, u3, u4, u5⟩
  · subst u1 u2
    have gd := fun la' h => gd la' h g.wf
    have e1 := expd hp
    unfold decString
    rw [if_neg hc, e1, ok_bind]
    unfold decUpdate
    dsimp only [List.headD_cons]
    by_cases hz : D.updateAt = 0
    · rw [if_neg (by simpa using hz)]
      refine ⟨D.lastAdded, ?_, gd _ hla⟩
      simp only [ok_bind, sendString, strD, hf, Nat.add_zero]
    · obtain ⟨q, q1, q2⟩ : ∃ p', p' ≠ 0 ∧ matchOctet D.dict D.updateAt p = .ok p' := by
        rcases u3 with h | h
        · exact absurd h hz
        · exact h
      rw [if_pos hz, q2]
      simp only [ok_bind]
      rw [if_neg q1]
      by_cases hq : q = D.lastAdded
      · rw [if_pos hq]
        refine ⟨0, ?_, gd _ (Or.inl rfl)⟩
        simp only [ok_bind, sendString, strD, hf, Nat.add_zero]
      · rw [if_neg hq]
        refine ⟨D.lastAdded, ?_, gd _ hla⟩
        simp only [ok_bind, sendString, strD, hf, Nat.add_zero]
  · obtain ⟨_, hne, l0, p0, hl0⟩ := g.upd u1
    obtain ⟨d', c1', e1, e2, e3, e4⟩ := addOctet_ok g.wf p u1 hne (p0.lt u1) ⟨l0, p0, hl0⟩
    have e1' : addOctet D.dict D.c1 D.n2 D.updateAt p = .ok (d', c1') := e1
    rw [e1'] at u3
    cases u3
    have ex := expd (e4 _ _ u5 hp)
    refine ⟨D.c1, ?_, gd _ (Or.inr hlo) e2⟩
    unfold decString
    rw [if_neg u5, ex, ok_bind]
    unfold decUpdate
    dsimp only [List.headD_cons]
    rw [if_pos u1, u2]
    simp only [ok_bind, if_true]
    rw [e1']
    simp only [ok_bind]
    rw [if_neg hc]
    simp only [ok_bind, sendString, strD, hf, Nat.add_zero]

/-- The decompressor with another size of the codes. -/
def sized (D : S) (c2 c3 : Nat) : S := { D with w := { D.w with c2 := c2, c3 := c3 } }

theorem stepUps_ok : ∀ (n : Nat) (w : W) (D Dr : S) (code : Nat), Lag w D Dr → D.transparent = false → 512 ≤ D.n2 → 9 ≤ D.w.c2 → D.w.c2 ≤ 12 →
    w.c2 = D.w.c2 → w.c3 = 2 ^ w.c2 → w.o.Ok → code < 4096 → 13 ≤ n + D.w.c2 →
    ∃ w' c2 c3 Dr', stepUps n w code = .ok w' ∧ Lag w' (sized D c2 c3) Dr' ∧ Adv w.o w'.o Dr Dr' ∧ D.w.c2 ≤ c2 ∧ c2 ≤ 12 ∧ w'.c2 = c2 ∧
      w'.c3 = 2 ^ c2 ∧ w'.o.Ok ∧ code < 2 ^ c2 := by
  intro n
  induction n with
  | zero => intro w D Dr code _ _ _ _ h _ _ _ _ h'; omega
  | succ n ih =>
    intro w D Dr code hL ht hn2 h9 h12 hc hc3 ho hcode hn
    unfold stepUps
    by_cases hge : code ≥ w.c3
    · rw [if_pos hge]
      have hlt : D.w.c2 < 12 := by
        rcases Nat.lt_or_ge D.w.c2 12 with h | h
        · exact h
        · have : D.w.c2 = 12 := by omega
          rw [hc3, hc, this] at hge
          omega
      have h512 : 2 ^ 9 ≤ 2 ^ D.w.c2 := Nat.pow_le_pow_right (by omega) h9
      have h4096 : 2 ^ (D.w.c2 + 1) ≤ 2 ^ 12 := Nat.pow_le_pow_right (by omega) (by omega)
      have hp2 : 2 ^ (D.w.c2 + 1) = 2 ^ D.w.c2 * 2 := Nat.pow_succ ..
      have hd : decCode D 2 = .ok (sized D (D.w.c2 + 1) (D.w.c3 * 2 % 65536)) := by
        unfold decCode
        rw [if_pos (by omega)]
        unfold decControl
        rw [if_neg (by omega), if_neg (by omega)]
        dsimp only
        rw [Nat.mod_eq_of_lt (show D.w.c2 + 1 < 65536 by omega), if_neg (by omega)]
        rfl
      obtain ⟨a1, a2, a3, os, Dr1, a4, a5, a6⟩ := pushCode_lag hL ht h9 (by omega) hc ho (v := 2) (by omega) (by omega) hd hL.1 hL.2.1
      obtain ⟨w1, hw1⟩ : ∃ w1, w1 = pushCode w 2 := ⟨_, rfl⟩
      rw [← hw1] at a1 a2 a3 a4 a6 ⊢
      dsimp only
      rw [a1, a2, hc, Nat.mod_eq_of_lt (show D.w.c2 + 1 < 65536 by omega), hc3, hc, ← hp2, Nat.mod_eq_of_lt (show 2 ^ (D.w.c2 + 1) < 65536 by omega)]
      obtain ⟨w', c2, c3, Dr', b1, b2, b3, b4, b5, b6, b7, b8, b9⟩ := ih { w1 with c2 := D.w.c2 + 1, c3 := 2 ^ (D.w.c2 + 1) }
        (sized D (D.w.c2 + 1) (D.w.c3 * 2 % 65536)) Dr1 code a6 ht hn2 (by show 9 ≤ D.w.c2 + 1; omega) (by show D.w.c2 + 1 ≤ 12; omega) rfl rfl a3 hcode
        (by show 13 ≤ n + (D.w.c2 + 1); omega)
      have b4' : D.w.c2 + 1 ≤ c2 := b4
      exact ⟨w', c2, c3, Dr', b1, b2, Adv.trans ⟨os, a4, a5⟩ b3, by omega, b5, b6, b7, b8, b9⟩
    · rw [if_neg hge]
      refine ⟨w, D.w.c2, D.w.c3, Dr, rfl, ?_, Adv.refl _ _, Nat.le_refl _, h12, hc, by rw [hc3, hc], ho, by rw [hc3, hc] at hge; omega⟩
      exact hL

/-- `send_encoded_data` in compressed mode. -/
theorem send_compressed {E D Dr : S} {d : Dict} {c1 la code : Nat} {p : Byte} {r : List Byte} (hE : E.transparent = false) (hL : Lag E.w D Dr)
    (ht : D.transparent = false) (hn2 : 512 ≤ D.n2) (h9 : 9 ≤ D.w.c2) (h12 : D.w.c2 ≤ 12)
    (hc2 : E.w.c2 = D.w.c2) (hc3 : E.w.c3 = 2 ^ E.w.c2) (ho : E.w.o.Ok)
    (g : GoodK D.n2 D.n7 D.core) (hs : D.str = []) (hf : D.flushed = 0)
    (hlm : D.lastMatched = 0) (hu : Upd D d c1 la code p) (hp : Path d code (p :: r)) (h3 : 3 ≤ code) (hc : code ≠ c1) (hl : (p :: r).length ≤ D.n7) :
    ∃ w' c2 c3 la' Dr', sendEncoded E code = .ok (sent E w' (escapes E.esc E.str)) ∧ w'.o.Ok ∧ 9 ≤ c2 ∧ c2 ≤ 12 ∧ w'.c2 = c2 ∧ w'.c3 = 2 ^ c2 ∧
      Adv E.w.o w'.o Dr Dr' ∧ Lag w' (strD (sized D c2 c3) d c1 la' (p :: r) code) Dr' ∧
      GoodK D.n2 D.n7 (strD (sized D c2 c3) d c1 la' (p :: r) code).core := by
  have h4096 : code < 4096 := hp.lt (by omega)
  obtain ⟨w1, c2, c3, Dr1, b1, b2, b3, b4, b5, b6, b7, b8, b9⟩ := stepUps_ok 16 E.w D Dr code hL ht hn2 h9 h12 hc2 hc3 ho h4096 (by omega)
  obtain ⟨la', e1, e2⟩ := decString_ok (D := sized D c2 c3) g hs hf hlm hu hp hc hl
  have hd : decCode (sized D c2 c3) code = .ok (strD (sized D c2 c3) d c1 la' (p :: r) code) := by
    unfold decCode
    rw [if_neg (by omega), e1]
  obtain ⟨a1, a2, a3, os, Dr2, a4, a5, a6⟩ := pushCode_lag (D := sized D c2 c3) b2 ht (show 9 ≤ c2 by omega) (show c2 ≤ 16 by omega) b6 b8 (v := code) b9 (by omega) hd
    b2.1 b2.2.1
  refine ⟨pushCode w1 code, c2, c3, la', Dr2, ?_, a3, by omega, b5, a1.trans b6, a2.trans b7, Adv.trans b3 ⟨os, a4, a5⟩, a6, e2⟩
  unfold sendEncoded sendData
  rw [if_neg (by rw [hE]; simp), b1]
  rfl

end V42bis
