import Verif.V42bis.Kernel

/-! # Codes as octets -/

namespace V42bis

theorem decompressLoop_append : ∀ (a b : List Byte) (s : S), decompressLoop s (a ++ b) = decompressLoop s a >>= fun s => decompressLoop s b := by
  intro a
  induction a with
  | nil => intro b s; rfl
  | cons x a ih =>
    intro b s
    simp only [List.cons_append, decompressLoop]
    cases h : decOctet s x with
    | error e => rfl
    | ok s1 => simp only [ok_bind]; exact ih b s1

/-- The bit buffer of the decompressor. -/
def bits (s : S) (x n : Nat) : S := { s with w := { s.w with bitBuf := x, bitCount := n } }

theorem bits_self {s : S} (h1 : s.w.bitBuf = 0) (h2 : s.w.bitCount = 0) : bits s 0 0 = s := by
  cases s with
  | mk p0 mode tr c1 ua lm la n2 n7 dict str fl perf w esc escd =>
    cases w
    dsimp only at h1 h2
    subst h1 h2
    rfl

/-! ## A code does not depend on the bits behind it -/

theorem expand_bits (s : S) (c x n : Nat) {s' : S} (h : expand s c = .ok s') : expand (bits s x n) c = .ok (bits s' x n) := by
  unfold expand at h ⊢
  change (path (maxCodewords + 1) s.dict c >>= _) = _
  cases hp : path (maxCodewords + 1) s.dict c with
  | error e => rw [hp] at h; cases h
  | ok l =>
    rw [hp] at h
    simp only [ok_bind] at h ⊢
    split at h
    · rename_i hl
      cases h
      rw [if_pos (show (bits s x n).str.length + l.length ≤ maxString from hl)]
      rfl
    · cases h

theorem decUpdate_bits (s : S) (c x n : Nat) {s' : S} (h : decUpdate s c = .ok s') : decUpdate (bits s x n) c = .ok (bits s' x n) := by
  unfold decUpdate at h ⊢
  change (if s.updateAt ≠ 0 then matchOctet s.dict s.updateAt (s.str.headD 0) >>= _ else _) = _
  by_cases h0 : s.updateAt ≠ 0
  · rw [if_pos h0] at h ⊢
    dsimp only at h
    cases h1 : matchOctet s.dict s.updateAt (s.str.headD 0) with
    | error e => rw [h1] at h; cases h
    | ok p =>
      rw [h1] at h
      simp only [ok_bind] at h ⊢
      by_cases hp : p = 0
      · rw [if_pos hp] at h ⊢
        change (addOctet s.dict s.c1 s.n2 s.updateAt (s.str.headD 0) >>= _) = _
        cases h2 : addOctet s.dict s.c1 s.n2 s.updateAt (s.str.headD 0) with
        | error e => rw [h2] at h; cases h
        | ok r =>
          rw [h2] at h
          simp only [ok_bind] at h ⊢
          by_cases hc : c = r.2
          · rw [if_pos hc] at h; cases h
          · rw [if_neg hc] at h ⊢; cases h; rfl
      · rw [if_neg hp] at h ⊢
        by_cases hl : p = s.lastAdded
        · rw [if_pos hl] at h; rw [if_pos (show p = (bits s x n).lastAdded from hl)]; cases h; rfl
        · rw [if_neg hl] at h; rw [if_neg (show ¬ p = (bits s x n).lastAdded from hl)]; cases h; rfl
  · rw [if_neg h0] at h ⊢; cases h; rfl

theorem decCode_bits (s : S) (c x n : Nat) {s' : S} (hc : 2 ≤ c) (h : decCode s c = .ok s') : decCode (bits s x n) c = .ok (bits s' x n) := by
  unfold decCode at h ⊢
  by_cases h3 : c < 3
  · rw [if_pos h3] at h ⊢
    have : c = 2 := by omega
    subst this
    unfold decControl at h ⊢
    simp only [show ¬ (2 : Nat) = 0 by omega, show ¬ (2 : Nat) = 1 by omega, if_false] at h ⊢
    by_cases hb : (s.w.c2 + 1) % 65536 > s.n2 / 8
    · rw [if_pos hb] at h; cases h
    · rw [if_neg hb] at h
      rw [if_neg (show ¬ ((bits s x n).w.c2 + 1) % 65536 > (bits s x n).n2 / 8 from hb)]
      cases h; rfl
  · rw [if_neg h3] at h ⊢
    unfold decString at h ⊢
    change (if c = s.c1 then _ else _) = _
    by_cases h1 : c = s.c1
    · rw [if_pos h1] at h; cases h
    · rw [if_neg h1] at h ⊢
      cases he : expand s c with
      | error e => rw [he] at h; cases h
      | ok s1 =>
        rw [he, ok_bind] at h
        rw [expand_bits s c x n he, ok_bind]
        cases hu : decUpdate s1 c with
        | error e => rw [hu] at h; cases h
        | ok s2 =>
          rw [hu, ok_bind] at h
          rw [decUpdate_bits s1 c x n hu, ok_bind]
          cases h
          rfl

/-- A control code which is followed by padding. -/
theorem decCode_pad (s : S) (c n : Nat) (hc : c < 2) (h1 : s.w.bitBuf = 0) : decCode (bits s 0 n) c = decCode s c := by
  unfold decCode
  rw [if_pos (by omega), if_pos (by omega)]
  cases s with
  | mk p0 mode tr c1 ua lm la n2 n7 dict str fl perf w esc escd =>
    cases w
    dsimp only at h1
    subst h1
    rcases (show c = 0 ∨ c = 1 by omega) with rfl | rfl <;> rfl

/-! ## Arithmetic -/

theorem or_shift {x a n : Nat} (h : x < 2 ^ n) : x ||| a * 2 ^ n = x + a * 2 ^ n := by
  rw [Nat.mul_comm, Nat.or_comm, ← Nat.two_pow_add_eq_or_of_lt h, Nat.add_comm]

/-- The octet at the boundary of two codes. -/
theorem octet_eq {q r v : Nat} (hq : q < 2 ^ r) (hr : r ≤ 8) : (q + v * 2 ^ r) % 256 = q + v % 2 ^ (8 - r) * 2 ^ r := by
  have e : (256 : Nat) = 2 ^ r * 2 ^ (8 - r) := by rw [← Nat.pow_add, Nat.add_sub_cancel' hr]
  have hp : 0 < 2 ^ r := Nat.two_pow_pos r
  rw [e, Nat.mod_mul, Nat.add_mul_mod_self_right, Nat.mod_eq_of_lt hq, Nat.add_mul_div_right _ _ hp, Nat.div_eq_of_lt hq, Nat.zero_add, Nat.mul_comm]

theorem shift_eq {q r v : Nat} (hq : q < 2 ^ r) (hr : r ≤ 8) : (q + v * 2 ^ r) / 256 = v / 2 ^ (8 - r) := by
  have e : (256 : Nat) = 2 ^ r * 2 ^ (8 - r) := by rw [← Nat.pow_add, Nat.add_sub_cancel' hr]
  have hp : 0 < 2 ^ r := Nat.two_pow_pos r
  rw [e, ← Nat.div_div_eq_div_mul, Nat.add_mul_div_right _ _ hp, Nat.div_eq_of_lt hq, Nat.zero_add]

/-- An octet in compressed mode. -/
theorem feed {D : S} (ht : D.transparent = false) (h16 : D.w.c2 ≤ 16) {x n : Nat} (hx : x < 2 ^ n) (hn : n ≤ 15) (b : Byte) :
    decOctet (bits D x n) b =
      if n + 8 < D.w.c2 then .ok (bits D (x + b.toNat * 2 ^ n) (n + 8))
      else decCode (bits D ((x + b.toNat * 2 ^ n) / 2 ^ D.w.c2) (n + 8 - D.w.c2)) ((x + b.toNat * 2 ^ n) % 2 ^ D.w.c2) := by
  have hb : b.toNat < 256 := b.isLt
  have h15 : 2 ^ n ≤ 2 ^ 15 := Nat.pow_le_pow_right (by omega) hn
  have hlt : b.toNat * 2 ^ n < 2 ^ 31 := by
    have : b.toNat * 2 ^ n ≤ 256 * 2 ^ 15 := Nat.mul_le_mul (by omega) h15
    omega
  unfold decOctet
  rw [if_neg (by show ¬ D.transparent = true; rw [ht]; simp)]
  unfold decCompressed
  rw [if_neg (by show ¬ b.toNat * 2 ^ n ≥ 2 ^ 31; omega)]
  change (if n + 8 < D.w.c2 then .ok (bits D (x ||| b.toNat * 2 ^ n) (n + 8)) else if D.w.c2 ≥ 31 then .error .fault
    else decCode (bits D ((x ||| b.toNat * 2 ^ n) / 2 ^ D.w.c2) (n + 8 - D.w.c2)) ((x ||| b.toNat * 2 ^ n) % 2 ^ D.w.c2 % 65536) : M S) = _
  rw [or_shift hx]
  by_cases hc : n + 8 < D.w.c2
  · rw [if_pos hc, if_pos hc]
  · rw [if_neg hc, if_neg hc, if_neg (by omega)]
    have h65 : (x + b.toNat * 2 ^ n) % 2 ^ D.w.c2 % 65536 = (x + b.toNat * 2 ^ n) % 2 ^ D.w.c2 := by
      apply Nat.mod_eq_of_lt
      have h1 := Nat.mod_lt (x + b.toNat * 2 ^ n) (Nat.two_pow_pos D.w.c2)
      have h2 : 2 ^ D.w.c2 ≤ 2 ^ 16 := Nat.pow_le_pow_right (by omega) h16
      omega
    rw [h65]

/-- The octet which completes a code, with `y` behind it. -/
theorem feed_last {D : S} (ht : D.transparent = false) (h16 : D.w.c2 ≤ 16) {v m r y : Nat} (hm : m + r = D.w.c2) (hm' : m ≤ 15) (hr : r ≤ 8)
    (hv : v < 2 ^ D.w.c2) (b : Byte) (hb : b.toNat = v / 2 ^ m + y * 2 ^ r) :
    decOctet (bits D (v % 2 ^ m) m) b = decCode (bits D y (8 - r)) v := by
  have hp : 0 < 2 ^ m := Nat.two_pow_pos m
  rw [feed ht h16 (Nat.mod_lt _ hp) hm', if_neg (by omega)]
  have e : v % 2 ^ m + b.toNat * 2 ^ m = v + y * 2 ^ D.w.c2 := by
    rw [hb, ← hm, Nat.pow_add, Nat.add_mul, Nat.mul_comm (v / 2 ^ m), ← Nat.add_assoc, Nat.mod_add_div, Nat.mul_assoc, Nat.mul_comm (2 ^ r)]
  rw [e, Nat.add_mul_mod_self_right, Nat.mod_eq_of_lt hv, Nat.add_mul_div_right _ _ (Nat.two_pow_pos _), Nat.div_eq_of_lt hv, Nat.zero_add]
  rw [show m + 8 - D.w.c2 = 8 - r by omega]

/-! ## The decompressor behind the compressor -/

/-- `D` is the decompressor when it has seen all codes, `Dr` is the decompressor which has only seen the octets: the last bits of the last code may
still be in the bit buffer of the compressor. -/
def Lag (w : W) (D Dr : S) : Prop :=
  D.w.bitBuf = 0 ∧ D.w.bitCount = 0 ∧ w.bitCount < 8 ∧
    ((w.bitCount = 0 ∧ w.bitBuf = 0 ∧ Dr = D) ∨
     (0 < w.bitCount ∧ ∃ Dp v m, Dp.transparent = false ∧ Dp.w.c2 ≤ 16 ∧ v < 2 ^ Dp.w.c2 ∧ 2 ≤ v ∧ m ≤ 15 ∧ m + w.bitCount = Dp.w.c2 ∧
        w.bitBuf = v / 2 ^ m ∧ Dr = bits Dp (v % 2 ^ m) m ∧ decCode Dp v = .ok D))

theorem Lag.buf_lt {w D Dr} (h : Lag w D Dr) : w.bitBuf < 2 ^ w.bitCount := by
  obtain ⟨_, _, h3, h4 | ⟨h5, Dp, v, m, a1, a2, a3, a4, a5, a6, a7, _⟩⟩ := h
  · rw [h4.1, h4.2.1]; decide
  · rw [a7, Nat.div_lt_iff_lt_mul (Nat.two_pow_pos _), ← Nat.pow_add, Nat.add_comm, a6]
    exact a3

theorem feed_first {w D Dr} (h : Lag w D Dr) (ht : D.transparent = false) (h9 : 9 ≤ D.w.c2) (h16 : D.w.c2 ≤ 16) (v : Nat) :
    decOctet Dr (BitVec.ofNat 8 (w.bitBuf + v * 2 ^ w.bitCount)) = .ok (bits D (v % 2 ^ (8 - w.bitCount)) (8 - w.bitCount)) := by
  have hq := h.buf_lt
  have hb : (BitVec.ofNat 8 (w.bitBuf + v * 2 ^ w.bitCount)).toNat = w.bitBuf + v % 2 ^ (8 - w.bitCount) * 2 ^ w.bitCount := by
    rw [BitVec.toNat_ofNat]
    exact octet_eq hq (by have := h.2.2.1; omega)
  obtain ⟨h1, h2, h3, h4 | ⟨h5, Dp, u, m, a1, a2, a3, a4, a5, a6, a7, a8, a9⟩⟩ := h
  · obtain ⟨b1, b2, b3⟩ := h4
    subst b3
    rw [b1, b2] at hb ⊢
    have := feed (D := Dr) ht h16 (x := 0) (n := 0) (by decide) (by omega) (BitVec.ofNat 8 (0 + v * 2 ^ 0))
    rw [bits_self h1 h2] at this
    rw [this, if_pos (by omega), hb]
    simp
  · subst a8
    rw [feed_last a1 a2 a6 a5 (by omega) a3 _ (by rw [hb, a7])]
    exact decCode_bits Dp u _ _ a4 a9

theorem emit_two {o : Out} {x n : Nat} (h1 : 8 ≤ n) (h2 : n < 16) : emit n o x n = (o.push (BitVec.ofNat 8 x), x / 2 ^ 8, n - 8) := by
  obtain ⟨k, rfl⟩ : ∃ k, n = k + 1 + 1 := ⟨n - 2, by omega⟩
  rw [emit, if_pos h1, emit, if_neg (by omega)]

theorem emit_three {o : Out} {x n : Nat} (h1 : 16 ≤ n) (h2 : n < 24) :
    emit n o x n = ((o.push (BitVec.ofNat 8 x)).push (BitVec.ofNat 8 (x / 2 ^ 8)), x / 2 ^ 8 / 2 ^ 8, n - 16) := by
  obtain ⟨k, rfl⟩ : ∃ k, n = k + 1 + 1 + 1 := ⟨n - 3, by omega⟩
  rw [emit, if_pos (by omega), emit, if_pos (by omega), emit, if_neg (by omega)]
  rfl

/-- A code on its way. -/
theorem pushCode_spec {w D Dr} (h : Lag w D Dr) (ht : D.transparent = false) (h9 : 9 ≤ D.w.c2) (h16 : D.w.c2 ≤ 16) (hc : w.c2 = D.w.c2)
    (ho : w.o.Ok) {v : Nat} (hv : v < 2 ^ D.w.c2) :
    (pushCode w v).bitCount < 8 ∧ (pushCode w v).c2 = w.c2 ∧ (pushCode w v).c3 = w.c3 ∧ (pushCode w v).o.Ok ∧
      ∃ os, (pushCode w v).o.total = w.o.total ++ os ∧
        (((pushCode w v).bitCount = 0 ∧ (pushCode w v).bitBuf = 0 ∧ decompressLoop Dr os = decCode D v) ∨
         (0 < (pushCode w v).bitCount ∧ ∃ m, m ≤ 15 ∧ m + (pushCode w v).bitCount = D.w.c2 ∧ (pushCode w v).bitBuf = v / 2 ^ m ∧
            decompressLoop Dr os = .ok (bits D (v % 2 ^ m) m))) := by
  have hq := h.buf_lt
  have hf := feed_first h ht h9 h16 v
  have hr := h.2.2.1
  have hD1 := h.1
  have hD2 := h.2.1
  obtain ⟨r, hre⟩ : ∃ r, r = w.bitCount := ⟨_, rfl⟩
  obtain ⟨q, hqe⟩ : ∃ q, q = w.bitBuf := ⟨_, rfl⟩
  rw [← hre, ← hqe] at hq hf
  rw [← hre] at hr
  have he : pushCode w v = emitted w (q + v * 2 ^ r) (r + D.w.c2) := by
    unfold pushCode
    rw [← hre, ← hqe, or_shift hq, hc]
  have hs : (q + v * 2 ^ r) / 2 ^ 8 = v / 2 ^ (8 - r) := shift_eq hq (by omega)
  by_cases hn : r + D.w.c2 < 16
  · have e2 := emit_two (o := w.o) (x := q + v * 2 ^ r) (n := r + D.w.c2) (by omega) hn
    have e3 : pushCode w v = { w with o := w.o.push (BitVec.ofNat 8 (q + v * 2 ^ r)), bitBuf := v / 2 ^ (8 - r), bitCount := r + D.w.c2 - 8 } := by
      rw [he]; unfold emitted; dsimp only; rw [e2, hs]
    rw [e3]
    dsimp only
    refine ⟨by omega, rfl, rfl, push_ok ho _, [BitVec.ofNat 8 (q + v * 2 ^ r)], push_total _ _, Or.inr ⟨by omega, 8 - r, by omega, by omega, rfl, ?_⟩⟩
    simp only [decompressLoop, hf, ok_bind]
  · have e2 := emit_three (o := w.o) (x := q + v * 2 ^ r) (n := r + D.w.c2) (by omega) (by omega)
    have e3 : pushCode w v = { w with
        o := (w.o.push (BitVec.ofNat 8 (q + v * 2 ^ r))).push (BitVec.ofNat 8 (v / 2 ^ (8 - r)))
        bitBuf := v / 2 ^ (8 - r) / 2 ^ 8
        bitCount := r + D.w.c2 - 16 } := by
      rw [he]; unfold emitted; dsimp only; rw [e2, hs]
    rw [e3]
    dsimp only
    refine ⟨by omega, rfl, rfl, push_ok (push_ok ho _) _, [BitVec.ofNat 8 (q + v * 2 ^ r), BitVec.ofNat 8 (v / 2 ^ (8 - r))], by simp, ?_⟩
    have hp : 2 ^ (8 - r) * 2 ^ 8 = 2 ^ (16 - r) := by rw [← Nat.pow_add]; congr 1; omega
    have hdd : v / 2 ^ (8 - r) / 2 ^ 8 = v / 2 ^ (16 - r) := by rw [Nat.div_div_eq_div_mul, hp]
    have hb : (BitVec.ofNat 8 (v / 2 ^ (8 - r))).toNat = v / 2 ^ (8 - r) % 256 := by rw [BitVec.toNat_ofNat]
    simp only [decompressLoop, hf, ok_bind]
    by_cases h0 : r + D.w.c2 = 16
    · left
      have hlt : v / 2 ^ (8 - r) < 256 := by
        rw [Nat.div_lt_iff_lt_mul (Nat.two_pow_pos _)]
        have : 256 * 2 ^ (8 - r) = 2 ^ D.w.c2 := by
          rw [show (256 : Nat) = 2 ^ 8 from rfl, ← Nat.pow_add]; congr 1; omega
        omega
      refine ⟨by omega, ?_, ?_⟩
      · exact Nat.div_eq_of_lt hlt
      · rw [feed_last ht h16 (m := 8 - r) (r := 8) (y := 0) (by omega) (by omega) (by omega) hv _ (by rw [hb, Nat.mod_eq_of_lt hlt]; omega)]
        rw [show 8 - 8 = 0 from rfl, bits_self hD1 hD2]
        cases decCode D v <;> rfl
    · right
      refine ⟨by omega, 16 - r, by omega, by omega, hdd, ?_⟩
      rw [feed ht h16 (Nat.mod_lt _ (Nat.two_pow_pos _)) (by omega), if_pos (by omega), hb]
      simp only [ok_bind]
      have : v % 2 ^ (8 - r) + v / 2 ^ (8 - r) % 256 * 2 ^ (8 - r) = v % 2 ^ (16 - r) := by
        rw [← hp, Nat.mod_mul, Nat.mul_comm (2 ^ (8 - r)) (_ % 2 ^ 8)]
      rw [this, show 8 - r + 8 = 16 - r by omega]

/-- The code of a string, or a step up. -/
theorem pushCode_lag {w D Dr D'} (h : Lag w D Dr) (ht : D.transparent = false) (h9 : 9 ≤ D.w.c2) (h16 : D.w.c2 ≤ 16) (hc : w.c2 = D.w.c2)
    (ho : w.o.Ok) {v : Nat} (hv : v < 2 ^ D.w.c2) (h2 : 2 ≤ v) (hd : decCode D v = .ok D') (hb : D'.w.bitBuf = 0) (hn : D'.w.bitCount = 0) :
    (pushCode w v).c2 = w.c2 ∧ (pushCode w v).c3 = w.c3 ∧ (pushCode w v).o.Ok ∧
      ∃ os Dr', (pushCode w v).o.total = w.o.total ++ os ∧ decompressLoop Dr os = .ok Dr' ∧ Lag (pushCode w v) D' Dr' := by
  obtain ⟨a1, a2, a3, a4, os, a5, a6⟩ := pushCode_spec h ht h9 h16 hc ho hv
  refine ⟨a2, a3, a4, os, ?_⟩
  rcases a6 with ⟨b1, b2, b3⟩ | ⟨b1, m, b2, b3, b4, b5⟩
  · exact ⟨D', a5, by rw [b3, hd], hb, hn, a1, Or.inl ⟨b1, b2, rfl⟩⟩
  · exact ⟨_, a5, b5, hb, hn, a1, Or.inr ⟨b1, D, v, m, ht, h16, hv, h2, b2, b3, b4, rfl, hd⟩⟩

/-- A control code which is followed by alignment. -/
theorem pushAlign_lag {w D Dr D'} (h : Lag w D Dr) (ht : D.transparent = false) (h9 : 9 ≤ D.w.c2) (h16 : D.w.c2 ≤ 16) (hc : w.c2 = D.w.c2)
    (ho : w.o.Ok) {v : Nat} (h2 : v < 2) (hd : decCode D v = .ok D') :
    (pushAlign (pushCode w v)).c2 = w.c2 ∧ (pushAlign (pushCode w v)).c3 = w.c3 ∧ (pushAlign (pushCode w v)).o.Ok ∧
      (pushAlign (pushCode w v)).bitCount = 0 ∧ (pushAlign (pushCode w v)).bitBuf = 0 ∧
      ∃ os, (pushAlign (pushCode w v)).o.total = w.o.total ++ os ∧ decompressLoop Dr os = .ok D' := by
  have hv : v < 2 ^ D.w.c2 := by
    have : 2 ^ 9 ≤ 2 ^ D.w.c2 := Nat.pow_le_pow_right (by omega) h9
    omega
  have hD1 := h.1
  obtain ⟨a1, a2, a3, a4, os, a5, a6⟩ := pushCode_spec h ht h9 h16 hc ho hv
  rcases a6 with ⟨b1, b2, b3⟩ | ⟨b1, m, b2, b3, b4, b5⟩
  · have e : pushAlign (pushCode w v) = pushCode w v := by unfold pushAlign; rw [if_neg (by omega)]
    rw [e]
    exact ⟨a2, a3, a4, b1, b2, os, a5, by rw [b3, hd]⟩
  · obtain ⟨w1, hw1⟩ : ∃ w1, w1 = pushCode w v := ⟨_, rfl⟩
    rw [← hw1] at a1 a2 a3 a4 a5 b1 b3 b4 ⊢
    have hlt : v / 2 ^ m < 2 ^ w1.bitCount := by
      rw [Nat.div_lt_iff_lt_mul (Nat.two_pow_pos _), ← Nat.pow_add, Nat.add_comm, b3]; exact hv
    have h256 : v / 2 ^ m < 256 := by
      have : 2 ^ w1.bitCount ≤ 2 ^ 8 := Nat.pow_le_pow_right (by omega) (by omega)
      omega
    have e : pushAlign w1 = { w1 with o := w1.o.push (BitVec.ofNat 8 (v / 2 ^ m)), bitBuf := 0, bitCount := 0 } := by
      unfold pushAlign
      rw [if_pos (by omega)]
      have e1 : w1.bitCount + (8 - w1.bitCount % 8) = 8 := by omega
      rw [e1]
      unfold emitted
      dsimp only
      rw [emit_two (by omega) (by omega), b4, Nat.div_eq_of_lt h256]
    rw [e]
    refine ⟨a2, a3, push_ok a4 _, rfl, rfl, os ++ [BitVec.ofNat 8 (v / 2 ^ m)], by simp [a5], ?_⟩
    rw [decompressLoop_append, b5, ok_bind]
    have hb : (BitVec.ofNat 8 (v / 2 ^ m)).toNat = v / 2 ^ m := by rw [BitVec.toNat_ofNat, Nat.mod_eq_of_lt h256]
    simp only [decompressLoop]
    rw [feed_last ht h16 (m := m) (r := w1.bitCount) (y := 0) b3 b2 (by omega) hv _ (by rw [hb]; omega)]
    rw [decCode_pad D v _ h2 hD1, hd]
    rfl

end V42bis
