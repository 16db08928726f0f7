import Verif.Qm.Enc

/-!
# The end of the code
-/

namespace Qm

theorem and_mask (x n k : Nat) : x &&& ((2 ^ n - 1) * 2 ^ k) = x / 2 ^ k % 2 ^ n * 2 ^ k := by
  apply Nat.eq_of_testBit_eq
  intro j
  rw [Nat.testBit_and, Nat.testBit_mul_two_pow, Nat.testBit_mul_two_pow, Nat.testBit_mod_two_pow, Nat.testBit_div_two_pow, Nat.testBit_two_pow_sub_one]
  by_cases hj : k ≤ j
  · rw [Nat.sub_add_cancel hj, decide_eq_true hj]
    simp [Bool.and_comm]
  · rw [decide_eq_false hj]
    simp

theorem finalBytes_spec (s : Enc) {l : List Nat} (h : s.out = stuff l) :
    ∃ e m, (finalBytes s).out = stuff (l ++ e) ∧ e ++ List.replicate m 0 = [s.c / 2 ^ 19 % 256, s.c / 2 ^ 11 % 256] ∧ (e.length = 2 → s.c / 2 ^ 11 % 256 ≠ 0) := by
  have m1 : s.c &&& 0x7FFF800 = s.c / 2 ^ 11 % 2 ^ 16 * 2 ^ 11 := by
    rw [show 0x7FFF800 = (2 ^ 16 - 1) * 2 ^ 11 by decide, and_mask]
  have m2 : ∀ q : Enc, q.c &&& 0x7F800 = q.c / 2 ^ 11 % 2 ^ 8 * 2 ^ 11 := fun q => by
    rw [show 0x7F800 = (2 ^ 8 - 1) * 2 ^ 11 by decide, and_mask]
  unfold finalBytes
  dsimp only
  rw [m1]
  by_cases h1 : s.c / 2 ^ 11 % 2 ^ 16 * 2 ^ 11 ≠ 0
  · rw [if_pos h1]
    have o1 := putStuffed_out s (s.c / 2 ^ 19 % 256) h
    have e1 : (s.putStuffed (s.c / 2 ^ 19 % 256)).c = s.c := by rw [putStuffed_rest]
    rw [m2, e1]
    by_cases h2 : s.c / 2 ^ 11 % 2 ^ 8 * 2 ^ 11 ≠ 0
    · rw [if_pos h2]
      refine ⟨[s.c / 2 ^ 19 % 256, s.c / 2 ^ 11 % 256], 0, ?_, rfl, fun _ => by omega⟩
      rw [putStuffed_out _ _ o1, List.append_assoc]
      rfl
    · rw [if_neg h2]
      refine ⟨[s.c / 2 ^ 19 % 256], 1, o1, ?_, fun h => (by cases h)⟩
      have : s.c / 2 ^ 11 % 256 = 0 := by omega
      rw [this]
      rfl
  · rw [if_neg h1]
    refine ⟨[], 2, by rw [List.append_nil]; exact h, ?_, fun h => (by cases h)⟩
    have g1 : s.c / 2 ^ 11 % 256 = 0 := by omega
    have g2 : s.c / 2 ^ 19 % 256 = 0 := by omega
    rw [g1, g2]
    rfl

theorem val_pair (x y : Nat) : val [x, y] = 256 * x + y := by simp [val]

/-- Bytes with zeros behind them are the same number. -/
theorem has_of_digits {i : Iv} {l f : List Nat} {m ct v n : Nat} (hf : f = l ++ List.replicate m 0) (h1 : i.low ≤ v) (h2 : v < i.low + i.a)
    (ht : i.t + ct = 27 + 8 * n) (hlen : f.length = n + 2) (hv : val f * 2 ^ 11 = v * 2 ^ ct) : i.Has l := by
  have e : val l * 2 ^ i.t = v * 256 ^ l.length := by
    have p1 : val f = val l * 256 ^ m := by rw [hf, val_append, val_zeros, List.length_replicate, Nat.add_zero]
    have p2 : l.length + m = n + 2 := by rw [← hlen, hf, List.length_append, List.length_replicate]
    refine Nat.eq_of_mul_eq_mul_right (Nat.two_pow_pos ct) ?_
    rw [Nat.mul_assoc, ← Nat.pow_add, ht, Nat.mul_right_comm, ← hv, p1]
    rw [show 27 + 8 * n = 11 + 8 * (n + 2) by omega, Nat.pow_add, Nat.pow_mul, show (2 : Nat) ^ 8 = 256 by decide, ← p2, Nat.pow_add 256]
    generalize val l = x
    generalize 256 ^ m = y
    generalize 256 ^ l.length = z
    generalize (2 : Nat) ^ 11 = w
    simp only [Nat.mul_comm, Nat.mul_left_comm]
  rw [Iv.Has, e]
  exact ⟨Nat.mul_le_mul_right _ h1, Nat.mul_lt_mul_of_pos_right h2 (Nat.pow_pos (by decide))⟩

/-- The choice of a number in the interval. -/
theorem clearBits_spec {c a : Nat} (h1 : 0x8000 ≤ a) (h2 : a ≤ 0x10000) (h3 : c + a < 2 ^ 32) :
    c ≤ clearBits c a ∧ clearBits c a < c + a ∧ clearBits c a % 2 ^ 15 = 0 := by
  have e : sub32 (u32 (c + a)) 1 &&& 0xFFFF0000 = (c + a - 1) / 2 ^ 16 * 2 ^ 16 := by
    rw [u32_eq h3, sub32_eq (x := c + a) (y := 1) (by omega) h3]
    have := and_mask (c + a - 1) 16 16
    rw [show (2 ^ 16 - 1) * 2 ^ 16 = 0xFFFF0000 by decide] at this
    rw [this, Nat.mod_eq_of_lt (by omega)]
  unfold clearBits
  dsimp only
  rw [e]
  clear e
  have k1 := Nat.div_add_mod (c + a - 1) (2 ^ 16)
  have k2 := Nat.mod_lt (c + a - 1) (Nat.two_pow_pos 16)
  generalize (c + a - 1) / 2 ^ 16 = k at k1 ⊢
  generalize (c + a - 1) % 2 ^ 16 = r at k1 k2
  by_cases hlt : k * 2 ^ 16 < c
  · have hk : k * 2 ^ 16 + 0x8000 ≤ c + a := by omega
    have := Nat.lt_of_le_of_lt hk h3
    rw [if_pos hlt, u32_eq this]
    omega
  · rw [if_neg hlt]
    omega

theorem flush_spec {s : Enc} {i : Iv} {done : List Nat} (h : EncR s i done) (hok : i.Ok) :
    ∃ l, (flush s).out = stuff l ∧ (∀ b ∈ l, b < 256) ∧ i.Has l ∧ 8 * l.length + 8 ≤ i.t := by
  have hlo := hok.lo
  have hhi := hok.hi
  have hc := h.c_lt
  have ea := h.a
  have c1 := h.ct1
  have c2 := h.ct2
  have htop := h.top
  have hlow := h.low
  have ht := h.t
  have hfit := h.fit
  obtain ⟨v1, v2, v3⟩ := clearBits_spec (c := s.c) (a := s.a) (by omega) (by omega) (by omega)
  unfold flush
  generalize clearBits s.c s.a = v at v1 v2 v3 ⊢
  have hw : v * 2 ^ s.ct < 9 * 2 ^ 24 := by
    have : 9 * 2 ^ (24 - s.ct) * 2 ^ s.ct = 9 * 2 ^ 24 := by rw [Nat.mul_assoc, ← Nat.pow_add, Nat.sub_add_cancel (by omega)]
    rw [← this]
    exact Nat.mul_lt_mul_of_pos_right (by omega) (Nat.two_pow_pos _)
  rw [u32_eq (x := v * 2 ^ s.ct) (by omega)]
  have hmod : v * 2 ^ s.ct % 2 ^ 11 = 0 := by
    obtain ⟨k, hk⟩ : ∃ k, v = 2 ^ 15 * k := ⟨v / 2 ^ 15, by omega⟩
    rw [hk, show (2 : Nat) ^ 15 = 2 ^ 11 * 2 ^ 4 by decide, Nat.mul_assoc, Nat.mul_assoc, Nat.mul_mod_right]
  have hlong : v * 2 ^ s.ct / 2 ^ 11 % 256 ≠ 0 → s.ct ≤ 3 := by
    intro hne
    rcases Nat.lt_or_ge 3 s.ct with h4 | h4
    · obtain ⟨k, hk⟩ : ∃ k, v = 2 ^ 15 * k := ⟨v / 2 ^ 15, by omega⟩
      refine absurd ?_ hne
      rw [hk, show s.ct = 4 + (s.ct - 4) by omega, Nat.pow_add, show 2 ^ 15 * k * (2 ^ 4 * 2 ^ (s.ct - 4)) = 2 ^ 11 * (256 * (k * 2 ^ (s.ct - 4))) by
        rw [show (256 : Nat) = 2 ^ 8 from rfl]; generalize 2 ^ (s.ct - 4) = z; rw [show (2 : Nat) ^ 15 = 32768 from rfl, show (2 : Nat) ^ 4 = 16 from rfl, show (2 : Nat) ^ 11 = 2048 from rfl,
          show (2 : Nat) ^ 8 = 256 from rfl, Nat.mul_assoc 32768, Nat.mul_left_comm k]
        generalize k * z = y; omega
        , Nat.mul_div_cancel_left _ (Nat.two_pow_pos _), Nat.mul_mod_right]
    · exact h4
  generalize hW : v * 2 ^ s.ct = w at hw hmod hlong ⊢
  unfold finalWrites
  -- the number the bytes have to be
  have huse : ∀ (l f : List Nat) (m : Nat), f = l ++ List.replicate m 0 → f.length = (s.pend done).length + 2 →
      val f * 2 ^ 11 = val (s.pend done) * 2 ^ 27 + w → i.Has l := by
    intro l f m e1 e2 e3
    refine has_of_digits (ct := s.ct) (v := val (s.pend done) * 2 ^ (27 - s.ct) + v) (n := (s.pend done).length) e1 (by omega) (by omega) (by omega) e2 ?_
    rw [e3, Nat.add_mul, Nat.mul_assoc, ← Nat.pow_add, Nat.sub_add_cancel (by omega), hW]
  have hshort : ∀ (e : List Nat) (m : Nat), e ++ List.replicate m 0 = [w / 2 ^ 19 % 256, w / 2 ^ 11 % 256] → (e.length = 2 → w / 2 ^ 11 % 256 ≠ 0) →
      ∀ l : List Nat, l.length = (s.pend done).length → 8 * (l ++ e).length + 8 ≤ i.t := by
    intro e m e1 e2 l e3
    have e4 : e.length + m = 2 := by
      have := congrArg List.length e1
      rw [List.length_append, List.length_replicate] at this
      exact this
    rw [List.length_append, e3]
    by_cases h2 : e.length = 2
    · have := hlong (e2 h2)
      omega
    · omega
  have hpairs : ∀ b ∈ [w / 2 ^ 19 % 256, w / 2 ^ 11 % 256], b < 256 := by
    intro b hb
    simp only [List.mem_cons, List.not_mem_nil, or_false] at hb
    rcases hb with rfl | rfl <;> omega
  have hbuf : ∀ x ∈ s.buffer.toList, x < 256 := by
    intro x hx
    cases hb : s.buffer with
    | none => rw [hb] at hx; cases hx
    | some b =>
      rw [hb] at hx
      rw [List.mem_singleton.1 hx]
      have := h.buf b hb
      omega
  by_cases hcarry : w > 0x7FFFFFF
  · rw [if_pos hcarry]
    have hsome : s.buffer ≠ none := by
      intro hb
      have hd := h.nobuf hb
      have hp : s.pend done = List.replicate s.sc 0xFF := by simp [Enc.pend, hb, hd]
      have hones := val_ones s.sc
      rw [hp] at hlow ht
      rw [List.length_replicate] at ht
      rw [ht, Nat.pow_add, Nat.pow_mul, show (2 : Nat) ^ 8 = 256 by decide, ← hones, Nat.mul_comm, Nat.add_mul, Nat.one_mul] at hfit
      have hvlt : v < 2 ^ (27 - s.ct) := by omega
      have : v * 2 ^ s.ct < 2 ^ (27 - s.ct) * 2 ^ s.ct := Nat.mul_lt_mul_of_pos_right hvlt (Nat.two_pow_pos _)
      rw [← Nat.pow_add, Nat.sub_add_cancel (by omega), hW] at this
      omega
    obtain ⟨b, hb⟩ := Option.ne_none_iff_exists'.1 hsome
    have hb' := h.buf b hb
    have o1 : (Enc.putBuffer { s with c := w } 1).out = stuff (done ++ [b + 1]) := by
      have := putBuffer_out { s with c := w } 1 h.out
      rw [show (({ s with c := w } : Enc).buffer.map (· + 1)).toList = [b + 1] by show (s.buffer.map (· + 1)).toList = _; rw [hb]; rfl] at this
      exact this
    have e1 : (Enc.putBuffer { s with c := w } 1) = { s with c := w, out := (Enc.putBuffer { s with c := w } 1).out } := putBuffer_eq _ _
    generalize hq : Enc.putBuffer { s with c := w } 1 = q at o1 e1
    have qc : q.c = w := by rw [e1]
    have qsc : q.sc = s.sc := by rw [e1]
    have hpend : s.pend done = done ++ [b] ++ List.replicate s.sc 0xFF := by simp [Enc.pend, hb]
    have bytes1 : ∀ x ∈ done ++ [b + 1], x < 256 := mem_bytes h.bytes (fun x hx => by rw [List.mem_singleton.1 hx]; omega)
    have hval : val (done ++ [b + 1] ++ List.replicate s.sc 0 ++ [w / 2 ^ 19 % 256, w / 2 ^ 11 % 256]) * 2 ^ 11 = val (s.pend done) * 2 ^ 27 + w := by
      rw [val_append, val_carry, ← hpend, val_pair]
      simp only [List.length_cons, List.length_nil]
      omega
    have hflen : (done ++ [b + 1] ++ List.replicate s.sc 0 ++ [w / 2 ^ 19 % 256, w / 2 ^ 11 % 256]).length = (s.pend done).length + 2 := by
      rw [hpend]; simp [Nat.add_assoc]
    unfold finalZeros
    by_cases hz : q.c &&& 0x7FFF800 ≠ 0
    · rw [if_pos hz]
      have o2 := putPending_out q 0 o1
      rw [qsc] at o2
      have qc2 : (q.putPending 0).c = w := by rw [putPending_eq]; exact qc
      obtain ⟨e, m, f1, f2, f3⟩ := finalBytes_spec (q.putPending 0) o2
      rw [qc2] at f2 f3
      refine ⟨_, f1, ?_, huse _ _ m ?_ hflen hval, hshort e m f2 f3 _ (by rw [hpend]; simp only [List.length_append, List.length_replicate, List.length_singleton])⟩
      · refine mem_bytes (mem_bytes bytes1 ?_) ?_
        · intro x hx; rw [List.eq_of_mem_replicate hx]; decide
        · intro x hx
          exact hpairs x (by rw [← f2]; simp [hx])
      · rw [← f2, List.append_assoc (done ++ [b + 1] ++ List.replicate s.sc 0)]
    · rw [if_neg hz]
      have hz0 : w / 2 ^ 11 % 2 ^ 16 = 0 := by
        have m1 := and_mask w 16 11
        rw [show (2 ^ 16 - 1) * 2 ^ 11 = 0x7FFF800 by decide, ← qc] at m1
        rw [Decidable.not_not.1 hz, qc] at m1
        omega
      have hfin : finalBytes q = q := by
        unfold finalBytes
        rw [if_neg hz]
      rw [hfin]
      refine ⟨_, o1, bytes1, huse _ _ (s.sc + 2) ?_ hflen hval, ?_⟩
      rotate_left
      · rw [hpend] at ht
        simp only [List.length_append, List.length_replicate, List.length_singleton] at ht ⊢
        omega
      rw [show w / 2 ^ 19 % 256 = 0 by omega, show w / 2 ^ 11 % 256 = 0 by omega, List.append_assoc (done ++ [b + 1]), ← List.replicate_append_replicate]
      rfl
  · rw [if_neg hcarry]
    have o1 := putBuffer_out { s with c := w } 0 h.out
    have hmap : (s.buffer.map (· + 0)).toList = s.buffer.toList := by cases s.buffer <;> rfl
    rw [show ({ s with c := w } : Enc).buffer = s.buffer from rfl, hmap] at o1
    have e1 : (Enc.putBuffer { s with c := w } 0) = { s with c := w, out := (Enc.putBuffer { s with c := w } 0).out } := putBuffer_eq _ _
    generalize hq : Enc.putBuffer { s with c := w } 0 = q at o1 e1
    have qc : q.c = w := by rw [e1]
    have qsc : q.sc = s.sc := by rw [e1]
    have o2 := putPending_out q 0xFF o1
    rw [qsc] at o2
    have qc2 : (q.putPending 0xFF).c = w := by rw [putPending_eq]; exact qc
    obtain ⟨e, m, f1, f2, f3⟩ := finalBytes_spec (q.putPending 0xFF) o2
    rw [qc2] at f2 f3
    refine ⟨_, f1, ?_, huse _ (s.pend done ++ [w / 2 ^ 19 % 256, w / 2 ^ 11 % 256]) m ?_ ?_ ?_, hshort e m f2 f3 _ (by unfold Enc.pend; simp only [List.length_append])⟩
    · refine mem_bytes (mem_bytes (mem_bytes h.bytes hbuf) ?_) ?_
      · intro x hx; rw [List.eq_of_mem_replicate hx]; decide
      · intro x hx
        exact hpairs x (by rw [← f2]; simp [hx])
    · rw [← f2, List.append_assoc]
      rfl
    · simp
    · rw [val_append, val_pair]
      simp only [List.length_cons, List.length_nil]
      omega

end Qm
