import Verif.T4.Stream

/-! # The octets of a page do not depend on how they are read -/

namespace T4

/-- `rem` is what is still to be read, when `rows` are still to be asked for. -/
def Left (s : Enc) (rows : List (List Byte)) (rem : List Byte) : Prop :=
  WOk s.w ∧ ∃ B j, Plan (core s) rows B ∧ j < 8 ∧ bitsOf rem = s.w.bits ++ B ++ List.replicate j true

/-- Everything has been sent, or `rem` is what is still to be read. -/
def Rem (s : Enc) (rem : List Byte) : Prop := (s.w.rowBits = -1 ∧ rem = s.w.buf) ∨ Left s s.rows rem

theorem core_rows (s : Enc) (t : List (List Byte)) : core { s with rows := t } = core s := rfl

/-- `bitsOf rem` begins with the bits of the buffer. -/
theorem buf_prefix {buf rem : List Byte} {x : List Bool} (h : bitsOf rem = bitsOf buf ++ x) : buf = rem.take buf.length ∧ bitsOf (rem.drop buf.length) = x := by
  induction buf generalizing rem with
  | nil => exact ⟨by simp, h⟩
  | cons b t ih =>
    cases rem with
    | nil =>
      have := congrArg List.length h
      simp only [List.length_append, bitsOf_length, List.length_nil, List.length_cons] at this
      omega
    | cons c r =>
      have h' : octetBits c ++ bitsOf r = octetBits b ++ (bitsOf t ++ x) := by
        simpa [bitsOf] using h
      obtain ⟨h1, h2⟩ := List.append_inj h' (by simp)
      obtain rfl := octetBits_inj _ _ h1
      obtain ⟨i1, i2⟩ := ih h2
      refine ⟨?_, by simpa using i2⟩
      rw [List.length_cons, List.take_succ_cons, ← i1]

theorem Plan.nonneg {c : Enc} {rows : List (List Byte)} {B : List Bool} (h : Plan c rows B) : 0 ≤ c.w.rowBits := by
  cases h <;> assumption

theorem bits_length (x : W) : x.bits.length = 8 * x.buf.length + x.txBits := by
  unfold W.bits
  rw [List.length_append, bitsOf_length, toBits_length]

theorem encodeEol_width (s : Enc) : (encodeEol s).width = s.width := by
  unfold encodeEol
  rfl

theorem eols_width : ∀ n (s : Enc), (eols n s).width = s.width := by
  intro n
  induction n with
  | zero => intro s; rfl
  | succ n ih => intro s; rw [eols, ih, encodeEol_width]

theorem finalise_width (s : Enc) : (finalise s).width = s.width := by
  rw [finalise_of s _ rfl]
  show (if s.encoding = .t6 then eols 2 s else eols 6 { s with rowIs2d := false }).width = s.width
  split <;> exact eols_width _ _

theorem nextRows_spec : ∀ (rows : List (List Byte)) (s : Enc) (rem : List Byte), Left s rows rem → s.w.buf = [] →
    ∃ s', nextRows rows s = some s' ∧ Rem s' rem ∧ s'.w.buf ≠ [] ∧ s'.w.buf.length ≤ 2 * (s'.width + 1) := by
  intro rows
  induction rows with
  | nil =>
    intro s rem ⟨ok, B, j, hp, hj, hb⟩ hemp
    have hbl := bits_length s.w
    have ok8 := ok.1
    rw [hemp, List.length_nil] at hbl
    cases hp with
    | nil _ h8 hN hf =>
      obtain ⟨h1, k, hk, h2⟩ := hf s rfl ok
      have l1 := congrArg List.length hb
      have l2 := congrArg List.length h2
      simp only [List.length_append, bitsOf_length, List.length_replicate] at l1 l2
      obtain rfl : j = k := by omega
      have he : rem = (finalise s).w.buf := bitsOf_inj _ _ (hb.trans h2.symm)
      refine ⟨_, rfl, Or.inl ⟨h1, he⟩, ?_, ?_⟩
      swap
      · have hcw : (finalise s).width = s.width := finalise_width s
        show (finalise s).w.buf.length ≤ 2 * ((finalise s).width + 1)
        have hN' : _ ≤ 16 * s.width + 9 := hN
        rw [hcw]; omega
      show (finalise s).w.buf ≠ []
      intro h0
      rw [h0] at l2
      simp only [List.length_nil] at l2
      omega
  | cons row t ih =>
    intro s rem ⟨ok, B, j, hp, hj, hb⟩ hemp
    have hbl := bits_length s.w
    have ok8 := ok.1
    rw [hemp, List.length_nil] at hbl
    cases hp with
    | cons _ hN hf hp hwd =>
      obtain ⟨s', e1, h1, ok1, b1⟩ := hf s rfl ok
      have hl : Left s' t rem := ⟨ok1, _, j, by rw [h1]; exact hp, hj, by rw [hb, b1]; simp only [List.append_assoc]⟩
      rw [nextRows, e1]
      simp only [Option.bind_some]
      by_cases h0 : s'.w.buf = []
      · rw [if_pos h0]; exact ih s' rem hl h0
      · rw [if_neg h0]; refine ⟨_, rfl, Or.inr hl, h0, ?_⟩
        have l1 := bits_length s'.w
        rw [b1, List.length_append] at l1
        have hw1 : s'.width = s.width := by
          have := congrArg Enc.width h1
          exact this.trans hwd
        have hN' : _ ≤ 16 * s.width + 16 := hN
        show s'.w.buf.length ≤ 2 * (s'.width + 1)
        rw [hw1]; omega

/-- Octets are taken from the buffer. -/
theorem Rem.take {s : Enc} {rem : List Byte} (h : Rem s rem) (n : Nat) : s.w.buf.take n = rem.take (s.w.buf.take n).length ∧
    Rem { s with w := { s.w with buf := s.w.buf.drop n } } (rem.drop (s.w.buf.take n).length) := by
  have hn : (s.w.buf.take n).length = min n s.w.buf.length := List.length_take
  rcases h with ⟨h1, h2⟩ | ⟨ok, B, j, hp, hj, hb⟩
  · subst h2
    refine ⟨?_, Or.inl ⟨h1, ?_⟩⟩
    · rw [hn]
      by_cases h : n ≤ s.w.buf.length
      · rw [Nat.min_eq_left h]
      · rw [Nat.min_eq_right (by omega), List.take_length, List.take_of_length_le (by omega)]
    · show _ = s.w.buf.drop n
      rw [hn]
      by_cases h : n ≤ s.w.buf.length
      · rw [Nat.min_eq_left h]
      · rw [Nat.min_eq_right (by omega), List.drop_length, List.drop_of_length_le (by omega)]
  · have hb' : bitsOf rem = bitsOf (s.w.buf.take n) ++ (bitsOf (s.w.buf.drop n) ++ toBits s.w.txBits s.w.tx ++ B ++ List.replicate j true) := by
      rw [hb]
      unfold W.bits
      conv => lhs; rw [← List.take_append_drop n s.w.buf, bitsOf_append]
      simp only [List.append_assoc]
    obtain ⟨i1, i2⟩ := buf_prefix hb'
    refine ⟨i1, Or.inr ⟨⟨ok.1, ok.2⟩, B, j, hp, hj, ?_⟩⟩
    rw [i2]; rfl

theorem getLoop_spec : ∀ n (s : Enc) (rem : List Byte) (maxLen : Nat), Rem s rem → maxLen < n →
    ∃ s', getLoop n s maxLen = some (rem.take maxLen, s') ∧ Rem s' (rem.drop maxLen) := by
  intro n
  induction n with
  | zero => intro s rem m _ h; omega
  | succ n ih =>
    intro s rem m h hm
    unfold getLoop
    by_cases h0 : m = 0
    · subst h0; rw [if_pos rfl]; exact ⟨s, by simp, h⟩
    rw [if_neg h0]
    have main : ∀ u : Enc, Rem u rem → u.w.buf ≠ [] → ∃ s', ((getLoop n { u with w := { u.w with buf := u.w.buf.drop m } } (m - (u.w.buf.take m).length)).map
        fun r => (u.w.buf.take m ++ r.1, r.2)) = some (rem.take m, s') ∧ Rem s' (rem.drop m) := by
      intro u hu hne
      have hl : (u.w.buf.take m).length = min m u.w.buf.length := List.length_take
      have := List.length_pos_iff.mpr hne
      obtain ⟨i1, i2⟩ := hu.take m
      obtain ⟨s', e1, e2⟩ := ih _ _ (m - (u.w.buf.take m).length) i2 (by omega)
      refine ⟨s', ?_, ?_⟩
      · rw [e1]
        have e3 : rem.take m = u.w.buf.take m ++ (rem.drop (u.w.buf.take m).length).take (m - (u.w.buf.take m).length) := by
          conv => lhs; rw [show m = (u.w.buf.take m).length + (m - (u.w.buf.take m).length) by omega, List.take_add, ← i1]
        rw [e3]; rfl
      · rw [List.drop_drop] at e2
        rwa [show (u.w.buf.take m).length + (m - (u.w.buf.take m).length) = m by omega] at e2
    by_cases hb : s.w.buf = []
    · rw [if_pos hb]
      unfold getNextRow
      by_cases hr : s.w.rowBits < 0
      · rw [if_pos hr]
        rcases h with ⟨h1, h2⟩ | ⟨ok, B, j, hp, hj, hb2⟩
        · rw [hb] at h2
          subst h2
          refine ⟨s, by simp, Or.inl ⟨h1, by simp [hb]⟩⟩
        · have h0 : 0 ≤ (core s).w.rowBits := hp.nonneg
          exact absurd hr (by simpa [core] using h0)
      · rw [if_neg hr]
        rcases h with ⟨h1, h2⟩ | h
        · omega
        · obtain ⟨u, e1, h1, h2, h3⟩ := nextRows_spec _ _ _ h hb
          rw [e1, Option.bind_some, if_pos h3]
          exact main u h1 h2
    · rw [if_neg hb]
      exact main s h hb

end T4
