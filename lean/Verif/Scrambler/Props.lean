import Verif.Scrambler.Lemmas

/-!
# Properties of the scramblers (C30)
-/

namespace Scrambler

open Spec

/-! ## The recurrences -/

theorem follows_plain (tap : Nat) (ht : tap ≤ 22) (reg : Word) (data : List Bool) :
    Follows (tap + 1) 23 reg (fun _ => false) data (pass (scramble tap) reg data) := by
  rw [(scramble_eq tap reg data).1]
  exact (plain (tap + 1) 23).enc_follows ⟨by simp [plain], by simp [plain]; omega, by simp [plain]⟩ (reg, 0) data

/-- V.17 and V.29 scramble with 1 + x^-18 + x^-23. -/
theorem v17_v29_polynomial (reg : Word) (data : List Bool) : Follows 18 23 reg (fun _ => false) data (pass (scramble tap17) reg data) :=
  follows_plain 17 (by omega) reg data

/-- V.32bis and V.34 scramble with 1 + x^-18 + x^-23 from the caller and with 1 + x^-5 + x^-23 from the answerer. -/
theorem v34_polynomial (calling : Bool) (reg : Word) (data : List Bool) :
    Follows (if calling then 18 else 5) 23 reg (fun _ => false) data (pass (scramble (txTap calling)) reg data) := by
  cases calling
  · exact follows_plain 4 (by omega) reg data
  · exact follows_plain 17 (by omega) reg data

theorem ones_le (line : List Bool) (n : Nat) : ones line n ≤ n := by
  unfold ones
  refine Nat.le_trans (List.takeWhile_sublist _).length_le ?_
  rw [List.length_reverse, List.length_take]; omega

theorem ones_succ (line : List Bool) (n : Nat) (h : n < line.length) : ones line (n + 1) = if line.getD n false then ones line n + 1 else 0 := by
  unfold ones
  rw [List.take_add_one, List.getElem?_eq_getElem h, Option.toList_some, List.reverse_append, List.reverse_singleton, List.singleton_append]
  rw [show line.getD n false = line[n] by simp [List.getD, h]]
  cases line[n] <;> simp

/-- The count which the code keeps. -/
theorem counts_succ (K : Kind) (line : List Bool) : ∀ (s : Word × Nat) (n : Nat), n < line.length →
    ∃ r : Word, (∀ d, 1 ≤ d → d ≤ 32 → r.getLsbD (d - 1) = earlier s.1 line n d) ∧
      K.counts s line (n + 1) = K.next r (K.counts s line n) (line.getD n false) := by
  induction line with
  | nil => intro s n h; simp at h
  | cons y line ih =>
    intro s n h
    cases n with
    | zero =>
      refine ⟨s.1, fun d h1 _ => (earlier_zero _ _ _ h1).symm, ?_⟩
      simp only [Kind.counts, List.getD_cons_zero]
      cases line <;> rfl
    | succ n =>
      obtain ⟨r, h1, h2⟩ := ih (push s.1 y, K.next s.1 s.2 y) n (by simpa using h)
      refine ⟨r, fun d h3 h4 => by rw [earlier_cons _ _ _ _ _ h3 h4]; exact h1 d h3 h4, ?_⟩
      simp only [Kind.counts, List.getD_cons_succ]
      exact h2

theorem counts_zero (K : Kind) (line : List Bool) (s : Word × Nat) : K.counts s line 0 = s.2 := by cases line <;> rfl

theorem count22 (reg : Word) (line : List Bool) (n : Nat) : n ≤ line.length →
    k22.counts (reg, 0) line n = if ones line n = 0 then 0 else (ones line n - 1) % 64 + 1 := by
  induction n with
  | zero => intro _; rw [counts_zero]; rfl
  | succ n ih =>
    intro h
    obtain ⟨r, _, h2⟩ := counts_succ k22 line (reg, 0) n h
    rw [h2, ih (by omega), ones_succ line n h]
    simp only [k22]
    cases line.getD n false
    · simp
    · simp only [if_true, Nat.add_sub_cancel]
      rw [if_neg (show ¬ ones line n + 1 = 0 by omega)]
      by_cases h0 : ones line n = 0
      · simp [h0]
      · rw [if_neg h0]
        by_cases h64 : (ones line n - 1) % 64 + 1 ≥ 64
        · rw [if_pos h64]; omega
        · rw [if_neg h64]; omega

/-- V.22bis scrambles with 1 + x^-14 + x^-17, and inverts the data after each 64 ones in a row on the line. -/
theorem v22bis_polynomial (reg : Word) (data : List Bool) :
    Follows 14 17 reg (fun n => decide (0 < ones (pass scramble22 ⟨reg, 0⟩ data) n ∧ 64 ∣ ones (pass scramble22 ⟨reg, 0⟩ data) n)) data (pass scramble22 ⟨reg, 0⟩ data) := by
  obtain ⟨h1, h2⟩ := k22.enc_follows ⟨by simp [k22], by simp [k22], by simp [k22]⟩ (reg, 0) data
  rw [(scramble22_eq ⟨reg, 0⟩ data).1]
  refine ⟨h1, fun n hn => ?_⟩
  have h3 := h2 n hn
  simp only at h3 ⊢
  rw [h3]
  congr 3
  rw [count22 reg _ n (by omega), show ∀ c, k22.inv c = decide (c ≥ 64) from fun _ => rfl]
  congr 1
  by_cases h0 : ones (go k22.enc (reg, 0) data) n = 0
  · simp [h0]
  · rw [if_neg h0]
    simp only [eq_iff_iff]
    omega

theorem novel_repeats (reg r : Word) (line : List Bool) (n : Nat) (h : ∀ d, 1 ≤ d → d ≤ 32 → r.getLsbD (d - 1) = earlier reg line n d) :
    novel27 r (bw (line.getD n false)) = !repeats reg line n := by
  have h8 := h 8 (by omega) (by omega)
  have h9 := h 9 (by omega) (by omega)
  have h12 := h 12 (by omega) (by omega)
  simp only [Nat.reduceSub] at h8 h9 h12
  rw [novel27_eq, h8, h9, h12]
  unfold repeats
  cases line.getD n false <;> cases earlier reg line n 8 <;> cases earlier reg line n 9 <;> cases earlier reg line n 12 <;> rfl

theorem count27 (reg : Word) (line : List Bool) (n : Nat) : n ≤ line.length →
    k27.counts (reg, 0) line n ≤ 33 ∧ ∀ m, m ≤ 33 → (m ≤ k27.counts (reg, 0) line n ↔ m ≤ n ∧ ∀ k, n - m ≤ k → k < n → repeats reg line k = true ∧ ¬ k27.counts (reg, 0) line k ≥ 33) := by
  induction n with
  | zero =>
    intro _
    rw [counts_zero]
    exact ⟨by omega, fun m hm => ⟨fun h => ⟨h, fun k _ hk => absurd hk (by omega)⟩, fun h => h.1⟩⟩
  | succ n ih =>
    intro h
    obtain ⟨h1, h2⟩ := ih (by omega)
    obtain ⟨r, h3, h4⟩ := counts_succ k27 line (reg, 0) n h
    rw [h4]
    simp only [k27] at h1 h2 ⊢
    rw [novel_repeats reg r line n h3]
    by_cases h5 : (k27.counts (reg, 0) line n) ≥ 33
    · have h5' := h5
      simp only [k27] at h5'
      rw [if_pos h5']
      refine ⟨by omega, fun m hm => ⟨fun h => ⟨by omega, fun k _ _ => by omega⟩, fun h => ?_⟩⟩
      rcases Nat.eq_zero_or_pos m with h6 | h6
      · omega
      · exact absurd h5' (h.2 n (by omega) (by omega)).2
    · have h5' := h5
      simp only [k27] at h5'
      rw [if_neg h5']
      cases hr : repeats reg line n
      · simp only [Bool.not_false, if_true]
        refine ⟨by omega, fun m hm => ⟨fun h => ⟨by omega, fun k _ _ => by omega⟩, fun h => ?_⟩⟩
        rcases Nat.eq_zero_or_pos m with h6 | h6
        · omega
        · have := (h.2 n (by omega) (by omega)).1
          rw [hr] at this
          exact absurd this (by simp)
      · simp only [Bool.not_true, Bool.false_eq_true, if_false]
        refine ⟨by omega, fun m hm => ?_⟩
        cases m with
        | zero => exact ⟨fun _ => ⟨by omega, fun k _ _ => by omega⟩, fun _ => by omega⟩
        | succ m =>
          have := h2 m (by omega)
          rw [Nat.add_le_add_iff_right, this]
          constructor
          · rintro ⟨h6, h7⟩
            refine ⟨by omega, fun k hk1 hk2 => ?_⟩
            rcases Nat.lt_or_ge k n with hk | hk
            · exact h7 k (by omega) hk
            · have : k = n := by omega
              subst this
              exact ⟨hr, h5'⟩
          · rintro ⟨h6, h7⟩
            exact ⟨by omega, fun k hk1 hk2 => h7 k (by omega) (by omega)⟩

/-- V.27ter scrambles with 1 + x^-6 + x^-7, and inverts a bit when each of the 33 bits before it on the line was a repeat of one 8, 9 or 12
bits earlier, and none of them had been inverted. -/
theorem v27ter_polynomial (reg : Word) (data : List Bool) : ∃ inverted : Nat → Bool,
    Follows 6 7 reg inverted data (pass scramble27 ⟨reg, 0⟩ data) ∧
    ∀ n, n < data.length → (inverted n = true ↔ 33 ≤ n ∧ ∀ k, n - 33 ≤ k → k < n → repeats reg (pass scramble27 ⟨reg, 0⟩ data) k = true ∧ inverted k = false) := by
  rw [(scramble27_eq ⟨reg, 0⟩ data).1]
  refine ⟨_, k27.enc_follows ⟨by simp [k27], by simp [k27], by simp [k27]⟩ (reg, 0) data, fun n hn => ?_⟩
  obtain ⟨h1, h2⟩ := count27 reg (go k27.enc (reg, 0) data) n (by rw [go_length]; omega)
  have h3 := h2 33 (by omega)
  have e : ∀ c, k27.inv c = decide (c ≥ 33) := fun _ => rfl
  simp only [e, decide_eq_true_eq, decide_eq_false_iff_not]
  exact h3

/-! ## The descramblers in step -/

/-- V.17 and V.32bis. -/
theorem v17_descramble (tap : Nat) (reg : Word) (data : List Bool) :
    pass (descramble tap false) reg (pass (scramble tap) reg data) = data := by
  rw [descramble_eq, (scramble_eq tap reg data).1]
  exact (Kind.round _ data _).1

/-- V.29. -/
theorem v29_descramble (reg : Word) (data : List Bool) : pass descramble29 reg (pass (scramble 17) reg data) = data := by
  rw [descramble29_eq, (scramble_eq 17 reg data).1]
  exact (Kind.round _ data _).1

/-- V.34. Each end has the tap which goes with that of the other. -/
theorem v34_descramble (calling : Bool) (reg : Word) (data : List Bool) :
    pass (descramble34 (rxTap (!calling))) reg (pass (scramble (txTap calling)) reg data) = data := by
  rw [show rxTap (!calling) = txTap calling by cases calling <;> rfl, descramble34_eq, (scramble_eq _ reg data).1]
  exact (Kind.round _ data _).1

/-- V.32bis. -/
theorem v32bis_descramble (calling : Bool) (reg : Word) (data : List Bool) :
    pass (descramble (rxTap (!calling)) false) reg (pass (scramble (txTap calling)) reg data) = data := by
  rw [show rxTap (!calling) = txTap calling by cases calling <;> rfl]
  exact v17_descramble _ reg data

/-- V.22bis. -/
theorem v22bis_descramble (s : Guarded) (data : List Bool) : pass descramble22 s (pass scramble22 s data) = data := by
  rw [descramble22_eq, (scramble22_eq s data).1]
  exact (Kind.round _ data _).1

/-- V.27ter. -/
theorem v27ter_descramble (s : Guarded) (data : List Bool) : pass (descramble27 false) s (pass scramble27 s data) = data := by
  rw [descramble27_eq, (scramble27_eq s data).1]
  exact (Kind.round _ data _).1

/-! ## Getting into step -/

theorem drop_go {σ : Type} (f : σ → Bool → σ × Bool) (s : σ) (xs : List Bool) (k : Nat) : (go f s xs).drop k = go f (goes f s (xs.take k)) (xs.drop k) := by
  rcases Nat.lt_or_ge xs.length k with h | h
  · rw [List.drop_eq_nil_of_le (by rw [go_length]; omega), List.drop_eq_nil_of_le (by omega)]; rfl
  · conv => lhs; rw [← List.take_append_drop k xs, go_append]
    rw [List.drop_left' (by rw [go_length, List.length_take]; omega)]

theorem plain_sync (a : Nat) (ha : 1 ≤ a ∧ a ≤ 23) (r r' : Word) (data : List Bool) :
    (go (plain a 23).dec (r', 0) (go (plain a 23).enc (r, 0) data)).drop 23 = data.drop 23 := by
  have h := (Kind.round (plain a 23) data (r, 0)).1
  conv => rhs; rw [← h]
  have hlen : (go (plain a 23).enc (r, 0) data).length = data.length := go_length _ _ _
  generalize go (plain a 23).enc (r, 0) data = line at *
  rw [drop_go, drop_go]
  rcases Nat.lt_or_ge data.length 23 with hl | hl
  · rw [List.drop_eq_nil_of_le (by omega)]; rfl
  · refine Kind.dec_sync (plain a 23) 23 (Nat.le_refl _) (by omega) ⟨ha.1, ha.2, by simp [plain]⟩ (fun _ _ _ _ _ => rfl) _ _ _ ⟨?_, ?_⟩
    · exact Kind.goes_same' _ 23 (by omega) _ (by rw [List.length_take]; omega) _ _
    · have : ∀ (xs : List Bool) (s : Word × Nat), s.2 = 0 → (goes (plain a 23).dec s xs).2 = 0 := by
        intro xs
        induction xs with
        | nil => intro s h; exact h
        | cons x xs ih => intro s _; exact ih _ rfl
      rw [this _ _ rfl, this _ _ rfl]

/-- V.17 and V.32bis: from any state, the data is right after 23 bits. -/
theorem v17_self_synchronises (tap : Nat) (ht : tap ≤ 22) (reg reg' : Word) (data : List Bool) :
    (pass (descramble tap false) reg' (pass (scramble tap) reg data)).drop 23 = data.drop 23 := by
  rw [descramble_eq, (scramble_eq tap reg data).1]
  exact plain_sync (tap + 1) ⟨by omega, by omega⟩ reg reg' data

/-- V.29. -/
theorem v29_self_synchronises (reg reg' : Word) (data : List Bool) :
    (pass descramble29 reg' (pass (scramble 17) reg data)).drop 23 = data.drop 23 := by
  rw [descramble29_eq, (scramble_eq 17 reg data).1]
  exact plain_sync 18 ⟨by omega, by omega⟩ reg reg' data

/-- V.34. -/
theorem v34_self_synchronises (calling : Bool) (reg reg' : Word) (data : List Bool) :
    (pass (descramble34 (rxTap (!calling))) reg' (pass (scramble (txTap calling)) reg data)).drop 23 = data.drop 23 := by
  rw [show rxTap (!calling) = txTap calling by cases calling <;> rfl, descramble34_eq, (scramble_eq _ reg data).1]
  cases calling
  · exact plain_sync 5 ⟨by omega, by omega⟩ reg reg' data
  · exact plain_sync 18 ⟨by omega, by omega⟩ reg reg' data

theorem goes22_zero (line : List Bool) : ∀ s s' : Word × Nat, (false ∈ line ∨ s.2 = s'.2) → (goes k22.dec s line).2 = (goes k22.dec s' line).2 := by
  induction line with
  | nil =>
    intro s s' h
    rcases h with h | h
    · simp at h
    · exact h
  | cons y line ih =>
    intro s s' h
    refine ih _ _ ?_
    cases y
    · right; rfl
    · rcases h with h | h
      · left; simpa using h
      · right; simp only [Kind.dec, k22]; rw [h]

/-- V.22bis: from any state, the data is right after 17 bits and a zero on the line. -/
theorem v22bis_self_synchronises_partial (s s' : Guarded) (data : List Bool) (k : Nat) (hk : 17 ≤ k) (hz : false ∈ (pass scramble22 s data).take k) :
    (pass descramble22 s' (pass scramble22 s data)).drop k = data.drop k := by
  rw [descramble22_eq, (scramble22_eq s data).1]
  rw [(scramble22_eq s data).1] at hz
  have h := (Kind.round k22 data (s.reg, s.count)).1
  conv => rhs; rw [← h]
  have hlen : (go k22.enc (s.reg, s.count) data).length = data.length := go_length _ _ _
  generalize go k22.enc (s.reg, s.count) data = line at *
  rw [drop_go, drop_go]
  rcases Nat.lt_or_ge data.length k with hl | hl
  · rw [List.drop_eq_nil_of_le (by omega)]; rfl
  · refine Kind.dec_sync k22 17 (Nat.le_refl _) (by omega) ⟨by simp [k22], by simp [k22], by simp [k22]⟩ (fun _ _ _ _ _ => rfl) _ _ _ ⟨?_, ?_⟩
    · exact Kind.goes_same' _ 17 (by omega) _ (by rw [List.length_take]; omega) _ _
    · exact goes22_zero _ _ _ (Or.inl hz)

theorem pass_append {σ : Type} (f : σ → Word → σ × Word) (xs : List Bool) : ∀ (s : σ) (ys : List Bool), pass f s (xs ++ ys) = pass f s xs ++ pass f (after f s xs) ys := by
  induction xs with
  | nil => intro s ys; rfl
  | cons x xs ih => intro s ys; simp only [List.cons_append, pass, after, ih]

theorem pass_cycle {σ : Type} (f : σ → Word → σ × Word) (s : σ) (xs ys : List Bool) (h1 : pass f s xs = ys) (h2 : after f s xs = s) (m : Nat) :
    pass f s (List.replicate m xs).flatten = (List.replicate m ys).flatten := by
  induction m with
  | zero => rfl
  | succ m ih => rw [List.replicate_succ, List.replicate_succ, List.flatten_cons, List.flatten_cons, pass_append, h1, h2, ih]

/-- V.22bis: without such a zero it may never be right. The registers agree, only the counts differ, and one block of data is taken for
another for ever. -/
theorem v22bis_never_synchronises : ∃ (s s' : Guarded) (sent got : List Bool), s.reg = s'.reg ∧ sent.length = got.length ∧ sent ≠ got ∧
    ∀ m, pass descramble22 s' (pass scramble22 s (List.replicate m sent).flatten) = (List.replicate m got).flatten := by
  refine ⟨⟨BitVec.allOnes 32, 64⟩, ⟨BitVec.allOnes 32, 5⟩, false :: List.replicate 63 true, List.replicate 59 true ++ false :: List.replicate 4 true, rfl, by decide, by decide, ?_⟩
  intro m
  rw [pass_cycle scramble22 _ _ (List.replicate 64 true) (by decide +kernel) (by decide +kernel)]
  exact pass_cycle descramble22 _ _ _ (by decide +kernel) (by decide +kernel) m

theorem goes27_novel (line : List Bool) (y : Bool) (s s' : Word × Nat) (h : Same 12 s.1 s'.1) (hn : novel27 s.1 (bw y) = true) :
    (goes k27.dec s (y :: line)).2 = (goes k27.dec s' (y :: line)).2 := by
  have hn' : novel27 s'.1 (bw y) = true := by
    rw [novel27_eq] at hn ⊢
    rw [← h 7 (by omega), ← h 8 (by omega), ← h 11 (by omega)]; exact hn
  have key : ∀ (line : List Bool) (s s' : Word × Nat), Same 12 s.1 s'.1 → s.2 = s'.2 → (goes k27.dec s line).2 = (goes k27.dec s' line).2 := by
    intro line
    induction line with
    | nil => intro s s' _ h; exact h
    | cons y line ih =>
      intro s s' h hc
      refine ih _ _ (same_mono (same_push h y (by omega)) (by omega)) ?_
      simp only [Kind.dec, k27]
      rw [hc, novel27_eq, novel27_eq, h 7 (by omega), h 8 (by omega), h 11 (by omega)]
  refine key line _ _ (same_mono (same_push h y (by omega)) (by omega)) ?_
  simp only [Kind.dec, k27]
  rw [hn, hn']
  simp

theorem goes_earlier (K : Kind) (line : List Bool) : ∀ (s : Word × Nat) (n : Nat), n ≤ line.length → ∀ d, 1 ≤ d → d ≤ 32 →
    (goes K.dec s (line.take n)).1.getLsbD (d - 1) = earlier s.1 line n d := by
  induction line with
  | nil =>
    intro s n hn d h1 _
    have : n = 0 := by simpa using hn
    subst this
    rw [earlier_zero _ _ _ h1]; rfl
  | cons y line ih =>
    intro s n hn d h1 h2
    cases n with
    | zero => rw [earlier_zero _ _ _ h1]; rfl
    | succ n =>
      rw [earlier_cons _ _ _ _ _ h1 h2]
      exact ih (push s.1 y, K.next s.1 s.2 y) n (by simpa using hn) d h1 h2

/-- V.27ter: from any state, the data is right after a bit on the line, past the first 12, which is not a repeat of one 8, 9 or 12 bits
earlier. -/
theorem v27ter_self_synchronises_partial (s s' : Guarded) (data : List Bool) (k : Nat) (hk : 12 ≤ k) (hl : k < data.length)
    (hn : repeats s.reg (pass scramble27 s data) k = false) :
    (pass (descramble27 false) s' (pass scramble27 s data)).drop (k + 1) = data.drop (k + 1) := by
  rw [descramble27_eq, (scramble27_eq s data).1]
  rw [(scramble27_eq s data).1] at hn
  have h := (Kind.round k27 data (s.reg, s.count)).1
  conv => rhs; rw [← h]
  have hlen : (go k27.enc (s.reg, s.count) data).length = data.length := go_length _ _ _
  generalize go k27.enc (s.reg, s.count) data = line at *
  rw [drop_go, drop_go]
  have hsplit : line.take (k + 1) = line.take k ++ [line.getD k false] := by
    rw [List.take_add_one, List.getElem?_eq_getElem (by omega)]
    simp [List.getD, show k < line.length by omega]
  refine Kind.dec_sync k27 12 (by simp [k27]) (by omega) ⟨by simp [k27], by simp [k27], by simp [k27]⟩ (fun r r' c y h => ?_) _ _ _ ⟨?_, ?_⟩
  · simp only [k27]
    rw [novel27_eq, novel27_eq, h 7 (by omega), h 8 (by omega), h 11 (by omega)]
  · exact Kind.goes_same' _ 12 (by omega) _ (by rw [List.length_take]; omega) _ _
  · rw [hsplit, goes_append, goes_append]
    refine (goes27_novel [] _ _ _ ?_ ?_).symm
    · exact Kind.goes_same' _ 12 (by omega) _ (by rw [List.length_take]; omega) _ _
    · rw [novel_repeats s.reg _ line k (fun d h1 h2 => goes_earlier k27 line (s.reg, s.count) k (by omega) d h1 h2), hn]; rfl

/-- V.27ter: without such a bit it may never be right. The registers agree, only the counts differ. -/
theorem v27ter_never_synchronises : ∃ (s s' : Guarded) (sent got : List Bool), s.reg = s'.reg ∧ sent.length = got.length ∧ sent ≠ got ∧
    ∀ m, pass (descramble27 false) s' (pass scramble27 s (List.replicate m sent).flatten) = (List.replicate m got).flatten := by
  refine ⟨⟨0, 33⟩, ⟨0, 5⟩, true :: List.replicate 33 false, List.replicate 28 false ++ true :: List.replicate 5 false, rfl, by decide, by decide, ?_⟩
  intro m
  rw [pass_cycle scramble27 _ _ (List.replicate 34 false) (by decide +kernel) (by decide +kernel)]
  exact pass_cycle (descramble27 false) _ _ _ (by decide +kernel) (by decide +kernel) m

/-! ## Errors on the line -/

theorem invert_length (k : Nat) (xs : List Bool) : (invert k xs).length = xs.length := by
  unfold invert; exact List.length_modify ..

theorem invert_getD (k : Nat) (xs : List Bool) (n : Nat) (hn : n < xs.length) : (invert k xs).getD n false = if n = k then !xs.getD n false else xs.getD n false := by
  unfold invert
  rw [List.getD, List.getElem?_modify, List.getElem?_eq_getElem hn, List.getD, List.getElem?_eq_getElem hn]
  by_cases h : n = k
  · subst h; simp
  · simp [h, Ne.symm h]

theorem ext_getD {xs ys : List Bool} (hl : xs.length = ys.length) (h : ∀ n, n < xs.length → xs.getD n false = ys.getD n false) : xs = ys := by
  apply List.ext_getElem hl
  intro n h1 h2
  have := h n h1
  rw [List.getD, List.getElem?_eq_getElem h1, List.getD, List.getElem?_eq_getElem h2] at this
  simpa using this

theorem earlier_invert (r : Word) (line : List Bool) (k n d : Nat) (h1 : 1 ≤ d) (hn : n < line.length) :
    earlier r (invert k line) n d = if n = k + d then !earlier r line n d else earlier r line n d := by
  unfold earlier
  by_cases h : d ≤ n
  · rw [if_pos h, if_pos h, invert_getD _ _ _ (by omega)]
    by_cases h3 : n = k + d
    · rw [if_pos h3, if_pos (by omega)]
    · rw [if_neg h3, if_neg (by omega)]
  · rw [if_neg h, if_neg h, if_neg (by omega)]

theorem plain_error (a : Nat) (ha : 1 ≤ a ∧ a < 23) (r : Word) (line : List Bool) (k : Nat) :
    go (plain a 23).dec (r, 0) (invert k line) = invert (k + 23) (invert (k + a) (invert k (go (plain a 23).dec (r, 0) line))) := by
  have hK : (plain a 23).Ok := ⟨ha.1, by simp [plain]; omega, by simp [plain]⟩
  apply ext_getD
  · rw [go_length, invert_length, invert_length, invert_length, invert_length, go_length]
  · intro n hn
    rw [go_length, invert_length] at hn
    rw [(plain a 23).dec_index hK _ _ n (by rw [invert_length]; exact hn)]
    rw [invert_getD k line n hn, invert_getD (k + 23) _ n (by rw [invert_length, invert_length, go_length]; exact hn),
      invert_getD (k + a) _ n (by rw [invert_length, go_length]; exact hn),
      invert_getD k _ n (by rw [go_length]; exact hn), (plain a 23).dec_index hK _ _ n hn]
    simp only [plain]
    rw [earlier_invert _ _ _ _ _ ha.1 hn, earlier_invert _ _ _ _ _ (by omega) hn]
    generalize line.getD n false = p
    generalize earlier r line n a = u
    generalize earlier r line n 23 = v
    by_cases h1 : n = k
    · rw [if_pos h1, if_pos h1, if_neg (by omega), if_neg (by omega), if_neg (by omega), if_neg (by omega)]
      cases p <;> cases u <;> cases v <;> rfl
    · by_cases h2 : n = k + a
      · rw [if_neg h1, if_neg h1, if_pos h2, if_pos h2, if_neg (by omega), if_neg (by omega)]
        cases p <;> cases u <;> cases v <;> rfl
      · by_cases h3 : n = k + 23
        · rw [if_neg h1, if_neg h1, if_neg h2, if_neg h2, if_pos h3, if_pos h3]
          cases p <;> cases u <;> cases v <;> rfl
        · rw [if_neg h1, if_neg h1, if_neg h2, if_neg h2, if_neg h3, if_neg h3]

/-- V.17 and V.32bis: one wrong bit on the line makes three wrong bits of data, and no more. -/
theorem v17_error_extension (tap : Nat) (ht : tap < 22) (reg : Word) (data : List Bool) (k : Nat) :
    pass (descramble tap false) reg (invert k (pass (scramble tap) reg data)) = invert (k + 23) (invert (k + (tap + 1)) (invert k data)) := by
  have h := v17_descramble tap reg data
  rw [descramble_eq] at h ⊢
  rw [plain_error (tap + 1) ⟨by omega, by omega⟩, h]

/-- V.29. -/
theorem v29_error_extension (reg : Word) (data : List Bool) (k : Nat) :
    pass descramble29 reg (invert k (pass (scramble 17) reg data)) = invert (k + 23) (invert (k + 18) (invert k data)) := by
  have h := v29_descramble reg data
  rw [descramble29_eq] at h ⊢
  rw [plain_error 18 ⟨by omega, by omega⟩, h]

/-! ## Training -/

/-- V.17: in training the receiver makes up the bits which the transmitter sends. -/
theorem v17_training (tap : Nat) (ws : List Word) : ∀ reg : Word, passWords (descramble tap true) reg ws = passWords (scramble tap) reg ws := by
  have e : ∀ (reg w : Word), descramble tap true reg w = scramble tap reg w := by
    intro reg w
    have : (w &&& (1 : Word) ^^^ reg >>> tap ^^^ reg >>> 22) &&& (1 : Word) = (w ^^^ reg >>> tap ^^^ reg >>> 22) &&& (1 : Word) := by
      rw [and_one, and_one (w ^^^ reg >>> tap ^^^ reg >>> 22)]
      congr 1
      rw [and_one]
      simp only [BitVec.getLsbD_xor, bw_zero]
    simp only [descramble, scramble, if_true]
    rw [this]
  induction ws with
  | nil => intro reg; rfl
  | cons w ws ih => intro reg; simp only [passWords, e, ih]

/-- V.17: after training of any length the first bit of data is right. -/
theorem v17_data_follows_training (symbols bridges : Nat) (data : List Bool) :
    pass (descramble tap17 false) (passWords (descramble tap17 true) start17 (training17 symbols bridges)).1
      (pass (scramble tap17) (passWords (scramble tap17) start17 (training17 symbols bridges)).1 data) = data := by
  rw [v17_training]
  exact v17_descramble _ _ data

/-- V.29: the two training scramblers agree in every state. -/
theorem v29_training (reg : BitVec 8) : training29Rx reg = training29Tx reg := by
  revert reg; decide +kernel

def times {σ : Type} (f : σ → σ) : Nat → σ → σ
  | 0, s => s
  | n + 1, s => times f n (f s)

theorem times_add {σ : Type} (f : σ → σ) (n m : Nat) : ∀ s, times f (n + m) s = times f m (times f n s) := by
  induction n with
  | zero => intro s; rw [Nat.zero_add]; rfl
  | succ n ih => intro s; rw [show n + 1 + m = (n + m) + 1 by omega]; exact ih (f s)

theorem cycle {σ : Type} (f : σ → σ) (s : σ) (P : σ → Prop) (a p : Nat) (hp : 0 < p) (hc : times f (a + p) s = times f a s) (h : ∀ i, i < a + p → P (times f i s)) :
    ∀ n, P (times f n s) := by
  intro n
  induction n using Nat.strongRecOn with
  | _ n ih =>
    rcases Nat.lt_or_ge n (a + p) with hn | hn
    · exact h n hn
    · obtain ⟨k, rfl⟩ : ∃ k, n = (a + p) + k := ⟨n - (a + p), by omega⟩
      rw [times_add, hc, ← times_add]
      exact ih _ (by omega)

theorem training27_count : ∀ n, (times (fun s => (scramble27 s 1).1) n start27).count < 33 :=
  cycle (fun s => (scramble27 s 1).1) start27 (fun s => s.count < 33) 25 127 (by omega) (by decide +kernel) (by decide +kernel)

theorem training27 (n : Nat) : ∀ (s s' : Guarded), s.reg = s'.reg → s'.count < 33 → (∀ k, (times (fun s => (scramble27 s 1).1) k s).count < 33) →
    (passWords (descramble27 true) s' (List.replicate n 1)).2 = (passWords scramble27 s (List.replicate n 1)).2 ∧
    (passWords (descramble27 true) s' (List.replicate n 1)).1.reg = (passWords scramble27 s (List.replicate n 1)).1.reg := by
  induction n with
  | zero => intro s s' h _ _; exact ⟨rfl, h.symm⟩
  | succ n ih =>
    intro s s' h hc hs
    have h0 : ¬ s.count ≥ 33 := by have : s.count < 33 := hs 0; omega
    have e1 : (scramble27 s 1).2 = ((1 : Word) ^^^ (s.reg >>> 5) ^^^ (s.reg >>> 6)) &&& (1 : Word) := by simp only [scramble27, if_neg h0]
    have e2 : (descramble27 true s' 1).2 = ((1 : Word) ^^^ (s.reg >>> 5) ^^^ (s.reg >>> 6)) &&& (1 : Word) := by
      simp only [descramble27]; rw [if_neg (by omega), h]; rfl
    have e3 : (scramble27 s 1).1.reg = (s.reg <<< 1) ||| (((1 : Word) ^^^ (s.reg >>> 5) ^^^ (s.reg >>> 6)) &&& (1 : Word)) := by simp only [scramble27, if_neg h0]
    have e4 : (descramble27 true s' 1).1.reg = (s.reg <<< 1) ||| (((1 : Word) ^^^ (s.reg >>> 5) ^^^ (s.reg >>> 6)) &&& (1 : Word)) := by
      simp only [descramble27]; rw [if_neg (show ¬ s'.count ≥ 33 by omega), if_pos trivial, h]; rfl
    have e5 : (descramble27 true s' 1).1.count = 0 := by
      simp only [descramble27]; rw [if_neg (by omega)]; rfl
    obtain ⟨h1, h2⟩ := ih (scramble27 s 1).1 (descramble27 true s' 1).1 (by rw [e3, e4]) (by omega) (fun k => hs (k + 1))
    simp only [List.replicate_succ, passWords]
    exact ⟨by rw [e1, e2, h1], h2⟩

/-- V.27ter: for training of any length the receiver makes up the bits which the transmitter sends, although it leaves out the guard. -/
theorem v27ter_training (n : Nat) :
    (passWords (descramble27 true) start27 (List.replicate n 1)).2 = (passWords scramble27 start27 (List.replicate n 1)).2 ∧
    (passWords (descramble27 true) start27 (List.replicate n 1)).1.reg = (passWords scramble27 start27 (List.replicate n 1)).1.reg :=
  training27 n start27 start27 rfl (by decide) training27_count

/-! ## The hypotheses are met -/

example : false ∈ (pass scramble22 ⟨0xFFFFFFFF, 3⟩ [true, true, true, false, true, true, true, true, true, true, true, true, true, true, true, true, true, true]).take 17 := by decide +kernel

example : repeats start27.reg (pass scramble27 start27 [false, false, false, false, true, false, true, true, true, true, true, true, false, true, false, false, false]) 13 = false := by
  decide +kernel

/-- The guards do act. -/
example : pass scramble22 ⟨0xFFFFFFFF, 0⟩ (List.replicate 66 true) = List.replicate 64 true ++ [false, true] := by decide +kernel

example : pass scramble27 ⟨0, 0⟩ (List.replicate 35 false) = List.replicate 33 false ++ [true, false] := by decide +kernel

example : pass (scramble tap17) start17 [true, false, true, true] = [false, true, false, true] := by decide +kernel

end Scrambler
