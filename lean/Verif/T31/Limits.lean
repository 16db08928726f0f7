import Verif.T31.Props

/-!
# What the full claims would need
-/

namespace T31

/-- C103: every frame of 255 octets or more, with its check, is written beyond the buffer, whatever is in it. -/
theorem long_frame_overflows (msg : List Nat) (h : 255 ≤ msg.length) : Rx.init.frame msg = none := by
  have hl : ∀ l : List Nat, l.length + 2 ≤ (stuff l).length := by
    intro l
    induction l with
    | nil => exact Nat.le_refl _
    | cons c l ih =>
      have := (esc_length c).1
      rw [stuff_cons, List.length_append, List.length_cons]
      omega
  have := hl msg
  rw [frame_ok, if_neg (by simp only [Rx.init, List.length_nil]; omega)]

/-- C103: and so is one of 128 octets if all of them are DLE. -/
theorem dle_frame_overflows : Rx.init.frame (List.replicate 128 0x10) = none := by
  rw [frame_ok, if_neg (by decide +kernel)]

example : Rx.init.frame (List.replicate 127 0x10) ≠ none := by
  rw [frame_ok, if_pos (by decide +kernel)]; simp

/-- C104: a frame of more than 284 octets from the computer is written beyond the buffer. -/
theorem long_frame_from_computer (c : Nat) (hc : c ≠ 0x10) (n : Nat) (hn : 284 < n) (rest : List Nat) (double : Bool) :
    Frames.put ⟨[], false, double, []⟩ (List.replicate n c ++ rest) = none := by
  have go : ∀ (n : Nat) (buf : List Nat), buf.length ≤ 284 → 284 < buf.length + n →
      Frames.put ⟨buf, false, double, []⟩ (List.replicate n c ++ rest) = none := by
    intro n
    induction n with
    | zero => intro buf h1 h2; omega
    | succ n ih =>
      intro buf h1 h2
      rw [List.replicate_succ, List.cons_append, Frames.put]
      by_cases hb : buf.length < 284
      · have e : (⟨buf, false, double, []⟩ : Frames).octet c = some ⟨buf ++ [c], false, double, []⟩ := by
          simp [Frames.octet, hc, Frames.write, hb]
        rw [e, Option.bind_some]
        exact ih _ (by simp; omega) (by simp; omega)
      · have e : (⟨buf, false, double, []⟩ : Frames).octet c = none := by
          simp [Frames.octet, hc, Frames.write, hb]
        rw [e]; rfl
  exact go n [] (by simp) (by simpa using hn)

theorem plain (c : Nat) (hc : c ≠ 0x10) (rest : List Nat) : ∀ (n : Nat) (s : Tx), s.dled = false → s.buf.length + n ≤ 4094 →
    s.unstuff (List.replicate n c ++ rest) = ({ s with buf := s.buf ++ List.replicate n c } : Tx).unstuff rest := by
  intro n
  induction n with
  | zero => intro s _ _; simp
  | succ n ih =>
    intro s h1 h2
    have e : s.octet c = some { s with buf := s.buf ++ [c] } := by
      unfold Tx.octet
      rw [if_neg (by simp [h1]), if_neg hc, write_ok _ _ (by omega)]
    rw [List.replicate_succ, List.cons_append, Tx.unstuff, if_neg (by simp [h1]), e, Option.bind_some,
      if_neg (by simp only [List.length_append, List.length_singleton]; omega),
      ih { s with buf := s.buf ++ [c] } h1 (by simp only [List.length_append, List.length_singleton]; omega)]
    simp

theorem plain_put (c : Nat) (hc : c ≠ 0x10) (n : Nat) (rest : List Nat) (s : Tx) (h1 : s.dled = false)
    (h2 : (s.buf.drop s.out).length + n ≤ 4094) : s.put (List.replicate n c ++ rest) =
      ({ s with buf := s.buf.drop s.out ++ List.replicate n c, out := 0 } : Tx).unstuff rest := by
  unfold Tx.put
  exact plain c hc rest n { s with buf := s.buf.drop s.out, out := 0 } h1 h2

/-- C101: with double escapes, a computer which keeps to the room it is told may lose the last octet. -/
theorem last_lost : ∃ s1 s2, (Tx.init true).put (List.replicate 4092 1 ++ [0x10]) = some s1 ∧ s1.free = 3 ∧
    s1.put [0x1A, 1, 7] = some s2 ∧ s2.buf = List.replicate 4092 1 ++ [0x10, 0x10, 1] ∧ s2.dled = false ∧ s2.final = false := by
  refine ⟨⟨List.replicate 4092 1, 0, false, true, false, true, true, [false]⟩,
    ⟨List.replicate 4092 1 ++ [0x10, 0x10, 1], 0, false, true, false, false, true, [false]⟩, ?_, ?_, ?_, rfl, rfl, rfl⟩
  · rw [plain_put 1 (by decide) _ _ _ rfl (by simp [Tx.init])]
    have hl : (List.replicate 4092 1).length = 4092 := List.length_replicate ..
    simp only [Tx.init, List.drop_nil, List.nil_append]
    generalize List.replicate 4092 1 = b at *
    simp [Tx.unstuff, Tx.octet, Tx.tide, hl]
  · have hl : (List.replicate 4092 1).length = 4092 := List.length_replicate ..
    unfold Tx.free
    simp only [hl]; rfl
  · have hl : (List.replicate 4092 1).length = 4092 := List.length_replicate ..
    generalize List.replicate 4092 1 = b at *
    simp [Tx.put, Tx.unstuff, Tx.octet, Tx.write, hl]

/-- C101: a computer which does not keep to the room has octets written beyond the buffer. -/
theorem overrun : ∃ s1 s2, (Tx.init false).put (List.replicate 4094 1 ++ [1]) = some s1 ∧ s1.free = 0 ∧ s1.put [1] = some s2 ∧
    s2.put [1] = none := by
  refine ⟨⟨List.replicate 4094 1 ++ [1], 0, false, false, false, false, false, []⟩,
    ⟨List.replicate 4094 1 ++ [1, 1], 0, false, false, false, false, false, []⟩, ?_, ?_, ?_, ?_⟩
  · rw [plain_put 1 (by decide) _ _ _ rfl (by simp [Tx.init])]
    have hl : (List.replicate 4094 1).length = 4094 := List.length_replicate ..
    simp only [Tx.init, List.drop_nil, List.nil_append]
    generalize List.replicate 4094 1 = b at *
    simp [Tx.unstuff, Tx.octet, Tx.write, hl]
  · have hl : (List.replicate 4094 1).length = 4094 := List.length_replicate ..
    unfold Tx.free
    simp only [List.length_append, hl]; rfl
  · have hl : (List.replicate 4094 1).length = 4094 := List.length_replicate ..
    generalize List.replicate 4094 1 = b at *
    simp [Tx.put, Tx.unstuff, Tx.octet, Tx.write, hl]
  · have hl : (List.replicate 4094 1).length = 4094 := List.length_replicate ..
    generalize List.replicate 4094 1 = b at *
    simp [Tx.put, Tx.unstuff, Tx.octet, Tx.write, hl]

/-- The line asks some times. -/
def Tx.gets (s : Tx) : Nat → Tx
  | 0 => s
  | n + 1 => s.get.1.gets n

theorem held (n : Nat) : ∀ s : Tx, s.holding = true → s.buf.length ≤ 1024 → s.out ≤ s.buf.length → (s.gets n).holding = true := by
  induction n with
  | zero => intro s h _ _; exact h
  | succ n ih =>
    intro s h1 h2 h3
    rw [Tx.gets]
    have : s.get.1.holding = true ∧ s.get.1.buf = s.buf ∧ s.get.1.out ≤ s.buf.length := by
      unfold Tx.get
      by_cases ho : s.out ≠ s.buf.length
      · rw [if_pos ho]
        simp only
        rw [if_neg (by omega : ¬ s.out + 1 > 4095), h1, if_neg (by simp; omega)]
        exact ⟨rfl, rfl, by simp only; omega⟩
      · rw [if_neg ho]
        split
        · exact ⟨h1, rfl, h3⟩
        · exact ⟨h1, rfl, h3⟩
    exact ih _ this.1 (by rw [this.2.1]; exact h2) (by rw [this.2.1]; exact this.2.2)

theorem gets_held : ∀ (n : Nat) (s : Tx), s.holding = true → s.started = true → s.out + n ≤ 1024 → s.out + n ≤ s.buf.length →
    s.gets n = { s with out := s.out + n } := by
  intro n
  induction n with
  | zero => intro s _ _ _ _; rfl
  | succ n ih =>
    intro s h1 h2 h3 h4
    obtain ⟨buf, out, st, ho, fi, dl, db, ct⟩ := s
    simp only at h1 h2 h3 h4
    subst h1 h2
    have : (⟨buf, out, true, true, fi, dl, db, ct⟩ : Tx).get.1 = ⟨buf, out + 1, true, true, fi, dl, db, ct⟩ := by
      unfold Tx.get
      simp only
      rw [if_pos (by omega), if_neg (by omega : ¬ out + 1 > 4095), if_neg (by simp; omega)]
    rw [Tx.gets, this, ih _ rfl rfl (by simp only; omega) (by simp only; omega)]
    simp only [Tx.mk.injEq, and_true, true_and]
    omega

theorem gets_first : ∀ (n : Nat), 0 < n → ∀ s t : Tx, s.get.1 = t.get.1 → s.gets n = t.gets n
  | n + 1, _, s, t, h => by rw [Tx.gets, Tx.gets, h]

/-- C101: the computer may be told to wait and never be told to go on, although all its data has gone: the modem looks at
where it reads from the buffer, and not at how much is left, and the data moves down with each call. -/
theorem stuck : ∃ s1 s2 s3 s4, (Tx.init false).put (List.replicate 3073 1) = some s1 ∧ (s1.gets 1024).put [1] = some s2 ∧
    (s2.gets 1024).put [1] = some s3 ∧ (s3.gets 1024).put [1] = some s4 ∧ s4.cts = [false] ∧ s4.buf.length = 4 ∧ s4.out = 0 ∧
    ∀ n, (s4.gets n).holding = true := by
  have hl : ∀ n, (List.replicate n 1).length = n := fun n => List.length_replicate ..
  have step : ∀ n m, m + 1023 = n → 1 ≤ m → n ≤ 3073 →
      ((⟨List.replicate n 1, 0, true, true, false, false, false, [false]⟩ : Tx).gets 1024).put [1] =
        some ⟨List.replicate m 1, 0, true, true, false, false, false, [false]⟩ := by
    intro n m h0 h1 h2
    rw [gets_held 1024 _ rfl rfl (by simp) (by simp only [hl]; omega)]
    simp only [Tx.put, Nat.zero_add, List.drop_replicate]
    have hr : List.replicate m 1 = List.replicate (n - 1024) 1 ++ [1] := by
      rw [show m = (n - 1024) + 1 by omega, List.replicate_succ']
    rw [hr]
    have := hl (n - 1024)
    generalize List.replicate (n - 1024) 1 = b at *
    have hb : b.length < 4096 := by omega
    have hb2 : ¬ 4094 < b.length + 1 := by omega
    simp [Tx.unstuff, Tx.octet, Tx.write, Tx.tide, hb, hb2]
  have first : (Tx.init false).put (List.replicate 3073 1) =
      some ⟨List.replicate 3073 1, 0, false, true, false, false, false, [false]⟩ := by
    have := plain_put 1 (by decide) 3073 [] (Tx.init false) rfl (by simp [Tx.init])
    rw [List.append_nil] at this
    rw [this]
    have := hl 3073
    simp only [Tx.init, List.drop_nil, List.nil_append]
    generalize List.replicate 3073 1 = b at *
    simp [Tx.unstuff, Tx.tide, this]
  have second : ((⟨List.replicate 3073 1, 0, false, true, false, false, false, [false]⟩ : Tx).gets 1024).put [1] =
      some ⟨List.replicate 2050 1, 0, true, true, false, false, false, [false]⟩ := by
    have e := step 3073 2050 rfl (by decide) (by decide)
    have g1 : (⟨List.replicate 3073 1, 0, false, true, false, false, false, [false]⟩ : Tx).get.1 =
        (⟨List.replicate 3073 1, 0, true, true, false, false, false, [false]⟩ : Tx).get.1 := by
      have := hl 3073
      generalize List.replicate 3073 1 = b at *
      simp [Tx.get, this]
    rw [gets_first 1024 (by decide) _ _ g1, e]
  refine ⟨_, _, _, _, first, second, step 2050 1027 rfl (by decide) (by decide), step 1027 4 rfl (by decide) (by decide), rfl, rfl, rfl, ?_⟩
  intro n
  exact held n _ rfl (by simp) (by simp)

end T31
