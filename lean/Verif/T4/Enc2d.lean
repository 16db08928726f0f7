import Verif.T4.Loop2d

/-! # The encoder of two dimensional rows -/

namespace T4

section
variable {row : List Byte} {px : Nat → Bool} {w : Nat} {P Q : List Nat}

/-- The colour at the position of the encoder. -/
theorem EncAt.col (hR : Runs (black row) w P) {k a0 : Nat} (h : EncAt P k a0) (hlt : a0 < P.getD k 0) : black row a0 = (k % 2 == 1) := hR.col k h.lt a0 h.le hlt

theorem emits_horiz (hR : Runs (black row) w P) {k a0 a2 : Nat} (hE : EncAt P k a0) (ha2 : P.getD k 0 ≤ a2) {mk mk2 : List Nat} {t t2 : Nat}
    (h1 : Emits (fun x => put1d (codesOf (k % 2 == 1)) x (P.getD k 0 - a0)) (spanBits (k % 2 == 1) mk t))
    (h2 : Emits (fun x => put1d (codesOf ((k + 1) % 2 == 1)) x (a2 - P.getD k 0)) (spanBits ((k + 1) % 2 == 1) mk2 t2)) :
    Emits (fun x => putHoriz x row a0 (P.getD k 0) a2) (mcode 7 ++ (spanBits (k % 2 == 1) mk t ++ spanBits ((k + 1) % 2 == 1) mk2 t2)) := by
  have h0 : Emits (fun x => some (putBits x 0x04 3)) (mcode 7) := emits_put 4 3 (by omega) (Or.inl (by omega))
  refine (h0.bind (h1.bind h2)).congr fun x => ?_
  have hle := hE.le_a1
  unfold putHoriz
  rw [if_neg (by omega)]
  simp only [Option.bind_some]
  have hcol : (a0 + P.getD k 0 = 0 ∨ black row a0 = false) ↔ (k % 2 == 1) = false := by
    rcases hE.pos with h3 | h3
    · rw [hE.col hR h3]
      constructor
      · intro h4
        rcases h4 with h4 | h4
        · omega
        · exact h4
      · exact Or.inr
    · rw [h3.1, h3.2]
      constructor
      · intro _; rfl
      · intro _
        by_cases h4 : P.getD 0 0 = 0
        · left; omega
        · right
          have := hE.col hR (by rw [h3.1, h3.2]; omega)
          rw [h3.1, h3.2] at this
          rw [this]; rfl
  rw [← odd_succ]
  by_cases hc : (k % 2 == 1) = false
  · rw [if_pos (hcol.mpr hc), hc]; rfl
  · rw [if_neg (fun h => hc (hcol.mp h))]
    have : (k % 2 == 1) = true := by cases hh : (k % 2 == 1) <;> simp_all
    rw [this]; rfl

theorem row2d (hR : Runs (black row) w P) (hQ : Runs px w Q) (hw : 0 < w) : ∀ n k a0 b c, EncAt P k a0 → b ≤ Q.length → Nx Q w k a0 c → (stretch Q)[b]? = some (pos Q w c) →
    (stretch Q)[b + 1]? = some (pos Q w (c + 1)) → w < n + a0 → (k = 0 → w + 1 < n + a0) →
    ∃ bits, Emits (fun x => loop2d row w (stretch P) P.length (stretch Q) Q.length n x a0 k b) bits ∧ Starts bits ∧ Takes P Q w k a0 c bits ∧
      bits.length + 8 * a0 ≤ 8 * w + 11 + (if k = 0 then 11 else 0) := by
  intro n
  induction n with
  | zero => intro k a0 b c hE _ _ _ _ hn _; have := hE.lt_w hR hw; omega
  | succ n ih =>
    intro k a0 b c hE hb hc hb1 hb2 hn hn0
    have hk := hE.lt
    have ha1 := hE.le_a1
    have haw := hE.lt_w hR hw
    have hpl := hR.prev_le (P.length - (k + 1)) (k + 1) (by omega)
    rw [prev_succ] at hpl
    have hpk : pos P w (k + 1) = P.getD k 0 := by unfold pos; rw [if_pos (by omega), prev_succ]
    have hcur : (stretch P)[k]? = some (P.getD k 0) := by rw [stretch_get hR k (by omega), hpk]
    by_cases hpass : pos Q w (c + 1) ≥ P.getD k 0
    · by_cases hver : (-3 : Int) ≤ (pos Q w c : Int) - P.getD k 0 ∧ (pos Q w c : Int) - P.getD k 0 ≤ 3
      · -- Vertical mode.
        have hi : (((pos Q w c : Int) - P.getD k 0 + 3).toNat : Int) = (pos Q w c : Int) - P.getD k 0 + 3 := by omega
        generalize hidx : ((pos Q w c : Int) - P.getD k 0 + 3).toNat = i at hi
        have hi7 : i < 7 := by omega
        have hml := mcode_len ⟨i, by omega⟩
        simp only at hml
        by_cases hend : P.getD k 0 = w
        · refine ⟨mcode i, ?_, starts_mcode (by omega), takes_vert_end hR hQ hw hE hc hi7 hi hend, by omega⟩
          intro x ok
          obtain ⟨x', e, r⟩ := emits_mcode i (by omega) x ok
          refine ⟨x', ?_, r⟩
          unfold loop2d
          simp only [hcur, hb1, hb2]
          rw [if_pos hpass, if_pos hver, hidx, e]
          simp only
          rw [if_pos (by omega)]
        · have hlt : P.getD k 0 < w := by omega
          have hk1 := hR.not_end hk hlt
          have hmono := hR.mono k hk1
          have hE' : EncAt P (k + 1) (P.getD k 0) := ⟨hk1, by rw [prev_succ], Or.inl hmono⟩
          obtain ⟨b', c', eh, r1, r2, r3, hc'⟩ := hunt_spec hQ hlt (k := k + 1) hb (fun h => absurd h (by omega))
          obtain ⟨bits, hEm, hS, hT, hlen⟩ := ih (k + 1) (P.getD k 0) b' c' hE' r1 hc' r2 r3 (by
            rcases hE.pos with h | h
            · omega
            · have := hn0 h.1; omega) (fun h => absurd h (by omega))
          refine ⟨mcode i ++ bits, ?_, (starts_mcode (by omega)).append _, takes_vert hR hQ hw hE hc hi7 hi hlt hS hT, by
            rw [if_neg (by omega)] at hlen
            rw [List.length_append]
            rcases hE.pos with h | h
            · omega
            · rw [if_pos h.1]; omega⟩
          intro x ok
          obtain ⟨x1, e1, ok1, b1, l1⟩ := emits_mcode i (by omega) x ok
          obtain ⟨x2, e2, ok2, b2, l2⟩ := hEm x1 ok1
          refine ⟨x2, ?_, ok2, by rw [b2, b1, List.append_assoc], by rw [l2, l1, List.length_append]; omega⟩
          unfold loop2d
          simp only [hcur, hb1, hb2]
          rw [if_pos hpass, if_pos hver, hidx, e1]
          simp only
          rw [if_neg (by omega), hE'.col hR hmono, eh, if_neg (by omega)]
          exact e2
      · -- Horizontal mode.
        have hcur2 : (stretch P)[k + 1]? = some (pos P w (k + 2)) := stretch_get hR (k + 1) (by omega)
        have hle2 : P.getD k 0 ≤ pos P w (k + 2) := by rw [← hpk]; exact pos_le_succ hR (k + 1)
        obtain ⟨mk, t, hsp, hem1⟩ := put1d_spec (k % 2 == 1) (P.getD k 0 - a0)
        obtain ⟨mk2, t2, hsp2, hem2⟩ := put1d_spec ((k + 1) % 2 == 1) (pos P w (k + 2) - P.getD k 0)
        have hemh := emits_horiz hR hE hle2 hem1 hem2
        have hst : Starts (mcode 7 ++ (spanBits (k % 2 == 1) mk t ++ spanBits ((k + 1) % 2 == 1) mk2 t2)) := (starts_mcode (by omega)).append _
        have hl1 := spanBits_len (k % 2 == 1) hsp
        have hl2 := spanBits_len ((k + 1) % 2 == 1) hsp2
        have hl3 : (mcode 7).length = 3 := by decide +kernel
        by_cases hend : pos P w (k + 2) = w
        · refine ⟨_, ?_, hst, ?_, ?_⟩
          · intro x ok
            obtain ⟨x', e, r⟩ := hemh x ok
            refine ⟨x', ?_, r⟩
            unfold loop2d
            simp only [hcur, hb1, hb2]
            rw [if_pos hpass, if_neg hver, hcur2]
            simp only at e ⊢
            rw [e]
            simp only [Option.bind_some]
            rw [if_pos (by omega)]
          · by_cases hz : k + 1 < P.length
            · have hp2 : pos P w (k + 2) = P.getD (k + 1) 0 := by unfold pos; rw [if_pos (by omega), prev_succ]
              rw [hp2] at hsp2 hend
              exact takes_horiz_end hR hQ hw hE hc hsp hz hsp2 hend
            · have hw1 : P.getD k 0 = w := by
                have := hR.last
                rwa [show P.length = k + 1 by omega, prev_succ] at this
              rw [hend, hw1, Nat.sub_self] at hsp2
              exact takes_horiz_zero hR hQ hw hE hc hsp hsp2 hw1
          · simp only [List.length_append, hl3]
            rcases hE.pos with h | h
            · split at hl1 <;> split at hl2 <;> split <;> omega
            · rw [if_pos h.1]
              split at hl1 <;> split at hl2 <;> omega
        · have hlt : pos P w (k + 2) < w := by have := pos_le hR (k + 2); omega
          have hk2 := lt_of_pos hR hlt
          have hp2 : pos P w (k + 2) = P.getD (k + 1) 0 := by unfold pos; rw [if_pos (by omega), prev_succ]
          rw [hp2] at hlt hsp2 hcur2 hemh hle2
          have hmono := hR.mono k (by omega)
          have hmono2 := hR.mono (k + 1) (by omega)
          have hE' : EncAt P (k + 2) (P.getD (k + 1) 0) := ⟨hk2, by rw [show k + 2 = k + 1 + 1 from rfl, prev_succ], Or.inl hmono2⟩
          obtain ⟨b', c', eh, r1, r2, r3, hc'⟩ := hunt_spec hQ hlt (k := k + 2) hb (fun h => absurd h (by omega))
          obtain ⟨bits, hEm, hS, hT, hlen⟩ := ih (k + 2) (P.getD (k + 1) 0) b' c' hE' r1 hc' r2 r3 (by omega) (fun h => absurd h (by omega))
          refine ⟨_ ++ bits, ?_, hst.append _, takes_horiz hR hQ hw hE hc hsp (by omega) hsp2 hlt hS hT, by
            rw [hp2] at hl2
            rw [if_neg (by omega)] at hlen hl2
            simp only [List.length_append, hl3]
            rcases hE.pos with h | h
            · rw [if_neg (by omega)] at hl1
              omega
            · rw [if_pos h.1]
              split at hl1 <;> omega⟩
          intro x ok
          obtain ⟨x1, e1, ok1, b1, l1⟩ := hemh x ok
          obtain ⟨x2, e2, ok2, b2, l2⟩ := hEm x1 ok1
          refine ⟨x2, ?_, ok2, by rw [b2, b1, List.append_assoc], by rw [l2, l1]; simp only [List.length_append]; omega⟩
          unfold loop2d
          simp only [hcur, hb1, hb2]
          rw [if_pos hpass, if_neg hver, hcur2]
          simp only at e1 ⊢
          rw [e1]
          simp only [Option.bind_some]
          rw [if_neg (by omega), hE'.col hR hmono2, eh, if_neg (by omega)]
          exact e2
    · -- Pass mode.
      have hb2w : pos Q w (c + 1) < w := by omega
      have hc2 := lt_of_pos hQ hb2w
      have hlt2 := pos_lt hQ hc.one (show c < Q.length by omega)
      have ha0 : a0 < pos Q w (c + 1) := by
        rcases hc.gt with h | h
        · omega
        · omega
      have hE' : EncAt P k (pos Q w (c + 1)) := ⟨hk, by have := hE.le; omega, Or.inl (by omega)⟩
      obtain ⟨b', c', eh, r1, r2, r3, hc'⟩ := hunt_spec hQ hb2w (k := k) hb (fun _ => by omega)
      obtain ⟨bits, hEm, hS, hT, hlen⟩ := ih k (pos Q w (c + 1)) b' c' hE' r1 hc' r2 r3 (by omega) (fun h => by have := hn0 h; omega)
      refine ⟨mcode 8 ++ bits, ?_, (starts_mcode (by omega)).append _, takes_pass hR hQ hw hE hc (by omega) ha0 hc' hS hT, by
        have hl3 : (mcode 8).length = 4 := by decide +kernel
        rw [List.length_append, hl3]; omega⟩
      have h0 : Emits (fun x => some (putBits x 0x08 4)) (mcode 8) := emits_put 8 4 (by omega) (Or.inl (by omega))
      refine (h0.bind hEm).congr fun x => ?_
      conv => lhs; unfold loop2d
      simp only [hcur, hb1, hb2]
      rw [if_neg hpass, if_neg (by omega), hE'.col hR (by omega), eh]
      rfl

/-- A two dimensional row. -/
theorem encode2d_spec (hR : Runs (black row) w P) (hQ : Runs px w Q) (hw : 0 < w) :
    ∃ bits, Emits (fun x => loop2d row w (stretch P) P.length (stretch Q) Q.length (w + 2) x 0 0 0) bits ∧ Starts bits ∧ Takes P Q w 0 0 1 bits ∧ bits.length ≤ 8 * w + 22 := by
  have hP := List.length_pos_iff.mpr hR.ne
  have hQ0 := List.length_pos_iff.mpr hQ.ne
  obtain ⟨bits, h1, h2, h3, h4⟩ := row2d hR hQ hw (w + 2) 0 0 0 1 ⟨hP, Nat.le_refl _, Or.inr ⟨rfl, rfl⟩⟩ (by omega)
    ⟨rfl, by omega, by omega, Or.inr ⟨rfl, rfl, rfl⟩, Or.inl (by omega), fun _ _ => rfl⟩ (stretch_get hQ 0 (by omega)) (stretch_get hQ 1 (by omega)) (by omega) (fun _ => by omega)
  exact ⟨bits, h1, h2, h3, by rw [if_pos rfl] at h4; omega⟩

end

end T4
