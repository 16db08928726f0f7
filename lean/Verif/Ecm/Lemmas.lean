import Verif.Ecm.Spec

/-!
# The partial page buffer
-/

namespace Ecm

theorem set_same (b : Buf) (i : Nat) (x : Option (List Nat)) : b.set i x i = x := by simp [Buf.set]

theorem set_other (b : Buf) {i j : Nat} (x : Option (List Nat)) (h : j ≠ i) : b.set i x j = b j := by simp [Buf.set, h]

/-- What `fill` makes. -/
structure Filled (sz n i : Nat) (rest : List Nat) (buf : Buf) (r : Buf × Nat × Bool × List Nat) (F : List (List Nat)) : Prop where
  count : r.2.1 = i + F.length
  max : F.length ≤ n
  lens : ∀ f ∈ F, f.length = sz
  at_ : ∀ j, j < F.length → r.1 (i + j) = F[j]?
  below : ∀ j, j < i → r.1 j = buf j
  more : r.2.2.1 = false → F.length = n ∧ rest = F.flatten ++ r.2.2.2
  ends : r.2.2.1 = true → ∃ k < sz, rest ++ List.replicate k 0 = F.flatten

theorem fill_filled (sz : Nat) (hs : 0 < sz) (n : Nat) : ∀ (i : Nat) (rest : List Nat) (buf : Buf),
    ∃ F, Filled sz n i rest buf (fill sz n i rest buf) F := by
  induction n with
  | zero =>
    intro i rest buf
    exact ⟨[], by simp [fill], by simp, by simp, by simp, by simp [fill], by simp [fill], by simp [fill]⟩
  | succ n ih =>
    intro i rest buf
    by_cases h1 : (rest.take sz).length < sz
    · have hr : rest.length < sz := by simp at h1; omega
      have ht : rest.take sz = rest := List.take_of_length_le (by omega)
      by_cases h2 : (rest.take sz).length > 0
      · refine ⟨[rest ++ List.replicate (sz - rest.length) 0], ?_⟩
        have e : fill sz (n + 1) i rest buf =
            (buf.set i (some (rest ++ List.replicate (sz - rest.length) 0)), i + 1, true, rest.drop sz) := by
          simp only [fill]; rw [if_pos h1, if_pos h2, ht]
        rw [e]
        refine ⟨rfl, by simp, by simp; omega, ?_, ?_, by simp, ?_⟩
        · intro j hj
          have : j = 0 := by simpa using hj
          subst this; simp [set_same]
        · intro j hj; exact set_other _ _ (by omega)
        · intro _; exact ⟨sz - rest.length, by rw [ht] at h2; omega, by simp⟩
      · have e : fill sz (n + 1) i rest buf = (buf.set i none, i, true, rest.drop sz) := by
          simp only [fill]; rw [if_pos h1, if_neg h2]
        have hz : rest = [] := by
          rw [ht] at h2; exact List.eq_nil_of_length_eq_zero (by omega)
        refine ⟨[], ?_⟩
        rw [e]
        refine ⟨rfl, by simp, by simp, by simp, ?_, by simp, ?_⟩
        · intro j hj; exact set_other _ _ (by omega)
        · intro _; exact ⟨0, hs, by simp [hz]⟩
    · have e : fill sz (n + 1) i rest buf = fill sz n (i + 1) (rest.drop sz) (buf.set i (some (rest.take sz))) := by
        conv_lhs => rw [fill]
        exact if_neg h1
      obtain ⟨F, hF⟩ := ih (i + 1) (rest.drop sz) (buf.set i (some (rest.take sz)))
      have hl : (rest.take sz).length = sz := by simp at h1 ⊢; omega
      refine ⟨rest.take sz :: F, ?_⟩
      rw [e]
      refine ⟨?_, by simp; exact hF.max, ?_, ?_, ?_, ?_, ?_⟩
      · rw [hF.count]; simp; omega
      · intro f hf
        rcases List.mem_cons.1 hf with rfl | hf
        · exact hl
        · exact hF.lens f hf
      · intro j hj
        rcases Nat.eq_zero_or_pos j with rfl | hj0
        · have := hF.below i (by omega)
          rw [set_same] at this
          exact this
        · obtain ⟨j', rfl⟩ : ∃ j', j = j' + 1 := ⟨j - 1, by omega⟩
          have := hF.at_ j' (by simpa using hj)
          rw [show i + (j' + 1) = i + 1 + j' by omega, this]; simp
      · intro j hj
        rw [hF.below j (by omega), set_other _ _ (by omega)]
      · intro h
        obtain ⟨a, b⟩ := hF.more h
        refine ⟨by simp [a], ?_⟩
        rw [List.flatten_cons, List.append_assoc, ← b, List.take_append_drop]
      · intro h
        obtain ⟨k, hk, b⟩ := hF.ends h
        refine ⟨k, hk, ?_⟩
        rw [List.flatten_cons, ← b, ← List.append_assoc, List.take_append_drop]

/-- `vet` leaves a buffer alone when all its frames have the negotiated length. -/
theorem vet_id (sz : Nat) (hs : sz = 64 ∨ sz = 256) (N n : Nat) : ∀ (i : Nat) (first : Bool) (expected : Nat) (buf : Buf),
    (∀ j f, buf j = some f → f.length = sz) → ((first = true ∧ expected = 256) ∨ expected = sz) →
    vet N n i first expected buf = buf := by
  induction n with
  | zero => intros; rfl
  | succ n ih =>
    intro i first expected buf hb he
    rw [vet]
    cases hbi : buf i with
    | none => exact ih _ _ _ _ hb he
    | some d =>
      have hd := hb i d hbi
      dsimp only
      split
      · have e : (if (first && d.length == 64) = true then 64 else expected) = sz := by
          rcases hs with rfl | rfl
          · rcases he with ⟨rfl, rfl⟩ | rfl
            · simp [hd]
            · simp [hd]
          · rcases he with ⟨rfl, rfl⟩ | rfl <;> simp [hd]
        rw [e, if_pos hd]
        exact ih _ _ _ _ hb (Or.inr rfl)
      · exact ih _ _ _ _ hb he

/-- `first_bad_frame` is the first frame that is not there. -/
theorem firstBad_ge (buf : Buf) (N : Nat) (n : Nat) : ∀ i, i + n = 256 → N ≤ 256 →
    (firstBad buf n i ≥ N ↔ ∀ j, i ≤ j → j < N → buf j ≠ none) := by
  induction n with
  | zero => intro i hi hN; simp only [firstBad]; exact ⟨fun _ j h1 h2 => absurd h2 (by omega), fun _ => hN⟩
  | succ n ih =>
    intro i hi hN
    rw [firstBad]
    cases hb : buf i with
    | none =>
      simp only [Option.isNone_none, if_true]
      constructor
      · intro h j h1 h2; omega
      · intro h; apply Nat.le_of_not_lt; intro hlt; exact h i (Nat.le_refl _) hlt hb
    | some d =>
      simp only [Option.isNone_some, Bool.false_eq_true, if_false]
      rw [ih (i + 1) (by omega) hN]
      constructor
      · intro h j h1 h2
        rcases Nat.eq_or_lt_of_le h1 with rfl | h1
        · rw [hb]; simp
        · exact h j h1 h2
      · intro h j h1 h2; exact h j (by omega) h2

/-- An octet made of eight bits has those bits. -/
theorem octet_bits (p : Nat → Bool) : ∀ k, k < 8 →
    Nat.testBit ((List.range 8).foldl (fun m j => if p j then m ||| (1 <<< j) else m) 0) k = p k := by
  have h : ∀ (b0 b1 b2 b3 b4 b5 b6 b7 : Bool) (k : Fin 8),
      Nat.testBit ((List.range 8).foldl (fun m j => if ([b0, b1, b2, b3, b4, b5, b6, b7][j]?).getD false then m ||| (1 <<< j) else m) 0) k.val
        = ([b0, b1, b2, b3, b4, b5, b6, b7][k.val]?).getD false := by decide +kernel
  intro k hk
  have := h (p 0) (p 1) (p 2) (p 3) (p 4) (p 5) (p 6) (p 7) ⟨k, hk⟩
  have e : ∀ j, j < 8 → ([p 0, p 1, p 2, p 3, p 4, p 5, p 6, p 7][j]?).getD false = p j := by
    intro j hj
    match j, hj with
    | 0, _ | 1, _ | 2, _ | 3, _ | 4, _ | 5, _ | 6, _ | 7, _ => rfl
  rw [e k hk] at this
  rw [← this]
  rfl

/-- The map has a bit for each frame which is not there, and for no other. -/
theorem frameMap_bit (buf : Buf) (i : Nat) (hi : i < 256) : mapBit (frameMap buf) i = (buf i).isNone := by
  have h8 : i / 8 < 32 := by omega
  unfold mapBit frameMap
  rw [List.getElem?_map, List.getElem?_range h8]
  simp only [Option.map_some, Option.getD_some]
  rw [octet_bits (fun j => (buf (8 * (i / 8) + j)).isNone) (i % 8) (by omega)]
  rw [Nat.div_add_mod]

theorem frameMap_length (buf : Buf) : (frameMap buf).length = 32 := by simp [frameMap]

/-- The frames of a block one after another. -/
theorem flatMap_block (F : List (List Nat)) (buf : Buf) (h : ∀ i, i < F.length → buf i = F[i]?) :
    ((List.range F.length).flatMap fun i => (buf i).getD []) = F.flatten := by
  rw [List.flatMap_def]
  congr 1
  apply List.ext_getElem (by simp)
  intro i h1 h2
  simp only [List.getElem_map, List.getElem_range]
  rw [h i (by simpa using h1), List.getElem?_eq_getElem (by simpa using h1)]
  rfl

/-- The search for a frame finds the first one that is there. -/
theorem nextFrame_some (buf : Buf) (n : Nat) : ∀ i k d, nextFrame buf n i = some (k, d) →
    buf k = some d ∧ i ≤ k ∧ k < i + n ∧ ∀ j, i ≤ j → j < k → buf j = none := by
  induction n with
  | zero => intro i k d h; simp [nextFrame] at h
  | succ n ih =>
    intro i k d h
    rw [nextFrame] at h
    cases hb : buf i with
    | some x =>
      rw [hb] at h
      simp only [Option.some.injEq, Prod.mk.injEq] at h
      obtain ⟨rfl, rfl⟩ := h
      exact ⟨hb, Nat.le_refl _, by omega, fun j h1 h2 => by omega⟩
    | none =>
      rw [hb] at h
      obtain ⟨a, b, c, e⟩ := ih (i + 1) k d h
      refine ⟨a, by omega, by omega, ?_⟩
      intro j h1 h2
      rcases Nat.eq_or_lt_of_le h1 with rfl | h1
      · exact hb
      · exact e j h1 h2

theorem nextFrame_none (buf : Buf) (n : Nat) : ∀ i, nextFrame buf n i = none → ∀ j, i ≤ j → j < i + n → buf j = none := by
  induction n with
  | zero => intro i _ j h1 h2; omega
  | succ n ih =>
    intro i h j h1 h2
    rw [nextFrame] at h
    cases hb : buf i with
    | some x => rw [hb] at h; simp at h
    | none =>
      rw [hb] at h
      rcases Nat.eq_or_lt_of_le h1 with rfl | h1
      · exact hb
      · exact ih (i + 1) h j h1 (by omega)

end Ecm
