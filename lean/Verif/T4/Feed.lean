import Verif.T4.Machine

/-! # The pieces in which the bits come do not matter -/

namespace T4

theorem fst_of {a t : Dec} {b c : Bool} (h : some (a, b) = some (t, c)) : a = t := (Prod.mk.inj (Option.some.inj h)).1

/-- One turn of the loop. -/
def one (s : Dec) : Option (Dec × Bool) := if s.eols < 0 then some (stepWait s, false) else step s

theorem stepLoop_succ (n : Nat) (s : Dec) : stepLoop (n + 1) s =
    if s.rx.length ≥ 13 then
      match one s with
      | none => none
      | some (s, true) => some (s, true)
      | some (s, false) => stepLoop n s
    else some (s, false) := by
  rw [stepLoop]
  unfold one
  by_cases h : s.rx.length ≥ 13
  · rw [if_pos h, if_pos h]
    by_cases h2 : s.eols < 0
    · rw [if_pos h2, if_pos h2]
    · rw [if_neg h2, if_neg h2]
      rcases step s with _ | ⟨t, _ | _⟩ <;> rfl
  · rw [if_neg h, if_neg h]

theorem stepWait_more (s : Dec) (y : List Bool) (h : 13 ≤ s.rx.length) : stepWait (s.more y) = (stepWait s).more y := by
  have e1 : (s.rx ++ y).getD 12 false = s.rx.getD 12 false := by
    simp [List.getD, List.getElem?_append_left (show 12 < s.rx.length by omega)]
  unfold stepWait
  rw [look_more s y 12 (by omega)]
  split
  · unfold Dec.more
    simp only [List.drop_append_of_le_length (show 1 ≤ s.rx.length by omega)]
  · by_cases h2 : s.encoding = .t4_1d
    · rw [if_pos h2, if_pos (show (s.more y).encoding = .t4_1d from h2)]
      unfold Dec.forceDrop Dec.more
      simp only [List.drop_append_of_le_length (show 12 ≤ s.rx.length by omega)]
    · rw [if_neg h2, if_neg (show ¬ (s.more y).encoding = .t4_1d from h2)]
      unfold Dec.forceDrop Dec.more
      simp only [e1, List.drop_append_of_le_length h]

theorem one_more (s : Dec) (y : List Bool) (h : 13 ≤ s.rx.length) : one (s.more y) = (one s).map (more2 y) := by
  unfold one
  by_cases h2 : s.eols < 0
  · rw [if_pos h2, if_pos (show (s.more y).eols < 0 from h2), stepWait_more s y h]; rfl
  · rw [if_neg h2, if_neg (show ¬ (s.more y).eols < 0 from h2), step_more s y h]

theorem takeCode_rx {f : Dec → Option Dec} (hf : Blind f) {n : Nat} {s : Dec} {r : Dec × Bool} (h : takeCode f n s = some r) : r.1.rx = s.rx.drop 1 := by
  unfold takeCode at h
  cases e : f s with
  | none => rw [e] at h; cases h
  | some t =>
    rw [e] at h
    simp only [Option.map_some, Option.bind_some] at h
    cases e2 : afterCode (t.drop n) with
    | none => rw [e2] at h; cases h
    | some u =>
      rw [e2] at h
      rw [← Option.some.inj h]
      show u.rx = _
      rw [(blind_afterCode.rx e2).1, ← (hf.rx e).1]; rfl

theorem stepWait_lt (s : Dec) (h : 13 ≤ s.rx.length) : (stepWait s).rx.length < s.rx.length := by
  unfold stepWait
  split
  · simp only [List.length_drop]; omega
  · split <;> · simp only [Dec.forceDrop, List.length_drop]; omega

theorem eolEnd_rx (s : Dec) (h : 13 ≤ s.rx.length) : (eolEnd s).rx.length < s.rx.length := by
  unfold eolEnd
  split <;> · simp only [Dec.forceDrop, List.length_drop]; omega

theorem one_lt {s t : Dec} (h : 13 ≤ s.rx.length) (e : one s = some (t, false)) : t.rx.length < s.rx.length := by
  unfold one at e
  split at e
  · rw [← fst_of e]; exact stepWait_lt s h
  · unfold step at e
    split at e
    · cases e2 : eolRow s with
      | none => rw [e2] at e; cases e
      | some r =>
        rw [e2] at e
        obtain ⟨r, o⟩ := r
        cases o
        · rw [← fst_of (a := eolEnd r) (b := false) e]
          have h1 : r.rx = s.rx := eolRow_rx e2
          rw [← h1]
          exact eolEnd_rx _ (by rw [h1]; exact h)
        · have := congrArg Prod.snd (Option.some.inj e)
          simp at this
    · split at e
      · rw [← fst_of e]; simp only [List.length_drop]; omega
      · split at e
        · split at e
          · rw [← fst_of e]; simp only [Dec.drop, List.length_drop]; omega
          · have := takeCode_rx (blind_code2d _) e
            simp only at this
            rw [this, List.length_drop]; omega
        · have := takeCode_rx (blind_code1d _) e
          simp only at this
          rw [this, List.length_drop]; omega

/-- The loop, with all of the turns it needs. -/
def L (s : Dec) : Option (Dec × Bool) := stepLoop s.rx.length s

theorem stepLoop_fuel : ∀ n (s : Dec), s.rx.length ≤ n → ∀ m, s.rx.length ≤ m → stepLoop n s = stepLoop m s := by
  intro n
  induction n with
  | zero =>
    intro s h m _
    have : s.rx.length = 0 := by omega
    cases m with
    | zero => rfl
    | succ m => rw [stepLoop_succ, if_neg (by omega)]; rfl
  | succ n ih =>
    intro s h m hm
    cases m with
    | zero =>
      have : s.rx.length = 0 := by omega
      rw [stepLoop_succ, if_neg (by omega)]; rfl
    | succ m =>
      rw [stepLoop_succ, stepLoop_succ]
      split
      · next h13 =>
        cases e : one s with
        | none => rfl
        | some r =>
          obtain ⟨t, b⟩ := r
          cases b
          · have := one_lt h13 e
            exact ih t (by omega) m (by omega)
          · rfl
      · rfl

theorem L_short {s : Dec} (h : s.rx.length < 13) : L s = some (s, false) := by
  unfold L
  cases hn : s.rx.length with
  | zero => rfl
  | succ n => rw [stepLoop_succ, if_neg (by omega)]

theorem L_long {s : Dec} (h : 13 ≤ s.rx.length) : L s =
    match one s with
    | none => none
    | some (s, true) => some (s, true)
    | some (s, false) => L s := by
  have : L s = stepLoop (s.rx.length + 1) s := stepLoop_fuel _ s (Nat.le_refl _) _ (Nat.le_succ _)
  rw [this, stepLoop_succ, if_pos h]
  cases e : one s with
  | none => rfl
  | some r =>
    obtain ⟨t, b⟩ := r
    cases b
    · have := one_lt h e
      exact stepLoop_fuel _ t (by omega) _ (Nat.le_refl _)
    · rfl

/-- Some turns of the loop, none of which ends the page. -/
inductive Run : Dec → Dec → Prop where
  | refl (s : Dec) : Run s s
  | head {s t u : Dec} : 13 ≤ s.rx.length → one s = some (t, false) → Run t u → Run s u

theorem Run.trans {s t u : Dec} (h1 : Run s t) (h2 : Run t u) : Run s u := by
  induction h1 with
  | refl => exact h2
  | head a b _ ih => exact .head a b (ih h2)

theorem Run.L {s t : Dec} (h : Run s t) : L s = L t := by
  induction h with
  | refl => rfl
  | head a b _ ih => rw [L_long a, b]; exact ih

theorem L_end {s t : Dec} (h : 13 ≤ s.rx.length) (e : one s = some (t, true)) : L s = some (t, true) := by rw [L_long h, e]

/-- Bits which come later are taken up where the loop has stopped. -/
theorem L_more : ∀ n (s : Dec), s.rx.length ≤ n → ∀ y, L (s.more y) = match L s with
    | none => none
    | some (t, true) => some (t.more y, true)
    | some (t, false) => L (t.more y) := by
  intro n
  induction n with
  | zero => intro s h y; rw [L_short (s := s) (by omega)]
  | succ n ih =>
    intro s h y
    by_cases h13 : 13 ≤ s.rx.length
    · rw [L_long h13, L_long (by unfold Dec.more; simp only [List.length_append]; omega), one_more s y h13]
      cases e : one s with
      | none => rfl
      | some r =>
        obtain ⟨t, b⟩ := r
        cases b
        · have := one_lt h13 e
          exact ih t (by omega) y
        · rfl
    · rw [L_short (s := s) (by omega)]

theorem L_stop : ∀ n (s t : Dec), s.rx.length ≤ n → L s = some (t, false) → t.rx.length < 13 := by
  intro n
  induction n with
  | zero => intro s t h e; rw [L_short (by omega)] at e; rw [← fst_of e]; omega
  | succ n ih =>
    intro s t h e
    by_cases h13 : 13 ≤ s.rx.length
    · rw [L_long h13] at e
      cases e1 : one s with
      | none => rw [e1] at e; cases e
      | some r =>
        obtain ⟨u, b⟩ := r
        rw [e1] at e
        cases b
        · have := one_lt h13 e1
          exact ih u t (by omega) e
        · have := congrArg Prod.snd (Option.some.inj e); cases this
    · rw [L_short (by omega)] at e; rw [← fst_of e]; omega

theorem one_le {s t : Dec} {b : Bool} (h : 13 ≤ s.rx.length) (e : one s = some (t, b)) : t.rx.length ≤ s.rx.length := by
  cases b
  · exact Nat.le_of_lt (one_lt h e)
  · unfold one at e
    split at e
    · have := congrArg Prod.snd (Option.some.inj e); cases this
    · unfold step at e
      split at e
      · cases e2 : eolRow s with
        | none => rw [e2] at e; cases e
        | some r =>
          rw [e2] at e
          obtain ⟨r, o⟩ := r
          cases o
          · have := congrArg Prod.snd (Option.some.inj e); simp at this
          · rw [← fst_of (a := r) (b := true) e]
            exact Nat.le_of_eq (congrArg List.length (eolRow_rx e2))
      · split at e
        · have := congrArg Prod.snd (Option.some.inj e); cases this
        · split at e
          · split at e
            · have := congrArg Prod.snd (Option.some.inj e); cases this
            · have := takeCode_rx (blind_code2d _) e
              simp only at this
              rw [this, List.length_drop]; omega
          · have := takeCode_rx (blind_code1d _) e
            simp only at this
            rw [this, List.length_drop]; omega

theorem L_le : ∀ n (s t : Dec) (b : Bool), s.rx.length ≤ n → L s = some (t, b) → t.rx.length ≤ s.rx.length := by
  intro n
  induction n with
  | zero => intro s t b h e; rw [L_short (by omega)] at e; rw [← fst_of e]; exact Nat.le_refl _
  | succ n ih =>
    intro s t b h e
    by_cases h13 : 13 ≤ s.rx.length
    · rw [L_long h13] at e
      cases e1 : one s with
      | none => rw [e1] at e; cases e
      | some r =>
        obtain ⟨u, o⟩ := r
        rw [e1] at e
        cases o
        · have := one_lt h13 e1
          have := ih u t b (by omega) e
          omega
        · rw [← fst_of e]; exact one_le h13 e1
    · rw [L_short (by omega)] at e; rw [← fst_of e]; exact Nat.le_refl _

/-! ## The count of EOLs -/

/-- `f` does not change the count of EOLs. -/
def Keeps (f : Dec → Option Dec) : Prop := ∀ s t, f s = some t → t.eols = s.eols

theorem Keeps.bind {f g : Dec → Option Dec} (hf : Keeps f) (hg : Keeps g) : Keeps fun s => (f s).bind g := by
  intro s t h
  simp only at h
  cases e : f s with
  | none => rw [e] at h; cases h
  | some u =>
    rw [e] at h
    rw [hg u t h, hf s u e]

theorem Keeps.ite {c : Dec → Prop} [DecidablePred c] {f g : Dec → Option Dec} (hf : Keeps f) (hg : Keeps g) : Keeps fun s => if c s then f s else g s := by
  intro s t h
  simp only at h
  split at h
  · exact hf s t h
  · exact hg s t h

theorem Keeps.some' {f : Dec → Dec} (h : ∀ s, (f s).eols = s.eols) : Keeps fun s => some (f s) := by
  intro s t e
  rw [← Option.some.inj e]; exact h s

theorem keeps_setCur (i v : Dec → Nat) : Keeps fun s => s.setCur (i s) (v s) := by
  intro s t h
  simp only [Dec.setCur] at h
  split at h
  · rw [← Option.some.inj h]
  · cases h

theorem setCur_eols {s t : Dec} {i v : Nat} (h : s.setCur i v = some t) : t.eols = s.eols := keeps_setCur (fun _ => i) (fun _ => v) s t h

theorem keeps_id : Keeps some := Keeps.some' (f := id) (fun _ => rfl)

theorem keeps_addRun : Keeps addRun := by
  intro s t h
  unfold addRun at h
  split at h
  · simp only at h
    split at h
    · cases e : Dec.setCur { s with rowLen := s.rowLen + s.runLength } s.aCursor s.runLength.toNat with
      | none => exact absurd ((congrArg (Option.map _) e).symm.trans h) (by simp)
      | some u =>
        have h := (congrArg (Option.map _) e).symm.trans h
        rw [← Option.some.inj h]
        exact keeps_setCur (fun _ => s.aCursor) (fun _ => s.runLength.toNat) { s with rowLen := s.rowLen + s.runLength } u e
    · rw [← Option.some.inj h]
  · rw [← Option.some.inj h]

theorem keeps_fixRow : Keeps fixRow := by
  intro s t h
  unfold fixRow at h
  simp only at h
  generalize badLen s.cur s.width s.aCursor 0 0 = fudge at h
  split at h
  · split at h
    · cases e : s.setCur s.aCursor 1 with
      | none => rw [e] at h; cases h
      | some u =>
        have h1 := keeps_setCur (fun s => s.aCursor) (fun _ => 1) s u e
        rw [e] at h
        simp only [Option.bind_some] at h
        split at h
        · generalize e2 : Dec.setCur _ _ _ = v at h
          cases v with
          | none => cases h
          | some v =>
            rw [← Option.some.inj h, ← h1]
            exact setCur_eols (s := { u with aCursor := u.aCursor + 1 }) (t := v) e2
        · rw [← Option.some.inj h, ← h1]
    · generalize e2 : Dec.setCur _ _ _ = v at h
      cases v with
      | none => cases h
      | some v =>
        rw [← Option.some.inj h]
        exact setCur_eols (t := v) e2
  · generalize e2 : Dec.setCur _ _ _ = v at h
    cases v with
    | none => cases h
    | some v =>
      rw [← Option.some.inj h]
      exact setCur_eols (t := v) e2

theorem keeps_packRow : Keeps packRow := by
  intro s t h
  unfold packRow at h
  cases e : packRuns s.cur s.aCursor 0 0 ⟨s.pixelStream, s.pixels, 0, s.rowBuf⟩ with
  | none => rw [e] at h; cases h
  | some p => rw [e] at h; rw [← Option.some.inj h]

theorem keeps_putRow : Keeps putRow := by
  have h1 : Keeps fun s => if s.runLength ≠ 0 then addRun s else some s := Keeps.ite keeps_addRun keeps_id
  have h2 : Keeps fun s => if s.rowLen = s.width then packRow s else fixRow s := Keeps.ite keeps_packRow keeps_fixRow
  have h5 : Keeps fun s => some (swapRow s) := Keeps.some' (fun _ => rfl)
  exact (h1.bind h2).bind ((keeps_setCur (fun s => s.aCursor) fun _ => 0).bind ((keeps_setCur (fun s => s.aCursor + 1) fun _ => 0).bind h5))

theorem keeps_afterCode : Keeps afterCode := by
  have h1 : Keeps fun s => if s.runLength > 0 then addRun s else some s := Keeps.ite keeps_addRun keeps_id
  have h2 : Keeps endT6 := h1.bind (keeps_putRow.bind (Keeps.some' (f := fun s => { s with inBlack := false, blackWhite := 0, runLength := 0, rowLen := 0 }) (fun _ => rfl)))
  have h3 : Keeps fun s => if s.encoding = .t6 ∧ s.blackWhite = 0 ∧ s.rowLen ≥ s.width then endT6 s else some s := Keeps.ite h2 keeps_id
  have h4 : ∀ s, (clampA0 s).eols = s.eols := by intro s; unfold clampA0; split <;> rfl
  intro s t h
  rw [← h4 s]
  exact h3 (clampA0 s) t h

theorem keeps_moveB : ∀ n, Keeps (moveB n) := by
  intro n
  induction n with
  | zero => intro s t h; cases h
  | succ n ih =>
    intro s t h
    unfold moveB at h
    split at h
    · cases e1 : s.getRef s.bCursor with
      | none => rw [e1] at h; cases h
      | some x =>
        cases e2 : s.getRef (s.bCursor + 1) with
        | none => rw [e1, e2] at h; cases h
        | some y => rw [e1, e2] at h; exact ih { s with b1 := s.b1 + (x + y), bCursor := s.bCursor + 2 } t h
    · rw [← Option.some.inj h]

theorem keeps_vertical (v : Int) : Keeps fun s => vertical s v := by
  have h1 : Keeps (vertMove v) := by
    intro s t h
    unfold vertMove at h
    split at h
    · cases e1 : s.getRef s.bCursor with
      | none => rw [e1] at h; cases h
      | some x => rw [e1] at h; rw [← Option.some.inj h]
    · split at h
      · cases e1 : s.getRef (s.bCursor - 1) with
        | none => rw [e1] at h; cases h
        | some x => rw [e1] at h; rw [← Option.some.inj h]
      · rw [← Option.some.inj h]
  have h2 : Keeps fun s => addRun { s with a0 := s.b1 + v, runLength := s.runLength + (s.b1 + v - s.a0) } := fun s t h => keeps_addRun { s with a0 := s.b1 + v, runLength := s.runLength + (s.b1 + v - s.a0) } t h
  exact Keeps.ite keeps_id (h2.bind h1)

theorem keeps_code2d (e : Nat) : Keeps (code2d e) := by
  have h1 : Keeps fun s => if s.aCursor ≠ 0 then moveB (s.space + 1) s else some s := Keeps.ite (fun s t h => keeps_moveB _ s t h) keeps_id
  refine Keeps.bind h1 ?_
  unfold mode2d
  split
  · exact Keeps.some' (fun _ => rfl)
  · exact keeps_vertical _
  · intro s t h
    simp only [passMode] at h
    cases e1 : s.getRef s.bCursor with
    | none => rw [e1] at h; cases h
    | some x =>
      cases e2 : s.getRef (s.bCursor + 1) with
      | none => rw [e1, e2] at h; cases h
      | some y => rw [e1, e2] at h; rw [← Option.some.inj h]
  · exact keeps_id

theorem keeps_code1d (e : Nat) : Keeps (code1d e) := by
  have h1 : ∀ b p, Keeps fun s => termRun s b p := by
    intro b p
    have h2 : Keeps fun s => if s.rowLen < s.width then addRun { s with inBlack := b, runLength := s.runLength + p, a0 := s.a0 + p } else some { s with inBlack := b } :=
      Keeps.ite (fun s t h => keeps_addRun { s with inBlack := b, runLength := s.runLength + p, a0 := s.a0 + p } t h) (Keeps.some' (fun _ => rfl))
    exact h2.bind (Keeps.some' (f := fun s => { s with blackWhite := s.blackWhite - 1 }) (fun _ => rfl))
  intro s t h
  unfold code1d runCode at h
  split at h
  · rw [← Option.some.inj h]
  · rw [← Option.some.inj h]
  · rw [← Option.some.inj h]
  · exact h1 _ _ s t h
  · exact h1 _ _ s t h
  · rw [← Option.some.inj h]

theorem keeps_takeCode {f : Dec → Option Dec} (hf : Keeps f) {n : Nat} {s : Dec} {r : Dec × Bool} (h : takeCode f n s = some r) : r.1.eols = s.eols := by
  unfold takeCode at h
  cases e : f s with
  | none => rw [e] at h; cases h
  | some t =>
    rw [e] at h
    simp only [Option.map_some, Option.bind_some] at h
    cases e2 : afterCode (t.drop n) with
    | none => rw [e2] at h; cases h
    | some u =>
      rw [e2] at h
      rw [← Option.some.inj h]
      show u.eols = _
      rw [keeps_afterCode _ _ e2, ← hf _ _ e]; rfl

theorem eolEnd_eols (s : Dec) : (eolEnd s).eols = s.eols := by
  unfold eolEnd
  split <;> rfl

/-- The count does not get to its final value until the page has ended. -/
theorem one_eols {s t : Dec} (h : s.eols < 6) (e : one s = some (t, false)) : t.eols < 6 := by
  unfold one at e
  split at e
  · rw [← fst_of e]
    unfold stepWait
    split
    · exact h
    · split <;> · simp only [Dec.forceDrop]; decide
  · unfold step at e
    split at e
    · cases e2 : eolRow s with
      | none => rw [e2] at e; cases e
      | some r =>
        rw [e2] at e
        obtain ⟨r, o⟩ := r
        have hr : o = false := by
          cases o
          · rfl
          · have := congrArg Prod.snd (Option.some.inj e); simp at this
        subst hr
        rw [← fst_of (a := eolEnd r) (b := false) e, eolEnd_eols]
        unfold eolRow at e2
        split at e2
        · split at e2
          · have := congrArg Prod.snd (Option.some.inj e2); cases this
          · next hn =>
            rw [← fst_of e2]
            show s.eols + 1 < 6
            by_cases ht : s.encoding = .t6
            · have : ¬ s.eols + 1 ≥ 2 := fun h => hn (Or.inl ⟨ht, h⟩)
              omega
            · have : ¬ s.eols + 1 ≥ 5 := fun h => hn (Or.inr ⟨ht, h⟩)
              omega
        · cases e3 : (if s.runLength > 0 then addRun s else some s) with
          | none => rw [e3] at e2; cases e2
          | some u =>
            rw [e3] at e2
            simp only [Option.bind_some] at e2
            cases e4 : putRow { u with eols := 0 } with
            | none => rw [e4] at e2; cases e2
            | some v =>
              rw [e4] at e2
              rw [← fst_of (a := v) (b := false) e2]
              show v.eols < 6
              rw [keeps_putRow _ _ e4]; show (0 : Int) < 6; decide
    · split at e
      · rw [← fst_of e]; exact h
      · split at e
        · split at e
          · rw [← fst_of e]; exact h
          · have := keeps_takeCode (keeps_code2d _) e
            simp only at this
            rw [this]; exact h
        · have := keeps_takeCode (keeps_code1d _) e
          simp only at this
          rw [this]; exact h

theorem L_eols : ∀ n (s t : Dec), s.rx.length ≤ n → s.eols < 6 → L s = some (t, false) → t.eols < 6 := by
  intro n
  induction n with
  | zero => intro s t h h6 e; rw [L_short (by omega)] at e; rw [← fst_of e]; exact h6
  | succ n ih =>
    intro s t h h6 e
    by_cases h13 : 13 ≤ s.rx.length
    · rw [L_long h13] at e
      cases e1 : one s with
      | none => rw [e1] at e; cases e
      | some r =>
        obtain ⟨u, b⟩ := r
        rw [e1] at e
        cases b
        · have := one_lt h13 e1
          exact ih u t (by omega) (one_eols h6 e1) e
        · have := congrArg Prod.snd (Option.some.inj e); cases this
    · rw [L_short (by omega)] at e; rw [← fst_of e]; exact h6

/-! ## Octets -/

theorem rxBits_eq (s : Dec) (x : List Bool) (h : s.rx.length < 13) (h6 : s.eols < 6) : rxBits s x = L (s.more x) := by
  unfold rxBits
  rw [if_neg (by omega)]
  simp only
  by_cases h13 : (s.rx ++ x).length < 13
  · rw [if_pos h13, L_short (s := s.more x) h13]; rfl
  · rw [if_neg h13, if_neg (by omega)]; rfl

/-- Bits are given to `put_bits` in groups, until the page has ended. -/
def feedBits (s : Dec) : List (List Bool) → Option (Dec × Bool)
  | [] => some (s, false)
  | x :: t =>
    match rxBits s x with
    | none => none
    | some (s, true) => some (s, true)
    | some (s, false) => feedBits s t

/-- How the bits are grouped does not matter. -/
theorem feedBits_spec (xs : List (List Bool)) : ∀ s : Dec, s.rx.length < 13 → s.eols < 6 →
    match L (s.more xs.flatten) with
    | none => feedBits s xs = none
    | some (t, false) => feedBits s xs = some (t, false)
    | some (t, true) => ∃ t' y, feedBits s xs = some (t', true) ∧ t = t'.more y := by
  induction xs with
  | nil =>
    intro s h _
    have : s.more ([] : List (List Bool)).flatten = s := by unfold Dec.more; simp
    rw [this, L_short h]; rfl
  | cons b t ih =>
    intro s h h6
    have e0 : s.more (b :: t).flatten = (s.more b).more t.flatten := by
      unfold Dec.more; simp
    rw [e0, L_more _ _ (Nat.le_refl _)]
    unfold feedBits
    rw [rxBits_eq s _ h h6]
    cases e : L (s.more b) with
    | none => rfl
    | some r =>
      obtain ⟨u, o⟩ := r
      cases o
      · exact ih u (L_stop _ _ _ (Nat.le_refl _) e) (L_eols _ _ _ (Nat.le_refl _) (by exact h6) e)
      · exact ⟨u, t.flatten, rfl, rfl⟩

theorem decodePut_feed (bytes : List Byte) : ∀ s, decodePut s bytes = feedBits s (bytes.map octetBits) := by
  induction bytes with
  | nil => intro s; rfl
  | cons b t ih =>
    intro s
    rw [List.map_cons, decodePut, feedBits]
    split <;> rename_i h <;> rw [h]
    exact ih _

theorem decodePutBit_feed (s : Dec) (b : Bool) : decodePutBit s b = feedBits s [[b]] := by
  unfold decodePutBit feedBits
  split
  · next h => rw [h]
  · next h => rw [h]
  · next h => rw [h]; rfl

theorem feedBits_append (a b : List (List Bool)) : ∀ s, feedBits s (a ++ b) =
    match feedBits s a with
    | none => none
    | some (s, true) => some (s, true)
    | some (s, false) => feedBits s b := by
  induction a with
  | nil => intro s; rfl
  | cons x t ih =>
    intro s
    rw [List.cons_append, feedBits, feedBits]
    split
    · rfl
    · rfl
    · exact ih _

/-- The end of the data brings the end of the page, if thirteen zeros do. -/
theorem decode_page (s : Dec) (xs : List (List Bool)) (h : s.rx.length < 13) (h6 : s.eols < 6) (t : Dec) (ht : t.eols = 6)
    (e : L (s.more (xs.flatten ++ List.replicate 13 false)) = some (t, true)) :
    ∃ u ok v, feedBits s xs = some (u, ok) ∧ decodeEnd u = some v ∧ v.rows = t.rows ∧ v.badRows = t.badRows := by
  have e0 : s.more (xs.flatten ++ List.replicate 13 false) = (s.more (xs.flatten)).more (List.replicate 13 false) := by
    unfold Dec.more; simp
  rw [e0, L_more _ _ (Nat.le_refl _)] at e
  have hb := feedBits_spec xs s h h6
  cases e1 : L (s.more (xs.flatten)) with
  | none => rw [e1] at e; cases e
  | some r =>
    obtain ⟨u, o⟩ := r
    rw [e1] at e hb
    cases o
    · simp only at e hb
      have hu13 := L_stop _ _ _ (Nat.le_refl _) e1
      have hu6 := L_eols _ _ _ (Nat.le_refl _) (by exact h6) e1
      have e2 : u.more (List.replicate 13 false) = (u.more (List.replicate 8 false)).more (List.replicate 5 false) := by
        unfold Dec.more; simp [List.replicate]
      rw [e2, L_more _ _ (Nat.le_refl _)] at e
      refine ⟨u, false, ?_⟩
      unfold decodeEnd
      rw [if_pos (by omega), rxBits_eq u _ hu13 hu6]
      cases e3 : L (u.more (List.replicate 8 false)) with
      | none => rw [e3] at e; cases e
      | some r2 =>
        obtain ⟨x, o2⟩ := r2
        rw [e3] at e
        cases o2
        · simp only at e
          have hx13 := L_stop _ _ _ (Nat.le_refl _) e3
          have hx6 := L_eols _ _ _ (Nat.le_refl _) (by exact hu6) e3
          refine ⟨{ t with rx := [], skip := 0, eols := 6 }, hb, ?_, rfl, rfl⟩
          show Option.map _ (Option.map _ (rxBits x _)) = _
          rw [rxBits_eq x _ hx13 hx6, e]; rfl
        · simp only at e
          have e := congrArg Prod.fst (Option.some.inj e)
          simp only at e
          have hx := L_le _ _ _ _ (Nat.le_refl _) e3
          unfold Dec.more at hx
          simp only [List.length_append, List.length_replicate] at hx
          have hxe : x.eols = 6 := by rw [← e] at ht; exact ht
          refine ⟨{ x with rx := [], skip := 0, eols := 6 }, hb, ?_, by rw [← e]; rfl, by rw [← e]; rfl⟩
          show Option.map _ (Option.map _ (rxBits x _)) = _
          unfold rxBits
          rw [if_neg (by omega)]
          simp only
          by_cases h13 : (x.rx ++ List.replicate 5 false).length < 13
          · rw [if_pos h13]; rfl
          · rw [if_neg h13, if_pos (by omega)]; rfl
    · simp only at e hb
      have e := congrArg Prod.fst (Option.some.inj e)
      simp only at e
      obtain ⟨x, y, hx, hy⟩ := hb
      have hxe : x.eols = 6 := by rw [← e, hy] at ht; exact ht
      refine ⟨x, true, { x with rx := [], skip := 0, eols := 6 }, hx, ?_, by rw [← e, hy]; rfl, by rw [← e, hy]; rfl⟩
      unfold decodeEnd
      rw [if_neg (by omega)]; rfl

end T4
