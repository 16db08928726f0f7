import Verif.T4.Span

/-! # The decoder takes the bits one at a time, and looks no more than thirteen ahead -/

namespace T4

/-- The same state, with other bits waiting. -/
def Dec.rs (s : Dec) (rx : List Bool) (k : Nat) : Dec := { s with rx := rx, skip := k }

theorem Dec.rs_self (s : Dec) : s.rs s.rx s.skip = s := rfl

theorem setCur_rs (s : Dec) (rx : List Bool) (k i v : Nat) : (s.rs rx k).setCur i v = (s.setCur i v).map (·.rs rx k) := by
  unfold Dec.setCur
  by_cases h : i < s.space
  · rw [if_pos h, if_pos (show i < (s.rs rx k).space from h)]; rfl
  · rw [if_neg h, if_neg (show ¬ i < (s.rs rx k).space from h)]; rfl

theorem getRef_rs (s : Dec) (rx : List Bool) (k i : Nat) : (s.rs rx k).getRef i = s.getRef i := rfl

theorem addRun_rs (s : Dec) (rx : List Bool) (k : Nat) : addRun (s.rs rx k) = (addRun s).map (·.rs rx k) := by
  unfold addRun
  by_cases h : s.runLength ≥ 0
  · rw [if_pos h, if_pos (show (s.rs rx k).runLength ≥ 0 from h)]
    simp only
    by_cases h2 : s.rowLen + s.runLength ≤ s.width
    · rw [if_pos h2, if_pos (show (s.rs rx k).rowLen + (s.rs rx k).runLength ≤ (s.rs rx k).width from h2)]
      have := setCur_rs { s with rowLen := s.rowLen + s.runLength } rx k s.aCursor s.runLength.toNat
      refine Eq.trans (congrArg (Option.map _) this) ?_
      cases Dec.setCur { s with rowLen := s.rowLen + s.runLength } s.aCursor s.runLength.toNat <;> rfl
    · rw [if_neg h2, if_neg (show ¬ (s.rs rx k).rowLen + (s.rs rx k).runLength ≤ (s.rs rx k).width from h2)]; rfl
  · rw [if_neg h, if_neg (show ¬ (s.rs rx k).runLength ≥ 0 from h)]; rfl

/-- `f` does not look at the bits which are waiting. -/
def Blind (f : Dec → Option Dec) : Prop := ∀ s rx k, f (s.rs rx k) = (f s).map (·.rs rx k)

theorem Blind.bind {f : Dec → Option Dec} {g : Dec → Option Dec} (hf : Blind f) (hg : Blind g) : Blind fun s => (f s).bind g := by
  intro s rx k
  simp only
  rw [hf]
  cases f s with
  | none => rfl
  | some t => exact hg t rx k

theorem Blind.ite {c : Dec → Prop} [DecidablePred c] {f g : Dec → Option Dec} (hc : ∀ s rx k, c (s.rs rx k) = c s) (hf : Blind f) (hg : Blind g) :
    Blind fun s => if c s then f s else g s := by
  intro s rx k
  by_cases h : c s
  · simp only [if_pos h, if_pos ((hc s rx k).symm ▸ h)]; exact hf s rx k
  · simp only [if_neg h, if_neg (fun h2 => h ((hc s rx k) ▸ h2))]; exact hg s rx k

theorem Blind.some' (f : Dec → Dec) (h : ∀ s rx k, f (s.rs rx k) = (f s).rs rx k) : Blind fun s => Option.some (f s) :=
  fun s rx k => congrArg Option.some (h s rx k)

theorem Blind.id : Blind Option.some := fun _ _ _ => rfl

theorem blind_addRun : Blind addRun := addRun_rs

theorem blind_setCur (i : Dec → Nat) (v : Dec → Nat) (hi : ∀ s rx k, i (s.rs rx k) = i s) (hv : ∀ s rx k, v (s.rs rx k) = v s) : Blind fun s => s.setCur (i s) (v s) := by
  intro s rx k
  simp only
  rw [hi, hv]
  exact setCur_rs s rx k _ _

theorem blind_fixRow : Blind fixRow := by
  intro s rx k
  unfold fixRow
  simp only
  have e0 : badLen (s.rs rx k).cur (s.rs rx k).width (s.rs rx k).aCursor 0 0 = badLen s.cur s.width s.aCursor 0 0 := rfl
  rw [e0]
  generalize badLen s.cur s.width s.aCursor 0 0 = fudge
  by_cases h : fudge < s.width
  · rw [if_pos h, if_pos (show fudge < (s.rs rx k).width from h)]
    by_cases h1 : s.aCursor % 2 = 1
    · rw [if_pos h1, if_pos (show (s.rs rx k).aCursor % 2 = 1 from h1), setCur_rs]
      show Option.map _ ((Option.map _ (s.setCur s.aCursor 1)).bind _) = _
      cases s.setCur s.aCursor 1 with
      | none => rfl
      | some t =>
        simp only [Option.map_some, Option.bind_some]
        by_cases h2 : fudge + 1 < t.width
        · rw [if_pos h2, if_pos (show fudge + 1 < (t.rs rx k).width from h2)]
          have := setCur_rs { t with aCursor := t.aCursor + 1 } rx k (t.aCursor + 1) (t.width - (fudge + 1))
          refine Eq.trans (congrArg (fun z => Option.map _ (Option.map _ z)) this) ?_
          show _ = Option.map _ (Option.map _ (Option.map _ (Dec.setCur { t with aCursor := t.aCursor + 1 } (t.aCursor + 1) (t.width - (fudge + 1)))))
          cases Dec.setCur { t with aCursor := t.aCursor + 1 } (t.aCursor + 1) (t.width - (fudge + 1)) <;> rfl
        · rw [if_neg h2, if_neg (show ¬ fudge + 1 < (t.rs rx k).width from h2)]; rfl
    · rw [if_neg h1, if_neg (show ¬ (s.rs rx k).aCursor % 2 = 1 from h1), setCur_rs]
      show Option.map _ (Option.map _ (Option.map _ (s.setCur s.aCursor (s.width - fudge)))) = Option.map _ (Option.map _ (Option.map _ (s.setCur s.aCursor (s.width - fudge))))
      cases s.setCur s.aCursor (s.width - fudge) <;> rfl
  · rw [if_neg h, if_neg (show ¬ fudge < (s.rs rx k).width from h), setCur_rs]
    show Option.map _ (Option.map _ (s.setCur s.aCursor ((s.cur s.aCursor + s.width - fudge : Int) % 2 ^ 32).toNat)) = Option.map _ (Option.map _ (s.setCur s.aCursor ((s.cur s.aCursor + s.width - fudge : Int) % 2 ^ 32).toNat))
    cases s.setCur s.aCursor ((s.cur s.aCursor + s.width - fudge : Int) % 2 ^ 32).toNat <;> rfl

theorem blind_packRow : Blind packRow := by
  intro s rx k
  unfold packRow
  show Option.map _ (packRuns s.cur s.aCursor 0 0 ⟨s.pixelStream, s.pixels, 0, s.rowBuf⟩) = _
  cases packRuns s.cur s.aCursor 0 0 ⟨s.pixelStream, s.pixels, 0, s.rowBuf⟩ <;> rfl

theorem blind_putRow : Blind putRow := by
  have h1 : Blind fun s => if s.runLength ≠ 0 then addRun s else some s := Blind.ite (fun _ _ _ => rfl) blind_addRun Blind.id
  have h2 : Blind fun s => if s.rowLen = s.width then packRow s else fixRow s := Blind.ite (fun _ _ _ => rfl) blind_packRow blind_fixRow
  have h3 : Blind fun s => s.setCur s.aCursor 0 := blind_setCur (fun s => s.aCursor) (fun _ => 0) (fun _ _ _ => rfl) (fun _ _ _ => rfl)
  have h4 : Blind fun s => s.setCur (s.aCursor + 1) 0 := blind_setCur (fun s => s.aCursor + 1) (fun _ => 0) (fun _ _ _ => rfl) (fun _ _ _ => rfl)
  have h5 : Blind fun s => some (swapRow s) := Blind.some' _ (fun _ _ _ => rfl)
  exact (h1.bind h2).bind (h3.bind (h4.bind h5))

theorem clampA0_rs (s : Dec) (rx : List Bool) (k : Nat) : clampA0 (s.rs rx k) = (clampA0 s).rs rx k := by
  unfold clampA0
  by_cases h : s.a0 ≥ s.width
  · rw [if_pos h, if_pos (show (s.rs rx k).a0 ≥ (s.rs rx k).width from h)]; rfl
  · rw [if_neg h, if_neg (show ¬ (s.rs rx k).a0 ≥ (s.rs rx k).width from h)]

theorem blind_endT6 : Blind endT6 := by
  have h1 : Blind fun s => if s.runLength > 0 then addRun s else some s := Blind.ite (fun _ _ _ => rfl) blind_addRun Blind.id
  exact h1.bind (blind_putRow.bind (Blind.some' (fun s => { s with inBlack := false, blackWhite := 0, runLength := 0, rowLen := 0 }) (fun _ _ _ => rfl)))

theorem blind_afterCode : Blind afterCode := by
  have : Blind fun s => if s.encoding = .t6 ∧ s.blackWhite = 0 ∧ s.rowLen ≥ s.width then endT6 s else some s := Blind.ite (fun _ _ _ => rfl) blind_endT6 Blind.id
  intro s rx k
  unfold afterCode
  rw [clampA0_rs]
  exact this (clampA0 s) rx k

theorem blind_moveB : ∀ n, Blind (moveB n) := by
  intro n
  induction n with
  | zero => intro s rx k; rfl
  | succ n ih =>
    intro s rx k
    unfold moveB
    by_cases h : s.b1 ≤ s.a0
    · rw [if_pos h, if_pos (show (s.rs rx k).b1 ≤ (s.rs rx k).a0 from h)]
      rw [getRef_rs, getRef_rs]
      show (s.getRef s.bCursor).bind _ = Option.map _ ((s.getRef s.bCursor).bind _)
      cases s.getRef s.bCursor with
      | none => rfl
      | some x =>
        show (s.getRef (s.bCursor + 1)).bind _ = Option.map _ ((s.getRef (s.bCursor + 1)).bind _)
        cases s.getRef (s.bCursor + 1) with
        | none => rfl
        | some y => exact ih { s with b1 := s.b1 + (x + y), bCursor := s.bCursor + 2 } rx k
    · rw [if_neg h, if_neg (show ¬ (s.rs rx k).b1 ≤ (s.rs rx k).a0 from h)]; rfl

theorem blind_moveB_space : Blind fun s => moveB (s.space + 1) s := fun s rx k => blind_moveB (s.space + 1) s rx k

theorem blind_vertMove (v : Int) : Blind (vertMove v) := by
  intro s rx k
  unfold vertMove
  by_cases h : v ≥ 0
  · rw [if_pos h, if_pos h]
    show (s.getRef s.bCursor).bind _ = Option.map _ ((s.getRef s.bCursor).bind _)
    cases s.getRef s.bCursor <;> rfl
  · rw [if_neg h, if_neg h]
    by_cases h2 : s.bCursor ≠ 0
    · rw [if_pos h2, if_pos (show (s.rs rx k).bCursor ≠ 0 from h2)]
      show (s.getRef (s.bCursor - 1)).bind _ = Option.map _ ((s.getRef (s.bCursor - 1)).bind _)
      cases s.getRef (s.bCursor - 1) <;> rfl
    · rw [if_neg h2, if_neg (show ¬ (s.rs rx k).bCursor ≠ 0 from h2)]; rfl

theorem blind_vertical (v : Int) : Blind fun s => vertical s v := by
  have h : Blind fun s => addRun { s with a0 := s.b1 + v, runLength := s.runLength + (s.b1 + v - s.a0) } := fun s rx k =>
    addRun_rs { s with a0 := s.b1 + v, runLength := s.runLength + (s.b1 + v - s.a0) } rx k
  exact Blind.ite (fun _ _ _ => rfl) Blind.id (h.bind (blind_vertMove v))

theorem blind_passMode : Blind passMode := by
  intro s rx k
  unfold passMode
  rw [getRef_rs, getRef_rs]
  show (s.getRef s.bCursor).bind _ = Option.map _ ((s.getRef s.bCursor).bind _)
  cases s.getRef s.bCursor with
  | none => rfl
  | some x =>
    show (s.getRef (s.bCursor + 1)).bind _ = Option.map _ ((s.getRef (s.bCursor + 1)).bind _)
    cases s.getRef (s.bCursor + 1) <;> rfl

theorem blind_mode2d (e : Nat) : Blind (mode2d e) := by
  unfold mode2d
  split
  · exact Blind.some' _ (fun _ _ _ => rfl)
  · exact blind_vertical _
  · exact blind_passMode
  · exact Blind.id

theorem blind_code2d (e : Nat) : Blind (code2d e) :=
  Blind.bind (Blind.ite (fun _ _ _ => rfl) blind_moveB_space Blind.id) (blind_mode2d e)

theorem blind_termRun (b : Bool) (p : Nat) : Blind fun s => termRun s b p := by
  intro s rx k
  unfold termRun
  simp only
  by_cases h : s.rowLen < s.width
  · have h' : (s.rs rx k).rowLen < (s.rs rx k).width := h
    rw [if_pos h, if_pos h']
    have := addRun_rs { s with inBlack := b, runLength := s.runLength + p, a0 := s.a0 + p } rx k
    refine Eq.trans (congrArg (fun z => Option.bind z _) this) ?_
    show Option.bind (Option.map _ (addRun { s with inBlack := b, runLength := s.runLength + p, a0 := s.a0 + p })) _ = Option.map _ (Option.bind (addRun { s with inBlack := b, runLength := s.runLength + p, a0 := s.a0 + p }) _)
    cases addRun { s with inBlack := b, runLength := s.runLength + p, a0 := s.a0 + p } <;> rfl
  · have h' : ¬ (s.rs rx k).rowLen < (s.rs rx k).width := h
    rw [if_neg h, if_neg h']; rfl

theorem blind_runCode (e : Nat) (b : Bool) : Blind (runCode e b) := by
  intro s rx k
  unfold runCode
  cases st e <;> cases b <;> first | rfl | exact blind_termRun _ _ s rx k

theorem blind_code1d (e : Nat) : Blind (code1d e) := fun s rx k => blind_runCode e s.inBlack s rx k

/-! ## Looking ahead -/

/-- More bits. -/
def Dec.more (s : Dec) (y : List Bool) : Dec := { s with rx := s.rx ++ y }

theorem Dec.more_eq (s : Dec) (y : List Bool) : s.more y = s.rs (s.rx ++ y) s.skip := rfl

theorem look_more (s : Dec) (y : List Bool) (n : Nat) (h : n ≤ s.rx.length) : (s.more y).look n = s.look n := by
  unfold Dec.look Dec.more
  rw [List.take_append_of_le_length h]

theorem drop_rs_more (s : Dec) (y : List Bool) (n : Nat) (h : 1 ≤ s.rx.length) : (s.more y).drop n = (s.drop n).more y := by
  unfold Dec.more Dec.drop
  simp only
  rw [List.drop_append_of_le_length h]

/-- `f` leaves the bits alone. -/
theorem Blind.rx {f : Dec → Option Dec} (hf : Blind f) {s t : Dec} (h : f s = some t) : t.rx = s.rx ∧ t.skip = s.skip := by
  have := hf s s.rx s.skip
  rw [Dec.rs_self, h] at this
  have := Option.some.inj this
  exact ⟨(congrArg Dec.rx this :), (congrArg Dec.skip this :)⟩

theorem Blind.more {f : Dec → Option Dec} (hf : Blind f) (s : Dec) (y : List Bool) : f (s.more y) = (f s).map (·.more y) := by
  rw [Dec.more_eq, hf]
  cases h : f s with
  | none => rfl
  | some t =>
    obtain ⟨h1, h2⟩ := hf.rx h
    simp only [Option.map_some, Dec.more_eq, h1, h2]

/-- More bits for a state and a result. -/
def more2 (y : List Bool) (r : Dec × Bool) : Dec × Bool := (r.1.more y, r.2)

theorem eolRow_more (s : Dec) (y : List Bool) : eolRow (s.more y) = (eolRow s).map (more2 y) := by
  unfold eolRow
  by_cases h : s.rowLen = 0
  · rw [if_pos h, if_pos (show (s.more y).rowLen = 0 from h)]
    by_cases h2 : (s.encoding = .t6 ∧ s.eols + 1 ≥ 2) ∨ (s.encoding ≠ .t6 ∧ s.eols + 1 ≥ 5)
    · rw [if_pos h2]; exact if_pos h2
    · rw [if_neg h2]; exact if_neg h2
  · rw [if_neg h, if_neg (show ¬ (s.more y).rowLen = 0 from h)]
    have hb : Blind fun s => (if s.runLength > 0 then addRun s else some s).bind fun s => putRow { s with eols := 0 } :=
      Blind.bind (Blind.ite (fun _ _ _ => rfl) blind_addRun Blind.id) (fun s rx k => blind_putRow { s with eols := 0 } rx k)
    have := hb.more s y
    refine Eq.trans (congrArg (Option.map _) this) ?_
    show Option.map _ (Option.map _ ((if s.runLength > 0 then addRun s else some s).bind fun s => putRow { s with eols := 0 })) = _
    cases ((if s.runLength > 0 then addRun s else some s).bind fun s => putRow { s with eols := 0 }) <;> rfl

theorem eolRow_rx {s : Dec} {r : Dec × Bool} (h : eolRow s = some r) : r.1.rx = s.rx := by
  have := eolRow_more s []
  unfold Dec.more at this
  rw [List.append_nil] at this
  unfold eolRow at h
  split at h
  · split at h <;> · rw [← Option.some.inj h]
  · have hb : Blind fun s => (if s.runLength > 0 then addRun s else some s).bind fun s => putRow { s with eols := 0 } :=
      Blind.bind (Blind.ite (fun _ _ _ => rfl) blind_addRun Blind.id) (fun s rx k => blind_putRow { s with eols := 0 } rx k)
    cases e : ((if s.runLength > 0 then addRun s else some s).bind fun s => putRow { s with eols := 0 }) with
    | none => rw [e] at h; cases h
    | some t =>
      rw [e] at h
      rw [← Option.some.inj h]
      exact (hb.rx e).1

theorem eolEnd_more (s : Dec) (y : List Bool) (h : 13 ≤ s.rx.length) : eolEnd (s.more y) = (eolEnd s).more y := by
  have e1 : (s.rx ++ y).getD 12 false = s.rx.getD 12 false := by
    simp [List.getD, List.getElem?_append_left (show 12 < s.rx.length by omega)]
  unfold eolEnd
  by_cases h2 : s.encoding = .t4_2d
  · simp only [if_pos h2, if_pos (show (s.more y).encoding = .t4_2d from h2)]
    unfold Dec.forceDrop Dec.more
    simp only [e1, List.drop_append_of_le_length h]
  · simp only [if_neg h2, if_neg (show ¬ (s.more y).encoding = .t4_2d from h2)]
    unfold Dec.forceDrop Dec.more
    simp only [List.drop_append_of_le_length (show 12 ≤ s.rx.length by omega)]

theorem takeCode_more {f : Dec → Option Dec} (hf : Blind f) (n : Nat) (s : Dec) (y : List Bool) (h : 13 ≤ s.rx.length) :
    takeCode f n (s.more y) = (takeCode f n s).map (more2 y) := by
  unfold takeCode
  rw [hf.more]
  cases e : f s with
  | none => rfl
  | some t =>
    simp only [Option.map_some, Option.bind_some]
    rw [drop_rs_more _ _ _ (by rw [(hf.rx e).1]; omega), blind_afterCode.more]
    cases afterCode (t.drop n) <;> rfl

/-- A step looks at thirteen bits only. -/
theorem step_more (s : Dec) (y : List Bool) (h : 13 ≤ s.rx.length) : step (s.more y) = (step s).map (more2 y) := by
  have e1 : entry1d (s.more y) = entry1d s := by
    unfold entry1d
    rw [look_more s y 13 h, look_more s y 12 (by omega)]
    rfl
  unfold step
  rw [look_more s y 12 (by omega), look_more s y 7 (by omega), e1]
  split
  · rw [eolRow_more]
    cases e : eolRow s with
    | none => rfl
    | some r =>
      have := eolRow_rx e
      obtain ⟨t, b⟩ := r
      simp only [Option.map_some, more2]
      cases b
      · simp only [Bool.false_eq_true, if_false]
        rw [eolEnd_more _ _ (by rw [this]; exact h)]
      · rfl
  · split
    · next h2 =>
      rw [if_pos (show s.skip ≠ 0 from h2)]
      unfold Dec.more more2
      simp only [List.drop_append_of_le_length (show 1 ≤ s.rx.length by omega), Option.map_some]
      rfl
    · next h2 =>
      rw [if_neg (show ¬ s.skip ≠ 0 from h2)]
      by_cases h3 : s.rowIs2d ∧ s.blackWhite = 0
      · rw [if_pos h3, if_pos (show (s.more y).rowIs2d ∧ (s.more y).blackWhite = 0 from h3)]
        by_cases h4 : s.rowLen ≥ s.width
        · rw [if_pos h4, if_pos (show (s.more y).rowLen ≥ (s.more y).width from h4), drop_rs_more _ _ _ (by omega)]; rfl
        · rw [if_neg h4, if_neg (show ¬ (s.more y).rowLen ≥ (s.more y).width from h4)]
          exact takeCode_more (blind_code2d _) _ s y h
      · rw [if_neg h3, if_neg (show ¬ ((s.more y).rowIs2d ∧ (s.more y).blackWhite = 0) from h3)]
        exact takeCode_more (blind_code1d _) _ s y h

end T4
