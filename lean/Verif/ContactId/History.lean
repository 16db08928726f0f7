import Verif.ContactId.Hear
import Mathlib.Logic.Basic

namespace ContactId

theorem noGap_snoc : ∀ (l : List Hit) (a h : Hit), noGap (l ++ [a]) = true → ¬ (a = .none ∧ h = .none) →
    noGap (l ++ [a, h]) = true := by
  intro l
  induction l with
  | nil => intro a h _ hn; simp [noGap]; exact not_and_or.mp hn
  | cons b l ih =>
    intro a h h1 hn
    cases l with
    | nil =>
      simp only [List.cons_append, List.nil_append, noGap, Bool.and_true, Bool.and_eq_true] at h1 ⊢
      refine ⟨h1, ?_⟩
      simp; exact not_and_or.mp hn
    | cons c l =>
      simp only [List.cons_append, noGap, Bool.and_eq_true] at h1 ⊢
      exact ⟨h1.1, ih a h h1.2 hn⟩

/-- What is true of a sender which heard `hs` and told `ev`. -/
structure Past (hs : List Hit) (s : Sender) (ev : List Event) : Prop where
  le : s.toneState ≤ 5
  last : s.lastHit = hs.getLast?.getD .none
  before : s.toneState < 4 → ev = [] ∧ s.timer ≤ 0
  after : 4 ≤ s.toneState → ∃ rs, ev = .handshake :: rs ∧ .handshake ∉ rs
  tone : s.toneState = 5 → s.inTone = .none ∨ (s.inTone = .hz1400 ∧ ∃ pre m, hs = pre ++ ([.hz1400, .hz1400] ++ m) ∧
    noGap ([.hz1400, .hz1400] ++ m) = true ∧ s.duration = 55*(m.length + 1))
  good : .result true ∈ ev → ∃ pre t post, hs = pre ++ t ++ post ∧ GoodKissoff t

theorem last_snoc (hs : List Hit) (h : Hit) : (hs ++ [h]).getLast?.getD .none = h := by simp

theorem good_snoc {hs : List Hit} (h : Hit) (hg : ∃ pre t post, hs = pre ++ t ++ post ∧ GoodKissoff t) :
    ∃ pre t post, hs ++ [h] = pre ++ t ++ post ∧ GoodKissoff t := by
  obtain ⟨pre, t, post, e, hk⟩ := hg
  exact ⟨pre, t, post ++ [h], by rw [e]; simp, hk⟩

theorem ends_with {hs : List Hit} {a : Hit} (h : hs.getLast?.getD .none = a) (ha : a ≠ .none) : ∃ pre, hs = pre ++ [a] := by
  rcases List.eq_nil_or_concat hs with e | ⟨l, c, e⟩
  · subst e; simp at h; exact absurd h.symm ha
  · subst e; simp at h; subst h; exact ⟨l, by simp⟩

theorem Past.tick {hs : List Hit} {s : Sender} {ev : List Event} (h : Past hs s ev) :
    Past hs s.tick.1 (ev ++ s.tick.2) := by
  obtain ⟨h1, h2, h3, h4, h5, h6⟩ := h
  unfold Sender.tick
  by_cases ht : s.timer > 0
  · rw [if_pos ht]
    simp only
    by_cases hx : s.timer - 55 ≤ 0 ∧ s.toneState = 4 ∧ s.len ≠ 0
    · rw [if_pos hx]
      obtain ⟨rs, e1, e2⟩ := h4 (by omega)
      split
      · simp only [List.append_nil]
        exact ⟨h1, h2, fun h => absurd h (by simp [Sender.again]; omega), h4, h5, h6⟩
      · refine ⟨h1, h2, fun h => absurd h (by simp; omega), fun _ => ⟨rs ++ [.result false], by simp [e1], by simp [e2]⟩, h5, ?_⟩
        intro h
        exact h6 (by simpa using h)
    · rw [if_neg hx]
      simp only [List.append_nil]
      refine ⟨h1, h2, fun h => ⟨(h3 h).1, ?_⟩, h4, h5, h6⟩
      have := (h3 h).2
      omega
  · rw [if_neg ht, List.append_nil]
    exact ⟨h1, h2, h3, h4, h5, h6⟩

/-- A block which changes nothing but the duration. -/
theorem Past.wait {hs : List Hit} {s : Sender} {ev : List Event} (p : Past hs s ev) (h : Hit)
    (hn : s.toneState = 5 → s.inTone = .hz1400 → ¬ (s.lastHit = .none ∧ h = .none)) :
    Past (hs ++ [h]) { s with lastHit := h, duration := s.duration + 55 } ev := by
  obtain ⟨h1, h2, h3, h4, h5, h6⟩ := p
  refine ⟨h1, (last_snoc hs h).symm, h3, h4, ?_, fun hg => good_snoc h (h6 hg)⟩
  intro e5
  rcases h5 e5 with e | ⟨e, pre, m, a1, a2, a3⟩
  · left; exact e
  · right
    refine ⟨e, pre, m ++ [h], by rw [a1]; simp, ?_, by simp only [List.length_append, List.length_singleton]; omega⟩
    have hn := hn e5 e
    have : ∃ l a, [Hit.hz1400, .hz1400] ++ m = l ++ [a] ∧ s.lastHit = a := by
      rcases List.eq_nil_or_concat m with e | ⟨l, c, e⟩
      · subst e
        refine ⟨[.hz1400], .hz1400, rfl, ?_⟩
        rw [h2, a1]; simp
      · subst e
        refine ⟨[.hz1400, .hz1400] ++ l, c, by simp, ?_⟩
        rw [h2, a1, List.concat_eq_append, show pre ++ ([.hz1400, .hz1400] ++ (l ++ [c])) =
          (pre ++ [.hz1400, .hz1400] ++ l) ++ [c] by simp, last_snoc]
    obtain ⟨l, a, b1, b2⟩ := this
    rw [← List.append_assoc, b1, List.append_assoc]
    rw [b1] at a2
    rw [b2] at hn
    exact noGap_snoc l a h a2 hn

theorem Past.block {hs : List Hit} {s : Sender} {ev : List Event} (p : Past hs s ev) (h : Hit) :
    Past (hs ++ [h]) (s.block h).1 (ev ++ (s.block h).2) := by
  unfold Sender.block
  simp only
  by_cases hc : h ≠ s.inTone ∧ h = s.lastHit
  · simp only [if_pos hc]
    rw [← List.append_assoc]
    apply Past.tick
    obtain ⟨c1, c2⟩ := hc
    have p' := p
    obtain ⟨h1, h2, h3, h4, h5, h6⟩ := p
    have stay : h ≠ .none ∨ s.toneState ≠ 5 → Past (hs ++ [h]) { s with lastHit := h, duration := s.duration + 55 } (ev ++ []) := by
      intro hx
      rw [List.append_nil]
      exact p'.wait h (fun e5 _ hh => by
        rcases hx with hx | hx
        · exact hx hh.2
        · exact hx e5)
    have low : ∀ (k : Nat) (d : Nat) (t : Hit), s.toneState < 4 → k < 4 →
        Past (hs ++ [h]) { s with toneState := k, duration := d, inTone := t, lastHit := h } (ev ++ []) := by
      intro k d t h0 hk
      rw [List.append_nil]
      refine ⟨by simp; omega, (last_snoc hs h).symm, fun _ => h3 h0, fun h => absurd h (by simp; omega),
        fun h => absurd h (by simp; omega), ?_⟩
      intro hg
      rw [(h3 h0).1] at hg
      simp at hg
    have hts : s.toneState = 0 ∨ s.toneState = 1 ∨ s.toneState = 2 ∨ s.toneState = 3 ∨ s.toneState = 4 ∨ s.toneState = 5 := by
      omega
    unfold Sender.change
    rcases hts with e | e | e | e | e | e
    · simp only [e]
      split
      · exact low 1 _ _ (by omega) (by omega)
      · have := stay (Or.inr (by omega)); simpa only [e] using this
    · simp only [e]
      split
      · split
        · exact low 0 _ _ (by omega) (by omega)
        · exact low 2 _ _ (by omega) (by omega)
      · have := stay (Or.inr (by omega)); simpa only [e] using this
    · simp only [e]
      split
      · exact low 0 _ _ (by omega) (by omega)
      · split
        · exact low 3 _ _ (by omega) (by omega)
        · exact low 0 _ _ (by omega) (by omega)
    · simp only [e]
      split
      · split
        · exact low 0 _ _ (by omega) (by omega)
        · have h0 := (h3 (by omega)).1
          subst h0
          refine ⟨by simp, (last_snoc hs h).symm, fun h => absurd h (by simp), fun _ => ⟨[], by simp, by simp⟩,
            fun h => absurd h (by simp), fun h => by simp at h⟩
      · have := stay (Or.inr (by omega)); simpa only [e] using this
    · simp only [e]
      split
      · rename_i h14
        refine ⟨by simp, (last_snoc hs h).symm, fun h => absurd h (by simp), ?_, ?_, ?_⟩
        · intro _
          rw [List.append_nil]
          exact h4 (by omega)
        · intro _
          right
          obtain ⟨pre, ep⟩ := ends_with (h2.symm.trans c2.symm) (by rw [h14]; decide)
          refine ⟨h14, pre, [], ?_, rfl, rfl⟩
          rw [ep, h14]; simp
        · intro hg
          rw [List.append_nil] at hg
          exact good_snoc h (h6 hg)
      · have := stay (Or.inr (by omega)); simpa only [e] using this
    · simp only [e]
      split
      · rename_i h0
        obtain ⟨rs, e1, e2⟩ := h4 (by omega)
        split
        · split
          · refine ⟨by simp, (last_snoc hs h).symm, fun h => absurd h (by simp), ?_, fun h => absurd h (by simp), ?_⟩
            · intro _
              rw [List.append_nil]
              exact ⟨rs, e1, e2⟩
            · intro hg
              rw [List.append_nil] at hg
              exact good_snoc h (h6 hg)
          · refine ⟨by simp, (last_snoc hs h).symm, fun h => absurd h (by simp), ?_, fun _ => Or.inl h0, ?_⟩
            · intro _
              exact ⟨rs ++ [.result false], by simp [e1], by simp [e2]⟩
            · intro hg
              exact good_snoc h (h6 (by simpa using hg))
        · rename_i hd
          refine ⟨by simp, (last_snoc hs h).symm, fun h => absurd h (by simp), ?_, fun h => absurd h (by simp), ?_⟩
          · intro _
            exact ⟨rs ++ [.result true], by simp [e1], by simp [e2]⟩
          · intro _
            rcases h5 e with hi | ⟨hi, pre, m, a1, a2, a3⟩
            · exact absurd (h0.trans hi.symm) c1
            · have : ∃ m', m = m' ++ [.none] := by
                rcases List.eq_nil_or_concat m with em | ⟨l, c, em⟩
                · subst em
                  rw [← c2, h0, a1] at h2
                  simp at h2
                · subst em
                  rw [← c2, h0, a1, List.concat_eq_append, show pre ++ ([.hz1400, .hz1400] ++ (l ++ [c])) =
                    (pre ++ [.hz1400, .hz1400] ++ l) ++ [c] by simp, last_snoc] at h2
                  exact ⟨l, by rw [h2, List.concat_eq_append]⟩
              obtain ⟨m', em⟩ := this
              subst em
              simp only [List.length_append, List.length_singleton] at a3
              refine ⟨pre, [.hz1400, .hz1400] ++ m' ++ [.none, .none], [], by rw [a1, h0]; simp, m', rfl, ?_, ?_⟩
              · rw [List.append_assoc]; exact a2
              · omega
      · rename_i h0
        have := stay (Or.inl h0); simpa only [e] using this
  · simp only [if_neg hc]
    rw [← List.append_assoc]
    apply Past.tick
    rw [List.append_nil]
    refine p.wait h ?_
    rintro e5 e14 ⟨b1, b2⟩
    exact hc ⟨by rw [b2, e14]; decide, by rw [b1, b2]⟩

theorem Past.same {hs : List Hit} {s t : Sender} {ev : List Event} (p : Past hs s ev)
    (h1 : t.toneState = s.toneState) (h2 : t.duration = s.duration) (h3 : t.lastHit = s.lastHit)
    (h4 : t.inTone = s.inTone) (h5 : t.timer = s.timer) : Past hs t ev := by
  obtain ⟨a1, a2, a3, a4, a5, a6⟩ := p
  exact ⟨by rw [h1]; exact a1, by rw [h3]; exact a2, by rw [h1, h5]; exact a3, by rw [h1]; exact a4,
    by rw [h1, h2, h4]; exact a5, a6⟩

theorem put_same (s t : Sender) (r : Report) (k : Int) (h : s.put r = some (t, k)) :
    t.toneState = s.toneState ∧ t.duration = s.duration ∧ t.lastHit = s.lastHit ∧ t.inTone = s.inTone ∧
    t.timer = s.timer ∧ t.step = s.step ∧ t.remaining = s.remaining ∧ t.dtmf.cur = s.dtmf.cur := by
  unfold Sender.put at h
  split at h
  · simp only [Option.some.injEq, Prod.mk.injEq] at h
    obtain ⟨rfl, -⟩ := h
    exact ⟨rfl, rfl, rfl, rfl, rfl, rfl, rfl, rfl⟩
  · cases he : encodeMsg r with
    | none => rw [he] at h; simp at h
    | some p =>
      obtain ⟨b, n⟩ := p
      rw [he, Option.map_some] at h
      simp only at h
      split at h
      · simp only [Option.some.injEq, Prod.mk.injEq] at h
        obtain ⟨rfl, -⟩ := h
        exact ⟨rfl, rfl, rfl, rfl, rfl, rfl, rfl, rfl⟩
      · simp only [Option.some.injEq, Prod.mk.injEq] at h
        obtain ⟨rfl, -⟩ := h
        refine ⟨rfl, rfl, rfl, rfl, rfl, rfl, rfl, ?_⟩
        simp only [Dtmf.put]
        split <;> rfl

theorem hits_cons (o : Op) (os : List Op) : hits (o :: os) = hits [o] ++ hits os := by
  cases o <;> rfl

theorem tx_fields (s : Sender) (n : Nat) : (s.tx n).1.toneState = s.toneState ∧ (s.tx n).1.duration = s.duration ∧
    (s.tx n).1.lastHit = s.lastHit ∧ (s.tx n).1.inTone = s.inTone ∧ (s.tx n).1.timer = s.timer ∧
    (s.tx n).1.len = s.len ∧ (s.tx n).1.tries = s.tries := by
  have hd : ∀ (s : Sender) (n : Nat), (s.txDigits n).1.toneState = s.toneState ∧ (s.txDigits n).1.duration = s.duration ∧
      (s.txDigits n).1.lastHit = s.lastHit ∧ (s.txDigits n).1.inTone = s.inTone ∧ (s.txDigits n).1.timer = s.timer ∧
      (s.txDigits n).1.len = s.len ∧ (s.txDigits n).1.tries = s.tries := by
    intro s n
    unfold Sender.txDigits
    split
    · exact ⟨rfl, rfl, rfl, rfl, rfl, rfl, rfl⟩
    · simp only
      split <;> exact ⟨rfl, rfl, rfl, rfl, rfl, rfl, rfl⟩
  have hs : ∀ (s : Sender) (n : Nat), (s.txSilence n).1.toneState = s.toneState ∧ (s.txSilence n).1.duration = s.duration ∧
      (s.txSilence n).1.lastHit = s.lastHit ∧ (s.txSilence n).1.inTone = s.inTone ∧ (s.txSilence n).1.timer = s.timer ∧
      (s.txSilence n).1.len = s.len ∧ (s.txSilence n).1.tries = s.tries := by
    intro s n
    unfold Sender.txSilence
    simp only
    generalize (if s.remaining > n then n else s.remaining) = m
    split
    · exact ⟨rfl, rfl, rfl, rfl, rfl, rfl, rfl⟩
    · exact hd _ _
  unfold Sender.tx
  split
  · exact ⟨rfl, rfl, rfl, rfl, rfl, rfl, rfl⟩
  · split
    · split
      · exact hs _ _
      · exact ⟨rfl, rfl, rfl, rfl, rfl, rfl, rfl⟩
    · exact hs _ _
    · exact hd _ _
    · exact ⟨rfl, rfl, rfl, rfl, rfl, rfl, rfl⟩

theorem Past.run : ∀ (os : List Op) (hs : List Hit) (s : Sender) (ev : List Event), Past hs s ev →
    ∀ t es, s.run os = some (t, es) → Past (hs ++ hits os) t (ev ++ es) := by
  intro os
  induction os with
  | nil =>
    intro hs s ev p t es h
    simp only [Sender.run, Option.some.injEq, Prod.mk.injEq] at h
    obtain ⟨rfl, rfl⟩ := h
    simpa [hits] using p
  | cons o os ih =>
    intro hs s ev p t es h
    rw [Sender.run, Option.bind_eq_some_iff] at h
    obtain ⟨⟨s1, e1⟩, h1, h2⟩ := h
    simp only [Option.map_eq_some_iff] at h2
    obtain ⟨⟨s2, e2⟩, h3, h4⟩ := h2
    simp only [Prod.mk.injEq] at h4
    obtain ⟨rfl, rfl⟩ := h4
    rw [hits_cons, ← List.append_assoc, ← List.append_assoc]
    refine ih _ s1 _ ?_ _ _ h3
    cases o with
    | put r =>
      simp only [Sender.op, Option.map_eq_some_iff] at h1
      obtain ⟨⟨s3, k⟩, h5, h6⟩ := h1
      simp only [Prod.mk.injEq] at h6
      obtain ⟨rfl, rfl⟩ := h6
      obtain ⟨b1, b2, b3, b4, b5, -⟩ := put_same _ _ _ _ h5
      simpa [hits] using p.same b1 b2 b3 b4 b5
    | tx n =>
      simp only [Sender.op, Option.some.injEq, Prod.mk.injEq] at h1
      obtain ⟨rfl, rfl⟩ := h1
      obtain ⟨b1, b2, b3, b4, b5, -⟩ := tx_fields s n
      simpa [hits] using p.same b1 b2 b3 b4 b5
    | hear h =>
      simp only [Sender.op, Option.some.injEq] at h1
      have := p.block h
      rw [h1] at this
      exact this
    | gap =>
      simp only [Sender.op, Option.some.injEq, Prod.mk.injEq] at h1
      obtain ⟨rfl, rfl⟩ := h1
      simpa [hits] using p.same (t := s.fillin) rfl rfl rfl rfl rfl

theorem past_init : Past [] Sender.init [] :=
  ⟨by decide, rfl, fun _ => ⟨rfl, by decide⟩, fun h => absurd h (by decide), fun h => absurd h (by decide),
    fun h => by simp at h⟩

end ContactId
