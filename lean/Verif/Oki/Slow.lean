import Verif.Oki.Streams

namespace Oki
open Spec

/-! ## The decoder at 24kbps -/

theorem Ring.put {s : State} {past : List Int} (h : Ring s past) (l i : Int) : Ring (put s l i) past := ⟨h.len, h.lo, h.hi, h.val⟩

theorem Ring.phase {s : State} {past : List Int} (h : Ring s past) (p : Int) : Ring { s with phase := p } past := ⟨h.len, h.lo, h.hi, h.val⟩

/-- The codes still to come. -/
def rem (odd : Bool) (bs : List Byte) : List Nat := if odd then (unpack bs).drop 1 else unpack bs

theorem unpack_append (a b : List Byte) : unpack (a ++ b) = unpack a ++ unpack b := by simp [unpack]

/-- A turn of the loop which takes a code. -/
theorem decode24_turn (fir : List (Nat × Int) → Int) (f : Nat) (odd : Bool) (s : State) (b : Byte) (bs : List Byte) (past : List Int) (p : Nat)
    (hv : Valid s) (hr : Ring s past) (hp : s.phase = p) (hp0 : 0 < p) (hp3 : p ≤ 3) :
    ∃ l i hist ptr, decode s (if odd then b.toNat % 16 else b.toNat / 16) = some (put s l i, l) ∧ Sample12 l ∧
      Valid { put s l i with history := hist, ptr := ptr, phase := ((p + 1) % 4 : Nat) } ∧
      Ring { put s l i with history := hist, ptr := ptr, phase := ((p + 1) % 4 : Nat) } (l * 16 :: past) ∧
      decode24 fir (f + 1) odd s (b :: bs) = (decode24 fir f (!odd) { put s l i with history := hist, ptr := ptr, phase := ((p + 1) % 4 : Nat) }
        (if odd then bs else b :: bs)).map (fun r => (r.1, fir (polyphase 4 (77 + p) (l * 16 :: past)) :: r.2)) := by
  obtain ⟨l, i, hd, hv'⟩ := decode_total s (if odd then b.toNat % 16 else b.toNat / 16) hv
  obtain ⟨hist, ptr, hpush, hr'⟩ := (hr.put l i).push (l * 16)
  have hl : Sample12 l := hv'.2.2
  refine ⟨l, i, hist, ptr, hd, hl, hv', hr'.phase _, ?_⟩
  have ht := hr'.taps 4 (77 + p) (by omega) (by omega)
  unfold Sample12 at hl
  simp only [decode24, Option.bind_eq_bind]
  rw [if_pos (by omega), hd]
  simp only [Option.bind_some]
  rw [i16_eq (x := l * 16) (by omega) (by omega), hpush]
  simp only [Option.bind_some, Option.pure_def, hp]
  rw [show (80 - 3 + (p : Int)) = ((77 + p : Nat) : Int) by omega]
  rw [show ((4 : Nat) : Int) = 4 from rfl] at ht
  rw [ht]
  simp only [Option.bind_some]
  rw [show (if (p : Int) + 1 > 3 then (0 : Int) else (p : Int) + 1) = (((p + 1) % 4 : Nat) : Int) by split <;> omega]
  cases odd <;> simp only [Bool.false_eq_true, if_false, if_true, Bool.not_true, Bool.not_false]
  · cases decode24 fir f true _ (b :: bs) <;> rfl
  · cases decode24 fir f false _ bs <;> rfl

/-- A turn which only repeats. -/
theorem decode24_extra (fir : List (Nat × Int) → Int) (f : Nat) (odd : Bool) (s : State) (b : Byte) (bs : List Byte) (past : List Int)
    (hr : Ring s past) (hp : s.phase = 0) :
    decode24 fir (f + 1) odd s (b :: bs) = (decode24 fir f odd { s with phase := 1 } (b :: bs)).map (fun r => (r.1, fir (polyphase 4 77 past) :: r.2)) := by
  have ht := hr.taps 4 77 (by omega) (by omega)
  simp only [decode24, Option.bind_eq_bind]
  rw [if_neg (by omega)]
  simp only [Option.bind_some, Option.pure_def, hp]
  rw [show ((4 : Nat) : Int) = 4 from rfl] at ht
  rw [show (80 - 3 + (0 : Int)) = ((77 : Nat) : Int) from rfl, ht]
  simp only [Option.bind_some]
  rw [if_neg (by omega), show (0 : Int) + 1 = 1 by omega]
  cases decode24 fir f odd _ (b :: bs) <;> rfl

theorem decode24_eq (fir : List (Nat × Int) → Int) (cs : List Nat) : ∀ (fuel : Nat) (odd : Bool) (s : State) (bs : List Byte) (past : List Int) (p : Nat),
    Valid s → Ring s past → s.phase = p → p ≤ 3 → rem odd bs = cs → (odd = true → bs ≠ []) → 2 * cs.length < fuel →
    ∃ l i vs hist ptr past' p' out, runDecode s cs = some (put s l i, vs) ∧ vs.length = cs.length ∧ (∀ v ∈ vs, Sample12 v) ∧
      decode24 fir fuel odd s bs = some ({ put s l i with history := hist, ptr := ptr, phase := (p' : Nat) }, out) ∧
      Valid { put s l i with history := hist, ptr := ptr, phase := (p' : Nat) } ∧
      Ring { put s l i with history := hist, ptr := ptr, phase := (p' : Nat) } past' ∧ p' ≤ 3 ∧
      ∀ ws, interpolate fir past p (vs.map (· * 16) ++ ws) = out ++ interpolate fir past' p' ws := by
  induction cs with
  | nil =>
    intro fuel odd s bs past p hv hr hp hp3 hrem hodd hf
    obtain ⟨f, rfl⟩ : ∃ f, fuel = f + 1 := ⟨fuel - 1, by omega⟩
    cases bs with
    | nil =>
      refine ⟨s.last, s.stepIndex, [], s.history, s.ptr, past, p, [], rfl, rfl, by simp, ?_, hv, hr.phase _, hp3, by simp⟩
      simp [decode24, ← hp]
    | cons b bs => cases odd <;> simp [rem, unpack] at hrem
  | cons c cs ih =>
    intro fuel odd s bs past p hv hr hp hp3 hrem hodd hf
    obtain ⟨f, rfl⟩ : ∃ f, fuel = f + 2 := ⟨fuel - 2, by simp at hf; omega⟩
    simp only [List.length_cons] at hf
    cases bs with
    | nil => cases odd <;> simp [rem, unpack] at hrem
    | cons b bs =>
      have hcode : (if odd then b.toNat % 16 else b.toNat / 16) = c ∧ rem (!odd) (if odd then bs else b :: bs) = cs := by
        cases odd
        · simp only [rem, unpack, List.flatMap_cons, List.cons_append, List.nil_append, Bool.false_eq_true, if_false, List.cons.injEq] at hrem ⊢
          refine ⟨hrem.1, ?_⟩
          simp [hrem.2]
        · simp only [rem, unpack, List.flatMap_cons, List.cons_append, List.nil_append, if_true, List.drop_succ_cons, List.drop_zero, List.cons.injEq] at hrem ⊢
          refine ⟨hrem.1, ?_⟩
          simp [hrem.2]
      -- The state just before the code is taken.
      have step : ∀ (fuel : Nat) (s : State) (p : Nat), Valid s → Ring s past → s.phase = p → 0 < p → p ≤ 3 → 2 * cs.length < fuel →
          ∃ l i vs hist ptr past' p' out, runDecode s (c :: cs) = some (put s l i, vs) ∧ vs.length = (c :: cs).length ∧ (∀ v ∈ vs, Sample12 v) ∧
            decode24 fir (fuel + 1) odd s (b :: bs) = some ({ put s l i with history := hist, ptr := ptr, phase := (p' : Nat) }, out) ∧
            Valid { put s l i with history := hist, ptr := ptr, phase := (p' : Nat) } ∧
            Ring { put s l i with history := hist, ptr := ptr, phase := (p' : Nat) } past' ∧ p' ≤ 3 ∧
            ∀ ws, (∃ v vs', vs = v :: vs' ∧ fir (polyphase 4 (77 + p) (v * 16 :: past)) ::
              interpolate fir (v * 16 :: past) ((p + 1) % 4) (vs'.map (· * 16) ++ ws) = out ++ interpolate fir past' p' ws) := by
        intro fuel s p hv hr hp hp0 hp3 hf
        obtain ⟨l, i, hist, ptr, hd, hl, hv1, hr1, heq⟩ := decode24_turn fir fuel odd s b bs past p hv hr hp hp0 hp3
        obtain ⟨l2, i2, vs, hist2, ptr2, past2, p2, out, h1, h2, h3, h4, h5, h6, h7, h8⟩ := ih fuel (!odd) _ (if odd then bs else b :: bs) (l * 16 :: past) ((p + 1) % 4)
          hv1 hr1 rfl (by omega) hcode.2 (by cases odd <;> simp) hf
        have hrun : runDecode s (c :: cs) = some (put s l2 i2, l :: vs) := by
          rw [hcode.1] at hd
          have h1' : ∀ (cs : List Nat) (t u : State) (vs : List Int), runDecode t cs = some (put t l2 i2, vs) → u.last = t.last → u.stepIndex = t.stepIndex →
              runDecode u cs = some (put u l2 i2, vs) := by
            intro cs
            have gen : ∀ (cs : List Nat) (t t' u : State) (vs : List Int), runDecode t cs = some (t', vs) → u.last = t.last → u.stepIndex = t.stepIndex →
                runDecode u cs = some (put u t'.last t'.stepIndex, vs) := by
              intro cs
              induction cs with
              | nil =>
                intro t t' u vs h e1 e2
                simp only [runDecode, Option.some.injEq, Prod.mk.injEq] at h ⊢
                obtain ⟨rfl, rfl⟩ := h
                exact ⟨by simp only [put, ← e1, ← e2], rfl⟩
              | cons c cs ih =>
                intro t t' u vs h e1 e2
                simp only [runDecode, Option.bind_eq_bind, Option.bind_eq_some_iff, Option.pure_def, Option.some.injEq, Prod.mk.injEq] at h
                obtain ⟨⟨t1, x⟩, h1, ⟨t2, xs⟩, h2, rfl, rfl⟩ := h
                have := decode_sync t u t1 c x e1 e2 h1
                have h3 := ih t1 t2 { u with last := t1.last, stepIndex := t1.stepIndex } xs h2 rfl rfl
                simp [runDecode, this, h3, put]
            intro t u vs h e1 e2
            exact gen cs t _ u vs h e1 e2
          have := h1' cs _ (put s l i) vs h1 rfl rfl
          simp only [runDecode, hd, Option.bind_eq_bind, Option.bind_some, this, Option.pure_def]
        refine ⟨l2, i2, l :: vs, hist2, ptr2, past2, p2, fir (polyphase 4 (77 + p) (l * 16 :: past)) :: out, hrun, by simp [h2], ?_, ?_, h5, h6, h7, ?_⟩
        · intro v hv
          rcases List.mem_cons.1 hv with rfl | hv
          · exact hl
          · exact h3 v hv
        · rw [heq, h4]; rfl
        · intro ws
          exact ⟨l, vs, rfl, by rw [h8 ws]; rfl⟩
      by_cases hp0 : p = 0
      · subst hp0
        obtain ⟨l, i, vs, hist, ptr, past', p', out, h1, h2, h3, h4, h5, h6, h7, h8⟩ := step f { s with phase := 1 } 1 hv (hr.phase 1) rfl (by omega) (by omega) (by omega)
        have hrun : runDecode s (c :: cs) = some (put s l i, vs) := by
          have gen : ∀ (cs : List Nat) (t t' : State) (vs : List Int), runDecode { t with phase := 1 } cs = some (t', vs) →
              runDecode t cs = some (put t t'.last t'.stepIndex, vs) := by
            intro cs
            induction cs with
            | nil =>
              intro t t' vs h
              simp only [runDecode, Option.some.injEq, Prod.mk.injEq] at h ⊢
              obtain ⟨rfl, rfl⟩ := h
              exact ⟨rfl, rfl⟩
            | cons c cs ih =>
              intro t t' vs h
              simp only [runDecode, Option.bind_eq_bind, Option.bind_eq_some_iff, Option.pure_def, Option.some.injEq, Prod.mk.injEq] at h
              obtain ⟨⟨t1, x⟩, h1, ⟨t2, xs⟩, h2, rfl, rfl⟩ := h
              have e := decode_sync { t with phase := 1 } t t1 c x rfl rfl h1
              have e2 := decode_sync { t with phase := 1 } { t with phase := 1 } t1 c x rfl rfl h1
              rw [h1] at e2
              simp only [Option.some.injEq, Prod.mk.injEq, and_true] at e2
              have h3 := ih { t with last := t1.last, stepIndex := t1.stepIndex } t2 xs (by rw [e2] at h2; exact h2)
              simp [runDecode, e, h3, put]
          exact gen _ _ _ _ h1
        refine ⟨l, i, vs, hist, ptr, past', p', fir (polyphase 4 77 past) :: out, hrun, h2, h3, ?_, h5, h6, h7, ?_⟩
        · rw [decode24_extra fir (f + 1) odd s b bs past hr hp, h4]; rfl
        · intro ws
          obtain ⟨v, vs', rfl, h9⟩ := h8 ws
          simp only [List.map_cons, List.cons_append, interpolate, if_true, List.nil_append, List.cons.injEq, true_and]
          rw [← h9]
      · obtain ⟨l, i, vs, hist, ptr, past', p', out, h1, h2, h3, h4, h5, h6, h7, h8⟩ := step (f + 1) s p hv hr hp (by omega) hp3 (by omega)
        refine ⟨l, i, vs, hist, ptr, past', p', out, h1, h2, h3, h4, h5, h6, h7, ?_⟩
        intro ws
        obtain ⟨v, vs', rfl, h9⟩ := h8 ws
        simp only [List.map_cons, List.cons_append, interpolate, hp0, if_false, List.nil_append]
        rw [← h9]

/-! ## The encoder at 24kbps -/

/-- The loop without the habit of reading before it looks. -/
def enc (fir : List (Nat × Int) → Int) : State → List Int → Option (State × List Byte)
  | s, [] => some (s, [])
  | s, x :: xs =>
    if s.phase > 2 then do
      let s ← push s x
      enc fir { s with phase := 0 } xs
    else do
      let (s, b) ← code24 fir s x
      let (s, bs) ← enc fir s xs
      return (s, b ++ bs)

theorem encode24_eq (fir : List (Nat × Int) → Int) : ∀ (n : Nat) (xs : List Int) (s : State), xs.length ≤ n → xs ≠ [] → encode24 fir s xs = enc fir s xs := by
  intro n
  induction n with
  | zero => intro xs s h hne; exact absurd (List.length_eq_zero_iff.1 (by omega)) hne
  | succ n ih =>
    intro xs s h hne
    cases xs with
    | nil => exact absurd rfl hne
    | cons x xs =>
      simp only [List.length_cons] at h
      unfold encode24 enc
      by_cases hp : s.phase > 2
      · rw [if_pos hp, if_pos hp]
        cases hpush : push s x with
        | none => rfl
        | some s1 =>
          simp only [Option.bind_eq_bind, Option.bind_some]
          cases xs with
          | nil => simp [enc]
          | cons y ys =>
            simp only
            rw [show enc fir { s1 with phase := 0 } (y :: ys) = (do
              let (s, b) ← code24 fir { s1 with phase := 0 } y
              let (s, bs) ← enc fir s ys
              return (s, b ++ bs)) by rw [enc, if_neg (by simp)]]
            simp only [Option.bind_eq_bind]
            cases hc : code24 fir { s1 with phase := 0 } y with
            | none => rfl
            | some v =>
              simp only [Option.bind_some]
              cases ys with
              | nil => simp [enc]
              | cons z zs => simp only; rw [ih (z :: zs) _ (by simp at h ⊢; omega) (by simp)]
      · rw [if_neg hp, if_neg hp]
        simp only [Option.bind_eq_bind]
        cases hc : code24 fir s x with
        | none => rfl
        | some v =>
          simp only [Option.bind_some]
          cases xs with
          | nil => simp [enc]
          | cons z zs => simp only; rw [ih (z :: zs) _ (by simp at h ⊢; omega) (by simp)]

theorem enc_append (fir : List (Nat × Int) → Int) (a b : List Int) : ∀ (s : State), enc fir s (a ++ b) = (do
    let (s', e) ← enc fir s a
    let (s'', e') ← enc fir s' b
    return (s'', e ++ e')) := by
  induction a with
  | nil => intro s; simp only [List.nil_append, enc, Option.bind_eq_bind, Option.bind_some]; cases enc fir s b <;> simp
  | cons x a ih =>
    intro s
    simp only [List.cons_append, enc]
    by_cases hp : s.phase > 2
    · rw [if_pos hp, if_pos hp]
      cases push s x with
      | none => rfl
      | some s1 => simp only [Option.bind_eq_bind, Option.bind_some]; rw [ih]; rfl
    · rw [if_neg hp, if_neg hp]
      cases code24 fir s x with
      | none => rfl
      | some v =>
        simp only [Option.bind_eq_bind, Option.bind_some]
        rw [ih]
        simp only [Option.bind_eq_bind, Option.pure_def]
        cases enc fir v.1 a with
        | none => rfl
        | some u =>
          simp only [Option.bind_some]
          cases enc fir u.1 b <;> simp

theorem emit_gen (s s' t : State) (c : Nat) (b : List Byte) (hb : t.okiByte = s.okiByte) (hm : t.mark = s.mark) (h : emit s c = some (s', b)) :
    emit t c = some ({ t with okiByte := s'.okiByte, mark := s'.mark }, b) := by
  unfold emit at h ⊢
  simp only [hb, hm] at h ⊢
  split at h
  · simp at h
  · rename_i h1
    rw [if_neg h1]
    simp only [Option.some.injEq, Prod.mk.injEq] at h ⊢
    obtain ⟨rfl, rfl⟩ := h
    exact ⟨rfl, rfl⟩

theorem emitAll_gen (cs : List Nat) : ∀ (s s' t : State) (b : List Byte), t.okiByte = s.okiByte → t.mark = s.mark → emitAll s cs = some (s', b) →
    emitAll t cs = some ({ t with okiByte := s'.okiByte, mark := s'.mark }, b) := by
  induction cs with
  | nil =>
    intro s s' t b hb hm h
    simp only [emitAll, Option.some.injEq, Prod.mk.injEq] at h ⊢
    obtain ⟨rfl, rfl⟩ := h
    exact ⟨by rw [← hb, ← hm], rfl⟩
  | cons c cs ih =>
    intro s s' t b hb hm h
    simp only [emitAll, Option.bind_eq_bind, Option.bind_eq_some_iff, Option.pure_def, Option.some.injEq, Prod.mk.injEq] at h
    obtain ⟨⟨s1, b1⟩, h1, ⟨s2, b2⟩, h2, rfl, rfl⟩ := h
    have e1 := emit_gen s s1 t c b1 hb hm h1
    have e2 := ih s1 s2 { t with okiByte := s1.okiByte, mark := s1.mark } b2 rfl rfl h2
    simp [emitAll, e1, e2]

theorem enc_eq (fir : List (Nat × Int) → Int) (xs : List Int) : ∀ (s s' s'' : State) (past : List Int) (p : Nat) (es : List (Nat × Int)) (bs : List Byte),
    Valid s → Ring s past → s.phase = p → p ≤ 3 →
    estimates s (decimate fir past p xs) = some (s', es) → emitAll s (es.map (·.1)) = some (s'', bs) →
    ∃ hist ptr ph past', enc fir s xs = some ({ s with last := s'.last, stepIndex := s'.stepIndex, okiByte := s''.okiByte, mark := s''.mark, history := hist, ptr := ptr, phase := ph }, bs) ∧
      Ring { s with last := s'.last, stepIndex := s'.stepIndex, okiByte := s''.okiByte, mark := s''.mark, history := hist, ptr := ptr, phase := ph } past' := by
  induction xs with
  | nil =>
    intro s s' s'' past p es bs hv hr hp hp3 hes hem
    simp only [decimate, estimates, Option.some.injEq, Prod.mk.injEq] at hes
    obtain ⟨rfl, rfl⟩ := hes
    simp only [List.map_nil, emitAll, Option.some.injEq, Prod.mk.injEq] at hem
    obtain ⟨rfl, rfl⟩ := hem
    exact ⟨s.history, s.ptr, s.phase, past, rfl, hr⟩
  | cons x xs ih =>
    intro s s' s'' past p es bs hv hr hp hp3 hes hem
    obtain ⟨hist, ptr, hpush, hr1⟩ := hr.push x
    simp only [decimate] at hes
    by_cases h3 : p = 3
    · rw [if_pos h3] at hes
      have hv1 : Valid { s with history := hist, ptr := ptr, phase := 0 } := hv
      obtain ⟨l, i, es1, he1, _⟩ := estimates_ok (decimate fir (x :: past) 0 xs) s.last s.stepIndex hv.1 hv.2.1 ⟨hv.2.2.1, hv.2.2.2⟩
      have a1 := he1 s
      have a2 := he1 { s with history := hist, ptr := ptr, phase := 0 }
      simp only [put] at a1 a2
      rw [hes] at a1
      simp only [Option.some.injEq, Prod.mk.injEq] at a1
      obtain ⟨rfl, rfl⟩ := a1
      have a3 := emitAll_gen _ s s'' { s with history := hist, ptr := ptr, phase := 0 } bs rfl rfl hem
      obtain ⟨hist2, ptr2, ph2, past2, h5, h6⟩ := ih _ _ _ (x :: past) 0 es bs hv1 (hr1.phase 0) rfl (by omega) a2 a3
      refine ⟨hist2, ptr2, ph2, past2, ?_, h6⟩
      simp only [enc]
      rw [if_pos (by omega), hpush]
      simp only [Option.bind_eq_bind, Option.bind_some]
      rw [h5]
    · rw [if_neg h3] at hes
      have ht := hr1.taps 3 (80 - p) (by omega) (by omega)
      rw [show ((3 : Nat) : Int) = 3 from rfl] at ht
      rw [show ((80 - p : Nat) : Int) = 80 - s.phase by omega] at ht
      generalize hy : fir (polyphase 3 (80 - p) (x :: past)) = y at *
      obtain ⟨l, i, c, he, hc, hv1, _⟩ := lockstep s s y hv rfl rfl
      simp only [estimates, he, Option.bind_eq_bind, Option.bind_some, Option.bind_eq_some_iff, Option.pure_def, Option.some.injEq, Prod.mk.injEq] at hes
      obtain ⟨⟨s1, es1⟩, hes1, rfl, rfl⟩ := hes
      simp only [List.map_cons, emitAll, Option.bind_eq_bind, Option.bind_eq_some_iff, Option.pure_def, Option.some.injEq, Prod.mk.injEq] at hem
      obtain ⟨⟨s2, b1⟩, hem1, ⟨s3, b2⟩, hem2, rfl, rfl⟩ := hem
      -- The same coding with the new history in place.
      obtain ⟨ss, hss, _, _⟩ := step_at hv.1 hv.2.1
      obtain ⟨l', i', c', he', hc', hv1', _⟩ := lockstep { s with history := hist, ptr := ptr } { s with history := hist, ptr := ptr } y hv rfl rfl
      have hsame : l' = l ∧ i' = i ∧ c' = c := by
        obtain ⟨l5, i5, es5, he5, _⟩ := estimates_ok [y] s.last s.stepIndex hv.1 hv.2.1 ⟨hv.2.2.1, hv.2.2.2⟩
        have a1 := he5 s
        have a2 := he5 { s with history := hist, ptr := ptr }
        simp only [put, estimates, he, he', Option.bind_eq_bind, Option.bind_some, Option.pure_def, Option.some.injEq, Prod.mk.injEq, State.mk.injEq, true_and, and_true] at a1 a2
        obtain ⟨⟨b1, b2⟩, b3⟩ := a1
        obtain ⟨⟨c1, c2⟩, c3⟩ := a2
        rw [← b3] at c3
        simp only [List.cons.injEq, Prod.mk.injEq, and_true] at c3
        exact ⟨c3.2, by omega, c3.1⟩
      obtain ⟨rfl, rfl, rfl⟩ := hsame
      have hem1' := emit_gen s s2 { s with history := hist, ptr := ptr, last := l', stepIndex := i' } c' b1 rfl rfl hem1
      obtain ⟨l5, i5, es5, he5, _⟩ := estimates_ok (decimate fir (x :: past) (p + 1) xs) l' i' hv1.1 hv1.2.1 ⟨hv1.2.2.1, hv1.2.2.2⟩
      have a1 := he5 s
      have a2 := he5 { s with history := hist, ptr := ptr, okiByte := s2.okiByte, mark := s2.mark, phase := s.phase + 1 }
      simp only [put] at a1 a2
      rw [hes1] at a1
      simp only [Option.some.injEq, Prod.mk.injEq] at a1
      obtain ⟨rfl, rfl⟩ := a1
      have a3 := emitAll_gen _ s2 s3 { s with last := l', stepIndex := i', history := hist, ptr := ptr, okiByte := s2.okiByte, mark := s2.mark, phase := s.phase + 1 } b2 rfl rfl hem2
      obtain ⟨hist2, ptr2, ph2, past2, h5, h6⟩ := ih { s with last := l', stepIndex := i', history := hist, ptr := ptr, okiByte := s2.okiByte, mark := s2.mark, phase := s.phase + 1 } _ _ (x :: past) (p + 1) es1 b2 hv1
        (⟨hr1.len, hr1.lo, hr1.hi, hr1.val⟩)
        (by simp only; omega) (by omega) a2 a3
      refine ⟨hist2, ptr2, ph2, past2, ?_, h6⟩
      simp only [enc, code24]
      rw [if_neg (by omega), hpush]
      simp only [Option.bind_eq_bind, Option.bind_some]
      simp only at ht
      rw [ht]
      simp only [Option.bind_some, hy, he', hem1', Option.pure_def]
      rw [h5]
      rfl

theorem encode24_none (fir : List (Nat × Int) → Int) (s : State) : encode24 fir s [] = none := by unfold encode24; rfl

theorem enc_rate (fir : List (Nat × Int) → Int) (xs : List Int) : ∀ (s s' : State) (b : List Byte), enc fir s xs = some (s', b) → s'.bitRate = s.bitRate := by
  have hpush : ∀ (s s' : State) (x : Int), push s x = some s' → s'.bitRate = s.bitRate := by
    intro s s' x h
    unfold push at h
    split at h
    · simp only [Option.some.injEq] at h; rw [← h]
    · simp at h
  have hdec : ∀ (s s' : State) (c : Nat) (x : Int), decode s c = some (s', x) → s'.bitRate = s.bitRate := by
    intro s s' c x h
    have := decode_sync s s s' c x rfl rfl h
    rw [h] at this
    simp only [Option.some.injEq, Prod.mk.injEq, and_true] at this
    rw [this]
  have henc : ∀ (s s' : State) (c : Nat) (x : Int), encode s x = some (s', c) → s'.bitRate = s.bitRate := by
    intro s s' c x h
    unfold encode at h
    simp only [Option.bind_eq_bind, Option.bind_eq_some_iff, Option.pure_def, Option.some.injEq, Prod.mk.injEq] at h
    obtain ⟨ss, _, ⟨s1, l⟩, h1, h2, _⟩ := h
    have h3 := hdec _ _ _ _ h1
    rw [← h2]
    exact h3
  have hemit : ∀ (s s' : State) (c : Nat) (b : List Byte), emit s c = some (s', b) → s'.bitRate = s.bitRate := by
    intro s s' c b h
    have := emit_gen s s' s c b rfl rfl h
    rw [h] at this
    simp only [Option.some.injEq, Prod.mk.injEq, and_true] at this
    rw [this]
  induction xs with
  | nil => intro s s' b h; simp only [enc, Option.some.injEq, Prod.mk.injEq] at h; rw [h.1]
  | cons x xs ih =>
    intro s s' b h
    simp only [enc] at h
    split at h
    · simp only [Option.bind_eq_bind, Option.bind_eq_some_iff] at h
      obtain ⟨s1, h1, h2⟩ := h
      rw [ih _ _ _ h2, ← hpush _ _ _ h1]
    · simp only [Option.bind_eq_bind, Option.bind_eq_some_iff, Option.pure_def, Option.some.injEq, Prod.mk.injEq] at h
      obtain ⟨⟨s1, b1⟩, h1, ⟨s2, b2⟩, h2, rfl, rfl⟩ := h
      rw [ih _ _ _ h2]
      simp only [code24, Option.bind_eq_bind, Option.bind_eq_some_iff, Option.pure_def, Option.some.injEq, Prod.mk.injEq] at h1
      obtain ⟨s3, h3, t, _, ⟨s4, c⟩, h4, ⟨s5, b5⟩, h5, rfl, rfl⟩ := h1
      simp only
      rw [hemit _ _ _ _ h5, henc _ _ _ _ h4, hpush _ _ _ h3]

/-- Calls which each have something to do are one call. -/
theorem encodeCalls24 (fir : List (Nat × Int) → Int) (calls : List (List Int)) : ∀ (s : State), s.bitRate ≠ 32000 → (∀ c ∈ calls, c ≠ []) →
    encodeCalls fir s calls = enc fir s calls.flatten := by
  induction calls with
  | nil => intro s _ _; rfl
  | cons c calls ih =>
    intro s hb hne
    simp only [encodeCalls, okiEncode, List.flatten_cons]
    rw [if_neg hb, encode24_eq fir c.length c s (Nat.le_refl _) (hne c (by simp)), enc_append]
    cases h : enc fir s c with
    | none => rfl
    | some v =>
      simp only [Option.bind_eq_bind, Option.bind_some]
      rw [ih v.1 (by rw [enc_rate fir c s v.1 v.2 h]; exact hb) (fun d hd => hne d (by simp [hd]))]

theorem encode32_append (a b : List Int) : ∀ (s : State), encode32 s (a ++ b) = (do
    let (s', e) ← encode32 s a
    let (s'', e') ← encode32 s' b
    return (s'', e ++ e')) := by
  induction a with
  | nil => intro s; simp only [List.nil_append, encode32, Option.bind_eq_bind, Option.bind_some]; cases encode32 s b <;> simp
  | cons x a ih =>
    intro s
    simp only [List.cons_append, encode32, Option.bind_eq_bind, Option.pure_def]
    cases encode s x with
    | none => rfl
    | some v =>
      simp only [Option.bind_some]
      cases emit v.1 v.2 with
      | none => rfl
      | some w =>
        simp only [Option.bind_some, ih, Option.bind_eq_bind, Option.pure_def]
        cases encode32 w.1 a with
        | none => rfl
        | some u =>
          simp only [Option.bind_some]
          cases encode32 u.1 b <;> simp

theorem encode32_rate (xs : List Int) : ∀ (s s' : State) (b : List Byte), encode32 s xs = some (s', b) → s'.bitRate = s.bitRate := by
  induction xs with
  | nil => intro s s' b h; simp only [encode32, Option.some.injEq, Prod.mk.injEq] at h; rw [h.1]
  | cons x xs ih =>
    intro s s' b h
    simp only [encode32, Option.bind_eq_bind, Option.bind_eq_some_iff, Option.pure_def, Option.some.injEq, Prod.mk.injEq] at h
    obtain ⟨⟨s1, c⟩, h1, ⟨s2, b1⟩, h2, ⟨s3, b3⟩, h3, rfl, rfl⟩ := h
    rw [ih _ _ _ h3]
    have e := emit_gen s1 s2 s1 c b1 rfl rfl h2
    rw [h2] at e
    simp only [Option.some.injEq, Prod.mk.injEq, and_true] at e
    rw [e]
    unfold encode at h1
    simp only [Option.bind_eq_bind, Option.bind_eq_some_iff, Option.pure_def, Option.some.injEq, Prod.mk.injEq] at h1
    obtain ⟨ss, _, ⟨s4, l⟩, h4, h5, _⟩ := h1
    have e2 := decode_sync s s s4 _ l rfl rfl h4
    rw [h4] at e2
    simp only [Option.some.injEq, Prod.mk.injEq, and_true] at e2
    simp only [← h5]
    rw [e2]

theorem encodeCalls32 (fir : List (Nat × Int) → Int) (calls : List (List Int)) : ∀ (s : State), s.bitRate = 32000 →
    encodeCalls fir s calls = encode32 s calls.flatten := by
  induction calls with
  | nil => intro s _; rfl
  | cons c calls ih =>
    intro s hb
    simp only [encodeCalls, okiEncode, List.flatten_cons]
    rw [if_pos hb, encode32_append]
    cases h : encode32 s c with
    | none => rfl
    | some v =>
      simp only [Option.bind_eq_bind, Option.bind_some]
      rw [ih v.1 (by rw [encode32_rate c s v.1 v.2 h]; exact hb)]

theorem runDecode_frame (cs : List Nat) : ∀ (t t' u : State) (vs : List Int), runDecode t cs = some (t', vs) → u.last = t.last → u.stepIndex = t.stepIndex →
    runDecode u cs = some (put u t'.last t'.stepIndex, vs) := by
  induction cs with
  | nil =>
    intro t t' u vs h e1 e2
    simp only [runDecode, Option.some.injEq, Prod.mk.injEq] at h ⊢
    obtain ⟨rfl, rfl⟩ := h
    exact ⟨by simp only [put, ← e1, ← e2], rfl⟩
  | cons c cs ih =>
    intro t t' u vs h e1 e2
    simp only [runDecode, Option.bind_eq_bind, Option.bind_eq_some_iff, Option.pure_def, Option.some.injEq, Prod.mk.injEq] at h
    obtain ⟨⟨t1, x⟩, h1, ⟨t2, xs⟩, h2, rfl, rfl⟩ := h
    have := decode_sync t u t1 c x e1 e2 h1
    have h3 := ih t1 t2 { u with last := t1.last, stepIndex := t1.stepIndex } xs h2 rfl rfl
    simp [runDecode, this, h3, put]

theorem runDecode_append (a b : List Nat) : ∀ (t : State), runDecode t (a ++ b) = (do
    let (t, x) ← runDecode t a
    let (t, y) ← runDecode t b
    return (t, x ++ y)) := by
  induction a with
  | nil => intro t; simp only [List.nil_append, runDecode, Option.bind_eq_bind, Option.bind_some]; cases runDecode t b <;> simp
  | cons c a ih =>
    intro t
    simp only [List.cons_append, runDecode, Option.bind_eq_bind, Option.pure_def]
    cases decode t c with
    | none => rfl
    | some v =>
      simp only [Option.bind_some, ih, Option.bind_eq_bind, Option.pure_def]
      cases runDecode v.1 a with
      | none => rfl
      | some u =>
        simp only [Option.bind_some]
        cases runDecode u.1 b <;> simp

theorem runDecode_total (cs : List Nat) : ∀ (t : State), Valid t → ∃ l i vs, runDecode t cs = some (put t l i, vs) ∧ vs.length = cs.length ∧ (∀ v ∈ vs, Sample12 v) ∧ Valid (put t l i) := by
  induction cs with
  | nil => intro t hv; exact ⟨t.last, t.stepIndex, [], rfl, rfl, by simp, hv⟩
  | cons c cs ih =>
    intro t hv
    obtain ⟨l, i, hd, hv'⟩ := decode_total t c hv
    obtain ⟨l2, i2, vs, h1, h2, h3, h4⟩ := ih _ hv'
    refine ⟨l2, i2, l :: vs, by simp [runDecode, hd, h1], by simp [h2], ?_, h4⟩
    intro v hv
    rcases List.mem_cons.1 hv with rfl | hv
    · exact hv'.2.2
    · exact h3 v hv

theorem unpack_flatten (chunks : List (List Byte)) : unpack chunks.flatten = (chunks.map unpack).flatten := by
  induction chunks with
  | nil => rfl
  | cons c cs ih => rw [List.flatten_cons, unpack_append, ih]; rfl

theorem decodeCalls32 (fir : List (Nat × Int) → Int) (chunks : List (List Byte)) : ∀ (t t' : State) (vs : List Int), t.bitRate = 32000 → Valid t →
    runDecode t (unpack chunks.flatten) = some (t', vs) → decodeCalls fir t chunks = some (t', vs.map (· * 16)) := by
  induction chunks with
  | nil =>
    intro t t' vs _ _ h
    simp only [List.flatten_nil, unpack, List.flatMap_nil, runDecode, Option.some.injEq, Prod.mk.injEq] at h
    obtain ⟨rfl, rfl⟩ := h
    rfl
  | cons c chunks ih =>
    intro t t' vs hb hv h
    rw [List.flatten_cons, unpack_append, runDecode_append] at h
    obtain ⟨l, i, vs1, h1, h2, h3, h4⟩ := runDecode_total (unpack c) t hv
    rw [h1] at h
    simp only [Option.bind_eq_bind, Option.bind_some, Option.bind_eq_some_iff, Option.pure_def, Option.some.injEq, Prod.mk.injEq] at h
    obtain ⟨⟨t2, vs2⟩, h5, rfl, rfl⟩ := h
    simp only [decodeCalls, okiDecode]
    rw [if_pos hb, decode32_eq, h1]
    simp only [Option.map_some, Option.bind_eq_bind, Option.bind_some]
    rw [ih (put t l i) t2 vs2 hb h4 h5]
    simp only [Option.bind_some, Option.pure_def, List.map_append, Option.some.injEq, Prod.mk.injEq, true_and, List.append_cancel_right_eq]
    apply List.map_congr_left
    intro v hv
    have := h3 v hv
    unfold Sample12 at this
    exact i16_eq (by omega) (by omega)

theorem decodeCalls24 (fir : List (Nat × Int) → Int) (chunks : List (List Byte)) : ∀ (t t' : State) (vs past : List Int) (p : Nat), t.bitRate ≠ 32000 → Valid t →
    Ring t past → t.phase = p → p ≤ 3 →
    runDecode t (unpack chunks.flatten) = some (t', vs) → ∃ u, decodeCalls fir t chunks = some (u, interpolate fir past p (vs.map (· * 16))) := by
  induction chunks with
  | nil =>
    intro t t' vs past p _ _ _ _ _ h
    simp only [List.flatten_nil, unpack, List.flatMap_nil, runDecode, Option.some.injEq, Prod.mk.injEq] at h
    obtain ⟨rfl, rfl⟩ := h
    exact ⟨t, by simp [decodeCalls, interpolate]⟩
  | cons c chunks ih =>
    intro t t' vs past p hb hv hr hp hp3 h
    have hul : ∀ c : List Byte, (unpack c).length = 2 * c.length := by
      intro c; induction c with
      | nil => rfl
      | cons b c ih => unfold unpack at ih; simp [unpack, ih]; omega
    rw [List.flatten_cons, unpack_append, runDecode_append] at h
    obtain ⟨l, i, vs1, hist, ptr, past', p', out, h1, h2, h3, h4, h5, h6, h7, h8⟩ := decode24_eq fir (unpack c) (4 * c.length + 4) false t c past p hv hr hp hp3
      (by simp [rem]) (by simp) (by rw [hul]; omega)
    rw [h1] at h
    simp only [Option.bind_eq_bind, Option.bind_some, Option.bind_eq_some_iff, Option.pure_def, Option.some.injEq, Prod.mk.injEq] at h
    obtain ⟨⟨t2, vs2⟩, h9, rfl, rfl⟩ := h
    have h10 := runDecode_frame _ _ _ { put t l i with history := hist, ptr := ptr, phase := (p' : Nat) } _ h9 rfl rfl
    obtain ⟨u, hu⟩ := ih { put t l i with history := hist, ptr := ptr, phase := (p' : Nat) } _ _ past' p' hb h5 h6 rfl h7 h10
    refine ⟨u, ?_⟩
    simp only [decodeCalls, okiDecode]
    rw [if_neg hb, h4]
    simp only [Option.bind_eq_bind, Option.bind_some]
    rw [hu]
    simp only [Option.bind_some, Option.pure_def, List.map_append]
    rw [h8]

end Oki
