import Verif.Oki.Lemmas

namespace Oki
open Spec

/-- Put a prediction and a step index in a state. -/
abbrev put (s : State) (l i : Int) : State := { s with last := l, stepIndex := i }

/-- The coding of a sequence of samples, from a prediction and a step index alone. -/
theorem estimates_ok (xs : List Int) : ∀ (l0 i0 : Int), 0 ≤ i0 → i0 ≤ 48 → Sample12 l0 →
    ∃ l i es, (∀ s : State, estimates (put s l0 i0) xs = some (put s l i, es)) ∧ 0 ≤ i ∧ i ≤ 48 ∧ Sample12 l ∧
      es.length = xs.length ∧ (∀ e ∈ es, e.1 < 16 ∧ Sample12 e.2) := by
  induction xs with
  | nil => intro l0 i0 h0 h1 hl; exact ⟨l0, i0, [], fun s => rfl, h0, h1, hl, rfl, by simp⟩
  | cons x xs ih =>
    intro l0 i0 h0 h1 hl
    have hv : ∀ s : State, Valid (put s l0 i0) := fun s => ⟨h0, h1, hl.1, hl.2⟩
    let s0 : State := ⟨0, 0, 0, 0, [], 0, 0, 0⟩
    obtain ⟨ss, hss, h7, h8⟩ := step_at h0 h1
    obtain ⟨l1, i1, hd, hv1⟩ := decode_total (put s0 l0 i0) (choose ss l0 x) (hv s0)
    obtain ⟨l, i, es, he, h2, h3, h4, h5, h6⟩ := ih l1 i1 hv1.1 hv1.2.1 ⟨hv1.2.2.1, hv1.2.2.2⟩
    refine ⟨l, i, (choose ss l0 x, l1) :: es, ?_, h2, h3, h4, by simp [h5], ?_⟩
    · intro s
      have hd' := decode_sync (put s0 l0 i0) (put s l0 i0) _ _ _ rfl rfl hd
      have he' := encode_eq (put s l0 i0) x ss hss _ _ hd' rfl
      simp only [estimates, he', Option.bind_eq_bind, Option.bind_some, Option.pure_def]
      have := he s
      simp only [put] at this ⊢
      rw [this]
      rfl
    · intro e h
      rcases List.mem_cons.1 h with rfl | h
      · exact ⟨choose_lt _ _ _, hv1.2.2⟩
      · exact h6 e h

/-- Decoding a sequence of codes. -/
def runDecode : State → List Nat → Option (State × List Int)
  | t, [] => some (t, [])
  | t, c :: cs => do
    let (t, x) ← decode t c
    let (t, xs) ← runDecode t cs
    return (t, x :: xs)

theorem runDecode_estimates (xs : List Int) : ∀ (s s' t : State) (es : List (Nat × Int)), Valid s → t.last = s.last → t.stepIndex = s.stepIndex →
    estimates s xs = some (s', es) → runDecode t (es.map (·.1)) = some (put t s'.last s'.stepIndex, es.map (·.2)) := by
  induction xs with
  | nil =>
    intro s s' t es _ hl hi h
    simp only [estimates, Option.some.injEq, Prod.mk.injEq] at h
    obtain ⟨rfl, rfl⟩ := h
    simp only [List.map_nil, runDecode, put, ← hl, ← hi]
  | cons x xs ih =>
    intro s s' t es hv hl hi h
    obtain ⟨l, i, c, he, hc, hv', hd⟩ := lockstep s t x hv hl hi
    simp only [estimates, he, Option.bind_eq_bind, Option.bind_some, Option.bind_eq_some_iff, Option.pure_def, Option.some.injEq, Prod.mk.injEq] at h
    obtain ⟨⟨s1, es1⟩, h1, rfl, rfl⟩ := h
    simp [runDecode, hd, ih _ _ { t with last := l, stepIndex := i } es1 hv' rfl rfl h1]

/-! ## Nibbles in octets -/

/-- Two codes in an octet. -/
def nib (a b : Nat) : Byte := BitVec.ofNat 8 (16 * a + b)

/-- Codes in octets; one left over is not sent. -/
def pack : List Nat → List Byte
  | a :: b :: cs => nib a b :: pack cs
  | _ => []

/-- The codes in octets. -/
def unpack (bs : List Byte) : List Nat := bs.flatMap fun b => [b.toNat / 16, b.toNat % 16]

theorem nib_ok : ∀ a < 16, ∀ b < 16, (nib a b).toNat % 16 = b ∧ (nib a b).toNat / 16 = a := by decide +kernel

theorem unpack_pack (cs : List Nat) (h : ∀ c ∈ cs, c < 16) : unpack (pack cs) = cs.take (2 * (cs.length / 2)) := by
  match cs with
  | [] => rfl
  | [a] => simp [pack, unpack]
  | a :: b :: cs =>
    have ih := unpack_pack cs (fun c hc => h c (by simp [hc]))
    have hl : 2 * ((a :: b :: cs).length / 2) = 2 * (cs.length / 2) + 1 + 1 := by simp only [List.length_cons]; omega
    rw [hl, List.take_succ_cons, List.take_succ_cons]
    obtain ⟨h1, h2⟩ := nib_ok a (h a (by simp)) b (h b (by simp))
    unfold unpack at ih
    simp only [pack, unpack, List.flatMap_cons, h1, h2, ih]
    rfl

theorem pack_length (cs : List Nat) : (pack cs).length = cs.length / 2 := by
  match cs with
  | [] => rfl
  | [_] => simp [pack]
  | a :: b :: cs => simp only [pack, List.length_cons, pack_length cs]; omega

/-- Emitting a sequence of codes. -/
def emitAll : State → List Nat → Option (State × List Byte)
  | s, [] => some (s, [])
  | s, c :: cs => do
    let (s, b) ← emit s c
    let (s, bs) ← emitAll s cs
    return (s, b ++ bs)

theorem nib_emit (w : Byte) (a b : Nat) (ha : a < 16) (hb : b < 16) :
    (((w <<< 4) ||| BitVec.ofNat 8 a) <<< 4) ||| BitVec.ofNat 8 b = nib a b := by
  have h1 : ∀ w : Byte, ∀ a : Fin 16, ((w <<< 4) ||| BitVec.ofNat 8 a.val) <<< 4 = BitVec.ofNat 8 (16 * a.val) := by decide +kernel
  have h2 : ∀ a b : Fin 16, BitVec.ofNat 8 (16 * a.val) ||| BitVec.ofNat 8 b.val = nib a.val b.val := by decide +kernel
  rw [h1 w ⟨a, ha⟩, h2 ⟨a, ha⟩ ⟨b, hb⟩]

theorem emitAll_pack (cs : List Nat) : ∀ (s : State), (∀ c ∈ cs, c < 16) → s.mark % 2 = 0 → s.mark + cs.length ≤ 2147483647 →
    ∃ w, emitAll s cs = some ({ s with okiByte := w, mark := s.mark + cs.length }, pack cs) := by
  match cs with
  | [] => intro s _ _ _; exact ⟨s.okiByte, by simp [emitAll, pack]⟩
  | [a] =>
    intro s _ hm hl
    simp only [List.length_cons, List.length_nil] at hl
    refine ⟨(s.okiByte <<< 4) ||| BitVec.ofNat 8 a, ?_⟩
    simp only [emitAll, emit]
    rw [if_neg (by omega), if_neg (by omega)]
    simp [pack]
  | a :: b :: cs =>
    intro s hc hm hl
    simp only [List.length_cons] at hl
    obtain ⟨w, hw⟩ := emitAll_pack cs { s with okiByte := nib a b, mark := s.mark + 1 + 1 } (fun c h => hc c (by simp [h])) (by simp only; omega) (by simp only; omega)
    refine ⟨w, ?_⟩
    simp only [emitAll, emit]
    rw [if_neg (by omega : ¬ s.mark = 2147483647), if_neg (by omega : ¬ s.mark % 2 = 1)]
    simp only [Option.bind_eq_bind, Option.bind_some]
    rw [if_neg (by omega : ¬ s.mark + 1 = 2147483647), if_pos (by omega : (s.mark + 1) % 2 = 1)]
    simp only [Option.bind_some, nib_emit _ _ _ (hc a (by simp)) (hc b (by simp)), hw, Option.pure_def, List.nil_append, List.length_cons, pack, List.singleton_append]
    congr 3
    push_cast; omega

theorem emitAll_overflow (cs : List Nat) : ∀ (s : State), s.mark ≤ 2147483647 → 2147483647 < s.mark + cs.length → emitAll s cs = none := by
  induction cs with
  | nil => intro s h1 h2; simp at h2; omega
  | cons c cs ih =>
    intro s h1 h2
    simp only [List.length_cons] at h2
    simp only [emitAll, emit]
    by_cases h : s.mark = 2147483647
    · rw [if_pos h]; rfl
    · rw [if_neg h]
      simp only [Option.bind_eq_bind, Option.bind_some]
      rw [ih { s with okiByte := (s.okiByte <<< 4) ||| BitVec.ofNat 8 c, mark := s.mark + 1 } (by simp only; omega) (by push_cast at h2; simp only; omega)]
      rfl

/-! ## 32kbps -/

theorem emit_put (s s' : State) (c : Nat) (b : List Byte) (l i : Int) (h : emit s c = some (s', b)) : emit (put s l i) c = some (put s' l i, b) := by
  unfold emit at h ⊢
  simp only [put] at h ⊢
  split at h
  · simp at h
  · rename_i h1
    rw [if_neg h1]
    simp only [Option.some.injEq, Prod.mk.injEq] at h ⊢
    obtain ⟨rfl, rfl⟩ := h
    exact ⟨rfl, rfl⟩

theorem emitAll_put (cs : List Nat) : ∀ (s s' : State) (b : List Byte) (l i : Int), emitAll s cs = some (s', b) → emitAll (put s l i) cs = some (put s' l i, b) := by
  induction cs with
  | nil => intro s s' b l i h; simp only [emitAll, Option.some.injEq, Prod.mk.injEq] at h ⊢; obtain ⟨rfl, rfl⟩ := h; exact ⟨rfl, rfl⟩
  | cons c cs ih =>
    intro s s' b l i h
    simp only [emitAll, Option.bind_eq_bind, Option.bind_eq_some_iff, Option.pure_def, Option.some.injEq, Prod.mk.injEq] at h
    obtain ⟨⟨s1, b1⟩, h1, ⟨s2, b2⟩, h2, rfl, rfl⟩ := h
    simp [emitAll, emit_put s s1 c b1 l i h1, ih s1 s2 b2 l i h2]

theorem emit_none_put (s : State) (c : Nat) (l i : Int) : emit (put s l i) c = none ↔ emit s c = none := by
  unfold emit; simp

/-- The encoder is the coding followed by the packing. -/
theorem encode32_eq (xs : List Int) : ∀ (s s' : State) (es : List (Nat × Int)), estimates s xs = some (s', es) → Valid s →
    encode32 s xs = (emitAll s (es.map (·.1))).map (fun r => (put r.1 s'.last s'.stepIndex, r.2)) := by
  induction xs with
  | nil =>
    intro s s' es h _
    simp only [estimates, Option.some.injEq, Prod.mk.injEq] at h
    obtain ⟨rfl, rfl⟩ := h
    simp [encode32, emitAll]
  | cons x xs ih =>
    intro s s' es h hv
    obtain ⟨l, i, c, he, hc, hv', _⟩ := lockstep s s x hv rfl rfl
    simp only [estimates, he, Option.bind_eq_bind, Option.bind_some, Option.bind_eq_some_iff, Option.pure_def, Option.some.injEq, Prod.mk.injEq] at h
    obtain ⟨⟨s1, es1⟩, h1, rfl, rfl⟩ := h
    simp only [encode32, he, Option.bind_eq_bind, Option.bind_some, List.map_cons, emitAll]
    cases h2 : emit s c with
    | none =>
      have := (emit_none_put s c l i).2 h2
      simp only [put] at this
      simp [this]
    | some v =>
      obtain ⟨s2, b⟩ := v
      have := emit_put s s2 c b l i h2
      simp only [put] at this
      simp only [this, Option.bind_some]
      have hs2 : Valid { s2 with last := l, stepIndex := i } := hv'
      obtain ⟨l5, i5, es5, he5, _⟩ := estimates_ok xs l i hv'.1 hv'.2.1 ⟨hv'.2.2.1, hv'.2.2.2⟩
      have h3 := he5 s
      have h4 := he5 s2
      simp only [put] at h3 h4
      rw [h1] at h3
      simp only [Option.some.injEq, Prod.mk.injEq] at h3
      obtain ⟨rfl, rfl⟩ := h3
      rw [ih _ _ _ h4 hs2]
      cases h6 : emitAll s2 (es1.map (·.1)) with
      | none =>
        cases h7 : emitAll { s2 with last := l, stepIndex := i } (es1.map (·.1)) with
        | none => simp
        | some w =>
          have := emitAll_put _ _ _ _ s2.last s2.stepIndex h7
          simp only [put] at this
          rw [h6] at this; simp at this
      | some w =>
        have := emitAll_put _ _ _ _ l i h6
        simp only [put] at this
        simp only [this, Option.map_some, Option.bind_some, Option.pure_def, put]

theorem decode32_eq (bs : List Byte) : ∀ (t : State), decode32 t bs = (runDecode t (unpack bs)).map (fun r => (r.1, r.2.map fun x => i16 (x * 16))) := by
  induction bs with
  | nil => intro t; rfl
  | cons b bs ih =>
    intro t
    unfold unpack at ih
    simp only [decode32, unpack, List.flatMap_cons, List.cons_append, List.nil_append, runDecode, Option.bind_eq_bind]
    cases decode t (b.toNat / 16) with
    | none => rfl
    | some v =>
      simp only [Option.bind_some]
      cases decode v.1 (b.toNat % 16) with
      | none => rfl
      | some w =>
        simp only [Option.bind_some]
        rw [ih]
        cases runDecode w.1 (bs.flatMap fun b => [b.toNat / 16, b.toNat % 16]) <;> simp

/-! ## The ring of past samples -/

/-- The history holds the last 32 samples, the newest of them just before `ptr`. -/
structure Ring (s : State) (past : List Int) : Prop where
  len : s.history.length = 32
  lo : 0 ≤ s.ptr
  hi : s.ptr < 32
  val : ∀ k < 32, s.history[((s.ptr - 1 - (k : Nat)) % 32).toNat]? = some (past.getD k 0)

theorem Ring.push {s : State} {past : List Int} (h : Ring s past) (x : Int) :
    ∃ hist p, push s x = some { s with history := hist, ptr := p } ∧ Ring { s with history := hist, ptr := p } (x :: past) := by
  have hl := h.len
  have h0 := h.lo
  have h1 := h.hi
  refine ⟨_, _, by unfold Oki.push; rw [if_pos ⟨h0, by omega⟩], ?_⟩
  refine ⟨by simp [hl], by simp only; omega, by simp only; omega, ?_⟩
  intro k hk
  simp only
  rw [List.getElem?_set]
  by_cases hk0 : k = 0
  · subst hk0
    rw [if_pos (by omega), if_pos (by omega)]
    rfl
  · rw [if_neg (by omega)]
    obtain ⟨j, rfl⟩ : ∃ j, k = j + 1 := ⟨k - 1, by omega⟩
    have := h.val j (by omega)
    rw [List.getD_cons_succ, ← this]
    congr 2
    omega

theorem taps_gen (hist : List Int) (step r : Nat) (hs : 0 < step) (hr : r < step) (f : Nat → Int) : ∀ (m fuel : Nat) (x : Int), m + 1 < fuel → r + step * m < 81 →
    (∀ j ≤ m, at? hist ((x - j) % 32) = some (f j)) →
    taps hist step fuel ((r + step * m : Nat) : Int) x = some ((List.range (m + 1)).map fun k => (r + step * m - step * k, f k)) := by
  intro m
  induction m generalizing f with
  | zero =>
    intro fuel x hf hl hh
    obtain ⟨fl, rfl⟩ : ∃ fl, fuel = fl + 2 := ⟨fuel - 2, by omega⟩
    have h0 := hh 0 (by omega)
    rw [show x - ((0 : Nat) : Int) = x by omega] at h0
    simp only [Nat.mul_zero, Nat.add_zero, taps, h0, Option.bind_eq_bind, Option.bind_some]
    rw [if_pos (by omega), if_neg (by unfold coeffs; omega), if_neg (by omega)]
    simp
  | succ m ih =>
    intro fuel x hf hl hh
    obtain ⟨fl, rfl⟩ : ∃ fl, fuel = fl + 1 := ⟨fuel - 1, by omega⟩
    have e : step * (m + 1) = step * m + step := by rw [Nat.mul_succ]
    have h0 := hh 0 (by omega)
    rw [show x - ((0 : Nat) : Int) = x by omega] at h0
    have := ih (fun k => f (k + 1)) fl (x - 1) (by omega) (by omega) (by
      intro j hj
      have := hh (j + 1) (by omega)
      rw [show x - 1 - (j : Int) = x - ((j + 1 : Nat) : Int) by push_cast; omega]
      exact this)
    simp only [taps, h0, Option.bind_eq_bind, Option.bind_some]
    rw [if_pos (by omega), if_neg (by unfold coeffs; omega)]
    rw [show ((r + step * (m + 1) : Nat) : Int) - (step : Int) = ((r + step * m : Nat) : Int) by omega, this]
    simp only [Option.bind_some, Option.pure_def]
    rw [List.range_succ_eq_map (n := m + 1), List.map_cons, List.map_map]
    congr 2
    apply List.map_congr_left
    intro k _
    simp only [Function.comp, Nat.succ_eq_add_one]
    rw [Nat.mul_succ, Nat.mul_succ]
    congr 1; omega

theorem Ring.taps {s : State} {past : List Int} (h : Ring s past) (step l : Nat) (hs : 2 < step) (hl : l ≤ 80) :
    taps s.history step 100 (l : Int) (s.ptr - 1) = some (polyphase step l past) := by
  have hdm := Nat.div_add_mod l step
  have hm : l / step < 31 := by
    apply Nat.div_lt_of_lt_mul
    have : 3 * 31 ≤ step * 31 := Nat.mul_le_mul_right 31 hs
    omega
  have := taps_gen s.history step (l % step) (by omega) (Nat.mod_lt _ (by omega)) (fun k => past.getD k 0) (l / step) 100 (s.ptr - 1) (by omega) (by omega) (by
    intro j hj
    unfold at?
    rw [if_pos (by omega)]
    exact h.val j (by omega))
  rw [show l % step + step * (l / step) = l by omega] at this
  exact this

end Oki
