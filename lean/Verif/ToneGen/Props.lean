import Verif.SuperTone.Props
import Verif.ToneGen.Model

/-!
# Tones are played as they are given
-/

namespace ToneGen

open SuperTone (Eqv pieces endless flat_length eqv_rfl)

/-! ## What a cadence sounds like -/

def tone (n : Nat) : List (Option Unit) := List.replicate n (some ())

def silence (n : Nat) : List (Option Unit) := List.replicate n none

/-- Tone, silence, tone and silence, for the given numbers of samples; after the first of them up to one which is empty. -/
def cycle (a b c d : Nat) : List (Option Unit) :=
  tone a ++ if b = 0 then [] else silence b ++ if c = 0 then [] else tone c ++ silence d

/-- The same once, or `n` times if it is to be repeated for ever. -/
def sounds (n a b c d : Nat) (again : Bool) : List (Option Unit) :=
  if again then (List.replicate n (cycle a b c d)).flatten else cycle a b c d

/-! ## Proofs -/

def value (i : Nat) : Option Unit := if i % 2 = 1 then none else some ()

def tail (d : Nat → Nat) (i : Nat) : List (Option Unit) :=
  if i > 3 ∨ d i = 0 then [] else List.replicate (d i) (value i) ++ tail d (i + 1)
termination_by 4 - i
decreasing_by omega

def cyc (d : Nat → Nat) : List (Option Unit) := List.replicate (d 0) (value 0) ++ tail d 1

theorem cyc_eq (d : Nat → Nat) : cyc d = cycle (d 0) (d 1) (d 2) (d 3) := by
  have v0 : value 0 = some () := rfl
  have v1 : value 1 = none := rfl
  have v2 : value 2 = some () := rfl
  have v3 : value 3 = none := rfl
  unfold cyc cycle
  rw [v0]
  congr 1
  rw [tail]
  by_cases h1 : d 1 = 0
  · rw [if_pos (Or.inr h1), if_pos h1]
  · rw [if_neg (by omega), if_neg h1, v1]
    congr 1
    rw [tail]
    by_cases h2 : d 2 = 0
    · rw [if_pos (Or.inr h2), if_pos h2]
    · rw [if_neg (by rintro (h | h) <;> first | omega | exact h2 h), if_neg h2, v2]
      congr 1
      rw [tail]
      have h4 : tail d (3 + 1) = [] := by rw [tail, if_pos (Or.inl (by omega))]
      by_cases h3 : d 3 = 0
      · rw [if_pos (Or.inr h3)]; simp [silence, h3]
      · rw [if_neg (by rintro (h | h) <;> first | omega | exact h3 h), v3, h4, List.append_nil]; rfl

def after (n : Nat) (s : State) : List (Option Unit) := if s.again then (List.replicate n (cyc s.d)).flatten else []

def rest (n : Nat) (s : State) : List (Option Unit) :=
  match s.sec with
  | none => []
  | some i => List.replicate (s.d i - s.pos) (value i) ++ (tail s.d (i + 1) ++ after n s)

theorem next_same (s : State) (i : Nat) : (next s i).d = s.d ∧ (next s i).again = s.again ∧ (next s i).pos = 0 := by
  unfold next
  split
  · split <;> exact ⟨rfl, rfl, rfl⟩
  · exact ⟨rfl, rfl, rfl⟩

theorem next_eqv (n k : Nat) (hk : k ≤ n) (s : State) (i : Nat) (h : s.again = true → cyc s.d ≠ []) :
    Eqv k (rest n (next s i)) (tail s.d (i + 1) ++ after n s) := by
  rw [tail]
  unfold next
  split
  · rw [List.nil_append]
    by_cases ha : s.again = true
    · rw [if_pos ha]
      have e := endless n k hk (cyc s.d) [] (h ha)
      unfold after
      rw [if_pos ha]
      simp only [List.append_nil] at e
      have e2 : rest n { s with pos := 0, sec := some 0 } = cyc s.d ++ (List.replicate n (cyc s.d)).flatten := by
        simp only [rest, after, if_pos ha, cyc, Nat.sub_zero, Nat.zero_add, List.append_assoc]
      rw [e2]; exact e
    · rw [if_neg ha]
      unfold after
      rw [if_neg ha]
      exact eqv_rfl
  · simp only [rest, Nat.sub_zero, after, List.append_assoc]
    exact eqv_rfl

theorem gen_part : ∀ (fuel : Nat) (s : State) (k : Nat) (s' : State) (o : List (Option Unit)), (s.again = true → cyc s.d ≠ []) →
    gen fuel s k = some (s', o) → (s'.again = true → cyc s'.d ≠ []) ∧ (o.length = k ∨ (o.length ≤ k ∧ s'.sec = none)) ∧
      ∀ j n, k + j ≤ n → Eqv (k + j) (o ++ rest n s') (rest n s) := by
  intro fuel
  induction fuel with
  | zero => intro s k s' o _ h; simp [gen] at h
  | succ fuel ih =>
    intro s k s' o hv h
    rw [gen] at h
    rcases hs : s.sec with _ | i
    · rw [hs] at h
      simp only [Option.some.injEq, Prod.mk.injEq] at h
      obtain ⟨rfl, rfl⟩ := h
      exact ⟨hv, Or.inr ⟨by simp, hs⟩, fun j n _ => eqv_rfl⟩
    · rw [hs] at h
      simp only at h
      split at h
      · rename_i hk
        simp only [Option.some.injEq, Prod.mk.injEq] at h
        obtain ⟨rfl, rfl⟩ := h
        exact ⟨hv, Or.inl (by simp [hk]), fun j n _ => eqv_rfl⟩
      · split at h
        · rename_i hl
          simp only [Option.some.injEq, Prod.mk.injEq] at h
          obtain ⟨rfl, rfl⟩ := h
          refine ⟨hv, Or.inl (by simp), fun j n hn => ?_⟩
          simp only [rest, hs, after]
          have : List.replicate k (if i % 2 = 1 then none else some ()) = List.replicate k (value i) := rfl
          rw [this, ← List.append_assoc, List.replicate_append_replicate]
          have : k + (s.d i - (s.pos + k)) = s.d i - s.pos := by omega
          rw [this]
          exact eqv_rfl
        · rename_i hl
          rw [Option.map_eq_some_iff] at h
          obtain ⟨⟨s2, o2⟩, h1, h2⟩ := h
          rw [Prod.mk.injEq] at h2
          obtain ⟨rfl, rfl⟩ := h2
          obtain ⟨e1, e2, e3⟩ := next_same s i
          obtain ⟨g1, g2, g3⟩ := ih _ _ _ _ (by rw [e1, e2]; exact hv) h1
          refine ⟨g1, ?_, fun j n hn => ?_⟩
          · simp only [List.length_append, List.length_replicate]
            rcases g2 with g | g
            · left; omega
            · right; exact ⟨by omega, g.2⟩
          · rw [List.append_assoc, rest.eq_def n s, hs]
            refine Eqv.append (j := k - (s.d i - s.pos) + j) _ ?_ (by rw [List.length_replicate]; omega)
            exact (g3 j n (by omega)).trans (next_eqv n _ (by omega) s i hv)

/-- A section which is not the first has some samples. -/
def Valid (s : State) : Prop := (s.again = true → cyc s.d ≠ []) ∧ (∀ i, s.sec = some i → i ≠ 0 → s.d i ≠ 0)

theorem next_valid (s : State) (i : Nat) (h : Valid s) : Valid (next s i) := by
  refine ⟨?_, ?_⟩
  · obtain ⟨e1, e2, -⟩ := next_same s i
    rw [e1, e2]; exact h.1
  · intro j hj h0
    unfold next at hj ⊢
    split at hj
    · split at hj
      · simp only [Option.some.injEq] at hj; omega
      · simp at hj
    · rename_i hc
      simp only [Option.some.injEq] at hj
      subst hj
      rw [if_neg hc]
      simp only
      omega

theorem gen_ends : ∀ (n : Nat) (s : State), Valid s → ∃ fuel, (gen fuel s n).isSome := by
  have step : ∀ (s : State) (i n : Nat), s.sec = some i →
      (∃ fuel, (gen fuel (next s i) (n - (s.d i - s.pos))).isSome) → ∃ fuel, (gen fuel s n).isSome := by
    rintro s i n hs ⟨fuel, h⟩
    refine ⟨fuel + 1, ?_⟩
    rw [gen, hs]
    simp only
    split
    · rfl
    · split
      · rfl
      · rw [Option.isSome_map]; exact h
  have zero : ∀ n : Nat, ∀ s : State, Valid s → s.pos = 0 → ∃ fuel, (gen fuel s n).isSome := by
    intro n
    induction n using Nat.strongRecOn with
    | ind n ih =>
      intro s hv hp
      have loud : ∀ s : State, Valid s → s.pos = 0 → ∀ i, s.sec = some i → s.d i ≠ 0 → ∃ fuel, (gen fuel s n).isSome := by
        intro s hv hp i hs hd
        by_cases hn : n = 0
        · subst hn
          refine ⟨1, ?_⟩
          rw [gen, hs]; rfl
        · exact step s i n hs (ih _ (by omega) _ (next_valid s i hv) (next_same s i).2.2)
      rcases hs : s.sec with _ | i
      · refine ⟨1, ?_⟩; rw [gen, hs]; rfl
      · by_cases hd : s.d i = 0
        · have hi : i = 0 := Decidable.byContradiction fun hi => hv.2 i hs hi hd
          subst hi
          refine step s 0 n hs ?_
          have : n - (s.d 0 - s.pos) = n := by omega
          rw [this]
          have hv' := next_valid s 0 hv
          have hsame := next_same s 0
          rcases hs' : (next s 0).sec with _ | j
          · refine ⟨1, ?_⟩; rw [gen, hs']; rfl
          · by_cases hj : j = 0
            · -- back at the first section, which is empty like all the others
              exfalso
              subst hj
              unfold next at hs'
              split at hs'
              · rename_i hc
                split at hs'
                · rename_i ha
                  apply hv.1 ha
                  unfold cyc
                  rw [hd, tail, if_pos (by omega)]; rfl
                · simp at hs'
              · simp at hs'
            · exact loud _ hv' hsame.2.2 j hs' (hv'.2 j hs' hj)
        · exact loud s hv hp i hs hd
  intro n s hv
  rcases hs : s.sec with _ | i
  · refine ⟨1, ?_⟩; rw [gen, hs]; rfl
  · exact step s i n hs (zero _ _ (next_valid s i hv) (next_same s i).2.2)

theorem gen_more : ∀ (fuel : Nat) (s : State) (n : Nat) r, gen fuel s n = some r → gen (fuel + 1) s n = some r := by
  intro fuel
  induction fuel with
  | zero => intro s n r h; simp [gen] at h
  | succ fuel ih =>
    intro s n r h
    rw [gen] at h ⊢
    rcases hs : s.sec with _ | i
    · rw [hs] at h; exact h
    · rw [hs] at h
      simp only at h ⊢
      split
      · rename_i c; rw [if_pos c] at h; exact h
      · rename_i c; rw [if_neg c] at h
        split
        · rename_i c; rw [if_pos c] at h; exact h
        · rename_i c; rw [if_neg c] at h
          rw [Option.map_eq_some_iff] at h
          obtain ⟨x, h1, h2⟩ := h
          rw [ih _ _ _ h1, ← h2]; rfl

theorem gen_le (a b : Nat) (hab : a ≤ b) (s : State) (n : Nat) (r) (h : gen a s n = some r) : gen b s n = some r := by
  obtain ⟨c, rfl⟩ := Nat.le.dest hab
  clear hab
  induction c with
  | zero => exact h
  | succ c ih => exact gen_more _ _ _ _ ih

theorem gen_valid : ∀ (fuel : Nat) (s : State) (n : Nat) (s' : State) (o), Valid s → gen fuel s n = some (s', o) → Valid s' := by
  intro fuel
  induction fuel with
  | zero => intro s n s' o _ h; simp [gen] at h
  | succ fuel ih =>
    intro s n s' o hv h
    rw [gen] at h
    rcases hs : s.sec with _ | i
    · rw [hs] at h
      simp only [Option.some.injEq, Prod.mk.injEq] at h
      rw [← h.1]; exact hv
    · rw [hs] at h
      simp only at h
      split at h
      · simp only [Option.some.injEq, Prod.mk.injEq] at h
        rw [← h.1]; exact hv
      · split at h
        · simp only [Option.some.injEq, Prod.mk.injEq] at h
          rw [← h.1]
          exact ⟨hv.1, fun j hj => hv.2 j (by rw [hs]; exact hj)⟩
        · rw [Option.map_eq_some_iff] at h
          obtain ⟨⟨s2, o2⟩, h1, h2⟩ := h
          rw [Prod.mk.injEq] at h2
          rw [← h2.1]
          exact ih _ _ _ _ (next_valid s i hv) h1

theorem calls_part : ∀ (l : List Nat) (s : State), Valid s → ∃ fuel s' o,
    (∀ fuel' ≥ fuel, calls fuel' s l = some (s', o)) ∧
    ∀ n ≥ l.sum, ∀ x, Eqv l.sum x (rest n s) → o = pieces x l := by
  intro l
  induction l with
  | nil => intro s _; exact ⟨0, s, [], fun _ _ => rfl, fun _ _ _ _ => rfl⟩
  | cons k l ih =>
    intro s hv
    obtain ⟨f1, h1⟩ := gen_ends k s hv
    obtain ⟨⟨s1, o1⟩, h1⟩ := Option.isSome_iff_exists.mp h1
    obtain ⟨-, p2, p3⟩ := gen_part f1 s k s1 o1 hv.1 h1
    obtain ⟨f2, s2, o2, q1, q2⟩ := ih s1 (gen_valid f1 s k s1 o1 hv h1)
    refine ⟨max f1 f2, s2, o1 :: o2, ?_, ?_⟩
    · intro f' hf
      rw [calls, gen_le f1 f' (by omega) s k _ h1, Option.bind_some, q1 f' (by omega)]; rfl
    · intro n hn x hx
      rw [List.sum_cons] at hn hx
      have e : Eqv (k + l.sum) x (o1 ++ rest n s1) := hx.trans (p3 l.sum n hn).symm
      have hr : o1.length ≤ k ∧ (o1.length < k → rest n s1 = []) := by
        rcases p2 with h | ⟨h, h'⟩
        · exact ⟨by omega, fun _ => by omega⟩
        · exact ⟨h, fun _ => by unfold rest; rw [h']⟩
      rw [pieces]
      congr 1
      · have := e.mono (k := k) (by omega)
        unfold Eqv at this
        rw [this]
        by_cases hk : o1.length < k
        · rw [hr.2 hk, List.append_nil, List.take_of_length_le hr.1]
        · rw [List.take_append_of_le_length (by omega), List.take_of_length_le hr.1]
      · refine q2 n (by omega) _ ?_
        unfold Eqv at e ⊢
        rw [List.take_drop, e, ← List.take_drop]
        congr 1
        by_cases hk : o1.length < k
        · rw [hr.2 hk, List.append_nil, List.drop_eq_nil_of_le hr.1]
        · rw [List.drop_append_of_le_length (by omega), List.drop_eq_nil_of_le hr.1, List.nil_append]

/-- C100: a tone with a cadence is played as it is given, with 8 samples for each ms, however the samples are asked for, if
it is not to be repeated or has any samples.  Every call returns, and gives all the samples which were asked for until the
cadence is over. -/
theorem cadence (d1 d2 d3 d4 : Nat) (again : Bool) (h : again = true → d1 ≠ 0 ∨ d2 ≠ 0) (l : List Nat) :
    ∃ fuel s', ∀ fuel' ≥ fuel, calls fuel' (init d1 d2 d3 d4 again) l =
      some (s', pieces (sounds l.sum (8*d1) (8*d2) (8*d3) (8*d4) again) l) := by
  have e : ∀ d, d*8000/1000 = 8*d := by intro d; omega
  have hc : cyc (init d1 d2 d3 d4 again).d = cycle (8*d1) (8*d2) (8*d3) (8*d4) := by
    rw [cyc_eq]
    simp only [init, e]
    rfl
  have hne : again = true → cyc (init d1 d2 d3 d4 again).d ≠ [] := by
    intro ha
    rw [hc]
    unfold cycle
    intro hn
    rw [List.append_eq_nil_iff] at hn
    have h0 : d1 = 0 := by have := hn.1; simp [tone] at this; omega
    have h1 : d2 ≠ 0 := (h ha).resolve_left (fun h => h h0)
    have := hn.2
    rw [if_neg (by omega), List.append_eq_nil_iff] at this
    have := this.1
    simp [silence] at this
    omega
  have hv : Valid (init d1 d2 d3 d4 again) := ⟨hne, fun i hi h0 => by simp [init] at hi; omega⟩
  obtain ⟨fuel, s', o, q1, q2⟩ := calls_part l _ hv
  refine ⟨fuel, s', fun f' hf => ?_⟩
  rw [q1 f' hf, q2 l.sum (Nat.le_refl _) (sounds l.sum (8*d1) (8*d2) (8*d3) (8*d4) again)]
  have hr : rest l.sum (init d1 d2 d3 d4 again) = cyc (init d1 d2 d3 d4 again).d ++ after l.sum (init d1 d2 d3 d4 again) := by
    unfold cyc
    rw [List.append_assoc]; rfl
  rw [hr]
  unfold after sounds
  rw [← hc]
  by_cases ha : again = true
  · have := endless l.sum l.sum (Nat.le_refl _) _ [] (hne ha)
    rw [if_pos ha]
    have ha' : (init d1 d2 d3 d4 again).again = true := ha
    rw [if_pos ha']
    simp only [List.append_nil] at this
    exact this.symm
  · rw [if_neg ha]
    have ha' : ¬ (init d1 d2 d3 d4 again).again = true := ha
    rw [if_neg ha', List.append_nil]
    exact eqv_rfl

/-- 1 ms of tone and 1 ms of silence, for ever. -/
example : (calls 20 (init 1 1 0 5 true) [3, 7, 8]).map (fun r => r.2) =
    some [tone 3, tone 5 ++ silence 2, silence 6 ++ tone 2] := by decide +kernel

/-- If it is to be repeated but has no samples, the call does not return. -/
theorem hangs (d3 d4 fuel n : Nat) (hn : 0 < n) : gen fuel (init 0 0 d3 d4 true) n = none := by
  induction fuel with
  | zero => rfl
  | succ fuel ih =>
    rw [gen]
    have e : next (init 0 0 d3 d4 true) 0 = init 0 0 d3 d4 true := by
      unfold next
      rw [if_pos (by right; rfl)]; rfl
    have hs : (init 0 0 d3 d4 true).sec = some 0 := rfl
    have hd : (init 0 0 d3 d4 true).d 0 - (init 0 0 d3 d4 true).pos = 0 := rfl
    rw [hs]
    simp only
    rw [hd, if_neg (by omega), if_neg (by omega), e, Nat.sub_zero, ih]; rfl

end ToneGen
