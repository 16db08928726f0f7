import Verif.Qm.Spec

/-!
# The table, numbers and intervals
-/

namespace Qm

theorem val_append_one (l : List Nat) (b : Nat) : val (l ++ [b]) = 256 * val l + b := by
  simp [val, List.foldl_append]

theorem val_foldl (l : List Nat) (x : Nat) : l.foldl (fun x b => 256 * x + b) x = x * 256 ^ l.length + val l := by
  induction l generalizing x with
  | nil => simp [val]
  | cons b l ih =>
    have h1 := ih (256 * x + b)
    have h2 := ih b
    have e : val (b :: l) = l.foldl (fun x b => 256 * x + b) b := by simp [val]
    rw [List.foldl_cons, h1, e, h2, List.length_cons, Nat.pow_succ, Nat.add_mul, Nat.mul_comm 256 x, Nat.mul_assoc, Nat.mul_comm 256]
    omega

theorem val_append (l m : List Nat) : val (l ++ m) = val l * 256 ^ m.length + val m := by
  rw [val, List.foldl_append, val_foldl]
  rfl

theorem val_lt (l : List Nat) (h : ∀ b ∈ l, b < 256) : val l < 256 ^ l.length := by
  induction l with
  | nil => decide
  | cons b l ih =>
    have h1 := ih (fun x hx => h x (by simp [hx]))
    have h2 : b < 256 := h b (by simp)
    have e := val_append [b] l
    rw [List.singleton_append] at e
    rw [e, List.length_cons, Nat.pow_succ]
    have : val [b] = b := by simp [val]
    rw [this]
    calc b * 256 ^ l.length + val l < b * 256 ^ l.length + 256 ^ l.length := by omega
      _ = (b + 1) * 256 ^ l.length := by rw [Nat.add_mul, Nat.one_mul]
      _ ≤ 256 * 256 ^ l.length := Nat.mul_le_mul_right _ (by omega)
      _ = _ := Nat.mul_comm _ _

theorem val_ones (n : Nat) : val (List.replicate n 0xFF) + 1 = 256 ^ n := by
  induction n with
  | zero => rfl
  | succ n ih =>
    rw [List.replicate_succ', val_append_one, Nat.pow_succ]
    omega

theorem val_zeros (n : Nat) : val (List.replicate n 0) = 0 := by
  induction n with
  | zero => rfl
  | succ n ih =>
    rw [List.replicate_succ', val_append_one]
    omega

theorem stuff_append (l m : List Nat) : stuff (l ++ m) = stuff l ++ stuff m := by
  induction l with
  | nil => rfl
  | cons b l ih =>
    simp only [List.cons_append, stuff]
    split
    · rw [ih]; rfl
    · rw [ih]; rfl

/-! ## The table -/

/-- The index of the state is that of a row of the table. -/
def Good (st : St) : Prop := index st < prob.length

instance (st : St) : Decidable (Good st) := inferInstanceAs (Decidable (_ < _))

theorem all_st {P : St → Prop} (h : ∀ i : Fin 256, P (BitVec.ofFin i)) (st : St) : P st := h st.toFin

theorem table_facts : ∀ i : Fin 256, Good (BitVec.ofFin i) →
    1 ≤ lsz (BitVec.ofFin i) ∧ lsz (BitVec.ofFin i) < 0x8000 ∧ Good (afterLps (BitVec.ofFin i)) ∧ Good (afterMps (BitVec.ofFin i)) := by
  decide +kernel

theorem Good.lsz {st : St} (h : Good st) : 1 ≤ lsz st ∧ Qm.lsz st < 0x8000 := by
  have := table_facts st.toFin h
  exact ⟨this.1, this.2.1⟩

theorem Good.afterLps {st : St} (h : Good st) : Good (afterLps st) := (table_facts st.toFin h).2.2.1

theorem Good.afterMps {st : St} (h : Good st) : Good (afterMps st) := (table_facts st.toFin h).2.2.2

/-! ## The parts of an interval -/

theorem part_facts {a : Nat} {st : St} (h : Good st) (h1 : 0x8000 ≤ a) (h2 : a ≤ 0x10000) (pix : Bool) :
    1 ≤ (part a st pix).2.1 ∧ (part a st pix).1 + (part a st pix).2.1 ≤ a ∧ Good (part a st pix).2.2 ∧ (part a st pix).2.1 ≤ 0x10000 := by
  obtain ⟨l1, l2⟩ := h.lsz
  unfold part
  dsimp only
  split
  · split
    · exact ⟨by dsimp only; omega, by dsimp only; omega, h, by dsimp only; omega⟩
    · split
      · exact ⟨by dsimp only; omega, by dsimp only; omega, h.afterMps, by dsimp only; omega⟩
      · exact ⟨by dsimp only; omega, by dsimp only; omega, h.afterMps, by dsimp only; omega⟩
  · split
    · exact ⟨by dsimp only; omega, by dsimp only; omega, h.afterLps, by dsimp only; omega⟩
    · exact ⟨by dsimp only; omega, by dsimp only; omega, h.afterLps, by dsimp only; omega⟩

/-- An interval as it is between decisions. -/
structure Iv.Ok (i : Iv) : Prop where
  lo : 0x8000 ≤ i.a
  hi : i.a ≤ 0x10000
  good : ∀ cx, Good (i.st cx)

/-- One interval is within another. -/
def Iv.Within (j i : Iv) : Prop := ∃ k, j.t = i.t + k ∧ i.low * 2 ^ k ≤ j.low ∧ j.low + j.a ≤ (i.low + i.a) * 2 ^ k

theorem Iv.Within.refl (i : Iv) : i.Within i := ⟨0, rfl, by simp, by simp⟩

theorem Iv.Within.trans {i j k : Iv} (h : k.Within j) (h' : j.Within i) : k.Within i := by
  obtain ⟨m, m1, m2, m3⟩ := h
  obtain ⟨n, n1, n2, n3⟩ := h'
  refine ⟨n + m, by omega, ?_, ?_⟩
  · rw [Nat.pow_add, ← Nat.mul_assoc]
    exact Nat.le_trans (Nat.mul_le_mul_right _ n2) m2
  · rw [Nat.pow_add, ← Nat.mul_assoc]
    exact Nat.le_trans m3 (Nat.mul_le_mul_right _ n3)

theorem Iv.Has.within {i j : Iv} {l : List Nat} (h : j.Has l) (hw : j.Within i) : i.Has l := by
  obtain ⟨k, k1, k2, k3⟩ := hw
  obtain ⟨h1, h2⟩ := h
  rw [k1, Nat.pow_add, ← Nat.mul_assoc] at h1 h2
  have hk : 0 < 2 ^ k := Nat.two_pow_pos k
  constructor
  · refine Nat.le_of_mul_le_mul_right ?_ hk
    rw [Nat.mul_right_comm]
    exact Nat.le_trans (Nat.mul_le_mul_right _ k2) h1
  · refine Nat.lt_of_mul_lt_mul_right (a := 2 ^ k) ?_
    refine Nat.lt_of_lt_of_le h2 ?_
    rw [Nat.mul_right_comm (i.low + i.a)]
    exact Nat.mul_le_mul_right _ k3

theorem Iv.finer_within (i : Iv) (k : Nat) : (i.finer k).Within i := ⟨k, rfl, Nat.le_refl _, by simp only [Iv.finer]; rw [Nat.add_mul]; exact Nat.le_refl _⟩

theorem Iv.renorm_within (n : Nat) (i : Iv) : (i.renorm n).Within i := by
  induction n generalizing i with
  | zero => exact .refl _
  | succ n ih =>
    unfold Iv.renorm
    split
    · exact (ih _).trans (i.finer_within 1)
    · exact .refl _

theorem Iv.narrow_within {i : Iv} (h : i.Ok) (cx : Cx) (pix : Bool) : (i.narrow cx pix).Within i := by
  obtain ⟨_, p2, _, _⟩ := part_facts (h.good cx) h.lo h.hi pix
  refine ⟨0, rfl, ?_, ?_⟩
  · simp only [Iv.narrow]; omega
  · simp only [Iv.narrow]; omega

theorem Iv.step_within {i : Iv} (h : i.Ok) (cx : Cx) (pix : Bool) : (i.step cx pix).Within i := (Iv.renorm_within _ _).trans (i.narrow_within h cx pix)

theorem Iv.renorm_st (n : Nat) (i : Iv) : (i.renorm n).st = i.st := by
  induction n generalizing i with
  | zero => rfl
  | succ n ih =>
    unfold Iv.renorm
    split
    · exact ih _
    · rfl

theorem Iv.renorm_a (n : Nat) (i : Iv) (h : 0x8000 ≤ i.a * 2 ^ n) (h2 : i.a ≤ 0x10000) : 0x8000 ≤ (i.renorm n).a ∧ (i.renorm n).a ≤ 0x10000 := by
  induction n generalizing i with
  | zero => exact ⟨by simpa [Iv.renorm] using h, h2⟩
  | succ n ih =>
    unfold Iv.renorm
    split
    · refine ih _ ?_ ?_
      · simp only [Iv.finer]
        rw [Nat.pow_succ, Nat.mul_comm (2 ^ n), ← Nat.mul_assoc] at h
        exact h
      · simp only [Iv.finer]; omega
    · exact ⟨by omega, h2⟩

theorem setSt_good {st : Cx → St} (h : ∀ cx, Good (st cx)) (cx : Cx) {x : St} (hx : Good x) : ∀ cy, Good (setSt st cx x cy) := by
  intro cy
  unfold setSt
  split
  · exact hx
  · exact h cy

theorem Iv.step_ok {i : Iv} (h : i.Ok) (cx : Cx) (pix : Bool) : (i.step cx pix).Ok := by
  obtain ⟨p1, p2, p3, p4⟩ := part_facts (h.good cx) h.lo h.hi pix
  obtain ⟨r1, r2⟩ := Iv.renorm_a 16 (i.narrow cx pix) (by simp only [Iv.narrow]; omega) p4
  refine ⟨r1, r2, ?_⟩
  show ∀ cy, Good (((i.narrow cx pix).renorm 16).st cy)
  rw [Iv.renorm_st]
  exact setSt_good h.good cx p3

/-- The interval after a number of decisions. -/
def Iv.steps (i : Iv) (l : List (Cx × Bool)) : Iv := l.foldl (fun i x => i.step x.1 x.2) i

theorem Iv.steps_ok (l : List (Cx × Bool)) {i : Iv} (h : i.Ok) : (i.steps l).Ok ∧ (i.steps l).Within i := by
  induction l generalizing i with
  | nil => exact ⟨h, .refl _⟩
  | cons x l ih =>
    obtain ⟨h1, h2⟩ := ih (i.step_ok h x.1 x.2)
    exact ⟨h1, h2.trans (i.step_within h x.1 x.2)⟩

theorem Iv.start_ok {st : Cx → St} (h : ∀ cx, Good (st cx)) : (Iv.start st).Ok := ⟨by show 0x8000 ≤ 0x10000; decide, by show 0x10000 ≤ 0x10000; decide, h⟩

end Qm
