import Verif.Gsm.Spec

/-!
# The packing programs on symbolic bits

Each bit of a word is 0, 1 or one of the bits of the data. A program which runs on symbolic words does the same on all the words they stand for.
-/

namespace Gsm

/-- A symbolic bit. -/
inductive Bit (V : Type) where
  | zero
  | one
  | var (v : V)
deriving DecidableEq

variable {V : Type}

/-- The bit it stands for. -/
def Bit.at (σ : V → Bool) : Bit V → Bool
  | .zero => false
  | .one => true
  | .var v => σ v

/-- A symbolic word: the lowest bit first. -/
abbrev Word (V : Type) := List (Bit V)

def bitAt (σ : V → Bool) (w : Word V) (i : Nat) : Bool := ((w[i]?).map (Bit.at σ)).getD false

/-- The number it stands for. -/
def val (σ : V → Bool) : Word V → Nat
  | [] => 0
  | b :: w => (b.at σ).toNat + 2 * val σ w

theorem val_testBit (σ : V → Bool) (w : Word V) (i : Nat) : (val σ w).testBit i = bitAt σ w i := by
  induction w generalizing i with
  | nil => simp [val, bitAt]
  | cons b w ih =>
    cases i with
    | zero =>
      simp only [val, Nat.testBit_zero, bitAt, List.getElem?_cons_zero, Option.map_some, Option.getD_some]
      cases b.at σ <;> simp
    | succ i =>
      rw [Nat.testBit_succ]
      have : (val σ (b :: w)) / 2 = val σ w := by
        simp only [val]
        cases b.at σ <;> simp <;> omega
      rw [this, ih]
      rfl

theorem val_eq {σ : V → Bool} {w : Word V} {n : Nat} (h : ∀ i, bitAt σ w i = n.testBit i) : val σ w = n :=
  Nat.eq_of_testBit_eq fun i => by rw [val_testBit, h]

def wshl (w : Word V) (k : Nat) : Word V := List.replicate k .zero ++ w

def wand : Word V → Nat → Word V
  | [], _ => []
  | b :: w, m => (if m % 2 = 1 then b else .zero) :: wand w (m / 2)

/-- The union of two bits is known if one of them is zero. -/
def bor : Bit V → Bit V → Option (Bit V)
  | .zero, b => some b
  | a, .zero => some a
  | _, _ => none

def wor : Word V → Word V → Option (Word V)
  | [], w => some w
  | w, [] => some w
  | a :: v, b :: w => (bor a b).bind fun c => (wor v w).map fun u => c :: u

/-- A constant. -/
def wnum : Nat → Nat → Word V
  | 0, _ => []
  | k + 1, n => (if n % 2 = 1 then .one else .zero) :: wnum k (n / 2)

theorem val_shr (σ : V → Bool) (w : Word V) (k : Nat) : val σ (w.drop k) = val σ w >>> k := by
  apply val_eq
  intro i
  rw [Nat.testBit_shiftRight, val_testBit]
  simp [bitAt]

theorem val_shl (σ : V → Bool) (w : Word V) (k : Nat) : val σ (wshl w k) = val σ w <<< k := by
  apply val_eq
  intro i
  rw [Nat.testBit_shiftLeft, val_testBit]
  simp only [wshl, bitAt]
  by_cases h : i < k
  · have h2 : ¬ (i ≥ k) := by omega
    rw [List.getElem?_append_left (by simpa using h)]
    simp [h, h2, Bit.at]
  · have h2 : i ≥ k := by omega
    rw [List.getElem?_append_right (by simpa using h2)]
    simp [h2]

theorem val_take (σ : V → Bool) (w : Word V) (k : Nat) : val σ (w.take k) = val σ w % 2 ^ k := by
  apply val_eq
  intro i
  rw [Nat.testBit_mod_two_pow, val_testBit]
  simp only [bitAt, List.getElem?_take]
  by_cases h : i < k <;> simp [h]

theorem val_and (σ : V → Bool) (w : Word V) (m : Nat) : val σ (wand w m) = val σ w &&& m := by
  apply val_eq
  intro i
  rw [Nat.testBit_and, val_testBit]
  induction w generalizing m i with
  | nil => simp [wand, bitAt]
  | cons b w ih =>
    cases i with
    | zero =>
      simp only [wand, bitAt, List.getElem?_cons_zero, Option.map_some, Option.getD_some, Nat.testBit_zero]
      by_cases h : m % 2 = 1 <;> simp [h, Bit.at]
    | succ i =>
      rw [Nat.testBit_succ]
      exact ih (m / 2) i

theorem bor_at (σ : V → Bool) {a b c : Bit V} (h : bor a b = some c) : c.at σ = (a.at σ || b.at σ) := by
  cases a <;> cases b <;> simp_all [bor, Bit.at] <;> (try cases h) <;> (try rfl) <;> simp_all [Bit.at]
  all_goals (subst h; rfl)

theorem wor_bitAt (σ : V → Bool) : ∀ (v w : Word V) {u : Word V}, wor v w = some u → ∀ i, bitAt σ u i = (bitAt σ v i || bitAt σ w i)
  | [], w, u, h, i => by
    rw [show wor [] w = some w from by cases w <;> rfl] at h
    cases h
    simp [bitAt]
  | a :: v, [], u, h, i => by
    cases h
    simp [bitAt]
  | a :: v, b :: w, u, h, i => by
    simp only [wor, Option.bind_eq_some_iff, Option.map_eq_some_iff] at h
    obtain ⟨c, hc, t, ht, rfl⟩ := h
    cases i with
    | zero => simpa [bitAt] using bor_at σ hc
    | succ i => exact wor_bitAt σ v w ht i

theorem val_or (σ : V → Bool) {v w u : Word V} (h : wor v w = some u) : val σ u = val σ v ||| val σ w := by
  apply val_eq
  intro i
  rw [Nat.testBit_or, val_testBit, val_testBit, wor_bitAt σ v w h]

theorem val_num (σ : V → Bool) (k n : Nat) (h : n < 2 ^ k) : val σ (wnum k n) = n := by
  induction k generalizing n with
  | zero => simp [wnum, val]; simp at h; omega
  | succ k ih =>
    simp only [wnum, val]
    rw [ih (n / 2) (by rw [Nat.pow_succ] at h; omega)]
    by_cases h2 : n % 2 = 1
    · rw [if_pos h2]; simp only [Bit.at, Bool.toNat_true]; omega
    · rw [if_neg h2]; simp only [Bit.at, Bool.toNat_false]; omega

/-! ## Programs -/

/-- The variables, with symbolic words. A field which has not been set is unknown. -/
structure SState (V : Type) where
  reg : Word V
  input : List (Word V)
  output : List (Word V)
  cur : Nat
  frames : Nat → Place → Option (Word V)

def Expr.seval (s : SState V) : Expr → Option (Word V)
  | .sr => some s.reg
  | .c => s.input.head?
  | .fld p => s.frames s.cur p
  | .num n => if n < 2 ^ 8 then some (wnum 8 n) else none
  | .shr e k => (e.seval s).map (·.drop k)
  | .shl e k => (e.seval s).map (wshl · k)
  | .and e m => (e.seval s).map (wand · m)
  | .or e f => (e.seval s).bind fun x => (f.seval s).bind fun y => wor x y

def Stmt.sexec (s : SState V) : Stmt → Option (SState V)
  | .sr e step => (e.seval s).map fun v => { s with reg := v.take 16, input := stepped step s.input }
  | .out e => (e.seval s).map fun v => { s with output := s.output ++ [v.take 8] }
  | .set p e step => (e.seval s).map fun v => { s with frames := put s.frames s.cur p (some v), input := stepped step s.input }
  | .join p e step => (e.seval s).bind fun v => (s.frames s.cur p).bind fun w => (wor w v).map fun u =>
      { s with frames := put s.frames s.cur p (some u), input := stepped step s.input }
  | .next => some { s with cur := s.cur + 1 }

def sexec (s : SState V) : List Stmt → Option (SState V)
  | [] => some s
  | t :: ts => (t.sexec s).bind fun s => sexec s ts

/-- The symbolic variables stand for the variables. -/
structure Stands (σ : V → Bool) (s : State) (q : SState V) : Prop where
  reg : s.reg = val σ q.reg
  input : s.input = q.input.map (val σ)
  output : s.output = q.output.map (val σ)
  cur : s.cur = q.cur
  frames : ∀ i p w, q.frames i p = some w → s.frames i p = val σ w

theorem seval_sound {σ : V → Bool} {s : State} {q : SState V} (h : Stands σ s q) (e : Expr) {w : Word V} (he : e.seval q = some w) :
    e.eval s = some (val σ w) := by
  induction e generalizing w with
  | sr => cases he; rw [Expr.eval, h.reg]
  | c =>
    rw [Expr.eval, h.input]
    simp only [Expr.seval] at he
    cases hq : q.input with
    | nil => rw [hq] at he; cases he
    | cons a l => rw [hq] at he; cases he; rfl
  | fld p =>
    rw [Expr.eval, h.cur]
    exact congrArg some (h.frames _ _ _ he)
  | num n =>
    simp only [Expr.seval] at he
    split at he
    · cases he; rw [Expr.eval, val_num σ 8 n (by assumption)]
    · cases he
  | shr e k ih =>
    simp only [Expr.seval, Option.map_eq_some_iff] at he
    obtain ⟨v, hv, rfl⟩ := he
    rw [Expr.eval, ih hv, val_shr]
    rfl
  | shl e k ih =>
    simp only [Expr.seval, Option.map_eq_some_iff] at he
    obtain ⟨v, hv, rfl⟩ := he
    rw [Expr.eval, ih hv, val_shl]
    rfl
  | and e m ih =>
    simp only [Expr.seval, Option.map_eq_some_iff] at he
    obtain ⟨v, hv, rfl⟩ := he
    rw [Expr.eval, ih hv, val_and]
    rfl
  | or e f ih1 ih2 =>
    simp only [Expr.seval, Option.bind_eq_some_iff] at he
    obtain ⟨x, hx, y, hy, hw⟩ := he
    rw [Expr.eval, ih1 hx, ih2 hy, val_or σ hw]
    rfl

theorem stepped_map {α β : Type} (f : α → β) (b : Bool) (l : List α) : stepped b (l.map f) = (stepped b l).map f := by
  cases b <;> cases l <;> rfl

theorem put_stands {σ : V → Bool} {f : Nat → Place → Nat} {g : Nat → Place → Option (Word V)} (h : ∀ i p w, g i p = some w → f i p = val σ w)
    (cur : Nat) (p : Place) (u : Word V) : ∀ i q w, put g cur p (some u) i q = some w → put f cur p (val σ u) i q = val σ w := by
  intro i q w hw
  unfold put at hw ⊢
  by_cases hc : i = cur ∧ q = p
  · rw [if_pos hc] at hw ⊢
    cases hw
    rfl
  · rw [if_neg hc] at hw ⊢
    exact h i q w hw

theorem stmt_sound {σ : V → Bool} {s : State} {q q' : SState V} (h : Stands σ s q) (t : Stmt) (ht : t.sexec q = some q') :
    ∃ s', t.exec s = some s' ∧ Stands σ s' q' := by
  cases t with
  | sr e b =>
    simp only [Stmt.sexec, Option.map_eq_some_iff] at ht
    obtain ⟨v, hv, rfl⟩ := ht
    rw [Stmt.exec, seval_sound h e hv]
    refine ⟨_, rfl, ?_, ?_, h.output, h.cur, h.frames⟩
    · exact (val_take σ v 16).symm
    · show stepped b s.input = _
      rw [h.input]; exact stepped_map _ _ _
  | out e =>
    simp only [Stmt.sexec, Option.map_eq_some_iff] at ht
    obtain ⟨v, hv, rfl⟩ := ht
    rw [Stmt.exec, seval_sound h e hv]
    refine ⟨_, rfl, h.reg, h.input, ?_, h.cur, h.frames⟩
    show s.output ++ [val σ v % 256] = (q.output ++ [v.take 8]).map (val σ)
    rw [List.map_append, h.output]
    simp only [List.map_cons, List.map_nil, val_take]
  | set p e b =>
    simp only [Stmt.sexec, Option.map_eq_some_iff] at ht
    obtain ⟨v, hv, rfl⟩ := ht
    rw [Stmt.exec, seval_sound h e hv]
    refine ⟨_, rfl, h.reg, ?_, h.output, h.cur, ?_⟩
    · show stepped b s.input = _
      rw [h.input]; exact stepped_map _ _ _
    · show ∀ i r w, put q.frames q.cur p (some v) i r = some w → put s.frames s.cur p (val σ v) i r = val σ w
      rw [h.cur]
      exact put_stands h.frames _ _ _
  | join p e b =>
    simp only [Stmt.sexec, Option.bind_eq_some_iff, Option.map_eq_some_iff] at ht
    obtain ⟨v, hv, w, hw, u, hu, rfl⟩ := ht
    rw [Stmt.exec, seval_sound h e hv]
    refine ⟨_, rfl, h.reg, ?_, h.output, h.cur, ?_⟩
    · show stepped b s.input = _
      rw [h.input]; exact stepped_map _ _ _
    · show ∀ i r w, put q.frames q.cur p (some u) i r = some w → put s.frames s.cur p (s.frames s.cur p ||| val σ v) i r = val σ w
      rw [h.cur, h.frames _ _ _ hw, ← val_or σ hu]
      exact put_stands h.frames _ _ _
  | next =>
    cases ht
    exact ⟨_, rfl, h.reg, h.input, h.output, by show s.cur + 1 = q.cur + 1; rw [h.cur], h.frames⟩

theorem exec_sound {σ : V → Bool} {s : State} {q q' : SState V} (h : Stands σ s q) (ts : List Stmt) (ht : sexec q ts = some q') :
    ∃ s', exec s ts = some s' ∧ Stands σ s' q' := by
  induction ts generalizing s q with
  | nil => cases ht; exact ⟨s, rfl, h⟩
  | cons t ts ih =>
    simp only [sexec, Option.bind_eq_some_iff] at ht
    obtain ⟨q1, h1, h2⟩ := ht
    obtain ⟨s1, e1, r1⟩ := stmt_sound h t h1
    obtain ⟨s2, e2, r2⟩ := ih r1 h2
    exact ⟨s2, by rw [exec, e1]; exact e2, r2⟩

end Gsm
