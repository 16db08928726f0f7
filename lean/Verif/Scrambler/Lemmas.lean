import Verif.Scrambler.Spec

/-!
# Proofs about the scramblers

All of them are instances of one machine on Booleans.
-/

namespace Scrambler

open Spec

/-- A bit as a word. -/
abbrev bw (x : Bool) : Word := if x then 1 else 0

/-- A bit goes into the register. -/
def push (r : Word) (y : Bool) : Word := (r <<< 1) ||| bw y

theorem bw_getLsbD (y : Bool) (i : Nat) : (bw y).getLsbD i = (decide (i = 0) && y) := by
  cases y
  · simp [bw]
  · simp only [bw, if_true, Bool.and_true]
    rw [show (1 : Word) = BitVec.ofNat 32 1 from rfl, BitVec.getLsbD_ofNat]
    by_cases h : i = 0
    · subst h; rfl
    · rw [show Nat.testBit 1 i = false from by rw [Bool.eq_false_iff]; intro e; exact h (Nat.testBit_one_eq_true_iff_self_eq_zero.1 e)]
      simp [h]

theorem push_zero (r : Word) (y : Bool) : (push r y).getLsbD 0 = y := by
  unfold push
  rw [BitVec.getLsbD_or, BitVec.getLsbD_shiftLeft, bw_getLsbD]
  simp

theorem push_succ (r : Word) (y : Bool) (i : Nat) (h : i + 1 < 32) : (push r y).getLsbD (i + 1) = r.getLsbD i := by
  unfold push
  rw [BitVec.getLsbD_or, BitVec.getLsbD_shiftLeft, bw_getLsbD]
  simp [h]

theorem and_one (w : Word) : w &&& 1 = bw (w.getLsbD 0) := by
  apply BitVec.eq_of_getLsbD_eq
  intro i hi
  rw [BitVec.getLsbD_and, bw_getLsbD, show (1 : Word) = bw true from rfl, bw_getLsbD]
  by_cases h : i = 0
  · subst h; simp
  · simp [h]

theorem bw_zero (x : Bool) : (bw x).getLsbD 0 = x := by rw [bw_getLsbD]; simp

theorem bw_and (x : Bool) : bw x &&& 1 = bw x := by cases x <;> rfl

theorem bw_xor (x : Bool) : bw x ^^^ 1 = bw (!x) := by cases x <;> rfl

theorem bw_eq (x : Bool) : (bw x == 1) = x := by cases x <;> rfl

/-- One machine for all of them. -/
structure Kind where
  a : Nat
  b : Nat
  inv : Nat → Bool
  next : Word → Nat → Bool → Nat

structure Kind.Ok (K : Kind) : Prop where
  a0 : 1 ≤ K.a
  ab : K.a ≤ K.b
  b32 : K.b ≤ 32

def Kind.enc (K : Kind) (s : Word × Nat) (x : Bool) : (Word × Nat) × Bool :=
  let y := x ^^ K.inv s.2 ^^ s.1.getLsbD (K.a - 1) ^^ s.1.getLsbD (K.b - 1)
  ((push s.1 y, K.next s.1 s.2 y), y)

def Kind.dec (K : Kind) (s : Word × Nat) (y : Bool) : (Word × Nat) × Bool :=
  ((push s.1 y, K.next s.1 s.2 y), y ^^ K.inv s.2 ^^ s.1.getLsbD (K.a - 1) ^^ s.1.getLsbD (K.b - 1))

def go {σ : Type} (f : σ → Bool → σ × Bool) : σ → List Bool → List Bool
  | _, [] => []
  | s, x :: xs => (f s x).2 :: go f (f s x).1 xs

def goes {σ : Type} (f : σ → Bool → σ × Bool) : σ → List Bool → σ
  | s, [] => s
  | s, x :: xs => goes f (f s x).1 xs

theorem go_append {σ : Type} (f : σ → Bool → σ × Bool) (xs : List Bool) : ∀ (s : σ) (ys : List Bool), go f s (xs ++ ys) = go f s xs ++ go f (goes f s xs) ys := by
  induction xs with
  | nil => intro s ys; rfl
  | cons x xs ih => intro s ys; simp only [List.cons_append, go, goes, ih]

theorem go_length {σ : Type} (f : σ → Bool → σ × Bool) (xs : List Bool) : ∀ s : σ, (go f s xs).length = xs.length := by
  induction xs with
  | nil => intro s; rfl
  | cons x xs ih => intro s; simp only [go, List.length_cons, ih]

theorem goes_append {σ : Type} (f : σ → Bool → σ × Bool) (xs : List Bool) : ∀ (s : σ) (ys : List Bool), goes f s (xs ++ ys) = goes f (goes f s xs) ys := by
  induction xs with
  | nil => intro s ys; rfl
  | cons x xs ih => intro s ys; simp only [List.cons_append, goes, ih]

/-- A machine on words which is one on Booleans. -/
theorem pass_eq {σ τ : Type} {f : σ → Word → σ × Word} {g : τ → Bool → τ × Bool} (e : σ → τ)
    (h : ∀ s x, e (f s (bw x)).1 = (g (e s) x).1 ∧ (f s (bw x)).2 = bw (g (e s) x).2) (xs : List Bool) :
    ∀ s, pass f s xs = go g (e s) xs ∧ e (after f s xs) = goes g (e s) xs := by
  induction xs with
  | nil => intro s; exact ⟨rfl, rfl⟩
  | cons x xs ih =>
    intro s
    obtain ⟨h1, h2⟩ := h s x
    obtain ⟨h3, h4⟩ := ih (f s (bw x)).1
    simp only [pass, go, after, goes]
    rw [show (f s (if x = true then 1 else 0)) = f s (bw x) from rfl, h3, h4, h1, h2, bw_eq]
    exact ⟨rfl, rfl⟩

/-- In step, the decoder undoes the encoder. -/
theorem Kind.round (K : Kind) (xs : List Bool) : ∀ s, go K.dec s (go K.enc s xs) = xs ∧ goes K.dec s (go K.enc s xs) = goes K.enc s xs := by
  induction xs with
  | nil => intro s; exact ⟨rfl, rfl⟩
  | cons x xs ih =>
    intro s
    have e : (K.dec s (K.enc s x).2).1 = (K.enc s x).1 := rfl
    have e2 : (K.dec s (K.enc s x).2).2 = x := by
      simp only [Kind.dec, Kind.enc]
      cases x <;> cases K.inv s.2 <;> cases s.1.getLsbD (K.a - 1) <;> cases s.1.getLsbD (K.b - 1) <;> rfl
    simp only [go, goes, e, e2]
    exact ⟨by rw [(ih _).1], (ih _).2⟩

theorem earlier_cons (r : Word) (y : Bool) (line : List Bool) (n d : Nat) (h1 : 1 ≤ d) (h2 : d ≤ 32) :
    earlier r (y :: line) (n + 1) d = earlier (push r y) line n d := by
  unfold earlier
  by_cases h : d ≤ n
  · rw [if_pos (by omega), if_pos h, show n + 1 - d = (n - d) + 1 by omega, List.getD_cons_succ]
  · rw [if_neg h]
    by_cases h3 : d = n + 1
    · subst h3
      rw [if_pos (Nat.le_refl _), Nat.sub_self, show n + 1 - n - 1 = 0 by omega, push_zero, List.getD_cons_zero]
    · rw [if_neg (by omega), show d - n - 1 = (d - (n + 1) - 1) + 1 by omega, push_succ _ _ _ (by omega)]

theorem earlier_zero (r : Word) (line : List Bool) (d : Nat) (h1 : 1 ≤ d) : earlier r line 0 d = r.getLsbD (d - 1) := by
  unfold earlier
  rw [if_neg (by omega), Nat.sub_zero]

/-- The count just before each bit. -/
def Kind.counts (K : Kind) : Word × Nat → List Bool → Nat → Nat
  | s, [], _ => s.2
  | s, _ :: _, 0 => s.2
  | s, y :: ys, n + 1 => K.counts (push s.1 y, K.next s.1 s.2 y) ys n

theorem Kind.dec_index (K : Kind) (hK : K.Ok) (line : List Bool) : ∀ (s : Word × Nat) (n : Nat), n < line.length →
    (go K.dec s line).getD n false = (line.getD n false ^^ K.inv (K.counts s line n) ^^ earlier s.1 line n K.a ^^ earlier s.1 line n K.b) := by
  have h1 := hK.a0; have h2 := hK.ab; have h3 := hK.b32
  induction line with
  | nil => intro s n hn; simp at hn
  | cons y line ih =>
    intro s n hn
    cases n with
    | zero =>
      simp only [go, List.getD_cons_zero, Kind.counts]
      rw [earlier_zero _ _ _ h1, earlier_zero _ _ _ (by omega)]
      rfl
    | succ n =>
      simp only [go, List.getD_cons_succ, Kind.counts]
      rw [ih _ n (by simpa using hn), earlier_cons _ _ _ _ _ h1 (by omega), earlier_cons _ _ _ _ _ (by omega) h3]
      rfl

theorem Kind.enc_follows (K : Kind) (hK : K.Ok) (s : Word × Nat) (xs : List Bool) :
    Follows K.a K.b s.1 (fun n => K.inv (K.counts s (go K.enc s xs) n)) xs (go K.enc s xs) := by
  refine ⟨go_length _ _ _, fun n hn => ?_⟩
  have := K.dec_index hK (go K.enc s xs) s n (by rw [go_length]; exact hn)
  rw [(K.round xs s).1] at this
  simp only
  rw [this]
  generalize (go K.enc s xs).getD n false = p
  generalize K.inv (K.counts s (go K.enc s xs) n) = q
  generalize earlier s.1 (go K.enc s xs) n K.a = u
  generalize earlier s.1 (go K.enc s xs) n K.b = v
  cases p <;> cases q <;> cases u <;> cases v <;> rfl

/-! ## Getting into step -/

/-- What decides the rest. -/
def Sync (d : Nat) (s s' : Word × Nat) : Prop := Same d s.1 s'.1 ∧ s.2 = s'.2

theorem same_push {d : Nat} {r r' : Word} (h : Same d r r') (y : Bool) (hd : d ≤ 31) : Same (d + 1) (push r y) (push r' y) := by
  intro i hi
  cases i with
  | zero => rw [push_zero, push_zero]
  | succ i => rw [push_succ _ _ _ (by omega), push_succ _ _ _ (by omega)]; exact h i (by omega)

theorem same_mono {d e : Nat} {r r' : Word} (h : Same d r r') (he : e ≤ d) : Same e r r' := fun i hi => h i (by omega)

theorem Kind.dec_sync (K : Kind) (d : Nat) (hd : K.b ≤ d) (hd32 : d ≤ 31) (hK : K.Ok) (hn : ∀ r r' c y, Same d r r' → K.next r c y = K.next r' c y) (line : List Bool) :
    ∀ s s', Sync d s s' → go K.dec s line = go K.dec s' line := by
  have h1 := hK.a0; have h2 := hK.ab
  induction line with
  | nil => intro s s' _; rfl
  | cons y line ih =>
    intro s s' ⟨h, hc⟩
    simp only [go]
    congr 1
    · simp only [Kind.dec, hc, h (K.a - 1) (by omega), h (K.b - 1) (by omega)]
    · exact ih _ _ ⟨same_mono (same_push h y hd32) (by omega), by simp only [Kind.dec]; rw [hc]; exact hn _ _ _ _ h⟩

/-- The registers agree after enough bits. -/
theorem Kind.goes_same (K : Kind) (line : List Bool) : ∀ (s s' : Word × Nat) (d : Nat), Same d s.1 s'.1 → d + line.length ≤ 32 →
    Same (d + line.length) (goes K.dec s line).1 (goes K.dec s' line).1 := by
  induction line with
  | nil => intro s s' d h _; exact h
  | cons y line ih =>
    intro s s' d h hd
    simp only [List.length_cons] at hd ⊢
    rw [show d + (line.length + 1) = (d + 1) + line.length by omega]
    exact ih _ _ (d + 1) (same_push h y (by omega)) (by omega)

theorem Kind.goes_keep (K : Kind) (d : Nat) (hd : d ≤ 31) (line : List Bool) : ∀ (s s' : Word × Nat), Same d s.1 s'.1 → Same d (goes K.dec s line).1 (goes K.dec s' line).1 := by
  induction line with
  | nil => intro s s' h; exact h
  | cons y line ih => intro s s' h; exact ih _ _ (same_mono (same_push h y hd) (by omega))

/-- The registers agree after `d` bits or more. -/
theorem Kind.goes_same' (K : Kind) (d : Nat) (hd : d ≤ 31) (line : List Bool) (hl : d ≤ line.length) (s s' : Word × Nat) : Same d (goes K.dec s line).1 (goes K.dec s' line).1 := by
  rw [← List.take_append_drop d line, goes_append, goes_append]
  apply K.goes_keep d hd
  have := K.goes_same (line.take d) s s' 0 (fun i hi => absurd hi (by omega)) (by simp; omega)
  simpa [Nat.min_eq_left hl] using this

/-! ## The machines of the modems -/

/-- Without a guard. -/
def plain (a b : Nat) : Kind := ⟨a, b, fun _ => false, fun _ _ _ => 0⟩

theorem out_bit (x : Bool) (r : Word) (i j : Nat) : (bw x ^^^ (r >>> i) ^^^ (r >>> j)) &&& 1 = bw (x ^^ r.getLsbD i ^^ r.getLsbD j) := by
  rw [and_one, BitVec.getLsbD_xor, BitVec.getLsbD_xor, bw_zero, BitVec.getLsbD_ushiftRight, BitVec.getLsbD_ushiftRight, Nat.add_zero, Nat.add_zero]

theorem scramble_eq (tap : Nat) (r : Word) (xs : List Bool) :
    pass (scramble tap) r xs = go (plain (tap + 1) 23).enc (r, 0) xs ∧ (after (scramble tap) r xs, 0) = goes (plain (tap + 1) 23).enc (r, 0) xs := by
  refine pass_eq (fun r => (r, 0)) (fun r x => ?_) xs r
  simp only [scramble, out_bit, Kind.enc, plain, Bool.xor_false, Nat.add_sub_cancel]
  first | exact ⟨rfl, rfl⟩ | exact ⟨rfl, trivial⟩

theorem descramble_eq (tap : Nat) (r : Word) (xs : List Bool) :
    pass (descramble tap false) r xs = go (plain (tap + 1) 23).dec (r, 0) xs := by
  refine (pass_eq (fun r => (r, 0)) (fun r x => ?_) xs r).1
  simp only [descramble, bw_and, out_bit, Kind.dec, plain, Bool.xor_false, Nat.add_sub_cancel, Bool.false_eq_true, if_false]
  first | exact ⟨rfl, rfl⟩ | exact ⟨rfl, trivial⟩

theorem descramble29_eq (r : Word) (xs : List Bool) : pass descramble29 r xs = go (plain 18 23).dec (r, 0) xs := by
  refine (pass_eq (fun r => (r, 0)) (fun r x => ?_) xs r).1
  simp only [descramble29, bw_and, out_bit, Kind.dec, plain, Bool.xor_false]
  first | exact ⟨rfl, rfl⟩ | exact ⟨rfl, trivial⟩

theorem descramble34_eq (tap : Nat) (r : Word) (xs : List Bool) : pass (descramble34 tap) r xs = go (plain (tap + 1) 23).dec (r, 0) xs := by
  refine (pass_eq (fun r => (r, 0)) (fun r x => ?_) xs r).1
  simp only [descramble34, out_bit, Kind.dec, plain, Bool.xor_false, Nat.add_sub_cancel]
  first | exact ⟨rfl, rfl⟩ | exact ⟨rfl, trivial⟩

/-- V.22bis. -/
def k22 : Kind := ⟨14, 17, fun c => decide (c ≥ 64), fun _ c y => if y then (if c ≥ 64 then 0 else c) + 1 else 0⟩

theorem scramble22_eq (s : Guarded) (xs : List Bool) :
    pass scramble22 s xs = go k22.enc (s.reg, s.count) xs ∧ ((after scramble22 s xs).reg, (after scramble22 s xs).count) = goes k22.enc (s.reg, s.count) xs := by
  refine pass_eq (fun s : Guarded => (s.reg, s.count)) (fun s x => ?_) xs s
  by_cases h : s.count ≥ 64
  · simp only [scramble22, bw_xor, out_bit, Kind.enc, k22, h, decide_true, if_true]
    have e : ((!x) ^^ s.reg.getLsbD 13 ^^ s.reg.getLsbD 16) = (x ^^ true ^^ s.reg.getLsbD 13 ^^ s.reg.getLsbD 16) := by cases x <;> rfl
    rw [e]
    generalize (x ^^ true ^^ s.reg.getLsbD 13 ^^ s.reg.getLsbD 16) = y
    cases y <;> exact ⟨rfl, rfl⟩
  · simp only [scramble22, out_bit, Kind.enc, k22, h, decide_false, if_false, Bool.xor_false]
    generalize (x ^^ s.reg.getLsbD 13 ^^ s.reg.getLsbD 16) = y
    cases y <;> exact ⟨rfl, trivial⟩

theorem descramble22_eq (s : Guarded) (xs : List Bool) : pass descramble22 s xs = go k22.dec (s.reg, s.count) xs := by
  refine (pass_eq (fun s : Guarded => (s.reg, s.count)) (fun s x => ?_) xs s).1
  by_cases h : s.count ≥ 64
  · simp only [descramble22, bw_and, bw_xor, out_bit, Kind.dec, k22, h, decide_true, if_true]
    have e : (!(x ^^ s.reg.getLsbD 13 ^^ s.reg.getLsbD 16)) = (x ^^ true ^^ s.reg.getLsbD 13 ^^ s.reg.getLsbD 16) := by
      cases x <;> cases s.reg.getLsbD 13 <;> cases s.reg.getLsbD 16 <;> rfl
    rw [e]
    cases x <;> exact ⟨rfl, rfl⟩
  · simp only [descramble22, bw_and, out_bit, Kind.dec, k22, h, decide_false, if_false, Bool.xor_false]
    cases x <;> exact ⟨rfl, trivial⟩

/-- V.27ter. -/
def k27 : Kind := ⟨6, 7, fun c => decide (c ≥ 33), fun r c y => if c ≥ 33 then 0 else if novel27 r (bw y) then 0 else c + 1⟩

theorem scramble27_eq (s : Guarded) (xs : List Bool) :
    pass scramble27 s xs = go k27.enc (s.reg, s.count) xs ∧ ((after scramble27 s xs).reg, (after scramble27 s xs).count) = goes k27.enc (s.reg, s.count) xs := by
  refine pass_eq (fun s : Guarded => (s.reg, s.count)) (fun s x => ?_) xs s
  by_cases h : s.count ≥ 33
  · simp only [scramble27, bw_xor, out_bit, Kind.enc, k27, h, decide_true, if_true]
    have e : (!(x ^^ s.reg.getLsbD 5 ^^ s.reg.getLsbD 6)) = (x ^^ true ^^ s.reg.getLsbD 5 ^^ s.reg.getLsbD 6) := by
      cases x <;> cases s.reg.getLsbD 5 <;> cases s.reg.getLsbD 6 <;> rfl
    rw [e]
    first | exact ⟨rfl, rfl⟩ | exact ⟨rfl, trivial⟩
  · simp only [scramble27, out_bit, Kind.enc, k27, h, decide_false, if_false, Bool.xor_false]
    first | exact ⟨rfl, rfl⟩ | exact ⟨rfl, trivial⟩

theorem descramble27_eq (s : Guarded) (xs : List Bool) : pass (descramble27 false) s xs = go k27.dec (s.reg, s.count) xs := by
  refine (pass_eq (fun s : Guarded => (s.reg, s.count)) (fun s x => ?_) xs s).1
  by_cases h : s.count ≥ 33
  · simp only [descramble27, bw_and, bw_xor, out_bit, Kind.dec, k27, h, decide_true, if_true]
    have e : (!(x ^^ s.reg.getLsbD 5 ^^ s.reg.getLsbD 6)) = (x ^^ true ^^ s.reg.getLsbD 5 ^^ s.reg.getLsbD 6) := by
      cases x <;> cases s.reg.getLsbD 5 <;> cases s.reg.getLsbD 6 <;> rfl
    rw [e]
    first | exact ⟨rfl, rfl⟩ | exact ⟨rfl, trivial⟩
  · simp only [descramble27, bw_and, out_bit, Kind.dec, k27, h, decide_false, if_false, Bool.xor_false]
    first | exact ⟨rfl, rfl⟩ | exact ⟨rfl, trivial⟩

theorem novel27_eq (r : Word) (y : Bool) : novel27 r (bw y) = ((r.getLsbD 7 != y) && (r.getLsbD 8 != y) && (r.getLsbD 11 != y)) := by
  unfold novel27
  rw [and_one]
  simp only [BitVec.getLsbD_and, BitVec.getLsbD_xor, bw_zero, BitVec.getLsbD_ushiftRight, Nat.add_zero]
  cases r.getLsbD 7 <;> cases r.getLsbD 8 <;> cases r.getLsbD 11 <;> cases y <;> rfl

end Scrambler
