import Verif.NonEcm.Streams
import Verif.BitOps.Props

/-!
# The buffer as a queue, and the search for EOLs
-/

namespace NonEcm

/-! ## Octets -/

theorem octet_all {p : Octet → Prop} (h : ∀ i : Fin 256, p (BitVec.ofFin i)) : ∀ b, p b := fun b => h b.toFin

theorem bitsOf_lead (b : Octet) (h : b ≠ 0) : bitsOf b = List.replicate (7 - lower b).toNat false ++ true :: (bitsOf b).drop ((7 - lower b).toNat + 1) ∧
    0 ≤ lower b ∧ lower b ≤ 7 := by
  revert h
  revert b
  apply octet_all
  decide +kernel

theorem bitsOf_trail (b : Octet) (h : b ≠ 0) : (∀ j, j < zc 0 (bitsOf b) → b.getLsbD j = false) ∧ b.getLsbD (zc 0 (bitsOf b)) = true ∧
    zc 0 (bitsOf b) < 8 := by
  revert h
  revert b
  apply octet_all
  decide +kernel

theorem bitsOf_length (b : Octet) : (bitsOf b).length = 8 := by simp [bitsOf]

theorem bitsOf_zero : bitsOf 0 = List.replicate 8 false := by decide

theorem bitsOf_ones : bitsOf 0xFF = List.replicate 8 true := by decide

theorem bits_append (a b : List Octet) : bits (a ++ b) = bits a ++ bits b := List.flatMap_append

theorem bits_cons (a : Octet) (b : List Octet) : bits (a :: b) = bitsOf a ++ bits b := rfl

theorem bits_one (a : Octet) : bits [a] = bitsOf a := by simp [bits]

theorem bits_zeros (n : Nat) : bits (List.replicate n 0) = List.replicate (8 * n) false := by
  induction n with
  | zero => rfl
  | succ n ih => rw [List.replicate_succ, bits_cons, ih, bitsOf_zero, List.replicate_append_replicate, Nat.mul_succ, Nat.add_comm]

theorem zc_octet (k : Nat) (b : Octet) (h : b ≠ 0) : zc k (bitsOf b) = zc 0 (bitsOf b) := by
  obtain ⟨h1, _, _⟩ := bitsOf_lead b h
  rw [h1]
  simp only [zc_append, zc]

/-! ## The bits seen last -/

/-- The register holds the end of a stream with `z` zeros at its end. -/
def Tail (r : BitVec 32) (z : Nat) : Prop := (∀ j, j < min 11 z → r.getLsbD j = false) ∧ (z < 11 → r.getLsbD z = true)

theorem tail_start : Tail 0xFFFF 0 := ⟨fun j hj => by omega, fun _ => by decide⟩

theorem shiftIn_bit (r : BitVec 32) (b : Octet) (j : Nat) (hj : j < 32) :
    ((r <<< 8) ||| b.setWidth 32).getLsbD j = if j < 8 then b.getLsbD j else r.getLsbD (j - 8) := by
  simp only [BitVec.getLsbD_or, BitVec.getLsbD_shiftLeft, BitVec.getLsbD_setWidth]
  by_cases h : j < 8
  · simp [h, hj]
  · have : b.getLsbD j = false := BitVec.getLsbD_of_ge _ _ (by omega)
    simp [h, hj, this]

theorem tail_next {r : BitVec 32} {z : Nat} (h : Tail r z) (b : Octet) : Tail ((r <<< 8) ||| b.setWidth 32) (zc z (bitsOf b)) := by
  by_cases hb : b = 0
  · subst hb
    rw [bitsOf_zero, zc_zeros]
    refine ⟨fun j hj => ?_, fun hz => ?_⟩
    · rw [shiftIn_bit _ _ _ (by omega)]
      by_cases h8 : j < 8
      · rw [if_pos h8]; simp
      · rw [if_neg h8]; exact h.1 _ (by omega)
    · rw [shiftIn_bit _ _ _ (by omega), if_neg (by omega), Nat.add_sub_cancel]
      exact h.2 (by omega)
  · rw [zc_octet z b hb]
    obtain ⟨h1, h2, h3⟩ := bitsOf_trail b hb
    refine ⟨fun j hj => ?_, fun hz => ?_⟩
    · rw [shiftIn_bit _ _ _ (by omega), if_pos (by omega)]
      exact h1 j (by omega)
    · rw [shiftIn_bit _ _ _ (by omega), if_pos h3]
      exact h2

theorem tail_bottom {r : BitVec 32} {z : Nat} (h : Tail r z) : BitOps.bottomBit (r ||| 0x800) = min 11 (z : Int) := by
  have hbit : ∀ j, (r ||| 0x800#32).getLsbD j = (r.getLsbD j || decide (j = 11)) := by
    intro j
    rw [BitVec.getLsbD_or]
    congr 1
    by_cases hj : j < 32
    · revert j; decide
    · rw [BitVec.getLsbD_of_ge _ _ (by omega)]
      exact (decide_eq_false (by omega)).symm
  have hmin : (r ||| 0x800#32).getLsbD (min 11 z) = true := by
    rw [hbit]
    by_cases hz : z < 11
    · rw [show min 11 z = z by omega, h.2 hz]; rfl
    · rw [show min 11 z = 11 by omega]; simp
  have hlow : ∀ j, j < min 11 z → (r ||| 0x800#32).getLsbD j = false := by
    intro j hj
    rw [hbit, h.1 j hj, decide_eq_false (by omega)]
    rfl
  rcases BitOps.bottom_bit_correct (r ||| 0x800#32) with ⟨h0, _⟩ | ⟨k, hk, h1, h2⟩
  · rw [h0] at hmin
    simp at hmin
  · have : k = min 11 z := by
      rcases Nat.lt_trichotomy k (min 11 z) with hlt | heq | hgt
      · rw [hlow k hlt] at h1; cases h1
      · exact heq
      · rw [h2 _ hgt] at hmin; cases hmin
    show BitOps.bottomBit (r ||| 0x800#32) = _
    rw [hk, this]
    omega

/-- The test finds just the EOLs. -/
theorem isEol_iff {s : State} {z : Nat} (h : Tail s.bitStream z) (b : Octet) : isEol s b = true ↔ Eol z (bitsOf b) := by
  unfold isEol
  rw [decide_eq_true_iff, tail_bottom h]
  constructor
  · rintro ⟨hb, hd⟩
    obtain ⟨h1, h2, h3⟩ := bitsOf_lead b hb
    exact ⟨_, _, h1, by omega⟩
  · rintro ⟨l, t, ht, hl⟩
    have hb : b ≠ 0 := by
      intro hb
      have := congrArg (fun x => true ∈ x) (hb ▸ ht)
      rw [bitsOf_zero] at this
      simp at this
    refine ⟨hb, ?_⟩
    obtain ⟨h1, h2, h3⟩ := bitsOf_lead b hb
    have hlow : l = (7 - lower b).toNat := by
      rw [h1] at ht
      generalize (7 - lower b).toNat = m at ht
      generalize (List.replicate m false ++ true :: (bitsOf b).drop (m + 1)).drop (m + 1) = q at ht
      clear h1 h2 h3 hl hb h
      generalize (bitsOf b).drop (m + 1) = u at ht
      clear q
      induction m generalizing l with
      | zero =>
        cases l with
        | zero => rfl
        | succ l => cases ht
      | succ m ih =>
        cases l with
        | zero => cases ht
        | succ l =>
          rw [List.replicate_succ, List.replicate_succ] at ht
          exact congrArg (· + 1) (ih l (List.cons.inj ht).2)
    omega

/-! ## The queue -/

/-- The buffer holds the octets which may be sent, and those which are held back. -/
structure Ring (s : State) (ready held : List Octet) : Prop where
  room : ready.length + held.length < size
  out : s.outPtr < size
  eol : s.eolPtr = (s.outPtr + ready.length) % size
  inp : s.inPtr = (s.outPtr + (ready.length + held.length)) % size
  data : ∀ k, k < ready.length + held.length → s.data ((s.outPtr + k) % size) = (ready ++ held).getD k 0

theorem mod_size {a k : Nat} (ha : a < size) (hk : k < size) : (a + k) % size = if a + k < size then a + k else a + k - size := by
  by_cases h : a + k < size
  · rw [if_pos h, Nat.mod_eq_of_lt h]
  · rw [if_neg h, Nat.mod_eq_sub_mod (by omega), Nat.mod_eq_of_lt (by omega)]

theorem mod_size_inj {a j k : Nat} (ha : a < size) (hj : j < size) (hk : k < size) (h : (a + j) % size = (a + k) % size) : j = k := by
  rw [mod_size ha hj, mod_size ha hk] at h
  split at h <;> split at h <;> omega

theorem Ring.level {s : State} {r h : List Octet} (hr : Ring s r h) : level s = r.length + h.length := by
  have h1 := hr.room
  have h2 := hr.out
  unfold NonEcm.level
  rw [hr.inp, mod_size h2 h1]
  split
  · rw [show s.outPtr + (r.length + h.length) + size - s.outPtr = r.length + h.length + size by omega, Nat.add_mod_right, Nat.mod_eq_of_lt h1]
  · rw [show s.outPtr + (r.length + h.length) - size + size - s.outPtr = r.length + h.length by omega, Nat.mod_eq_of_lt h1]

theorem Ring.store {s : State} {r h : List Octet} (hr : Ring s r h) (b : Octet) (hroom : r.length + h.length + 1 < size) :
    Ring (store s b) r (h ++ [b]) := by
  have h2 := hr.out
  refine ⟨by simp; omega, h2, hr.eol, ?_, ?_⟩
  · show (s.inPtr + 1) % size = (s.outPtr + (r.length + (h ++ [b]).length)) % size
    rw [hr.inp, Nat.mod_add_mod, List.length_append]
    rfl
  · intro k hk
    simp only [List.length_append, List.length_cons, List.length_nil] at hk
    show (if (s.outPtr + k) % size = s.inPtr then b else s.data ((s.outPtr + k) % size)) = _
    rw [← List.append_assoc]
    by_cases hkk : k = r.length + h.length
    · subst hkk
      rw [if_pos hr.inp.symm]
      simp [List.getD_eq_getElem?_getD]
    · rw [if_neg, hr.data k (by omega)]
      · simp only [List.getD_eq_getElem?_getD]
        rw [List.getElem?_append_left (l₁ := r ++ h) (by rw [List.length_append]; omega)]
      · intro heq
        rw [hr.inp] at heq
        exact hkk (mod_size_inj h2 (by omega) (by omega) heq)

theorem Ring.eq_iff {s : State} {r h : List Octet} (hr : Ring s r h) : s.outPtr = s.eolPtr ↔ r = [] := by
  have h1 := hr.room
  have h2 := hr.out
  rw [hr.eol, mod_size h2 (by omega)]
  constructor
  · intro heq
    cases r with
    | nil => rfl
    | cons a r =>
      simp only [List.length_cons] at heq h1
      split at heq <;> omega
  · rintro rfl
    simp only [List.length_nil, Nat.add_zero]
    rw [if_pos h2]

theorem Ring.head {s : State} {a : Octet} {r h : List Octet} (hr : Ring s (a :: r) h) : s.data s.outPtr = a := by
  have := hr.data 0 (by simp)
  rw [Nat.add_zero, Nat.mod_eq_of_lt hr.out] at this
  exact this

theorem Ring.pop {s : State} {a : Octet} {r h : List Octet} (hr : Ring s (a :: r) h) {q : State} (h1 : q.outPtr = (s.outPtr + 1) % size)
    (h2 : q.eolPtr = s.eolPtr) (h3 : q.inPtr = s.inPtr) (h4 : q.data = s.data) : Ring q r h := by
  have hroom := hr.room
  simp only [List.length_cons] at hroom
  refine ⟨by omega, by rw [h1]; exact Nat.mod_lt _ (by decide), ?_, ?_, ?_⟩
  · rw [h2, hr.eol, h1, Nat.mod_add_mod, List.length_cons]
    congr 1
    omega
  · rw [h3, hr.inp, h1, Nat.mod_add_mod, List.length_cons]
    congr 1
    omega
  · intro k hk
    rw [h4, h1, Nat.mod_add_mod]
    have := hr.data (k + 1) (by simp only [List.length_cons]; omega)
    rw [show s.outPtr + (k + 1) = s.outPtr + 1 + k by omega] at this
    rw [this]
    simp

theorem Ring.congr {s q : State} {r h : List Octet} (hr : Ring s r h) (h1 : q.outPtr = s.outPtr) (h2 : q.eolPtr = s.eolPtr) (h3 : q.inPtr = s.inPtr)
    (h4 : q.data = s.data) : Ring q r h :=
  ⟨hr.room, by rw [h1]; exact hr.out, by rw [h2, h1]; exact hr.eol, by rw [h3, h1]; exact hr.inp, by rw [h4, h1]; exact hr.data⟩

/-- The mark is moved to the end of the data. -/
theorem Ring.mark {s q : State} {r h : List Octet} (hr : Ring s r h) (h1 : q.outPtr = s.outPtr) (h2 : q.eolPtr = s.inPtr) (h3 : q.inPtr = s.inPtr)
    (h4 : q.data = s.data) : Ring q (r ++ h) [] := by
  have hroom := hr.room
  refine ⟨by simp; omega, by rw [h1]; exact hr.out, ?_, ?_, ?_⟩
  · rw [h2, hr.inp, h1, List.length_append]
  · rw [h3, hr.inp, h1, List.length_append]; rfl
  · intro k hk
    rw [h4, h1, List.append_nil]
    exact hr.data k (by simpa using hk)

end NonEcm
