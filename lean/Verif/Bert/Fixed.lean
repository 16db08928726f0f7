import Verif.Bert.Random

/-!
# The fixed patterns and the text
-/

namespace Bert

/-- The parts of a tester which stay as `bert_init` made them for a fixed pattern. -/
structure IsFixed (s : State) (R : Word) : Prop where
  cls : s.patternClass = 0
  shift2 : s.shift2 = 31
  time : s.resyncTime = 72
  inv : s.invert = 0
  master : s.rx.masterReg = R

theorem getBit_fixed {s : State} {R : Word} (h : IsFixed s R) (he : ¬ ended s) :
    getBit s = ({ s with tx := { s.tx with reg := rot 31 s.tx.reg, bits := s.tx.bits + 1 } }, bit (s.tx.reg.getLsbD 0)) := by
  unfold getBit
  rw [if_neg (show ¬ (s.limit ≠ 0 ∧ (s.tx.bits : Int) ≥ s.limit) from he)]
  simp only [h.cls, and_one_eq, h.shift2]
  rfl

theorem turn_fixed {s : State} {R : Word} (h : IsFixed s R) (he : ¬ ended s) (e : Bool) :
    turn s e =
      let p := putFixed { s with
        tx := { s.tx with reg := rot 31 s.tx.reg, bits := s.tx.bits + 1 },
        rx := { s.rx with bits := s.rx.bits + 1 } } (bit (s.tx.reg.getLsbD 0 ^^ e))
      ((regular p.1).1, p.2 ++ (regular p.1).2) := by
  have hc : ∀ (q : State) (w : Word), q.patternClass = 0 → putClass q w = putFixed q w := by
    intro q w hq
    simp only [putClass, hq, if_true]
  have hx : ∀ (b : Bool), bit b ^^^ s.invert = bit b := by
    intro b
    rw [h.inv]
    exact BitVec.xor_zero
  simp only [turn, getBit_fixed h he, line_bit, putBit_bit, hx]
  rw [hc _ _ (by exact h.cls)]

/-- A bit which is checked. -/
theorem fixed_turn_locked {s : State} {R : Word} (h : IsFixed s R) (he : ¬ ended s) (e : Bool) (hr : s.rx.resync = 0)
    (hl : s.rx.refReg = s.tx.reg) (s' : State) (hs' : s' = (turn s e).1) :
    IsFixed s' R ∧ s'.rx.resync = 0 ∧ s'.rx.refReg = s'.tx.reg ∧
    s'.results = ⟨s.results.totalBits + 1, s.results.badBits + (if e then 1 else 0), s.results.resyncs⟩ ∧
    s'.limit = s.limit ∧ s'.tx.bits = s.tx.bits + 1 ∧ s'.reporter = s.reporter ∧
    told reportSynced (turn s e).2 = 0 ∧ told reportUnsynced (turn s e).2 = 0 := by
  rw [turn_fixed h he e] at hs' ⊢
  simp only [putFixed, hr, ne_eq, not_true_eq_false, if_false] at hs' ⊢
  rw [told_append, told_append, told_regular _ (by decide), told_regular _ (by decide)]
  obtain ⟨⟨rc, hrc⟩, _⟩ := regular_frame { s with
      tx := { s.tx with reg := rot 31 s.tx.reg, bits := s.tx.bits + 1 },
      rx := { s.rx with bits := s.rx.bits + 1, refReg := rot s.shift2 s.rx.refReg, resync := 0 },
      results := { s.results with
        totalBits := s.results.totalBits + 1,
        badBits := s.results.badBits + (if ¬ (bit (s.tx.reg.getLsbD 0 ^^ e) ^^^ s.rx.refReg) &&& 1 = 0 then 1 else 0) } }
  have hs'' := hs'.trans hrc
  have hbad : (if ¬ (bit (s.tx.reg.getLsbD 0 ^^ e) ^^^ s.rx.refReg) &&& 1 = 0 then 1 else 0) = (if e then 1 else 0 : Nat) := by
    rw [hl, and_one_eq, BitVec.getLsbD_xor, bit_getLsbD]
    cases s.tx.reg.getLsbD 0 <;> cases e <;> rfl
  rw [hbad] at hs''
  subst hs''
  refine ⟨⟨h.cls, h.shift2, h.time, h.inv, h.master⟩, rfl, ?_, rfl, rfl, rfl, rfl, rfl, rfl⟩
  show rot s.shift2 s.rx.refReg = rot 31 s.tx.reg
  rw [h.shift2, hl]

/-- The register after a bit has been put in at the top. -/
def push (reg : Word) (b : Bool) : Word := (reg >>> 1) ||| (bit b <<< 31)

theorem push_getLsbD (reg : Word) (b : Bool) (i : Nat) :
    (push reg b).getLsbD i = if i = 31 then b else reg.getLsbD (i + 1) := by
  simp only [push, BitVec.getLsbD_or, BitVec.getLsbD_ushiftRight, BitVec.getLsbD_shiftLeft, bit_getLsbD]
  by_cases h : i = 31
  · subst h
    simp
  · rw [if_neg h, Nat.add_comm 1 i]
    by_cases h1 : i < 31
    · simp [h1]
    · have : i - 31 ≠ 0 := by omega
      simp [this]

/-- A bit while the tester looks for the pattern. -/
theorem fixed_turn_search {s : State} {R : Word} (h : IsFixed s R) (he : ¬ ended s) (e : Bool) (hr : s.rx.resync ≠ 0)
    (s' : State) (hs' : s' = (turn s e).1) :
    IsFixed s' R ∧
    s'.rx.reg = push s.rx.reg (s.tx.reg.getLsbD 0 ^^ e) ∧
    s'.rx.refReg = (if s'.rx.reg = rot 31 s.rx.refReg then rot 31 s.rx.refReg else R) ∧
    s'.rx.resync = (if s'.rx.reg = rot 31 s.rx.refReg then (if s.rx.resync + 1 > 72 then 0 else s.rx.resync + 1) else 2) ∧
    s'.results = s.results ∧ s'.tx.reg = rot 31 s.tx.reg ∧
    s'.limit = s.limit ∧ s'.tx.bits = s.tx.bits + 1 ∧ s'.reporter = s.reporter ∧
    told reportSynced (turn s e).2 = (if s'.rx.resync = 0 ∧ s.reporter then 1 else 0) ∧ told reportUnsynced (turn s e).2 = 0 := by
  rw [turn_fixed h he e] at hs' ⊢
  simp only [putFixed, hr, ne_eq, not_false_eq_true, if_true] at hs' ⊢
  rw [told_append, told_append, told_regular _ (by decide), told_regular _ (by decide)]
  have e1 := h.shift2
  have e2 := h.time
  have e3 := h.master
  have hpush : ∀ b : Bool, (s.rx.reg >>> 1) ||| (bit b <<< s.shift2) = push s.rx.reg b := by
    intro b; rw [e1]; rfl
  have hrot : ∀ r, rot s.shift2 r = rot 31 r := by intro r; rw [e1]
  have hT : (s.rx.resync + 1 > s.resyncTime) = (s.rx.resync + 1 > 72) := by rw [e2]
  generalize hb : (s.tx.reg.getLsbD 0 ^^ e) = b at hs' ⊢
  by_cases hm : push s.rx.reg b = rot 31 s.rx.refReg
  · have hm' : (s.rx.reg >>> 1) ||| (bit b <<< s.shift2) = rot s.shift2 s.rx.refReg := by rw [hpush, hrot, hm]
    rw [if_pos hm'] at hs' ⊢
    by_cases h72 : s.rx.resync + 1 > s.resyncTime
    · rw [if_pos h72] at hs' ⊢
      obtain ⟨⟨rc, hrc⟩, _⟩ := regular_frame ({ s with
        tx := { s.tx with reg := rot 31 s.tx.reg, bits := s.tx.bits + 1 },
        rx := { s.rx with
          bits := s.rx.bits + 1, reg := (s.rx.reg >>> 1) ||| (bit b <<< s.shift2), refReg := rot s.shift2 s.rx.refReg, resync := 0 } } : State)
      have hs'' := hs'.trans hrc
      rw [hT] at h72
      subst hs''
      refine ⟨⟨h.cls, e1, e2, h.inv, e3⟩, ?_, ?_, ?_, rfl, rfl, rfl, rfl, rfl, ?_, ?_⟩
      · exact hpush b
      · simp only [hpush, hrot, hm, if_true]
      · simp only [hpush, hm, if_true, if_pos h72]
      · simp only [State.report, true_and]
        cases s.reporter <;> rfl
      · simp only [State.report]
        cases s.reporter <;> rfl
    · rw [if_neg h72] at hs' ⊢
      obtain ⟨⟨rc, hrc⟩, _⟩ := regular_frame ({ s with
        tx := { s.tx with reg := rot 31 s.tx.reg, bits := s.tx.bits + 1 },
        rx := { s.rx with
          bits := s.rx.bits + 1, reg := (s.rx.reg >>> 1) ||| (bit b <<< s.shift2), refReg := rot s.shift2 s.rx.refReg, resync := s.rx.resync + 1 } } : State)
      have hs'' := hs'.trans hrc
      rw [hT] at h72
      subst hs''
      refine ⟨⟨h.cls, e1, e2, h.inv, e3⟩, ?_, ?_, ?_, rfl, rfl, rfl, rfl, rfl, ?_, rfl⟩
      · exact hpush b
      · simp only [hpush, hrot, hm, if_true]
      · simp only [hpush, hm, if_true, if_neg h72]
      · simp [told]
  · have hm' : ¬ (s.rx.reg >>> 1) ||| (bit b <<< s.shift2) = rot s.shift2 s.rx.refReg := by rw [hpush, hrot]; exact hm
    rw [if_neg hm'] at hs' ⊢
    obtain ⟨⟨rc, hrc⟩, _⟩ := regular_frame ({ s with
        tx := { s.tx with reg := rot 31 s.tx.reg, bits := s.tx.bits + 1 },
        rx := { s.rx with
          bits := s.rx.bits + 1, reg := (s.rx.reg >>> 1) ||| (bit b <<< s.shift2), refReg := s.rx.masterReg, resync := 2 } } : State)
    have hs'' := hs'.trans hrc
    subst hs''
    refine ⟨⟨h.cls, e1, e2, h.inv, e3⟩, ?_, ?_, ?_, rfl, rfl, rfl, rfl, rfl, ?_, rfl⟩
    · exact hpush b
    · simp only [hpush, hm, if_false, e3]
    · simp only [hpush, hm, if_false]
    · simp [told]

/-- The tester looks for the pattern, and has taken `k` bits since it began. -/
structure FixedSearch (s : State) (R : Word) (k : Nat) : Prop where
  busy : s.rx.resync ≠ 0
  early : s.rx.resync ≤ k + 1
  below : s.rx.resync ≤ 72
  gen : ∃ m, s.tx.reg = times (rot 31) m R
  seen : ∀ i, i < 32 → 32 ≤ i + k → s.rx.reg.getLsbD i = s.tx.reg.getLsbD i
  ref : 1 ≤ k → s.rx.refReg = s.rx.reg ∨ s.rx.refReg = R

theorem rot31_getLsbD (r : Word) {i : Nat} (hi : i < 32) : (rot 31 r).getLsbD i = r.getLsbD ((i + 1) % 32) := by
  rw [rot_getLsbD (by omega) (fits31 r)]
  split
  · next h => subst h; rfl
  · next h => rw [Nat.mod_eq_of_lt (by omega)]

theorem times_rot_getLsbD (r : Word) (n : Nat) {i : Nat} (hi : i < 32) :
    (times (rot 31) n r).getLsbD i = r.getLsbD ((i + n) % 32) := by
  induction n generalizing r with
  | zero => simp only [times, Nat.add_zero, Nat.mod_eq_of_lt hi]
  | succ n ih =>
    simp only [times]
    rw [ih, rot31_getLsbD _ (Nat.mod_lt _ (by omega))]
    congr 1
    omega

theorem times_rot_mod (r : Word) (n : Nat) : times (rot 31) n r = times (rot 31) (n % 32) r := by
  apply BitVec.eq_of_getLsbD_eq
  intro i hi
  rw [times_rot_getLsbD r n hi, times_rot_getLsbD r (n % 32) hi]
  congr 1
  omega

theorem push_rot {x y : Word} {k : Nat} (h : ∀ i, i < 32 → 32 ≤ i + k → x.getLsbD i = y.getLsbD i) :
    ∀ i, i < 32 → 32 ≤ i + (k + 1) → (push x (y.getLsbD 0)).getLsbD i = (rot 31 y).getLsbD i := by
  intro i hi hk
  rw [push_getLsbD, rot_getLsbD (by omega) (fits31 y)]
  split
  · rfl
  · exact h (i + 1) (by omega) (by omega)

theorem fixed_search_turn {s : State} {R : Word} {k : Nat} (h : IsFixed s R) (hs : FixedSearch s R k) (he : ¬ ended s)
    (s' : State) (hs' : s' = (turn s false).1) :
    (FixedSearch s' R (k + 1) ∨ (s'.rx.resync = 0 ∧ s'.rx.refReg = s'.tx.reg)) ∧
    (s.rx.refReg = s.rx.reg → s.rx.reg = s.tx.reg →
      s'.rx.refReg = s'.tx.reg ∧ s'.rx.reg = s'.tx.reg ∧ s'.rx.resync = (if s.rx.resync + 1 > 72 then 0 else s.rx.resync + 1)) := by
  obtain ⟨h1, h2, h3, h4, h5, h6, h7, h8, h9, h10, h11⟩ := fixed_turn_search h he false hs.busy s' hs'
  rw [Bool.xor_false] at h2
  constructor
  · have hseen := push_rot hs.seen
    rw [← h2, ← h6] at hseen
    have hgen : ∃ m, s'.tx.reg = times (rot 31) m R := by
      obtain ⟨m, hm⟩ := hs.gen
      exact ⟨m + 1, by rw [h6, hm, times_succ]⟩
    by_cases hm : s'.rx.reg = rot 31 s.rx.refReg
    · rw [if_pos hm] at h3 h4
      by_cases h72 : s.rx.resync + 1 > 72
      · right
        rw [if_pos h72] at h4
        refine ⟨h4, ?_⟩
        rw [h3, ← hm]
        apply BitVec.eq_of_getLsbD_eq
        intro i hi
        exact hseen i hi (by have := hs.early; omega)
      · left
        rw [if_neg h72] at h4
        refine ⟨by omega, by have := hs.early; omega, by omega, hgen, hseen, fun _ => Or.inl (by rw [h3, hm])⟩
    · left
      rw [if_neg hm] at h3 h4
      exact ⟨by omega, by omega, by omega, hgen, hseen, fun _ => Or.inr h3⟩
  · intro ha hb
    have hm : s'.rx.reg = rot 31 s.rx.refReg := by
      rw [h2, ha, hb]
      apply BitVec.eq_of_getLsbD_eq
      intro i hi
      rw [push_getLsbD, rot_getLsbD (by omega) (fits31 _)]
    rw [if_pos hm] at h3 h4
    refine ⟨by rw [h3, ha, hb, h6], by rw [hm, ha, hb, h6], h4⟩

end Bert
