import Verif.Bert.Random

/-!
# A tester which is joined to itself finds its place
-/

namespace Bert

/-- What `search_fields` leaves as it was. -/
structure SameChecks (s s' : State) : Prop where
  results : s'.results = s.results
  bad : s'.rx.resyncBadBits = s.rx.resyncBadBits
  cnt : s'.rx.resyncCnt = s.rx.resyncCnt
  len : s'.rx.resyncLen = s.rx.resyncLen
  percent : s'.rx.resyncPercent = s.rx.resyncPercent
  limit : s'.limit = s.limit
  reporter : s'.reporter = s.reporter

theorem search_fields {s : State} {sh s2 T mz : Nat} (h : IsRandom s sh s2 T mz) (hr : s.rx.resync ≠ 0)
    (he : ¬ ended s) (e : Bool) (s' : State) (hs' : s' = (turn s e).1) (v : Bool)
    (hv : v = (s.tx.reg.getLsbD 0 ^^ limitFlip mz s.tx.zeros (s.tx.reg.getLsbD 0) ^^ e)) :
    IsRandom s' sh s2 T mz ∧ SameChecks s s' ∧ s'.tx.bits = s.tx.bits + 1 ∧
    s'.tx.reg = next sh s2 s.tx.reg ∧ s'.tx.zeros = limitCount mz s.tx.zeros (s.tx.reg.getLsbD 0) ∧
    s'.rx.zeros = s.rx.zeros ∧
    s'.rx.reg = next sh s2 (if v = s.rx.reg.getLsbD sh then s.rx.reg else s.rx.reg ^^^ (1 : Word) <<< sh) ∧
    s'.rx.resync = (if v = s.rx.reg.getLsbD sh then (if s.rx.resync + 1 > T then 0 else s.rx.resync + 1) else 2) ∧
    told reportSynced (turn s e).2 = (if s'.rx.resync = 0 ∧ s.reporter then 1 else 0) ∧
    told reportUnsynced (turn s e).2 = 0 := by
  have e1 := h.shift
  have e2 := h.shift2
  have e3 := h.time
  have e4 := h.mask
  obtain ⟨hp, hrep⟩ := putRandom_search (between s sh s2 mz) v hr
  rw [turn_random h he e, ← hv] at hs' ⊢
  simp only at hs' ⊢
  obtain ⟨⟨rc, hrc⟩, _⟩ := regular_frame (putRandom (between s sh s2 mz) (bit v)).1
  rw [told_append, told_append, told_regular _ (by decide), told_regular _ (by decide), hrep]
  rw [hrc, hp] at hs'
  simp only [between] at hs' ⊢
  subst e1 e2 e3
  rw [← e4]
  subst hs'
  refine ⟨⟨h.cls, rfl, rfl, h.mask, rfl, h.zeros, h.inv, h.pos, h.le, h.lt, h.enough⟩, ⟨rfl, rfl, rfl, rfl, rfl, rfl, rfl⟩,
    rfl, rfl, rfl, rfl, rfl, rfl, ?_, told_synced _ _⟩
  by_cases h1 : v = s.rx.reg.getLsbD s.shift
  · by_cases h2 : s.rx.resync + 1 > s.resyncTime
    · simp only [h1, h2, and_self, if_true, State.report, true_and]
      cases s.reporter <;> rfl
    · simp [h1, h2, told]
  · simp [h1, told]

/-- The parts of a tester joined to itself which matter while it looks for its place. -/
structure Mini where
  txReg : Word
  txZeros : Nat
  rxReg : Word
  resync : Nat
deriving DecidableEq

/-- One bit goes round. -/
def miniStep (sh s2 T mz : Nat) (m : Mini) : Mini :=
  let a := m.txReg.getLsbD 0
  let v := a ^^ limitFlip mz m.txZeros a
  { txReg := next sh s2 m.txReg, txZeros := limitCount mz m.txZeros a,
    rxReg := next sh s2 (if v = m.rxReg.getLsbD sh then m.rxReg else m.rxReg ^^^ (1 : Word) <<< sh),
    resync := if v = m.rxReg.getLsbD sh then (if m.resync + 1 > T then 0 else m.resync + 1) else 2 }

/-- So many bits go round, and the tester is still looking all the time. -/
def miniRun (sh s2 T mz : Nat) : Nat → Mini → Option Mini
  | 0, m => some m
  | n + 1, m => if m.resync = 0 then none else miniRun sh s2 T mz n (miniStep sh s2 T mz m)

def mini (s : State) : Mini := ⟨s.tx.reg, s.tx.zeros, s.rx.reg, s.rx.resync⟩

/-- After which the tester has found its place. -/
def miniLocked (sh s2 mz : Nat) (m : Mini) (zeros : Nat) : Bool :=
  decide (m.resync = 0) && decide (m.rxReg.toNat < 2 ^ (s2 + 1)) && decide (times (next sh s2) sh m.rxReg = m.txReg) &&
    (decide (mz = 0) || decide (zeros = m.txZeros))

theorem loop_append (s : State) (a b : List Bool) :
    loop s (a ++ b) = ((loop (loop s a).1 b).1, (loop s a).2 ++ (loop (loop s a).1 b).2) := by
  induction a generalizing s with
  | nil => simp [loop]
  | cons e a ih =>
    simp only [List.cons_append, loop, ih, List.append_assoc]

/-- The generator will not come to the end of its data for so many bits. -/
def Unlimited (s : State) (n : Nat) : Prop := s.limit = 0 ∨ (s.tx.bits : Int) + n ≤ s.limit

theorem Unlimited.not_ended {s : State} {n : Nat} (h : Unlimited s (n + 1)) : ¬ ended s := by
  simp only [Unlimited, ended] at *
  omega

theorem Unlimited.next {s s' : State} {n : Nat} (h : Unlimited s (n + 1)) (h1 : s'.limit = s.limit)
    (h2 : s'.tx.bits = s.tx.bits + 1) : Unlimited s' n := by
  simp only [Unlimited, h1, h2] at *
  omega

theorem search_run {sh s2 T mz : Nat} (n : Nat) {s : State} (h : IsRandom s sh s2 T mz) (hu : Unlimited s n) {m : Mini}
    (hm : miniRun sh s2 T mz n (mini s) = some m) (s' : State) (hs' : s' = (loop s (clean n)).1) :
    IsRandom s' sh s2 T mz ∧ SameChecks s s' ∧ s'.tx.bits = s.tx.bits + n ∧ mini s' = m ∧ s'.rx.zeros = s.rx.zeros ∧
    told reportSynced (loop s (clean n)).2 = (if n ≠ 0 ∧ m.resync = 0 ∧ s.reporter then 1 else 0) ∧
    told reportUnsynced (loop s (clean n)).2 = 0 := by
  induction n generalizing s with
  | zero =>
    simp only [clean, List.replicate_zero, loop] at hs' ⊢
    subst hs'
    simp only [miniRun, Option.some.injEq] at hm
    exact ⟨h, ⟨rfl, rfl, rfl, rfl, rfl, rfl, rfl⟩, rfl, hm, rfl, by simp [told], rfl⟩
  | succ n ih =>
    simp only [miniRun] at hm
    split at hm
    · simp at hm
    · next hr =>
      have hr : s.rx.resync ≠ 0 := hr
      have hcl : clean (n + 1) = false :: clean n := List.replicate_succ
      rw [hcl] at hs' ⊢
      simp only [loop] at hs' ⊢
      obtain ⟨f1, f2, f3, f4, f5, f6, f7, f8, f9, f10⟩ := search_fields h hr hu.not_ended false _ rfl
        (s.tx.reg.getLsbD 0 ^^ limitFlip mz s.tx.zeros (s.tx.reg.getLsbD 0)) (by simp)
      have hmini : mini (turn s false).1 = miniStep sh s2 T mz (mini s) := by
        simp only [mini, f4, f5, f7, f8]
        rfl
      rw [← hmini] at hm
      obtain ⟨g1, g2, g3, g4, g5, g6, g7⟩ := ih f1 (hu.next f2.limit f3) hm hs'
      refine ⟨g1, ?_, by rw [g3, f3]; omega, g4, by rw [g5, f6], ?_, ?_⟩
      · exact ⟨g2.1.trans f2.1, g2.2.trans f2.2, g2.3.trans f2.3, g2.4.trans f2.4, g2.5.trans f2.5, g2.6.trans f2.6, g2.7.trans f2.7⟩
      · rw [told_append, f9, g6, f2.reporter]
        by_cases hn : n = 0
        · subst hn
          simp only [miniRun, Option.some.injEq] at hm
          have : (turn s false).1.rx.resync = m.resync := congrArg Mini.resync hm
          simp [this]
        · have hne : (turn s false).1.rx.resync ≠ 0 := by
            obtain ⟨k, rfl⟩ : ∃ k, n = k + 1 := ⟨n - 1, by omega⟩
            simp only [miniRun] at hm
            split at hm
            · simp at hm
            · next hh => exact hh
          simp [hn, hne]
      · rw [told_append, f10, g7]

theorem fits_of_lt {r : Word} {s2 : Nat} (h : r.toNat < 2 ^ (s2 + 1)) : Fits s2 r := by
  intro i hi
  rw [← BitVec.testBit_toNat]
  exact Nat.testBit_lt_two_pow (Nat.lt_of_lt_of_le h (Nat.pow_le_pow_right (by omega) hi))

theorem locked_of_mini {s : State} {sh s2 mz : Nat} (h : miniLocked sh s2 mz (mini s) s.rx.zeros = true) :
    s.rx.resync = 0 ∧ Locked s sh s2 mz := by
  unfold miniLocked at h
  rw [Bool.and_eq_true, Bool.and_eq_true, Bool.and_eq_true, Bool.or_eq_true] at h
  obtain ⟨⟨⟨h1, h3⟩, h4⟩, h5⟩ := h
  refine ⟨of_decide_eq_true h1, fits_of_lt (of_decide_eq_true h3), of_decide_eq_true h4, fun hz => ?_⟩
  rcases h5 with h5 | h5
  · exact absurd (of_decide_eq_true h5) hz
  · exact of_decide_eq_true h5

end Bert
