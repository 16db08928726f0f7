import Verif.Bert.Frames

/-!
# The pseudo-random patterns
-/

namespace Bert

/-- The parts of a tester which stay as `bert_init` made them for a pseudo-random pattern. -/
structure IsRandom (s : State) (sh s2 T mz : Nat) : Prop where
  cls : s.patternClass = 1
  shift : s.shift = sh
  shift2 : s.shift2 = s2
  mask : s.mask = (1 : Word) <<< sh
  time : s.resyncTime = T
  zeros : s.maxZeros = mz
  inv : ∃ b, s.invert = bit b
  pos : 0 < sh
  le : sh ≤ s2
  lt : s2 < 32
  enough : s2 + 1 ≤ T

theorem getBit_random {s : State} {sh s2 T mz : Nat} (h : IsRandom s sh s2 T mz) (he : ¬ ended s) {inv : Bool}
    (hi : s.invert = bit inv) :
    getBit s = ({ s with tx := { s.tx with
        reg := next sh s2 s.tx.reg, zeros := limitCount mz s.tx.zeros (s.tx.reg.getLsbD 0), bits := s.tx.bits + 1 } },
      bit (s.tx.reg.getLsbD 0 ^^ limitFlip mz s.tx.zeros (s.tx.reg.getLsbD 0) ^^ inv)) := by
  unfold getBit
  rw [if_neg (show ¬ (s.limit ≠ 0 ∧ (s.tx.bits : Int) ≥ s.limit) from he)]
  simp only [h.cls, and_one_eq, suppress_eq, bit_ne_zero, hi, bit_xor, h.shift, h.shift2, h.zeros]
  rfl

/-- The tester after its generator has given a bit, and as it starts to take one. -/
def between (s : State) (sh s2 mz : Nat) : State :=
  { s with
    tx := { s.tx with
      reg := next sh s2 s.tx.reg, zeros := limitCount mz s.tx.zeros (s.tx.reg.getLsbD 0), bits := s.tx.bits + 1 },
    rx := { s.rx with bits := s.rx.bits + 1 } }

theorem turn_random {s : State} {sh s2 T mz : Nat} (h : IsRandom s sh s2 T mz) (he : ¬ ended s) (e : Bool) :
    turn s e =
      let p := putRandom (between s sh s2 mz) (bit (s.tx.reg.getLsbD 0 ^^ limitFlip mz s.tx.zeros (s.tx.reg.getLsbD 0) ^^ e))
      ((regular p.1).1, p.2 ++ (regular p.1).2) := by
  obtain ⟨inv, hi⟩ := h.inv
  have hc : ∀ (q : State) (w : Word), q.patternClass = 1 → putClass q w = putRandom q w := by
    intro q w hq
    simp only [putClass, hq, if_true]
    rfl
  have hx : ∀ (b : Bool), bit b ^^^ s.invert = bit (b ^^ inv) := by
    intro b
    rw [hi, bit_xor]
  simp only [turn, getBit_random h he hi, line_bit, putBit_bit, hx]
  rw [hc _ _ (by exact h.cls)]
  have : (s.tx.reg.getLsbD 0 ^^ limitFlip mz s.tx.zeros (s.tx.reg.getLsbD 0) ^^ inv ^^ e ^^ inv) =
      (s.tx.reg.getLsbD 0 ^^ limitFlip mz s.tx.zeros (s.tx.reg.getLsbD 0) ^^ e) := by
    cases (s.tx.reg.getLsbD 0 ^^ limitFlip mz s.tx.zeros (s.tx.reg.getLsbD 0)) <;> cases inv <;> cases e <;> rfl
  rw [this]
  rfl

theorem told_append (k : Nat) (a b : List Report) : told k (a ++ b) = told k a + told k b := by
  simp only [told, List.countP_append]

theorem told_regular (s : State) {k : Nat} (h : k ≠ 2) : told k (regular s).2 = 0 := by
  rw [told, List.countP_eq_zero]
  intro r hr
  have := (regular_frame s).2 r hr
  simp only [beq_iff_eq]
  omega

theorem told_synced (c : Prop) [Decidable c] (s : State) :
    told reportUnsynced (if c then s.report reportSynced else []) = 0 := by
  split
  · simp only [State.report]
    cases s.reporter <;> rfl
  · rfl

/-- The tester knows its place in the pattern. -/
structure Locked (s : State) (sh s2 mz : Nat) : Prop where
  fits : Fits s2 s.rx.reg
  place : times (next sh s2) sh s.rx.reg = s.tx.reg
  count : mz ≠ 0 → s.rx.zeros = s.tx.zeros

theorem locked_turn {s : State} {sh s2 T mz : Nat} (h : IsRandom s sh s2 T mz) (hl : Locked s sh s2 mz)
    (hr : s.rx.resync = 0) (he : ¬ ended s) (e : Bool) (s' : State) (hs' : s' = (turn s e).1) :
    IsRandom s' sh s2 T mz ∧ Locked s' sh s2 mz ∧
    s'.results = ⟨s.results.totalBits + 1, s.results.badBits + (if e then 1 else 0),
      s.results.resyncs + (if loses s.rx e then 1 else 0)⟩ ∧
    s'.rx.resync = (if loses s.rx e then 1 else 0) ∧
    s'.rx.resyncBadBits = (if s.rx.resyncCnt - 1 ≤ 0 then 0 else s.rx.resyncBadBits + (if e then 1 else 0)) ∧
    s'.rx.resyncCnt = (if s.rx.resyncCnt - 1 ≤ 0 then s.rx.resyncLen else s.rx.resyncCnt - 1) ∧
    s'.rx.resyncLen = s.rx.resyncLen ∧ s'.rx.resyncPercent = s.rx.resyncPercent ∧
    s'.limit = s.limit ∧ s'.tx.bits = s.tx.bits + 1 ∧ s'.reporter = s.reporter ∧
    told reportSynced (turn s e).2 = 0 ∧
    told reportUnsynced (turn s e).2 = (if loses s.rx e ∧ s.reporter then 1 else 0) := by
  have hbit : s.rx.reg.getLsbD sh = s.tx.reg.getLsbD 0 := by
    rw [← hl.place, times_getLsbD h.lt hl.fits sh 0 (by have := h.le; omega)]
    rfl
  have hflip : limitFlip mz s.rx.zeros (s.tx.reg.getLsbD 0) = limitFlip mz s.tx.zeros (s.tx.reg.getLsbD 0) := by
    by_cases hz : mz = 0
    · simp [limitFlip, hz]
    · rw [hl.count hz]
  obtain ⟨⟨dp, db, er, ms, hp⟩, ht0, ht1⟩ := putRandom_sync (between s sh s2 mz)
    (s.tx.reg.getLsbD 0 ^^ limitFlip mz s.tx.zeros (s.tx.reg.getLsbD 0) ^^ e) hr
    (by rw [show (between s sh s2 mz).mask = s.mask from rfl, h.mask, ← h.shift]; rfl)
    (by rw [show (between s sh s2 mz).shift = s.shift from rfl, h.shift]; have := h.le; have := h.lt; omega) e
    (by
      rw [show (between s sh s2 mz).shift = s.shift from rfl, h.shift,
        show (between s sh s2 mz).rx.reg = s.rx.reg from rfl, show (between s sh s2 mz).maxZeros = s.maxZeros from rfl, h.zeros,
        show (between s sh s2 mz).rx.zeros = s.rx.zeros from rfl, hbit, hflip]
      cases s.tx.reg.getLsbD 0 <;> cases limitFlip mz s.tx.zeros _ <;> cases e <;> rfl)
  have hlo : loses (between s sh s2 mz).rx e = loses s.rx e := rfl
  rw [turn_random h he e] at hs' ⊢
  simp only at hs' ⊢
  obtain ⟨⟨rc, hrc⟩, _⟩ := regular_frame (putRandom (between s sh s2 mz)
    (bit (s.tx.reg.getLsbD 0 ^^ limitFlip mz s.tx.zeros (s.tx.reg.getLsbD 0) ^^ e))).1
  rw [told_append, told_append, told_regular _ (by decide), told_regular _ (by decide), ht0, ht1, hlo]
  rw [hrc, hp] at hs'
  rw [hlo] at hs'
  subst hs'
  refine ⟨⟨h.cls, h.shift, h.shift2, h.mask, h.time, h.zeros, h.inv, h.pos, h.le, h.lt, h.enough⟩, ⟨?_, ?_, ?_⟩, rfl, rfl, rfl, rfl,
    rfl, rfl, rfl, rfl, rfl, rfl, ?_⟩
  · show Fits s2 (next s.shift s.shift2 s.rx.reg)
    rw [h.shift, h.shift2]
    exact fits_next h.lt hl.fits
  · show times (next sh s2) sh (next s.shift s.shift2 s.rx.reg) = next sh s2 s.tx.reg
    rw [h.shift, h.shift2, ← hl.place, ← times_succ (next sh s2)]
    rfl
  · intro hz
    show limitCount s.maxZeros s.rx.zeros (s.rx.reg.getLsbD s.shift) = limitCount mz s.tx.zeros _
    rw [h.zeros, h.shift, hbit, hl.count hz]
  · rfl

/-- The tester looks for its place in the pattern, and has taken `k` bits since it began. -/
structure Searching (s : State) (sh s2 T k : Nat) : Prop where
  busy : s.rx.resync ≠ 0
  early : s.rx.resync ≤ k + 1
  below : s.rx.resync ≤ T
  fits : Fits s2 s.rx.reg
  place : ∃ R, Fits s2 R ∧ times (next sh s2) sh R = s.tx.reg ∧ Agree sh s2 k s.rx.reg R

/-- The register after the stage at the tap has been made to agree. -/
theorem corrected {sh s2 k : Nat} (hle : sh ≤ s2) (hlt : s2 < 32) {m : Word} (hm : m = (1 : Word) <<< sh) {x R : Word} (hx : Fits s2 x) (hag : Agree sh s2 k x R)
    (c : Word) (hc : c = (if R.getLsbD sh = x.getLsbD sh then x else x ^^^ m)) :
    Fits s2 c ∧ c.getLsbD sh = R.getLsbD sh ∧ Agree sh s2 k c R := by
  subst hm
  have hlt' : sh < 32 := by omega
  split at hc
  · next e => subst hc; exact ⟨hx, e.symm, hag⟩
  · next e =>
    subst hc
    have hb : (x ^^^ (1 : Word) <<< sh).getLsbD sh = R.getLsbD sh := by
      rw [BitVec.getLsbD_xor, mask_getLsbD hlt']
      revert e
      cases R.getLsbD sh <;> cases x.getLsbD sh <;> simp
    refine ⟨fits_flip hle hlt hx, hb, ?_⟩
    intro i hi ho
    by_cases his : i = sh
    · rw [his]; exact hb
    · rw [BitVec.getLsbD_xor, mask_getLsbD hlt', hag i hi ho]
      simp [his]

theorem searching_turn {s : State} {sh s2 T k : Nat} (h : IsRandom s sh s2 T 0) (hs : Searching s sh s2 T k)
    (he : ¬ ended s) (s' : State) (hs' : s' = (turn s false).1) :
    IsRandom s' sh s2 T 0 ∧
    ((Searching s' sh s2 T (k + 1) ∧ (s2 + 1 ≤ k → s'.rx.resync = s.rx.resync + 1) ∧ told reportSynced (turn s false).2 = 0) ∨
     (Locked s' sh s2 0 ∧ s'.rx.resync = 0 ∧ told reportSynced (turn s false).2 = (if s.reporter then 1 else 0) ∧ T ≤ k + 1)) ∧
    (s2 + 1 ≤ k → s.rx.resync = T → s'.rx.resync = 0) ∧
    s'.results = s.results ∧ s'.rx.resyncBadBits = s.rx.resyncBadBits ∧ s'.rx.resyncCnt = s.rx.resyncCnt ∧
    s'.rx.resyncLen = s.rx.resyncLen ∧ s'.rx.resyncPercent = s.rx.resyncPercent ∧
    s'.limit = s.limit ∧ s'.tx.bits = s.tx.bits + 1 ∧ s'.reporter = s.reporter ∧
    told reportUnsynced (turn s false).2 = 0 := by
  have e1 := h.shift
  have e2 := h.shift2
  have e3 := h.time
  have e4 := h.mask
  obtain ⟨R, hR, hpl, hag⟩ := hs.place
  have hRbit : R.getLsbD sh = s.tx.reg.getLsbD 0 := by
    rw [← hpl, times_getLsbD h.lt hR sh 0 (by have := h.le; omega)]
    rfl
  have hf : limitFlip 0 s.tx.zeros (s.tx.reg.getLsbD 0) = false := by simp [limitFlip]
  obtain ⟨hp, hrep⟩ := putRandom_search (between s sh s2 0)
    (s.tx.reg.getLsbD 0 ^^ limitFlip 0 s.tx.zeros (s.tx.reg.getLsbD 0) ^^ false) hs.busy
  rw [turn_random h he false] at hs' ⊢
  simp only at hs' ⊢
  obtain ⟨⟨rc, hrc⟩, _⟩ := regular_frame (putRandom (between s sh s2 0)
    (bit (s.tx.reg.getLsbD 0 ^^ limitFlip 0 s.tx.zeros (s.tx.reg.getLsbD 0) ^^ false))).1
  rw [told_append, told_append, told_regular _ (by decide), told_regular _ (by decide), hrep]
  rw [hrc, hp] at hs'
  rw [hf] at hs' ⊢
  simp only [Bool.xor_false] at hs' ⊢
  simp only [between] at hs' ⊢
  subst e1 e2 e3
  rw [← hRbit] at hs' ⊢
  obtain ⟨hc1, hc2, hc3⟩ := corrected h.le h.lt e4 hs.fits hag _ rfl
  have hag' := agree_next h.pos h.le h.lt hc1 hR hc3 hc2
  have hmatch : s.shift2 + 1 ≤ k → R.getLsbD s.shift = s.rx.reg.getLsbD s.shift := by
    intro hk
    rw [agree_eq hk hs.fits hR hag]
  have hplace' : times (next s.shift s.shift2) s.shift (next s.shift s.shift2 R) = next s.shift s.shift2 s.tx.reg := by
    rw [← hpl, ← times_succ (next s.shift s.shift2)]; rfl
  have hb := hs.busy
  have hen := h.enough
  have hrand : IsRandom s' s.shift s.shift2 s.resyncTime 0 := by
    subst hs'
    exact ⟨h.cls, h.shift, h.shift2, h.mask, h.time, h.zeros, h.inv, h.pos, h.le, h.lt, h.enough⟩
  refine ⟨hrand, ?_, ?_, ?_⟩
  · by_cases hm : R.getLsbD s.shift = s.rx.reg.getLsbD s.shift
    · by_cases hT : s.rx.resync + 1 > s.resyncTime
      · refine Or.inr ⟨⟨?_, ?_, by simp⟩, ?_, ?_, ?_⟩
        · subst hs'; exact fits_next h.lt hc1
        · have hk : s.shift2 + 1 ≤ k + 1 := by have := hs.early; omega
          have := agree_eq hk (fits_next h.lt hc1) (fits_next h.lt hR) hag'
          subst hs'
          exact (congrArg (times (next s.shift s.shift2) s.shift) this).trans hplace'
        · subst hs'; simp [hm, hT]
        · simp only [hm, hT, and_self, if_true, State.report]
          cases s.reporter <;> rfl
        · have := hs.early; have := hs.below; omega
      · refine Or.inl ⟨⟨?_, ?_, ?_, ?_, ?_⟩, ?_, ?_⟩
        · subst hs'; simp [hm, hT]
        · subst hs'; simp only [hm, hT, if_true, if_false]; have := hs.early; omega
        · subst hs'; simp only [hm, hT, if_true, if_false]; omega
        · subst hs'; exact fits_next h.lt hc1
        · refine ⟨next s.shift s.shift2 R, fits_next h.lt hR, ?_, ?_⟩
          · subst hs'; exact hplace'
          · subst hs'; exact hag'
        · intro _; subst hs'; simp [hm, hT]
        · simp [hT, told]
    · refine Or.inl ⟨⟨?_, ?_, ?_, ?_, ?_⟩, ?_, ?_⟩
      · subst hs'; simp [hm]
      · subst hs'; simp only [hm, if_false]; omega
      · subst hs'; simp only [hm, if_false]; have := h.pos; have := h.le; omega
      · subst hs'; exact fits_next h.lt hc1
      · refine ⟨next s.shift s.shift2 R, fits_next h.lt hR, ?_, ?_⟩
        · subst hs'; exact hplace'
        · subst hs'; exact hag'
      · intro hk; exact absurd (hmatch hk) hm
      · simp [hm, told]
  · intro hk hT
    have := hmatch hk
    subst hs'
    simp [this, hT]
  · subst hs'
    refine ⟨rfl, rfl, rfl, rfl, rfl, rfl, rfl, rfl, ?_⟩
    exact told_synced _ _

end Bert
