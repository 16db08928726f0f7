import Verif.Bert.Props

/-!
# The patterns are those they are named after (C34)
-/

namespace Bert

theorem advance_step (s : State) (n : Nat) : advance s (n + 1) = (getBit (advance s n)).1 := by
  induction n generalizing s with
  | zero => rfl
  | succ n ih => rw [advance, ih, advance]

/-- What `bert_get_bit` does not touch. -/
theorem advance_frame (s : State) (n : Nat) : ∃ t, advance s n = { s with tx := t } := by
  induction n with
  | zero => exact ⟨s.tx, rfl⟩
  | succ n ih =>
    obtain ⟨t, ht⟩ := ih
    obtain ⟨t', ht'⟩ := getBit_rx (advance s n)
    refine ⟨t', ?_⟩
    rw [advance_step, ht', ht]

theorem getBit_bits {s : State} (he : ¬ ended s) : (getBit s).1.tx.bits = s.tx.bits + 1 := by
  unfold getBit
  rw [if_neg (show ¬ (s.limit ≠ 0 ∧ (s.tx.bits : Int) ≥ s.limit) from he)]
  show ((if s.patternClass = 0 then _ else _ : Tx × Word).1.bits + 1) = _
  split
  · rfl
  · split
    · rfl
    · split
      · exact congrArg (· + 1) (fetch_bits s.tx)
      · rfl

theorem advance_limit (s : State) (n : Nat) : (advance s n).limit = s.limit := by
  obtain ⟨t, ht⟩ := advance_frame s n
  rw [ht]

theorem advance_bits {s : State} {n : Nat} (h : Unlimited s n) : (advance s n).tx.bits = s.tx.bits + n := by
  induction n with
  | zero => rfl
  | succ n ih =>
    have h' : Unlimited s n := by simp only [Unlimited] at h ⊢; omega
    have := ih h'
    rw [advance_step, getBit_bits, this]
    · omega
    · simp only [ended, advance_limit, this, Unlimited] at h ⊢
      omega

theorem advance_not_ended {s : State} {n : Nat} (h : Unlimited s (n + 1)) : ¬ ended (advance s n) := by
  have h' : Unlimited s n := by simp only [Unlimited] at h ⊢; omega
  simp only [ended, advance_limit, advance_bits h', Unlimited] at h ⊢
  omega

/-- With a limit the generator gives so many bits, and then it says that there are no more. -/
theorem sent_limit (c : Settings) (p : Pattern) (hl : 0 < c.limit) (n : Nat) : sent (c.start p) n = endOfData ↔ c.limit ≤ n := by
  have hb : ∀ n : Nat, (n : Int) ≤ c.limit → (advance (c.start p) n).tx.bits = n := by
    intro n hn
    rw [advance_bits (unlimited_start c p (Or.inr hn))]
    exact Nat.zero_add n
  have hlim : ∀ n, (advance (c.start p) n).limit = c.limit := fun n => advance_limit _ _
  constructor
  · intro h
    by_cases hn : c.limit ≤ n
    · exact hn
    · exfalso
      have he : ¬ ended (advance (c.start p) n) := by
        simp only [ended, hlim, hb n (by omega)]
        omega
      have hne : ∀ b, bit b ≠ endOfData := by intro b; cases b <;> decide
      simp only [sent] at h
      unfold getBit at h
      rw [if_neg (show ¬ ((advance (c.start p) n).limit ≠ 0 ∧ ((advance (c.start p) n).tx.bits : Int) ≥ (advance (c.start p) n).limit) from he)] at h
      obtain ⟨t, ht⟩ := advance_frame (c.start p) n
      have hi : ∃ b, (advance (c.start p) n).invert = bit b := by
        rw [ht]
        exact (show ∃ b, (choice p).invert = bit b by cases p <;> first | exact ⟨true, rfl⟩ | exact ⟨false, rfl⟩)
      obtain ⟨i, hi⟩ := hi
      simp only at h
      split at h
      · rw [and_one_eq] at h; exact hne _ h
      · split at h
        · rw [and_one_eq, suppress_eq, hi] at h
          simp only [bit_xor] at h
          exact hne _ h
        · split at h
          · rw [and_one_eq] at h; exact hne _ h
          · exact hne false h
  · intro h
    obtain ⟨L, hL⟩ : ∃ L : Nat, c.limit = L := ⟨c.limit.toNat, by omega⟩
    have hend : ∀ k, advance (c.start p) (L + k) = advance (c.start p) L ∧ ended (advance (c.start p) (L + k)) := by
      intro k
      have he : ended (advance (c.start p) L) := by
        simp only [ended, hlim, hb L (by omega)]
        omega
      have hs : advance (c.start p) (L + k) = advance (c.start p) L := by
        induction k with
        | zero => rfl
        | succ k ih =>
          rw [← Nat.add_assoc, advance_step, ih]
          unfold getBit
          rw [if_pos (show (advance (c.start p) L).limit ≠ 0 ∧ ((advance (c.start p) L).tx.bits : Int) ≥ (advance (c.start p) L).limit from he)]
      exact ⟨hs, hs ▸ he⟩
    obtain ⟨k, rfl⟩ : ∃ k, n = L + k := ⟨n - L, by omega⟩
    have he := (hend k).2
    simp only [sent]
    unfold getBit
    rw [if_pos (show (advance (c.start p) (L + k)).limit ≠ 0 ∧ ((advance (c.start p) (L + k)).tx.bits : Int) ≥ (advance (c.start p) (L + k)).limit from he)]

example : sent (Settings.start ⟨1000, 300, 20, 0, true⟩ .o151_15) 1000 = endOfData := (sent_limit _ _ (by decide) _).2 (by decide)

/-- The fixed patterns. -/
theorem fixed_pattern (c : Settings) (p : Pattern) (hp : p.Fixed) (n : Nat) (hl : c.limit = 0 ∨ (n : Int) < c.limit) :
    sent (c.start p) n = asBit (fixedBit p n) := by
  have hu : Unlimited (c.start p) (n + 1) := unlimited_start c p (by omega)
  obtain ⟨h1, _⟩ := fixed_start c hp
  have hadv : ∀ n, Unlimited (c.start p) n → (advance (c.start p) n).tx.reg = times (rot 31) n (choice p).reg := by
    intro n hn
    induction n with
    | zero => rfl
    | succ n ih =>
      have h' : Unlimited (c.start p) n := by simp only [Unlimited] at hn ⊢; omega
      obtain ⟨t, ht⟩ := advance_frame (c.start p) n
      have hi : IsFixed (advance (c.start p) n) (choice p).reg := by
        rw [ht]
        exact ⟨h1.is.cls, h1.is.shift2, h1.is.time, h1.is.inv, h1.is.master⟩
      rw [advance_step, getBit_fixed hi (advance_not_ended hn), times_succ, ← ih h']
  have hreg := hadv n (by simp only [Unlimited] at hu ⊢; omega)
  obtain ⟨t, ht⟩ := advance_frame (c.start p) n
  have hi : IsFixed (advance (c.start p) n) (choice p).reg := by
    rw [ht]
    exact ⟨h1.is.cls, h1.is.shift2, h1.is.time, h1.is.inv, h1.is.master⟩
  simp only [sent]
  rw [getBit_fixed hi (advance_not_ended hu), hreg, times_rot_getLsbD _ _ (by decide), Nat.zero_add]
  show bit _ = bit _
  congr 1
  have key : ∀ p : Pattern, (∀ k : Fin 32, (choice p).reg.getLsbD k.val = fixedBit p k.val) →
      (fixedBit p (n % 32) = fixedBit p n) → (choice p).reg.getLsbD (n % 32) = fixedBit p n := by
    intro p h1 h2
    rw [← h2]
    exact h1 ⟨n % 32, Nat.mod_lt _ (by decide)⟩
  refine fixed_cases hp (motive := fun p => (choice p).reg.getLsbD (n % 32) = fixedBit p n) ?_ ?_ ?_ ?_ ?_ ?_ ?_
  · exact key _ (by decide) rfl
  · exact key _ (by decide) rfl
  · exact key _ (by decide) (by simp only [fixedBit, Nat.mod_mod_of_dvd n (show 8 ∣ 32 by decide)])
  · exact key _ (by decide) (by simp only [fixedBit, Nat.mod_mod_of_dvd n (show 4 ∣ 32 by decide)])
  · exact key _ (by decide) (by simp only [fixedBit, Nat.mod_mod_of_dvd n (show 2 ∣ 32 by decide)])
  · exact key _ (by decide) (by simp only [fixedBit, Nat.mod_mod_of_dvd n (show 4 ∣ 32 by decide)])
  · exact key _ (by decide) (by simp only [fixedBit, Nat.mod_mod_of_dvd n (show 8 ∣ 32 by decide)])

example : sent (Settings.start ⟨0, 300, 20, 0, true⟩ .p1to7) 1000000 = 1 := fixed_pattern _ _ (by simp [Pattern.Fixed]) _ (Or.inl rfl)

/-! ## The pseudo-random patterns -/

/-- The recurrence says what the sequence is. -/
theorem follows_unique {st : Nat × Nat} (h1 : 0 < st.2) (h2 : st.2 ≤ st.1) {a b : Nat → Bool} (ha : Follows st a) (hb : Follows st b)
    (n : Nat) : a n = b n := by
  induction n using Nat.strongRecOn with
  | ind n ih =>
    by_cases hn : n < st.1
    · rw [ha.start n hn, hb.start n hn]
    · have := ha.rest (n - st.1)
      have h' := hb.rest (n - st.1)
      rw [show n - st.1 + st.1 = n by omega] at this h'
      rw [this, h', ih (n - st.1) (by omega), ih (n - st.2) (by omega)]

/-- The bit which the register has at its end after so many steps. -/
def regBit (p : Pattern) (n : Nat) : Bool :=
  (times (next (geometry p).sh (geometry p).s2) n (choice p).reg).getLsbD 0

theorem follows_reg {sh s2 : Nat} (hle : sh ≤ s2) (hlt : s2 < 32) {r : Word} (hf : Fits s2 r)
    (hs : ∀ i, i < s2 + 1 → r.getLsbD i = true) {tap : Nat} (ht : tap = s2 + 1 - sh) :
    Follows (s2 + 1, tap) (fun n => (times (next sh s2) n r).getLsbD 0) := by
  subst ht
  refine ⟨fun n hn => ?_, fun n => ?_⟩
  · have hn' : n < s2 + 1 := hn
    show (times (next sh s2) n r).getLsbD 0 = true
    rw [times_getLsbD hlt hf n 0 (by omega)]
    exact hs n hn'
  · show (times (next sh s2) (n + (s2 + 1)) r).getLsbD 0 =
      ((times (next sh s2) n r).getLsbD 0 ^^ (times (next sh s2) (n + (s2 + 1) - (s2 + 1 - sh)) r).getLsbD 0)
    have hfn := fits_times hlt hf (sh := sh) n
    rw [show n + (s2 + 1) - (s2 + 1 - sh) = n + sh by omega, times_add _ n (s2 + 1), times_add _ n sh]
    rw [times_getLsbD hlt hfn sh 0 (by omega)]
    show (times (next sh s2) s2 (next sh s2 (times (next sh s2) n r))).getLsbD 0 = _
    rw [times_getLsbD hlt (fits_next hlt hfn) s2 0 (by omega), next_getLsbD hlt hfn]
    simp

theorem follows_regBit {p : Pattern} (hp : p.Random) : Follows (stages p) (regBit p) := by
  refine random_cases hp (motive := fun p => Follows (stages p) (regBit p)) ?_ ?_ ?_ ?_ ?_
  all_goals exact follows_reg (by decide) (by decide) (fits_of_lt (by decide)) (by decide) rfl

theorem stages_ok {p : Pattern} (hp : p.Random) : 0 < (stages p).2 ∧ (stages p).2 ≤ (stages p).1 :=
  random_cases hp (motive := fun p => 0 < (stages p).2 ∧ (stages p).2 ≤ (stages p).1) (by decide) (by decide) (by decide) (by decide)
    (by decide)

/-- There is such a sequence. -/
theorem follows_exists (p : Pattern) (hp : p.Random) : ∃ b, Follows (stages p) b := ⟨_, follows_regBit hp⟩

theorem invert_start (c : Settings) {p : Pattern} (hp : p.Random) : (c.start p).invert = bit (inverted p) :=
  random_cases hp (motive := fun p => (c.start p).invert = bit (inverted p)) rfl rfl rfl rfl rfl

/-- The generator of a pseudo-random pattern after so many bits. -/
theorem advance_reg (c : Settings) {p : Pattern} (hp : p.Random) (n : Nat) (hu : Unlimited (c.start p) n) :
    Is (advance (c.start p) n) p ∧ (advance (c.start p) n).invert = bit (inverted p) ∧
    (advance (c.start p) n).tx.reg = times (next (geometry p).sh (geometry p).s2) n (choice p).reg := by
  have hi := is_start c hp
  have h1 : ∀ n, Is (advance (c.start p) n) p ∧ (advance (c.start p) n).invert = bit (inverted p) := by
    intro n
    obtain ⟨t, ht⟩ := advance_frame (c.start p) n
    rw [ht]
    exact ⟨⟨hi.cls, hi.shift, hi.shift2, hi.mask, hi.time, hi.zeros, hi.inv, hi.pos, hi.le, hi.lt, hi.enough⟩, invert_start c hp⟩
  refine ⟨(h1 n).1, (h1 n).2, ?_⟩
  induction n with
  | zero => rfl
  | succ n ih =>
    have h' : Unlimited (c.start p) n := by simp only [Unlimited] at hu ⊢; omega
    rw [advance_step, getBit_random (h1 n).1 (advance_not_ended hu) (h1 n).2, times_succ, ← ih h']

theorem sent_random (c : Settings) {p : Pattern} (hp : p.Random) (n : Nat) (hu : Unlimited (c.start p) (n + 1)) :
    sent (c.start p) n = bit (regBit p n ^^ limitFlip (geometry p).mz (advance (c.start p) n).tx.zeros (regBit p n) ^^ inverted p) := by
  obtain ⟨h1, h2, h3⟩ := advance_reg c hp n (by simp only [Unlimited] at hu ⊢; omega)
  simp only [sent]
  rw [getBit_random h1 (advance_not_ended hu) h2, h3]
  rfl

/-- The pseudo-random patterns are the sequences of the shift registers in the Recommendations. The pattern with limited runs is in
`limited_pattern`. -/
theorem random_pattern (c : Settings) (p : Pattern) (hp : p.Random) (h20 : p ≠ .o151_20) (b : Nat → Bool) (hb : Follows (stages p) b)
    (n : Nat) (hl : c.limit = 0 ∨ (n : Int) < c.limit) : sent (c.start p) n = asBit (b n ^^ inverted p) := by
  have hu : Unlimited (c.start p) (n + 1) := unlimited_start c p (by omega)
  have hz : (geometry p).mz = 0 := by
    refine random_cases hp (motive := fun p => p ≠ .o151_20 → (geometry p).mz = 0) ?_ ?_ ?_ ?_ ?_ h20
    · intro _; rfl
    · intro h; exact absurd rfl h
    · intro _; rfl
    · intro _; rfl
    · intro _; rfl
  obtain ⟨g1, g2⟩ := stages_ok hp
  rw [sent_random c hp n hu, hz, follows_unique g1 g2 hb (follows_regBit hp) n]
  simp [limitFlip, asBit, bit]

example : ∃ b, Follows (stages .o153_9) b ∧ ∀ n, sent (Settings.start ⟨0, 300, 20, 0, true⟩ .o153_9) n = asBit (b n) := by
  obtain ⟨b, hb⟩ := follows_exists .o153_9 (by simp [Pattern.Random])
  refine ⟨b, hb, fun n => ?_⟩
  rw [random_pattern _ _ (by simp [Pattern.Random]) (by decide) b hb n (Or.inl rfl)]
  simp [inverted]

/-- The count of the generator is the number of zeros which it sent last. -/
theorem zeros_count (c : Settings) (n : Nat) (hu : Unlimited (c.start .o151_20) n) :
    (advance (c.start .o151_20) n).tx.zeros ≤ 14 ∧ (advance (c.start .o151_20) n).tx.zeros ≤ n ∧
    (∀ k, k < (advance (c.start .o151_20) n).tx.zeros → sent (c.start .o151_20) (n - 1 - k) = 0) ∧
    ((advance (c.start .o151_20) n).tx.zeros < n →
      sent (c.start .o151_20) (n - 1 - (advance (c.start .o151_20) n).tx.zeros) = 1) := by
  have hp : Pattern.Random .o151_20 := by simp [Pattern.Random]
  induction n with
  | zero => exact ⟨Nat.zero_le _, Nat.le_refl _, fun k hk => absurd hk (by exact Nat.not_lt_zero k), fun h => absurd h (Nat.lt_irrefl 0)⟩
  | succ n ih =>
    have h' : Unlimited (c.start .o151_20) n := by simp only [Unlimited] at hu ⊢; omega
    obtain ⟨i1, i2, i3, i4⟩ := ih h'
    obtain ⟨h1, h2, h3⟩ := advance_reg c hp n h'
    have hs := sent_random c hp n hu
    have hz : (advance (c.start .o151_20) (n + 1)).tx.zeros = limitCount 14 (advance (c.start .o151_20) n).tx.zeros (regBit .o151_20 n) := by
      rw [advance_step, getBit_random h1 (advance_not_ended hu) h2, h3]
      rfl
    have hs' : sent (c.start .o151_20) n =
        bit (regBit .o151_20 n ^^ limitFlip 14 (advance (c.start .o151_20) n).tx.zeros (regBit .o151_20 n) ^^ true) := hs
    generalize (advance (c.start .o151_20) n).tx.zeros = z at *
    rw [hz]
    cases hb : regBit .o151_20 n
    · rw [hb] at hs'
      refine ⟨by simp [limitCount], by simp [limitCount], ?_, fun _ => ?_⟩
      · intro k hk
        simp [limitCount] at hk
      · simp only [limitCount]
        rw [show n + 1 - 1 - (if 14 ≠ 0 then (if false = true then (if z + 1 > 14 then 0 else z + 1) else 0) else z) = n by simp, hs']
        rfl
    · rw [hb] at hs'
      by_cases hz14 : z + 1 > 14
      · have e : limitCount 14 z true = 0 := by simp [limitCount, hz14]
        rw [e]
        refine ⟨by omega, by omega, fun k hk => absurd hk (Nat.not_lt_zero k), fun _ => ?_⟩
        rw [show n + 1 - 1 - 0 = n by omega, hs']
        simp [limitFlip, hz14, bit]
      · have e : limitCount 14 z true = z + 1 := by simp [limitCount, hz14]
        rw [e]
        refine ⟨by omega, by omega, fun k hk => ?_, fun h => ?_⟩
        · cases k with
          | zero =>
            rw [show n + 1 - 1 - 0 = n by omega, hs']
            simp [limitFlip, hz14, bit]
          | succ k =>
            rw [show n + 1 - 1 - (k + 1) = n - 1 - k by omega]
            exact i3 k (by omega)
        · rw [show n + 1 - 1 - (z + 1) = n - 1 - z by omega]
          exact i4 (by omega)

/-- The pattern with limited runs sends the inverted sequence, but it sends a one instead of a zero after fourteen zeros. -/
theorem limited_pattern (c : Settings) (b : Nat → Bool) (hb : Follows (stages .o151_20) b) (n : Nat)
    (hl : c.limit = 0 ∨ (n : Int) < c.limit) :
    (sent (c.start .o151_20) n = 1 ↔
      b n = false ∨ (14 ≤ n ∧ ∀ k, k < 14 → sent (c.start .o151_20) (n - 1 - k) = 0)) ∧
    (sent (c.start .o151_20) n = 0 ∨ sent (c.start .o151_20) n = 1) := by
  have hp : Pattern.Random .o151_20 := by simp [Pattern.Random]
  have hu : Unlimited (c.start .o151_20) (n + 1) := unlimited_start c _ (by omega)
  have h' : Unlimited (c.start .o151_20) n := by simp only [Unlimited] at hu ⊢; omega
  obtain ⟨g1, g2⟩ := stages_ok hp
  obtain ⟨i1, i2, i3, i4⟩ := zeros_count c n h'
  have hs : sent (c.start .o151_20) n =
      bit (regBit .o151_20 n ^^ limitFlip 14 (advance (c.start .o151_20) n).tx.zeros (regBit .o151_20 n) ^^ true) :=
    sent_random c hp n hu
  rw [← follows_unique g1 g2 hb (follows_regBit hp) n] at hs
  generalize (advance (c.start .o151_20) n).tx.zeros = z at *
  rw [hs]
  refine ⟨?_, by cases (b n ^^ limitFlip 14 z (b n) ^^ true) <;> simp [bit]⟩
  cases hbn : b n
  · simp [limitFlip, bit]
  · by_cases hz : z = 14
    · subst hz
      simp only [limitFlip, Bool.true_eq_false, false_or]
      constructor
      · intro _
        exact ⟨i2, i3⟩
      · intro _; rfl
    · have hz' : z < 14 := by omega
      have e : limitFlip 14 z true = false := by simp [limitFlip]; omega
      rw [e]
      constructor
      · intro h; exact absurd h (by decide)
      · intro h
        rcases h with h | ⟨h, hall⟩
        · exact absurd h (by decide)
        · have h1 := i4 (by omega)
          rw [hall z hz'] at h1
          exact absurd h1 (by decide)

/-- So it never sends fifteen zeros in a row. -/
theorem limited_runs (c : Settings) (n : Nat) (hl : c.limit = 0 ∨ ((n + 15 : Nat) : Int) ≤ c.limit) :
    ∃ k, k < 15 ∧ sent (c.start .o151_20) (n + k) = 1 := by
  obtain ⟨b, hb⟩ := follows_exists .o151_20 (by simp [Pattern.Random])
  by_cases h : ∃ k, k < 14 ∧ sent (c.start .o151_20) (n + k) = 1
  · obtain ⟨k, hk, hs⟩ := h
    exact ⟨k, by omega, hs⟩
  · refine ⟨14, by omega, ((limited_pattern c b hb (n + 14) (by omega)).1).2 (Or.inr ⟨by omega, fun k hk => ?_⟩)⟩
    rw [show n + 14 - 1 - k = n + (13 - k) by omega]
    rcases (limited_pattern c b hb (n + (13 - k)) (by omega)).2 with h0 | h1
    · exact h0
    · exact absurd ⟨13 - k, by omega, h1⟩ h

example : ∃ k, k < 15 ∧ sent (Settings.start ⟨0, 300, 20, 0, true⟩ .o151_20) (123456 + k) = 1 := limited_runs _ _ (Or.inl rfl)

/-! ## The text -/

seal qbfAt in
/-- The generator of the text after so many bits. -/
theorem advance_text (c : Settings) (n : Nat) (hu : Unlimited (c.start .qbf) n) :
    fetch (advance (c.start .qbf) n).tx =
      ⟨qbfAt (n / 7 % 153) >>> (n % 7), n / 7 % 153 + 1, 7 - n % 7, (advance (c.start .qbf) n).tx.bits, (advance (c.start .qbf) n).tx.zeros⟩ := by
  induction n with
  | zero =>
    have e : (advance (c.start .qbf) 0).tx = ⟨0, 0, 0, 0, 0⟩ := rfl
    have hz : qbfAt 0 ≠ 0 := by rw [qbfAt_first]; decide
    rw [e]
    simp only [fetch, if_true]
    rw [if_neg hz]
    rfl
  | succ n ih =>
    have h' : Unlimited (c.start .qbf) n := by simp only [Unlimited] at hu ⊢; omega
    obtain ⟨t, ht⟩ := advance_frame (c.start .qbf) n
    have hc : (advance (c.start .qbf) n).patternClass = 2 := by rw [ht]; rfl
    rw [advance_step, getBit_text hc (advance_not_ended hu), ih h']
    simp only
    generalize hm : n / 7 % 153 = m
    generalize (advance (c.start .qbf) n).tx.zeros = z
    have hmlt : m < 153 := by omega
    by_cases h6 : n % 7 = 6
    · have e1 : (n + 1) % 7 = 0 := by omega
      have e2 : (n + 1) / 7 = n / 7 + 1 := by omega
      rw [e1, h6, e2]
      simp only [fetch, if_true, show 7 - 6 - 1 = 0 from rfl]
      by_cases hl : m = 152
      · have hz : qbfAt (m + 1) = 0 := (qbfAt_zero_iff _).2 (by rw [qbf_length]; omega)
        have e3 : (n / 7 + 1) % 153 = 0 := by omega
        rw [if_pos hz, e3, qbfAt_first]
        rfl
      · have hz : qbfAt (m + 1) ≠ 0 := fun h => by
          have := (qbfAt_zero_iff _).1 h
          rw [qbf_length] at this; omega
        have e3 : (n / 7 + 1) % 153 = m + 1 := by omega
        rw [if_neg hz, e3]
        rfl
    · have e1 : (n + 1) % 7 = n % 7 + 1 := by omega
      have e2 : (n + 1) / 7 = n / 7 := by omega
      have e4 : 7 - n % 7 - 1 ≠ 0 := by omega
      rw [e1, e2, hm]
      simp only [fetch, e4, if_false]
      rw [BitVec.shiftRight_add]
      rfl

/-- The text pattern sends the characters of the text over and over, each with the low bit first and seven bits long. -/
theorem text_pattern (c : Settings) (n : Nat) (hl : c.limit = 0 ∨ (n : Int) < c.limit) :
    ∃ ch, qbf[n / 7 % 153]? = some ch ∧ sent (c.start .qbf) n = asBit (ch.toNat.testBit (n % 7)) := by
  have hu : Unlimited (c.start .qbf) (n + 1) := unlimited_start c _ (by omega)
  have h' : Unlimited (c.start .qbf) n := by simp only [Unlimited] at hu ⊢; omega
  have hlt : n / 7 % 153 < qbf.length := by rw [qbf_length]; omega
  refine ⟨_, List.getElem?_eq_getElem hlt, ?_⟩
  obtain ⟨t, ht⟩ := advance_frame (c.start .qbf) n
  have hc : (advance (c.start .qbf) n).patternClass = 2 := by rw [ht]; rfl
  simp only [sent]
  rw [getBit_text hc (advance_not_ended hu), advance_text c n h']
  refine congrArg bit (?_ : _ = _)
  simp only [BitVec.getLsbD_ushiftRight, Nat.add_zero, qbfAt]
  rw [List.getElem?_map, List.getElem?_eq_getElem hlt]
  simp only [Option.map_some, Option.getD_some, BitVec.getLsbD_ofNat]
  have : n % 7 < 32 := by omega
  simp [this]

/-- The eleventh bit is the fifth of the letter o. -/
example : sent (Settings.start ⟨0, 300, 20, 0, true⟩ .qbf) 11 = 0 := by
  obtain ⟨ch, h1, h2⟩ := text_pattern ⟨0, 300, 20, 0, true⟩ 11 (Or.inl rfl)
  rw [show qbf[11 / 7 % 153]? = some 'o' by decide +kernel] at h1
  cases h1
  rw [h2]
  decide

end Bert
