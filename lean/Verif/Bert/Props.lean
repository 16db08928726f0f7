import Verif.Bert.Loopback

/-!
# The bit error rate tester counts the errors (C25)
-/

namespace Bert

/-- What `bert_put_bit` leaves alone. -/
theorem putBit_tx (s : State) (b : Word) : (putBit s b).1.tx = s.tx ∧ (putBit s b).1.limit = s.limit := by
  have hreg : ∀ q : State, (regular q).1.tx = q.tx ∧ (regular q).1.limit = q.limit := by
    intro q
    obtain ⟨⟨rc, h⟩, _⟩ := regular_frame q
    rw [h]
    exact ⟨rfl, rfl⟩
  have hcls : ∀ (q : State) (w : Word), (putClass q w).1.tx = q.tx ∧ (putClass q w).1.limit = q.limit := by
    intro q w
    simp only [putClass]
    split
    · simp only [putFixed]
      split
      · split
        · split <;> exact ⟨rfl, rfl⟩
        · exact ⟨rfl, rfl⟩
      · exact ⟨rfl, rfl⟩
    · split
      · have hc : (check q w).tx = q.tx ∧ (check q w).limit = q.limit := by
          simp only [check]
          split <;> exact ⟨rfl, rfl⟩
        obtain ⟨⟨dp, db, er, ms, hm⟩, _⟩ := measure_frame (check q w)
        have hm' : (measure (check q w)).1.tx = q.tx ∧ (measure (check q w)).1.limit = q.limit := by
          rw [hm]; exact hc
        simp only [putRandom]
        split
        · simp only [putSearch]
          split
          · split <;> exact ⟨rfl, rfl⟩
          · exact ⟨rfl, rfl⟩
        · simp only [checkSync]
          split
          · split <;> exact hm'
          · exact hm'
      · split
        · simp only [putText]
          split <;> exact ⟨rfl, rfl⟩
        · exact ⟨rfl, rfl⟩
  simp only [putBit]
  split
  · exact ⟨rfl, rfl⟩
  · exact ⟨(hreg _).1.trans (hcls _ _).1, (hreg _).2.trans (hcls _ _).2⟩

theorem turn_bits {s : State} (he : ¬ ended s) (e : Bool) :
    (turn s e).1.tx.bits = s.tx.bits + 1 ∧ (turn s e).1.limit = s.limit := by
  have hg : (getBit s).1.tx.bits = s.tx.bits + 1 ∧ (getBit s).1.limit = s.limit := by
    unfold getBit
    rw [if_neg (show ¬ (s.limit ≠ 0 ∧ (s.tx.bits : Int) ≥ s.limit) from he)]
    refine ⟨?_, rfl⟩
    show ((if s.patternClass = 0 then _ else _ : Tx × Word).1.bits + 1) = _
    split
    · rfl
    · split
      · rfl
      · split
        · exact congrArg (· + 1) (fetch_bits s.tx)
        · rfl
  simp only [turn]
  rw [(putBit_tx _ _).1, (putBit_tx _ _).2]
  exact hg

theorem loop_ended {s : State} (h : ended s) (es : List Bool) : loop s es = (s, []) := by
  induction es with
  | nil => rfl
  | cons e es ih => rw [loop_cons, turn_ended h, ih]; rfl

/-- Only the bits up to the limit matter. -/
theorem within_limit (s : State) (n : Nat) :
    ∃ k, k ≤ n ∧ (k = 0 ∨ Unlimited s k) ∧ loop s (clean n) = loop s (clean k) := by
  induction n generalizing s with
  | zero => exact ⟨0, Nat.le_refl _, Or.inl rfl, rfl⟩
  | succ n ih =>
    by_cases he : ended s
    · exact ⟨0, Nat.zero_le _, Or.inl rfl, by rw [loop_ended he]; rfl⟩
    · obtain ⟨hb, hl⟩ := turn_bits he false
      obtain ⟨k, hk, hu, hr⟩ := ih (turn s false).1
      refine ⟨k + 1, by omega, Or.inr ?_, ?_⟩
      · simp only [Unlimited, ended, hb, hl] at he hu ⊢
        omega
      · rw [show clean (n + 1) = false :: clean n from List.replicate_succ,
          show clean (k + 1) = false :: clean k from List.replicate_succ, loop_cons, loop_cons, hr]

theorem unlimited_start (c : Settings) (p : Pattern) {n : Nat} (h : c.limit = 0 ∨ (n : Int) ≤ c.limit) :
    Unlimited (c.start p) n := by
  have e1 : (c.start p).limit = c.limit := rfl
  have e2 : (c.start p).tx.bits = 0 := rfl
  simp only [Unlimited, e1, e2]
  omega

theorem clean_add (a b : Nat) : clean (a + b) = clean a ++ clean b := by
  simp only [clean, List.replicate_append_replicate]

theorem length_clean (n : Nat) : (clean n).length = n := List.length_replicate

theorem pattern_cases (p : Pattern) : p.Fixed ∨ p.Random ∨ p = .qbf := by
  cases p <;> simp [Pattern.Fixed, Pattern.Random]

theorem badGroups_clean (n : Nat) : badGroups (clean n) = 0 := by
  induction n using Nat.strongRecOn with
  | ind n ih =>
    by_cases h : n < 7
    · match n, h with
      | 0, _ => rfl
      | 1, _ => rfl
      | 2, _ => rfl
      | 3, _ => rfl
      | 4, _ => rfl
      | 5, _ => rfl
      | 6, _ => rfl
    · obtain ⟨k, rfl⟩ : ∃ k, n = 7 + k := ⟨n - 7, by omega⟩
      rw [clean_add]
      show (0 : Nat) + badGroups (clean k) = 0
      rw [ih k (by omega)]

/-- A tester whose output is joined to its input by a good line synchronises after the number of bits which the pattern
needs. It says so once, if it has anybody to tell, it checks all the bits from then on, and it finds none of them bad. For the
pseudo-random patterns the tester has to be told to put up with something. -/
theorem loopback_synchronises (c : Settings) (p : Pattern) (n : Nat) (hl : c.limit = 0 ∨ (n : Int) ≤ c.limit)
    (ht : p.Random → 0 < c.tolerance) :
    result (loop (c.start p) (clean n)).1 = ⟨n - syncTime p, 0, 0⟩ ∧
    told reportSynced (loop (c.start p) (clean n)).2 = (if c.reporter ∧ p ≠ .qbf ∧ syncTime p ≤ n then 1 else 0) ∧
    told reportUnsynced (loop (c.start p) (clean n)).2 = 0 := by
  have hu := unlimited_start c p hl
  simp only [result]
  rcases pattern_cases p with hp | hp | hp
  · obtain ⟨h1, h2⟩ := fixed_start c hp
    have hq : p ≠ .qbf := by intro h; subst h; simp [Pattern.Fixed] at hp
    by_cases hn : n ≤ 72
    · obtain ⟨g1, g2, g3, g4, g5, g6⟩ := fixed_near_run (by omega) h1 (by omega) n (by omega) hu _ rfl
      rw [h2]
      refine ⟨?_, ?_, g6⟩
      · rw [g2, show n - 72 = 0 by omega]; rfl
      · rw [g5]
        have : (c.start p).reporter = c.reporter := rfl
        rw [this]
        by_cases h72 : n = 72
        · simp [h72, hq]
        · rw [if_neg (by omega), if_neg (by omega)]
    · obtain ⟨k, rfl⟩ : ∃ k, n = 72 + k := ⟨n - 72, by omega⟩
      have hu1 : Unlimited (c.start p) 72 := by simp only [Unlimited] at hu ⊢; omega
      obtain ⟨g1, g2, g3, g4, g5, g6⟩ := fixed_near_run (by omega) h1 (by omega) 72 (by omega) hu1 _ rfl
      rw [if_pos (by omega)] at g1
      have hu2 : Unlimited (loop (c.start p) (clean 72)).1 (clean k).length := by
        simp only [Unlimited, g3, g4, length_clean] at hu ⊢
        omega
      obtain ⟨f1, f2, f3, f4⟩ := fixed_step_run g1 (clean k) hu2 _ rfl
      rw [clean_add, loop_append, h2]
      simp only
      refine ⟨?_, ?_, ?_⟩
      · rw [f2, g2, errors_clean, clean, List.length_replicate]
        have : (c.start p).results = ⟨0, 0, 0⟩ := rfl
        rw [this]
        simp only [Results.mk.injEq]
        exact ⟨by omega, trivial, trivial⟩
      · rw [told_append, g5, f3]
        have : (c.start p).reporter = c.reporter := rfl
        rw [this]
        simp [hq]
      · rw [told_append, g6, f4]
  · have hq : p ≠ .qbf := by intro h; subst h; simp [Pattern.Random] at hp
    have hr : (c.start p).reporter = c.reporter := rfl
    have hres : (c.start p).results = ⟨0, 0, 0⟩ := rfl
    by_cases hn : n < syncTime p
    · obtain ⟨m, hm, _⟩ := acquire c hp
      obtain ⟨m', hm', hb⟩ := miniRun_mono n (syncTime p - n) (by omega) (by rw [show n + (syncTime p - n) = syncTime p by omega]; exact hm)
      obtain ⟨g1, g2, g3, g4, g5, g6, g7⟩ := search_run n (is_start c hp) hu hm' _ rfl
      refine ⟨?_, ?_, g7⟩
      · rw [g2.results, show n - syncTime p = 0 by omega, hres]
      · rw [g6, if_neg (by simp [hb]), if_neg (by omega)]
    · obtain ⟨k, rfl⟩ : ∃ k, n = syncTime p + k := ⟨n - syncTime p, by omega⟩
      have hu1 : Unlimited (c.start p) (syncTime p) := by simp only [Unlimited] at hu ⊢; omega
      obtain ⟨g1, g2, g3, g4, g5⟩ := in_step c hp hu1 _ rfl
      have hb0 : (c.start p).tx.bits = 0 := rfl
      have hu2 : Unlimited (loop (c.start p) (clean (syncTime p))).1 (clean k).length := by
        simp only [Unlimited, g2.limit, g3, length_clean, hb0] at hu ⊢
        omega
      have hkeep := in_step_few g1 (clean k) hu2 _ rfl (by
        rw [g2.bad, g2.len, g2.percent, errors_clean]
        exact ht hp)
      obtain ⟨f1, f2, f3, f4, f5, f6, f7⟩ := in_step_run g1 (clean k) hu2 _ rfl hkeep
      rw [clean_add, loop_append]
      simp only
      refine ⟨?_, ?_, ?_⟩
      · rw [f2, g2.results, errors_clean, hres, clean, List.length_replicate]
        simp only [Results.mk.injEq]
        exact ⟨by omega, trivial, trivial⟩
      · rw [told_append, g4, f6]
        simp [hq]
      · rw [told_append, g5, f7]
  · subst hp
    have hu' : Unlimited (c.start .qbf) (clean n).length := by rw [clean, List.length_replicate]; exact hu
    obtain ⟨g1, g2, g3⟩ := text_run (mid_start c) (clean n) hu' _ rfl
    refine ⟨?_, by rw [g2]; simp, g3⟩
    rw [g1, List.nil_append, badGroups_clean, clean, List.length_replicate]
    have : (c.start .qbf).results = ⟨0, 0, 0⟩ := rfl
    rw [this]
    simp [syncTime]

/-- Three thousand bits of the 2²³-1 pattern: 2922 are checked. -/
example : result (loop (Settings.start ⟨0, 300, 20, 0, true⟩ .o151_23) (clean 3000)).1 = ⟨2922, 0, 0⟩ :=
  (loopback_synchronises ⟨0, 300, 20, 0, true⟩ .o151_23 3000 (Or.inl rfl) (fun _ => by decide)).1

/-- A tester joined to itself by a good line never counts a bad bit, for however long it runs and even if it has a limit. The
pattern with limited runs has to be told to put up with something. -/
theorem loopback_no_bad_bits (c : Settings) (p : Pattern) (n : Nat) (ht : p = .o151_20 → 0 < c.tolerance) :
    (result (loop (c.start p) (clean n)).1).badBits = 0 := by
  by_cases hp : p.Random ∧ p ≠ .o151_20
  · have hz : (geometry p).mz = 0 := by
      refine random_cases hp.1 (motive := fun p => p ≠ .o151_20 → (geometry p).mz = 0) ?_ ?_ ?_ ?_ ?_ hp.2
      · intro _; rfl
      · intro h; exact absurd rfl h
      · intro _; rfl
      · intro _; rfl
      · intro _; rfl
    obtain ⟨f1, f2⟩ := fits_start c hp.1
    have hb := onWay_begin ⟨is_start c hp.1, f2, f1⟩ (show (c.start p).rx.resync = 1 from rfl)
    exact onWay_run hz ⟨is_start c hp.1, Or.inl hb⟩ n
  · obtain ⟨k, hk, hu, hr⟩ := within_limit (c.start p) n
    rw [hr]
    rcases hu with rfl | hu
    · rfl
    · have hl : c.limit = 0 ∨ (k : Int) ≤ c.limit := by
        have e1 : (c.start p).limit = c.limit := rfl
        have e2 : (c.start p).tx.bits = 0 := rfl
        simp only [Unlimited, e1, e2] at hu
        omega
      rw [(loopback_synchronises c p k hl (fun h => ht (by
        by_cases h20 : p = .o151_20
        · exact h20
        · exact absurd ⟨h, h20⟩ hp))).1]

example : (result (loop (Settings.start ⟨1000, 300, 0, 0, true⟩ .o152_11) (clean 5000)).1).badBits = 0 :=
  loopback_no_bad_bits _ _ _ (fun h => by cases h)

/-- Once a tester is in step it counts each inverted bit as one bad bit, and no other, until it loses its place. -/
theorem counts_each_error (c : Settings) (p : Pattern) (hp : p ≠ .qbf) (n : Nat) (hn : syncTime p ≤ n) (es : List Bool)
    (hl : c.limit = 0 ∨ ((n + es.length : Nat) : Int) ≤ c.limit)
    (hk : (result (loop (c.start p) (clean n ++ es)).1).resyncs = 0) :
    result (loop (c.start p) (clean n ++ es)).1 = ⟨n - syncTime p + es.length, errors es, 0⟩ := by
  have hu := unlimited_start c p hl
  obtain ⟨k, rfl⟩ : ∃ k, n = syncTime p + k := ⟨n - syncTime p, by omega⟩
  simp only [result] at hk ⊢
  rw [clean_add, List.append_assoc, loop_append] at hk ⊢
  simp only at hk ⊢
  have hres : (c.start p).results = ⟨0, 0, 0⟩ := rfl
  have hlen : (clean k ++ es).length = k + es.length := by rw [List.length_append, clean, List.length_replicate]
  rcases pattern_cases p with hf | hr | hq
  · obtain ⟨h1, h2⟩ := fixed_start c hf
    rw [h2] at hk hu ⊢
    have hu1 : Unlimited (c.start p) 72 := by simp only [Unlimited] at hu ⊢; omega
    obtain ⟨g1, g2, g3, g4, g5, g6⟩ := fixed_near_run (by omega) h1 (by omega) 72 (by omega) hu1 _ rfl
    rw [if_pos (by omega)] at g1
    have hu2 : Unlimited (loop (c.start p) (clean 72)).1 (clean k ++ es).length := by
      simp only [Unlimited, g3, g4, hlen] at hu ⊢
      omega
    obtain ⟨f1, f2, f3, f4⟩ := fixed_step_run g1 (clean k ++ es) hu2 _ rfl
    rw [f2, g2, hres, hlen, errors_append, errors_clean]
    simp only [Results.mk.injEq]
    exact ⟨by omega, by omega, trivial⟩
  · have hu1 : Unlimited (c.start p) (syncTime p) := by simp only [Unlimited] at hu ⊢; omega
    obtain ⟨g1, g2, g3, g4, g5⟩ := in_step c hr hu1 _ rfl
    have hb0 : (c.start p).tx.bits = 0 := rfl
    have hu2 : Unlimited (loop (c.start p) (clean (syncTime p))).1 (clean k ++ es).length := by
      simp only [Unlimited, g2.limit, g3, hlen, hb0] at hu ⊢
      omega
    obtain ⟨f1, f2, _⟩ := in_step_run g1 (clean k ++ es) hu2 _ rfl (by rw [hk, g2.results, hres])
    rw [f2, g2.results, hres, hlen, errors_append, errors_clean]
    simp only [Results.mk.injEq]
    exact ⟨by omega, by omega, trivial⟩
  · exact absurd hq hp

/-- The tester does not lose its place if fewer bits are inverted than it puts up with. -/
theorem few_errors_keep_step (c : Settings) (p : Pattern) (n : Nat) (hn : syncTime p ≤ n) (es : List Bool)
    (hl : c.limit = 0 ∨ ((n + es.length : Nat) : Int) ≤ c.limit) (hf : (errors es : Int) < c.tolerance) :
    (result (loop (c.start p) (clean n ++ es)).1).resyncs = 0 := by
  have hu := unlimited_start c p hl
  obtain ⟨k, rfl⟩ : ∃ k, n = syncTime p + k := ⟨n - syncTime p, by omega⟩
  have hres : (c.start p).results = ⟨0, 0, 0⟩ := rfl
  have hlen : (clean k ++ es).length = k + es.length := by rw [List.length_append, clean, List.length_replicate]
  simp only [result]
  rcases pattern_cases p with hp | hr | hq
  · rw [clean_add, List.append_assoc, loop_append]
    obtain ⟨h1, h2⟩ := fixed_start c hp
    rw [h2] at hu ⊢
    have hu1 : Unlimited (c.start p) 72 := by simp only [Unlimited] at hu ⊢; omega
    obtain ⟨g1, g2, g3, g4, g5, g6⟩ := fixed_near_run (by omega) h1 (by omega) 72 (by omega) hu1 _ rfl
    rw [if_pos (by omega)] at g1
    have hu2 : Unlimited (loop (c.start p) (clean 72)).1 (clean k ++ es).length := by
      simp only [Unlimited, g3, g4, hlen] at hu ⊢
      omega
    obtain ⟨f1, f2, f3, f4⟩ := fixed_step_run g1 (clean k ++ es) hu2 _ rfl
    rw [f2, g2, hres]
  · rw [clean_add, List.append_assoc, loop_append]
    have hu1 : Unlimited (c.start p) (syncTime p) := by simp only [Unlimited] at hu ⊢; omega
    obtain ⟨g1, g2, g3, g4, g5⟩ := in_step c hr hu1 _ rfl
    have hb0 : (c.start p).tx.bits = 0 := rfl
    have hu2 : Unlimited (loop (c.start p) (clean (syncTime p))).1 (clean k ++ es).length := by
      simp only [Unlimited, g2.limit, g3, hlen, hb0] at hu ⊢
      omega
    rw [in_step_few g1 (clean k ++ es) hu2 _ rfl, g2.results, hres]
    rw [g2.bad, g2.len, g2.percent, errors_append, errors_clean]
    have : (c.start p).rx.resyncBadBits = 0 := rfl
    rw [this, Nat.zero_add, Nat.zero_add]
    exact hf
  · subst hq
    have hu' : Unlimited (c.start .qbf) (clean (syncTime .qbf + k) ++ es).length := by
      rw [List.length_append, clean, List.length_replicate]; exact hu
    rw [(text_run (mid_start c) _ hu' _ rfl).1, hres]

/-- Two bits in a thousand are inverted. -/
example : result (loop (Settings.start ⟨0, 300, 20, 0, true⟩ .o151_20) (clean 500 ++ ([true] ++ clean 40 ++ [true]))).1 =
    ⟨416 + 42, 2, 0⟩ :=
  counts_each_error _ _ (by decide) 500 (by decide) _ (Or.inl rfl)
    (few_errors_keep_step _ _ _ (by decide) _ (Or.inl rfl) (by decide))

/-- The bits of a pseudo-random pattern are judged in checks of `resync_len` bits. The tester keeps its place as long as, and only as
long as, each of the checks has fewer inverted bits than it puts up with. -/
theorem keeps_step_iff (c : Settings) (p : Pattern) (hp : p.Random) (hlen : 0 < c.resyncLen) (checks : List (List Bool))
    (hw : ∀ w ∈ checks, (w.length : Int) = c.resyncLen)
    (hl : c.limit = 0 ∨ ((syncTime p + checks.flatten.length : Nat) : Int) ≤ c.limit) :
    (result (loop (c.start p) (clean (syncTime p) ++ checks.flatten)).1).resyncs = 0 ↔
      ∀ w ∈ checks, (errors w : Int) < c.tolerance := by
  have hu := unlimited_start c p hl
  have hres : (c.start p).results = ⟨0, 0, 0⟩ := rfl
  have hu1 : Unlimited (c.start p) (syncTime p) := by simp only [Unlimited] at hu ⊢; omega
  obtain ⟨g1, g2, g3, g4, g5⟩ := in_step c hp hu1 _ rfl
  have hb0 : (c.start p).tx.bits = 0 := rfl
  have hu2 : Unlimited (loop (c.start p) (clean (syncTime p))).1 checks.flatten.length := by
    simp only [Unlimited, g2.limit, g3, hb0] at hu ⊢
    omega
  rw [loop_append]
  simp only [result]
  have key : ∀ (ws : List (List Bool)) (s : State), InStep s p → (∀ w ∈ ws, (w.length : Int) = s.rx.resyncLen) →
      Unlimited s ws.flatten.length → s.rx.resyncCnt = s.rx.resyncLen → 0 < s.rx.resyncLen → s.rx.resyncBadBits = 0 →
      ((loop s ws.flatten).1.results.resyncs = s.results.resyncs ↔
        ∀ w ∈ ws, (errors w : Int) < (s.rx.resyncLen * s.rx.resyncPercent).tdiv 100) := by
    intro ws
    induction ws with
    | nil => intro s _ _ _ _ _ _; simp [loop]
    | cons w ws ih =>
      intro s hs hws hus hcnt hpos hbad
      have hwl := hws w (List.mem_cons_self ..)
      rw [List.flatten_cons, List.length_append] at hus
      have hus1 : Unlimited s w.length := by simp only [Unlimited] at hus ⊢; omega
      obtain ⟨k1, k2, k3, k4, k5, k6, k7, k8⟩ := in_step_check hs w hus1 _ rfl (by rw [hwl, hcnt]) hcnt hpos hbad
      rw [List.flatten_cons, loop_append]
      simp only
      by_cases hfew : (errors w : Int) < (s.rx.resyncLen * s.rx.resyncPercent).tdiv 100
      · rw [if_neg (by omega)] at k1
        have hus2 : Unlimited (loop s w).1 ws.flatten.length := by
          simp only [Unlimited, k7, k8] at hus ⊢
          omega
        have := ih (loop s w).1 (k2 hfew) (fun v hv => by rw [k5]; exact hws v (List.mem_cons_of_mem _ hv)) hus2 k3
          (by rw [k5]; exact hpos) k4
        rw [k5, k6, k1, Nat.add_zero] at this
        rw [this]
        constructor
        · intro h v hv
          rcases List.mem_cons.1 hv with rfl | hv
          · exact hfew
          · exact h v hv
        · intro h v hv
          exact h v (List.mem_cons_of_mem _ hv)
      · rw [if_pos (by omega)] at k1
        have := (sane_loop (sane_loop hs.sane w _ rfl).1 ws.flatten _ rfl).2.1
        constructor
        · intro h; omega
        · intro h; exact absurd (h w (List.mem_cons_self ..)) hfew
  have := key checks _ g1 (fun w hw' => by rw [g2.len]; exact hw w hw') hu2 (by rw [g2.cnt, g2.len]; rfl)
    (by rw [g2.len]; exact hlen) (by rw [g2.bad]; rfl)
  rw [g2.results, hres, g2.len, g2.percent] at this
  exact this

/-- A check with as many inverted bits as it takes. -/
example : (result (loop (Settings.start ⟨0, 20, 10, 0, true⟩ .o152_11)
    (clean (syncTime .o152_11) ++ [clean 20, clean 9 ++ [true, true] ++ clean 9].flatten)).1).resyncs ≠ 0 := by
  intro h
  have := (keeps_step_iff ⟨0, 20, 10, 0, true⟩ .o152_11 (by simp [Pattern.Random]) (by decide)
    [clean 20, clean 9 ++ [true, true] ++ clean 9] (by decide) (Or.inl rfl)).1 h
  exact absurd (this _ (List.mem_cons_of_mem _ (List.mem_cons_self ..))) (by decide)

/-- The text is judged by its characters. A tester counts each character of which any bits were inverted as one bad bit. -/
theorem text_counts_characters_partial (c : Settings) (es : List Bool) (hl : c.limit = 0 ∨ (es.length : Int) ≤ c.limit) :
    result (loop (c.start .qbf) es).1 = ⟨es.length, badGroups es, 0⟩ := by
  have hu := unlimited_start c .qbf hl
  simp only [result]
  rw [(text_run (mid_start c) es hu _ rfl).1, List.nil_append]
  have : (c.start .qbf).results = ⟨0, 0, 0⟩ := rfl
  rw [this]
  simp

/-- So the text does not count each inverted bit: two in one character are one bad bit. -/
theorem text_undercounts : ∃ es : List Bool,
    (result (loop (Settings.start ⟨0, 300, 20, 0, true⟩ .qbf) es).1).badBits < errors es :=
  ⟨clean 7 ++ [true, true] ++ clean 5, by
    rw [text_counts_characters_partial _ _ (Or.inl rfl)]
    decide⟩

theorem getBit_rx (s : State) : ∃ t, (getBit s).1 = { s with tx := t } := by
  unfold getBit
  split
  · exact ⟨s.tx, rfl⟩
  · exact ⟨_, rfl⟩

/-- The generator of a pseudo-random pattern has run on by itself. -/
theorem advance_random {s : State} {p : Pattern} (h : Sane s p) (m : Nat) :
    Sane (advance s m) p ∧ (advance s m).rx = s.rx ∧ (advance s m).results = s.results ∧ (advance s m).limit = s.limit := by
  induction m generalizing s with
  | zero => exact ⟨h, rfl, rfl, rfl⟩
  | succ m ih =>
    simp only [advance]
    obtain ⟨t, ht⟩ := getBit_rx s
    have hs : Sane (getBit s).1 p := by
      have hi := h.is
      refine ⟨?_, ?_, by rw [ht]; exact h.rx⟩
      · rw [ht]
        exact ⟨hi.cls, hi.shift, hi.shift2, hi.mask, hi.time, hi.zeros, hi.inv, hi.pos, hi.le, hi.lt, hi.enough⟩
      · by_cases he : ended s
        · have : getBit s = (s, endOfData) := by unfold getBit; exact if_pos he
          rw [this]; exact h.tx
        · obtain ⟨inv, hinv⟩ := hi.inv
          rw [getBit_random hi he hinv]
          exact fits_next hi.lt h.tx
    obtain ⟨g1, g2, g3, g4⟩ := ih hs
    refine ⟨g1, g2.trans ?_, g3.trans ?_, g4.trans ?_⟩ <;> rw [ht]

theorem advance_fixed {s : State} {R : Word} (h : IsFixed s R) (hl : s.limit = 0) (m : Nat) :
    IsFixed (advance s m) R ∧ (advance s m).rx = s.rx ∧ (advance s m).results = s.results ∧ (advance s m).limit = s.limit ∧
    (advance s m).tx.reg = times (rot 31) m s.tx.reg := by
  induction m generalizing s with
  | zero => exact ⟨h, rfl, rfl, rfl, rfl⟩
  | succ m ih =>
    have he : ¬ ended s := by simp [ended, hl]
    simp only [advance]
    rw [getBit_fixed h he]
    obtain ⟨g1, g2, g3, g4, g5⟩ := ih (s := { s with tx := { s.tx with reg := rot 31 s.tx.reg, bits := s.tx.bits + 1 } })
      ⟨h.cls, h.shift2, h.time, h.inv, h.master⟩ hl
    exact ⟨g1, g2, g3, g4, g5⟩

theorem unlimited_of_zero {s : State} (h : s.limit = 0) (n : Nat) : Unlimited s n := Or.inl h

theorem fixed_late {R : Word} (n : Nat) {s : State} {k : Nat} (hi : IsFixed s R) (h : FixedSearch s R k) (hl : s.limit = 0)
    (s' : State) (hs' : s' = (loop s (clean n)).1) :
    s'.limit = 0 ∧ s'.results.badBits = s.results.badBits ∧ s.results.totalBits ≤ s'.results.totalBits ∧
    ((IsFixed s' R ∧ FixedSearch s' R (k + n) ∧ s'.results = s.results ∧ s'.tx.reg = times (rot 31) n s.tx.reg) ∨ FixedStep s' R) := by
  induction n generalizing s k with
  | zero => subst hs'; exact ⟨hl, rfl, Nat.le_refl _, Or.inl ⟨hi, h, rfl, rfl⟩⟩
  | succ n ih =>
    rw [show clean (n + 1) = false :: clean n from List.replicate_succ, loop_cons] at hs'
    have he : ¬ ended s := by simp [ended, hl]
    obtain ⟨t1, t2, t3, t4, t5, t6, t7, t8, t9, t10, t11⟩ := fixed_turn_search hi he false h.busy _ rfl
    rcases (fixed_search_turn hi h he _ rfl).1 with hg | ⟨hg1, hg2⟩
    · obtain ⟨g0, g1, g2, g3⟩ := ih t1 hg (by rw [t7]; exact hl) hs'
      refine ⟨g0, by rw [g1, t5], by rw [t5] at g2; exact g2, ?_⟩
      rcases g3 with ⟨a, b, c, d⟩ | g3
      · left
        rw [show k + (n + 1) = k + 1 + n by omega]
        refine ⟨a, b, by rw [c, t5], by rw [d, t6]; rfl⟩
      · exact Or.inr g3
    · have hst : FixedStep (turn s false).1 R := ⟨t1, hg1, hg2⟩
      obtain ⟨f1, f2, _⟩ := fixed_step_run hst (clean n) (unlimited_of_zero (by rw [t7]; exact hl) _) s' hs'
      have hlim : s'.limit = 0 := by
        have : ∀ (n : Nat) (q : State), q.limit = 0 → (loop q (clean n)).1.limit = 0 := by
          intro n
          induction n with
          | zero => intro q hq; exact hq
          | succ n ih =>
            intro q hq
            rw [show clean (n + 1) = false :: clean n from List.replicate_succ, loop_cons]
            exact ih _ (by rw [(turn_bits (by simp [ended, hq]) false).2]; exact hq)
        rw [hs']
        exact this n _ (by rw [t7]; exact hl)
      refine ⟨hlim, ?_, ?_, Or.inr f1⟩
      · rw [f2, errors_clean, t5]; rfl
      · rw [f2, t5]; exact Nat.le_add_right _ _

/-- The most bits which a tester takes to find its place, wherever the generator is. -/
def joinTime : Pattern → Nat
  | .o151_23 => 79
  | .o151_15 => 55
  | .o152_11 => 43
  | .o153_9 => 37
  | _ => 136

/-- A tester need not start together with the generator. Whatever number of bits the generator has given before, on a good line the tester
synchronises and never counts a bad bit. This leaves out the text and the pattern with limited runs. -/
theorem late_join_partial (c : Settings) (p : Pattern) (hq : p ≠ .qbf) (h20 : p ≠ .o151_20) (hl : c.limit = 0) (m n : Nat) :
    (result (loop (advance (c.start p) m) (clean n)).1).badBits = 0 ∧
    ((p.Random → 0 < c.tolerance) → n - joinTime p ≤ (result (loop (advance (c.start p) m) (clean n)).1).totalBits) := by
  simp only [result]
  rcases pattern_cases p with hp | hp | hp
  · obtain ⟨h1, _⟩ := fixed_start c hp
    have hj : joinTime p = 136 :=
      fixed_cases hp (motive := fun p => joinTime p = 136) rfl rfl rfl rfl rfl rfl rfl
    obtain ⟨a1, a2, a3, a4, a5⟩ := advance_fixed h1.is (show (c.start p).limit = 0 from hl) m
    have hlim : (advance (c.start p) m).limit = 0 := a4.trans hl
    have hres : (advance (c.start p) m).results = ⟨0, 0, 0⟩ := a3
    have hR : (c.start p).tx.reg = (choice p).reg := rfl
    have hs0 : FixedSearch (advance (c.start p) m) (choice p).reg 0 := by
      refine ⟨?_, ?_, ?_, ⟨m, by rw [a5]; rfl⟩, ?_, by omega⟩
      · rw [a2]; exact Nat.one_ne_zero
      · rw [a2]; exact Nat.le_refl 1
      · rw [a2]; exact (by decide : (1 : Nat) ≤ 72)
      · intro i h1 h2; omega
    have hbad := (fixed_late n a1 hs0 hlim _ rfl).2.1
    refine ⟨by rw [hbad, hres], fun _ => ?_⟩
    rw [hj]
    by_cases hn : n ≤ 136
    · omega
    -- the time at which the generator is back at the start of the pattern
    obtain ⟨K, hK1, hK2, hK3⟩ : ∃ K, 32 ≤ K ∧ K ≤ 64 ∧ (m + K) % 32 = 0 := ⟨64 - m % 32, by omega, by omega, by omega⟩
    have step : ∃ q, q ≤ 136 ∧ FixedStep (loop (advance (c.start p) m) (clean q)).1 (choice p).reg ∧
        (loop (advance (c.start p) m) (clean q)).1.limit = 0 := by
      obtain ⟨l1, _, _, l3⟩ := fixed_late K a1 hs0 hlim _ rfl
      rcases l3 with ⟨b1, b2, b3, b4⟩ | l3
      · have htx : (loop (advance (c.start p) m) (clean K)).1.tx.reg = (choice p).reg := by
          rw [b4, a5, ← times_add, times_rot_mod, hK3]; rfl
        have hrx : (loop (advance (c.start p) m) (clean K)).1.rx.reg = (loop (advance (c.start p) m) (clean K)).1.tx.reg := by
          apply BitVec.eq_of_getLsbD_eq
          intro i hi
          exact b2.seen i hi (by omega)
        have href : (loop (advance (c.start p) m) (clean K)).1.rx.refReg = (loop (advance (c.start p) m) (clean K)).1.rx.reg := by
          rcases b2.ref (by omega) with h | h
          · exact h
          · rw [h, hrx, htx]
        have hbusy := b2.busy
        have hbelow := b2.below
        obtain ⟨r1, r2, r3, r4, _⟩ := fixed_near_run (j := (loop (advance (c.start p) m) (clean K)).1.rx.resync) hbusy
          ⟨b1, rfl, href, hrx⟩ hbelow (73 - (loop (advance (c.start p) m) (clean K)).1.rx.resync) (by omega)
          (unlimited_of_zero l1 _) _ rfl
        rw [if_pos (by omega)] at r1
        refine ⟨K + (73 - (loop (advance (c.start p) m) (clean K)).1.rx.resync), by omega, ?_, ?_⟩
        · rw [clean_add, loop_append]; exact r1
        · rw [clean_add, loop_append]; exact r3.trans l1
      · exact ⟨K, by omega, l3, l1⟩
    obtain ⟨q, hq1, hq2, hq3⟩ := step
    obtain ⟨d, rfl⟩ : ∃ d, n = q + d := ⟨n - q, by omega⟩
    rw [clean_add, loop_append]
    simp only
    rw [(fixed_step_run hq2 (clean d) (unlimited_of_zero hq3 _) _ rfl).2.1]
    simp only [clean, List.length_replicate]
    omega
  · have hz : (geometry p).mz = 0 := by
      refine random_cases hp (motive := fun p => p ≠ .o151_20 → (geometry p).mz = 0) ?_ ?_ ?_ ?_ ?_ h20
      · intro _; rfl
      · intro h; exact absurd rfl h
      · intro _; rfl
      · intro _; rfl
      · intro _; rfl
    have hj : joinTime p = (geometry p).s2 + 1 + (geometry p).T := by
      refine random_cases hp (motive := fun p => p ≠ .o151_20 → joinTime p = (geometry p).s2 + 1 + (geometry p).T) ?_ ?_ ?_ ?_ ?_ h20
      · intro _; rfl
      · intro h; exact absurd rfl h
      · intro _; rfl
      · intro _; rfl
      · intro _; rfl
    obtain ⟨f1, f2⟩ := fits_start c hp
    obtain ⟨a1, a2, a3, a4⟩ := advance_random ⟨is_start c hp, f2, f1⟩ m
    have hlim : (advance (c.start p) m).limit = 0 := a4.trans hl
    have hres : (advance (c.start p) m).results = ⟨0, 0, 0⟩ := a3
    have hr1 : (advance (c.start p) m).rx.resync = 1 := by rw [a2]; rfl
    have hb := onWay_begin a1 hr1
    refine ⟨by rw [onWay_run hz ⟨a1.is, Or.inl hb⟩ n, hres], fun ht => ?_⟩
    by_cases hn : n ≤ joinTime p
    · omega
    obtain ⟨j, hj1, hj2, hj3, hj4⟩ := search_ends hz a1.is hb (joinTime p) (unlimited_of_zero hlim _) (by rw [hj]; split <;> omega)
    obtain ⟨d, rfl⟩ : ∃ d, n = j + d := ⟨n - j, by omega⟩
    have hlj : (loop (advance (c.start p) m) (clean j)).1.limit = 0 := by rw [hj3.limit, hlim]
    have hkeep := in_step_few hj2 (clean d) (unlimited_of_zero hlj _) _ rfl (by
      rw [hj3.bad, hj3.len, hj3.percent, errors_clean, a2]
      exact ht hp)
    rw [clean_add, loop_append]
    simp only
    rw [(in_step_run hj2 (clean d) (unlimited_of_zero hlj _) _ rfl hkeep).2.1]
    simp only [clean, List.length_replicate]
    omega
  · exact absurd hp hq

/-- A tester joins a generator which has given a thousand bits. -/
example : (result (loop (advance (Settings.start ⟨0, 300, 20, 0, true⟩ .o151_15) 1000) (clean 5000)).1).badBits = 0 :=
  (late_join_partial ⟨0, 300, 20, 0, true⟩ .o151_15 (by decide) (by decide) rfl 1000 5000).1

set_option maxRecDepth 4000 in
/-- The pattern with limited runs cannot be joined like this: the tester does not know how long the run is which it joined in. Here it joins
after 291 bits, and counts a bad bit although the line is good. -/
theorem late_join_false_error :
    (result (loop (advance (Settings.start ⟨0, 300, 20, 0, true⟩ .o151_20) 291) (clean 160)).1).badBits = 1 := by
  decide +kernel

/-- After it has lost its place, the tester finds it again on a good line, and counts nothing as bad on the way. -/
theorem recovers_partial (c : Settings) (p : Pattern) (hp : p.Random) (h20 : p ≠ .o151_20) (es : List Bool) (e : Bool)
    (hlost : (result (loop (c.start p) (es ++ [e])).1).resyncs ≠ (result (loop (c.start p) es).1).resyncs) (n : Nat) :
    (result (loop (c.start p) (es ++ [e] ++ clean n)).1).badBits = (result (loop (c.start p) (es ++ [e])).1).badBits := by
  have hz : (geometry p).mz = 0 := by
    refine random_cases hp (motive := fun p => p ≠ .o151_20 → (geometry p).mz = 0) ?_ ?_ ?_ ?_ ?_ h20
    · intro _; rfl
    · intro h; exact absurd rfl h
    · intro _; rfl
    · intro _; rfl
    · intro _; rfl
  obtain ⟨f1, f2⟩ := fits_start c hp
  have hs := (sane_loop ⟨is_start c hp, f2, f1⟩ es _ rfl).1
  have he : (loop (c.start p) (es ++ [e])).1 = (turn (loop (c.start p) es).1 e).1 := by rw [loop_append]; rfl
  obtain ⟨g1, g2, g3, g4⟩ := sane_turn hs e _ rfl
  simp only [result] at hlost ⊢
  rw [he] at hlost
  have hr := (g3 (fun h => hlost h.symm)).1
  rw [loop_append (c.start p) (es ++ [e]) (clean n)]
  simp only
  rw [he]
  exact onWay_run hz ⟨g1.is, Or.inl (onWay_begin g1 hr)⟩ n

end Bert
