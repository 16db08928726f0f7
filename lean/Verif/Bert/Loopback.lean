import Verif.Bert.Acquire
import Verif.Bert.Fixed
import Verif.Bert.Text

/-!
# Runs of a tester joined to itself
-/

namespace Bert

/-! ## Pseudo-random patterns -/

/-- The numbers of a pseudo-random pattern: the tap, the last stage, the time to synchronise and the longest run. -/
structure Geometry where
  sh : Nat
  s2 : Nat
  T : Nat
  mz : Nat

def geometry : Pattern → Geometry
  | .o151_23 => ⟨5, 22, 56, 0⟩
  | .o151_20 => ⟨3, 19, 50, 14⟩
  | .o151_15 => ⟨1, 14, 40, 0⟩
  | .o152_11 => ⟨2, 10, 32, 0⟩
  | .o153_9 => ⟨4, 8, 28, 0⟩
  | _ => ⟨0, 0, 0, 0⟩

/-- The tester has the numbers of this pattern. -/
def Is (s : State) (p : Pattern) : Prop := IsRandom s (geometry p).sh (geometry p).s2 (geometry p).T (geometry p).mz

theorem random_cases {p : Pattern} (h : p.Random) {motive : Pattern → Prop} (h1 : motive .o151_23) (h2 : motive .o151_20)
    (h3 : motive .o151_15) (h4 : motive .o152_11) (h5 : motive .o153_9) : motive p := by
  simp only [Pattern.Random, List.mem_cons, List.not_mem_nil, or_false] at h
  rcases h with rfl | rfl | rfl | rfl | rfl <;> assumption

theorem is_start (c : Settings) {p : Pattern} (h : p.Random) : Is (c.start p) p := by
  refine random_cases h (motive := fun p => Is (c.start p) p) ?_ ?_ ?_ ?_ ?_
  · exact ⟨rfl, rfl, rfl, rfl, rfl, rfl, ⟨true, rfl⟩, by decide, by decide, by decide, by decide⟩
  · exact ⟨rfl, rfl, rfl, rfl, rfl, rfl, ⟨true, rfl⟩, by decide, by decide, by decide, by decide⟩
  · exact ⟨rfl, rfl, rfl, rfl, rfl, rfl, ⟨true, rfl⟩, by decide, by decide, by decide, by decide⟩
  · exact ⟨rfl, rfl, rfl, rfl, rfl, rfl, ⟨false, rfl⟩, by decide, by decide, by decide, by decide⟩
  · exact ⟨rfl, rfl, rfl, rfl, rfl, rfl, ⟨false, rfl⟩, by decide, by decide, by decide, by decide⟩

theorem fits_start (c : Settings) {p : Pattern} (h : p.Random) : Fits (geometry p).s2 (c.start p).rx.reg ∧
    Fits (geometry p).s2 (c.start p).tx.reg := by
  have : Fits (geometry p).s2 (choice p).reg :=
    random_cases h (motive := fun p => Fits (geometry p).s2 (choice p).reg) (fits_of_lt (by decide)) (fits_of_lt (by decide))
      (fits_of_lt (by decide)) (fits_of_lt (by decide)) (fits_of_lt (by decide))
  exact ⟨this, this⟩

/-- The run up to the synchronisation is computed. -/
theorem acquire (c : Settings) {p : Pattern} (h : p.Random) :
    ∃ m, miniRun (geometry p).sh (geometry p).s2 (geometry p).T (geometry p).mz (syncTime p) (mini (c.start p)) = some m ∧
      miniLocked (geometry p).sh (geometry p).s2 (geometry p).mz m 0 = true := by
  have key : ∀ (p : Pattern) (r : Word), (choice p).reg = r →
      (match miniRun (geometry p).sh (geometry p).s2 (geometry p).T (geometry p).mz (syncTime p) ⟨r, 0, r, 1⟩ with
        | some m => miniLocked (geometry p).sh (geometry p).s2 (geometry p).mz m 0
        | none => false) = true →
      ∃ m, miniRun (geometry p).sh (geometry p).s2 (geometry p).T (geometry p).mz (syncTime p) (mini (c.start p)) = some m ∧
        miniLocked (geometry p).sh (geometry p).s2 (geometry p).mz m 0 = true := by
    intro p r hr hm
    subst hr
    have e : mini (c.start p) = ⟨(choice p).reg, 0, (choice p).reg, 1⟩ := rfl
    rw [e]
    split at hm
    · next m he => exact ⟨m, he, hm⟩
    · simp at hm
  refine random_cases h (motive := fun p => ∃ m, miniRun (geometry p).sh (geometry p).s2 (geometry p).T (geometry p).mz (syncTime p) (mini (c.start p)) = some m ∧
      miniLocked (geometry p).sh (geometry p).s2 (geometry p).mz m 0 = true) ?_ ?_ ?_ ?_ ?_
  · exact key .o151_23 0x7FFFFF rfl (by decide +kernel)
  · exact key .o151_20 0xFFFFF rfl (by decide +kernel)
  · exact key .o151_15 0x7FFF rfl (by decide +kernel)
  · exact key .o152_11 0x7FF rfl (by decide +kernel)
  · exact key .o153_9 0x1FF rfl (by decide +kernel)

theorem miniRun_mono {sh s2 T mz : Nat} (n k : Nat) (hk : 0 < k) {m0 m : Mini} (h : miniRun sh s2 T mz (n + k) m0 = some m) :
    ∃ m', miniRun sh s2 T mz n m0 = some m' ∧ m'.resync ≠ 0 := by
  induction n generalizing m0 with
  | zero =>
    obtain ⟨k, rfl⟩ : ∃ j, k = j + 1 := ⟨k - 1, by omega⟩
    rw [Nat.zero_add] at h
    simp only [miniRun] at h ⊢
    split at h
    · simp at h
    · next hr => exact ⟨m0, rfl, hr⟩
  | succ n ih =>
    rw [show n + 1 + k = (n + k) + 1 by omega] at h
    simp only [miniRun] at h ⊢
    split at h
    · simp at h
    · next hr =>
      rw [if_neg hr]
      exact ih h

/-- A tester in step, with no inverted bits since its last check. -/
structure InStep (s : State) (p : Pattern) : Prop where
  is : Is s p
  locked : Locked s (geometry p).sh (geometry p).s2 (geometry p).mz
  sync : s.rx.resync = 0

/-- It gets into step by itself. -/
theorem in_step (c : Settings) {p : Pattern} (h : p.Random) (hu : Unlimited (c.start p) (syncTime p)) (s : State)
    (hs : s = (loop (c.start p) (clean (syncTime p))).1) :
    InStep s p ∧ SameChecks (c.start p) s ∧ s.tx.bits = syncTime p ∧
    told reportSynced (loop (c.start p) (clean (syncTime p))).2 = (if c.reporter then 1 else 0) ∧
    told reportUnsynced (loop (c.start p) (clean (syncTime p))).2 = 0 := by
  obtain ⟨m, hm, hl⟩ := acquire c h
  obtain ⟨g1, g2, g3, g4, g5, g6, g7⟩ := search_run (syncTime p) (is_start c h) hu hm s hs
  have hz : s.rx.zeros = 0 := g5
  rw [← g4, ← hz] at hl
  obtain ⟨l1, l2⟩ := locked_of_mini hl
  have hn : syncTime p ≠ 0 :=
    random_cases h (motive := fun p => syncTime p ≠ 0) (by decide) (by decide) (by decide) (by decide) (by decide)
  have hr : m.resync = 0 := by rw [← g4]; exact l1
  refine ⟨⟨g1, l2, l1⟩, g2, by rw [g3]; exact Nat.zero_add _, ?_, g7⟩
  rw [g6]
  have : (c.start p).reporter = c.reporter := rfl
  simp only [hn, hr, this, ne_eq, not_false_eq_true, true_and]

theorem loop_cons (s : State) (e : Bool) (es : List Bool) :
    loop s (e :: es) = ((loop (turn s e).1 es).1, (turn s e).2 ++ (loop (turn s e).1 es).2) := rfl

theorem errors_cons (e : Bool) (es : List Bool) : errors (e :: es) = (if e then 1 else 0) + errors es := by
  cases e <;> simp [errors, Nat.add_comm]

theorem errors_append (a b : List Bool) : errors (a ++ b) = errors a + errors b := by
  simp [errors]

theorem errors_clean (n : Nat) : errors (clean n) = 0 := by
  induction n with
  | zero => rfl
  | succ n ih => rw [clean, List.replicate_succ, errors_cons, ← clean, ih]; rfl

/-- What holds of every run with a pseudo-random pattern. -/
structure Sane (s : State) (p : Pattern) : Prop where
  is : Is s p
  tx : Fits (geometry p).s2 s.tx.reg
  rx : Fits (geometry p).s2 s.rx.reg

theorem sane_turn {s : State} {p : Pattern} (h : Sane s p) (e : Bool) (s' : State) (hs' : s' = (turn s e).1) :
    Sane s' p ∧ s.results.resyncs ≤ s'.results.resyncs ∧
    (s.results.resyncs ≠ s'.results.resyncs → s'.rx.resync = 1 ∧ s'.rx.resyncBadBits = 0) ∧
    s'.rx.resyncLen = s.rx.resyncLen ∧ s'.rx.resyncPercent = s.rx.resyncPercent ∧ s'.limit = s.limit := by
  by_cases he : ended s
  · rw [turn_ended he] at hs'
    subst hs'
    exact ⟨h, Nat.le_refl _, fun hh => absurd rfl hh, rfl, rfl, rfl⟩
  · have hi := h.is
    by_cases hr : s.rx.resync = 0
    · have hlt : (geometry p).sh < 32 := by have := hi.le; have := hi.lt; omega
      obtain ⟨⟨dp, db, er, ms, hp⟩, _, _⟩ := putRandom_sync (between s (geometry p).sh (geometry p).s2 (geometry p).mz)
        (s.tx.reg.getLsbD 0 ^^ limitFlip (geometry p).mz s.tx.zeros (s.tx.reg.getLsbD 0) ^^ e) hr
        (by rw [show (between s (geometry p).sh (geometry p).s2 (geometry p).mz).mask = s.mask from rfl, hi.mask, ← hi.shift]; rfl)
        (by rw [show (between s (geometry p).sh (geometry p).s2 (geometry p).mz).shift = s.shift from rfl, hi.shift]; exact hlt) _ rfl
      rw [turn_random hi he e] at hs'
      simp only at hs'
      obtain ⟨⟨rc, hrc⟩, _⟩ := regular_frame (putRandom (between s (geometry p).sh (geometry p).s2 (geometry p).mz)
        (bit (s.tx.reg.getLsbD 0 ^^ limitFlip (geometry p).mz s.tx.zeros (s.tx.reg.getLsbD 0) ^^ e))).1
      rw [hrc, hp] at hs'
      generalize hbad : (s.tx.reg.getLsbD 0 ^^ limitFlip (geometry p).mz s.tx.zeros (s.tx.reg.getLsbD 0) ^^ e ^^ _ ^^ _) = bad at hs'
      subst hs'
      refine ⟨⟨⟨hi.cls, hi.shift, hi.shift2, hi.mask, hi.time, hi.zeros, hi.inv, hi.pos, hi.le, hi.lt, hi.enough⟩, ?_, ?_⟩,
        Nat.le_add_right _ _, ?_, rfl, rfl, rfl⟩
      · exact fits_next hi.lt h.tx
      · show Fits (geometry p).s2 (next s.shift s.shift2 s.rx.reg)
        rw [hi.shift, hi.shift2]
        exact fits_next hi.lt h.rx
      · intro hne
        show (if loses s.rx bad then 1 else 0) = 1 ∧ (if s.rx.resyncCnt - 1 ≤ 0 then 0 else _) = 0
        have hlo : loses s.rx bad = true := by
          cases hl : loses s.rx bad with
          | true => rfl
          | false =>
            exfalso
            apply hne
            show s.results.resyncs = s.results.resyncs + (if loses s.rx bad then 1 else 0)
            rw [hl]; rfl
        refine ⟨by rw [hlo]; rfl, ?_⟩
        simp only [loses, Bool.and_eq_true, decide_eq_true_eq] at hlo
        rw [if_pos hlo.1]
    · obtain ⟨f1, f2, f3, f4, f5, f6, f7, f8, f9, f10⟩ := search_fields hi hr he e s' hs' _ rfl
      refine ⟨⟨f1, by rw [f4]; exact fits_next hi.lt h.tx, ?_⟩, by rw [f2.results]; exact Nat.le_refl _, fun hh => ?_,
        f2.len, f2.percent, f2.limit⟩
      · rw [f7]
        split
        · exact fits_next hi.lt h.rx
        · exact fits_next hi.lt (fits_flip hi.le hi.lt h.rx)
      · exact absurd (by rw [f2.results]) hh

theorem sane_loop {s : State} {p : Pattern} (h : Sane s p) (es : List Bool) (s' : State) (hs' : s' = (loop s es).1) :
    Sane s' p ∧ s.results.resyncs ≤ s'.results.resyncs ∧
    s'.rx.resyncLen = s.rx.resyncLen ∧ s'.rx.resyncPercent = s.rx.resyncPercent ∧ s'.limit = s.limit := by
  induction es generalizing s with
  | nil => subst hs'; exact ⟨h, Nat.le_refl _, rfl, rfl, rfl⟩
  | cons e es ih =>
    rw [loop_cons] at hs'
    obtain ⟨h1, h2, _, h3, h4, h5⟩ := sane_turn h e _ rfl
    obtain ⟨g1, g2, g3, g4, g5⟩ := ih h1 hs'
    exact ⟨g1, Nat.le_trans h2 g2, g3.trans h3, g4.trans h4, g5.trans h5⟩

theorem InStep.sane {s : State} {p : Pattern} (h : InStep s p) : Sane s p :=
  ⟨h.is, by rw [← h.locked.place]; exact fits_times h.is.lt h.locked.fits _, h.locked.fits⟩

/-- In step, every inverted bit is counted, and nothing else, as long as the tester stays in step. -/
theorem in_step_run {s : State} {p : Pattern} (h : InStep s p) (es : List Bool) (hu : Unlimited s es.length) (s' : State)
    (hs' : s' = (loop s es).1) (hk : s'.results.resyncs = s.results.resyncs) :
    InStep s' p ∧ s'.results = ⟨s.results.totalBits + es.length, s.results.badBits + errors es, s.results.resyncs⟩ ∧
    s'.limit = s.limit ∧ s'.tx.bits = s.tx.bits + es.length ∧ s'.reporter = s.reporter ∧
    told reportSynced (loop s es).2 = 0 ∧ told reportUnsynced (loop s es).2 = 0 := by
  induction es generalizing s with
  | nil => subst hs'; exact ⟨h, rfl, rfl, rfl, rfl, rfl, rfl⟩
  | cons e es ih =>
    rw [List.length_cons] at hu
    obtain ⟨t1, t2, t3, t4, t5, t6, t7, t8, t9, t10, t11, t12, t13⟩ := locked_turn h.is h.locked h.sync hu.not_ended e _ rfl
    rw [loop_cons] at hs' ⊢
    have hm := (sane_loop (sane_turn h.sane e _ rfl).1 es s' hs').2.1
    have hlo : loses s.rx e = false := by
      cases hl : loses s.rx e with
      | false => rfl
      | true =>
        rw [t3, hl] at hm
        simp only [if_true] at hm
        omega
    rw [hlo] at t3 t4 t13
    have hin : InStep (turn s e).1 p := ⟨t1, t2, t4⟩
    have hk' : s'.results.resyncs = (turn s e).1.results.resyncs := by rw [t3, hk]; rfl
    obtain ⟨g1, g2, g3, g4, g5, g6, g7⟩ := ih hin (hu.next t9 t10) hs' hk'
    refine ⟨g1, ?_, g3.trans t9, by rw [g4, t10, List.length_cons]; omega, g5.trans t11, ?_, ?_⟩
    · rw [g2, t3, errors_cons, List.length_cons]
      simp only [Results.mk.injEq]
      refine ⟨by omega, by omega, ?_⟩
      simp
    · rw [told_append, t12, g6]
    · rw [told_append, t13, g7]
      rfl

/-- Too few bits are inverted for the tester to look for its place again. -/
theorem in_step_few {s : State} {p : Pattern} (h : InStep s p) (es : List Bool) (hu : Unlimited s es.length) (s' : State)
    (hs' : s' = (loop s es).1)
    (hf : ((s.rx.resyncBadBits + errors es : Nat) : Int) < (s.rx.resyncLen * s.rx.resyncPercent).tdiv 100) :
    s'.results.resyncs = s.results.resyncs := by
  induction es generalizing s with
  | nil => subst hs'; rfl
  | cons e es ih =>
    rw [List.length_cons] at hu
    rw [errors_cons] at hf
    obtain ⟨t1, t2, t3, t4, t5, t6, t7, t8, t9, t10, t11, t12, t13⟩ := locked_turn h.is h.locked h.sync hu.not_ended e _ rfl
    rw [loop_cons] at hs'
    have hlo : loses s.rx e = false := by
      simp only [loses, Bool.and_eq_false_iff, decide_eq_false_iff_not]
      right
      omega
    rw [hlo] at t3 t4
    rw [ih ⟨t1, t2, t4⟩ (hu.next t9 t10) hs' ?_, t3]
    · rfl
    · rw [t7, t8, t5]
      split <;> omega

/-- Up to the last bit of a check nothing is lost. -/
theorem in_step_part {s : State} {p : Pattern} (h : InStep s p) (es : List Bool) (hu : Unlimited s es.length) (s' : State)
    (hs' : s' = (loop s es).1) (hc : (es.length : Int) < s.rx.resyncCnt) :
    InStep s' p ∧ s'.results.resyncs = s.results.resyncs ∧ s'.rx.resyncCnt = s.rx.resyncCnt - es.length ∧
    s'.rx.resyncBadBits = s.rx.resyncBadBits + errors es ∧
    s'.rx.resyncLen = s.rx.resyncLen ∧ s'.rx.resyncPercent = s.rx.resyncPercent ∧
    s'.limit = s.limit ∧ s'.tx.bits = s.tx.bits + es.length := by
  induction es generalizing s with
  | nil => subst hs'; exact ⟨h, rfl, by simp, rfl, rfl, rfl, rfl, rfl⟩
  | cons e es ih =>
    rw [List.length_cons] at hu hc
    obtain ⟨t1, t2, t3, t4, t5, t6, t7, t8, t9, t10, t11, t12, t13⟩ := locked_turn h.is h.locked h.sync hu.not_ended e _ rfl
    rw [loop_cons] at hs'
    have hlo : loses s.rx e = false := by
      simp only [loses, Bool.and_eq_false_iff, decide_eq_false_iff_not]
      left
      omega
    rw [hlo] at t3 t4
    rw [if_neg (by omega)] at t5 t6
    obtain ⟨g1, g2, g3, g4, g5, g6, g7, g8⟩ := ih ⟨t1, t2, t4⟩ (hu.next t9 t10) hs' (by omega)
    refine ⟨g1, by rw [g2, t3]; rfl, by rw [g3, t6, List.length_cons]; omega, by rw [g4, t5, errors_cons]; omega, g5.trans t7, g6.trans t8,
      g7.trans t9, by rw [g8, t10, List.length_cons]; omega⟩

/-- One whole check. -/
theorem in_step_check {s : State} {p : Pattern} (h : InStep s p) (w : List Bool) (hu : Unlimited s w.length) (s' : State)
    (hs' : s' = (loop s w).1) (hw : (w.length : Int) = s.rx.resyncCnt) (hc : s.rx.resyncCnt = s.rx.resyncLen)
    (hl : 0 < s.rx.resyncLen) (hb : s.rx.resyncBadBits = 0) :
    s'.results.resyncs = s.results.resyncs +
      (if (errors w : Int) ≥ (s.rx.resyncLen * s.rx.resyncPercent).tdiv 100 then 1 else 0) ∧
    ((errors w : Int) < (s.rx.resyncLen * s.rx.resyncPercent).tdiv 100 → InStep s' p) ∧
    s'.rx.resyncCnt = s'.rx.resyncLen ∧ s'.rx.resyncBadBits = 0 ∧
    s'.rx.resyncLen = s.rx.resyncLen ∧ s'.rx.resyncPercent = s.rx.resyncPercent ∧
    s'.limit = s.limit ∧ s'.tx.bits = s.tx.bits + w.length := by
  have hne : w ≠ [] := by intro h0; subst h0; simp at hw; omega
  obtain ⟨v, e, rfl⟩ : ∃ v e, w = v ++ [e] := ⟨w.dropLast, w.getLast hne, (List.dropLast_concat_getLast hne).symm⟩
  rw [List.length_append, List.length_singleton] at hu hw
  have hu1 : Unlimited s v.length := by
    simp only [Unlimited] at hu ⊢
    omega
  obtain ⟨g1, g2, g3, g4, g5, g6, g7, g8⟩ := in_step_part h v hu1 _ rfl (by omega)
  rw [loop_append] at hs'
  have hu2 : Unlimited (loop s v).1 (0 + 1) := by
    simp only [Unlimited, g7, g8] at hu ⊢
    omega
  obtain ⟨t1, t2, t3, t4, t5, t6, t7, t8, t9, t10, t11, t12, t13⟩ :=
    locked_turn g1.is g1.locked g1.sync hu2.not_ended e s' hs'
  have hcnt : (loop s v).1.rx.resyncCnt - 1 ≤ 0 := by rw [g3]; omega
  rw [if_pos hcnt] at t5 t6
  have hlo : loses (loop s v).1.rx e = decide ((errors (v ++ [e]) : Int) ≥ (s.rx.resyncLen * s.rx.resyncPercent).tdiv 100) := by
    simp only [loses, hcnt, decide_true, Bool.true_and, g5, g6, g4, hb]
    rw [errors_append, errors_cons]
    have : errors [] = 0 := rfl
    rw [this]
    simp
  rw [hlo] at t3 t4
  refine ⟨?_, ?_, ?_, t5, t7.trans g5, t8.trans g6, t9.trans g7, ?_⟩
  · rw [t3]
    simp only [g2, decide_eq_true_eq]
  · intro hlt
    refine ⟨t1, t2, ?_⟩
    rw [t4, if_neg]
    simp only [decide_eq_true_eq]
    omega
  · rw [t6, t7]
  · rw [t10, g8, List.length_append, List.length_singleton]
    omega

/-! ## A clean line and no limit on runs -/

/-- The tester is in step or on the way to it, with a pattern which has no limit on runs. -/
def OnWay (s : State) (p : Pattern) (k : Nat) : Prop :=
  Is s p ∧ (Searching s (geometry p).sh (geometry p).s2 (geometry p).T k ∨
    (Locked s (geometry p).sh (geometry p).s2 0 ∧ s.rx.resync = 0))

theorem onWay_turn {s : State} {p : Pattern} {k : Nat} (hz : (geometry p).mz = 0) (h : OnWay s p k) (s' : State)
    (hs' : s' = (turn s false).1) :
    s'.results.badBits = s.results.badBits ∧ ∃ k', OnWay s' p k' := by
  by_cases he : ended s
  · rw [turn_ended he] at hs'
    subst hs'
    exact ⟨rfl, k, h⟩
  · obtain ⟨hi, h⟩ := h
    have hi' : IsRandom s (geometry p).sh (geometry p).s2 (geometry p).T 0 := by have := hi; rw [Is, hz] at this; exact this
    rcases h with h | ⟨h, hr⟩
    · obtain ⟨g1, g2, g3, g4, _⟩ := searching_turn hi' h he s' hs'
      refine ⟨by rw [g4], k + 1, ?_, ?_⟩
      · rw [Is, hz]; exact g1
      · rcases g2 with ⟨g2, _⟩ | ⟨g2, g5, _⟩
        · exact Or.inl g2
        · exact Or.inr ⟨g2, g5⟩
    · obtain ⟨t1, t2, t3, t4, t5, t6, t7, t8, t9, t10, t11, t12, t13⟩ := locked_turn hi' h hr he false s' hs'
      refine ⟨by rw [t3]; rfl, 0, ?_, ?_⟩
      · rw [Is, hz]; exact t1
      · cases hlo : loses s.rx false with
        | false => rw [hlo] at t4; exact Or.inr ⟨t2, t4⟩
        | true =>
          rw [hlo] at t4
          simp only [if_true] at t4
          have := t1.pos
          have := t1.enough
          exact Or.inl ⟨by omega, by omega, by omega, t2.fits, s'.rx.reg, t2.fits, t2.place, agree_refl _ _ _ _⟩

theorem onWay_run {s : State} {p : Pattern} {k : Nat} (hz : (geometry p).mz = 0) (h : OnWay s p k) (n : Nat) :
    (loop s (clean n)).1.results.badBits = s.results.badBits := by
  induction n generalizing s k with
  | zero => rfl
  | succ n ih =>
    rw [show clean (n + 1) = false :: clean n from List.replicate_succ, loop_cons]
    obtain ⟨h1, k', h2⟩ := onWay_turn hz h _ rfl
    exact (ih h2).trans h1

/-- A tester which has just begun to look for its place. -/
theorem onWay_begin {s : State} {p : Pattern} (h : Sane s p) (hr : s.rx.resync = 1) :
    Searching s (geometry p).sh (geometry p).s2 (geometry p).T 0 := by
  obtain ⟨R, hR, e⟩ := exists_times h.is.pos h.is.le h.is.lt (geometry p).sh h.tx
  have := h.is.pos
  have := h.is.enough
  exact ⟨by omega, by omega, by omega, h.rx, R, hR, e, agree_zero _ _ h.is.le⟩

/-- It gets into step on a clean line, in no more bits than this. -/
theorem search_ends {s : State} {p : Pattern} (hz : (geometry p).mz = 0) (hi : Is s p) {k : Nat}
    (h : Searching s (geometry p).sh (geometry p).s2 (geometry p).T k) (n : Nat) (hu : Unlimited s n)
    (hn : ((geometry p).s2 + 1 - k) + (geometry p).T ≤ n + (if (geometry p).s2 + 1 ≤ k then s.rx.resync - 1 else 0)) :
    ∃ j, j ≤ n ∧ InStep (loop s (clean j)).1 p ∧ SameChecks s (loop s (clean j)).1 ∧
      (loop s (clean j)).1.tx.bits = s.tx.bits + j := by
  induction n generalizing s k with
  | zero =>
    exfalso
    have := h.below
    have := h.busy
    split at hn <;> omega
  | succ n ih =>
    have hi' : IsRandom s (geometry p).sh (geometry p).s2 (geometry p).T 0 := by have := hi; rw [Is, hz] at this; exact this
    obtain ⟨g1, g2, g3, g4, g5, g6, g7, g8, g9, g10, g11, g12⟩ := searching_turn hi' h hu.not_ended _ rfl
    have gi : Is (turn s false).1 p := by rw [Is, hz]; exact g1
    rcases g2 with ⟨g2, g2', _⟩ | ⟨g2, g2', _⟩
    · have hb := g2.below
      have hbu := h.busy
      obtain ⟨j, hj, i1, i2, i3⟩ := ih gi g2 (hu.next g9 g10) (by
        split at hn
        · next hk =>
          have := g2' hk
          rw [if_pos (by omega)]
          omega
        · split
          · have := g2.busy; omega
          · omega)
      refine ⟨j + 1, by omega, ?_⟩
      rw [show clean (j + 1) = false :: clean j from List.replicate_succ, loop_cons]
      refine ⟨i1, ?_, by rw [i3, g10]; omega⟩
      exact ⟨i2.1.trans g4, i2.2.trans g5, i2.3.trans g6, i2.4.trans g7, i2.5.trans g8, i2.6.trans g9, i2.7.trans g11⟩
    · refine ⟨1, by omega, ?_⟩
      show InStep (turn s false).1 p ∧ SameChecks s (turn s false).1 ∧ _
      refine ⟨⟨gi, ?_, g2'⟩, ⟨g4, g5, g6, g7, g8, g9, g11⟩, g10⟩
      rw [hz]; exact g2

/-! ## Fixed patterns -/

/-- The tester has found the fixed pattern. -/
structure FixedStep (s : State) (R : Word) : Prop where
  is : IsFixed s R
  sync : s.rx.resync = 0
  place : s.rx.refReg = s.tx.reg

theorem fixed_step_run {s : State} {R : Word} (h : FixedStep s R) (es : List Bool) (hu : Unlimited s es.length) (s' : State)
    (hs' : s' = (loop s es).1) :
    FixedStep s' R ∧ s'.results = ⟨s.results.totalBits + es.length, s.results.badBits + errors es, s.results.resyncs⟩ ∧
    told reportSynced (loop s es).2 = 0 ∧ told reportUnsynced (loop s es).2 = 0 := by
  induction es generalizing s with
  | nil => subst hs'; exact ⟨h, rfl, rfl, rfl⟩
  | cons e es ih =>
    rw [List.length_cons] at hu
    obtain ⟨t1, t2, t3, t4, t5, t6, t7, t8, t9⟩ := fixed_turn_locked h.is hu.not_ended e h.sync h.place _ rfl
    rw [loop_cons] at hs' ⊢
    obtain ⟨g1, g2, g3, g4⟩ := ih ⟨t1, t2, t3⟩ (hu.next t5 t6) hs'
    refine ⟨g1, ?_, by rw [told_append, t8, g3], by rw [told_append, t9, g4]⟩
    rw [g2, t4, errors_cons, List.length_cons]
    simp only [Results.mk.injEq]
    refine ⟨by omega, by omega, trivial⟩

/-- The tester agrees with the generator and counts the bits until it says so. -/
structure FixedNear (s : State) (R : Word) (j : Nat) : Prop where
  is : IsFixed s R
  busy : s.rx.resync = j
  ref : s.rx.refReg = s.rx.reg
  reg : s.rx.reg = s.tx.reg

theorem fixed_near_turn {s : State} {R : Word} {j : Nat} (hj : j ≠ 0) (h : FixedNear s R j) (he : ¬ ended s) (s' : State)
    (hs' : s' = (turn s false).1) :
    (if j + 1 > 72 then FixedStep s' R else FixedNear s' R (j + 1)) ∧ s'.results = s.results ∧ s'.limit = s.limit ∧
    s'.tx.bits = s.tx.bits + 1 ∧ s'.reporter = s.reporter ∧
    told reportSynced (turn s false).2 = (if j + 1 > 72 ∧ s.reporter then 1 else 0) ∧
    told reportUnsynced (turn s false).2 = 0 := by
  have hr : s.rx.resync ≠ 0 := by rw [h.busy]; exact hj
  obtain ⟨h1, h2, h3, h4, h5, h6, h7, h8, h9, h10, h11⟩ := fixed_turn_search h.is he false hr s' hs'
  rw [Bool.xor_false] at h2
  have hm : s'.rx.reg = rot 31 s.rx.refReg := by
    rw [h2, h.ref, h.reg]
    apply BitVec.eq_of_getLsbD_eq
    intro i hi
    rw [push_getLsbD, rot_getLsbD (by omega) (fits31 _)]
  rw [if_pos hm] at h3 h4
  rw [h.busy] at h4
  refine ⟨?_, h5, h7, h8, h9, ?_, h11⟩
  · split
    · next h72 =>
      rw [if_pos h72] at h4
      exact ⟨h1, h4, by rw [h3, h.ref, h.reg, h6]⟩
    · next h72 =>
      rw [if_neg h72] at h4
      exact ⟨h1, h4, by rw [h3, hm], by rw [hm, h.ref, h.reg, h6]⟩
  · rw [h10, h4]
    by_cases h72 : j + 1 > 72 <;> simp [h72]

theorem fixed_near_run {s : State} {R : Word} {j : Nat} (hj : j ≠ 0) (h : FixedNear s R j) (hj72 : j ≤ 72) (n : Nat)
    (hn : j + n ≤ 73) (hu : Unlimited s n) (s' : State) (hs' : s' = (loop s (clean n)).1) :
    (if j + n > 72 then FixedStep s' R else FixedNear s' R (j + n)) ∧ s'.results = s.results ∧ s'.limit = s.limit ∧
    s'.tx.bits = s.tx.bits + n ∧
    told reportSynced (loop s (clean n)).2 = (if j + n > 72 ∧ s.reporter then 1 else 0) ∧
    told reportUnsynced (loop s (clean n)).2 = 0 := by
  induction n generalizing s j with
  | zero =>
    subst hs'
    rw [if_neg (by omega), if_neg (by omega)]
    exact ⟨h, rfl, rfl, rfl, rfl, rfl⟩
  | succ n ih =>
    obtain ⟨t1, t2, t3, t4, t5, t6, t7⟩ := fixed_near_turn hj h hu.not_ended _ rfl
    rw [show clean (n + 1) = false :: clean n from List.replicate_succ, loop_cons] at hs' ⊢
    by_cases h72 : j + 1 > 72
    · have hn0 : n = 0 := by omega
      subst hn0
      rw [if_pos h72] at t1
      subst hs'
      rw [if_pos (by omega)]
      refine ⟨t1, t2, t3, t4, ?_, ?_⟩
      · rw [told_append, t6]; rfl
      · rw [told_append, t7]; rfl
    · rw [if_neg h72] at t1
      obtain ⟨g1, g2, g3, g4, g5, g6⟩ := ih (by omega) t1 (by omega) (by omega) (hu.next t3 t4) hs'
      rw [show j + (n + 1) = j + 1 + n by omega]
      refine ⟨g1, g2.trans t2, g3.trans t3, by rw [g4, t4]; omega, ?_, ?_⟩
      · rw [told_append, t6, g5, t5]
        rw [if_neg (by omega), Nat.zero_add]
      · rw [told_append, t7, g6]

theorem fixed_cases {p : Pattern} (h : p.Fixed) {motive : Pattern → Prop} (h1 : motive .zeros) (h2 : motive .ones)
    (h3 : motive .p7to1) (h4 : motive .p3to1) (h5 : motive .p1to1) (h6 : motive .p1to3) (h7 : motive .p1to7) : motive p := by
  simp only [Pattern.Fixed, List.mem_cons, List.not_mem_nil, or_false] at h
  rcases h with rfl | rfl | rfl | rfl | rfl | rfl | rfl <;> assumption

theorem fixed_start (c : Settings) {p : Pattern} (h : p.Fixed) : FixedNear (c.start p) (choice p).reg 1 ∧ syncTime p = 72 := by
  refine fixed_cases h (motive := fun p => FixedNear (c.start p) (choice p).reg 1 ∧ syncTime p = 72) ?_ ?_ ?_ ?_ ?_ ?_ ?_ <;>
    exact ⟨⟨⟨rfl, rfl, rfl, rfl, rfl⟩, rfl, rfl, rfl⟩, rfl⟩

/-! ## The text -/

theorem text_run {s : State} {pre : List Bool} (h : Mid s pre) (es : List Bool) (hu : Unlimited s es.length) (s' : State)
    (hs' : s' = (loop s es).1) :
    s'.results = ⟨s.results.totalBits + es.length, s.results.badBits + badGroups (pre ++ es), s.results.resyncs⟩ ∧
    told reportSynced (loop s es).2 = 0 ∧ told reportUnsynced (loop s es).2 = 0 := by
  have short : ∀ l : List Bool, l.length < 7 → badGroups l = 0 := by
    intro l hl
    match l, hl with
    | [], _ => rfl
    | [_], _ => rfl
    | [_, _], _ => rfl
    | [_, _, _], _ => rfl
    | [_, _, _, _], _ => rfl
    | [_, _, _, _, _], _ => rfl
    | [_, _, _, _, _, _], _ => rfl
    | _ :: _ :: _ :: _ :: _ :: _ :: _ :: _, hl => simp at hl; omega
  have group : ∀ (l : List Bool) (e : Bool) (r : List Bool), l.length = 6 →
      badGroups (l ++ e :: r) = (if (l ++ [e]).any id then 1 else 0) + badGroups r := by
    intro l e r hl
    match l, hl with
    | [a1, a2, a3, a4, a5, a6], _ =>
      simp only [List.cons_append, List.nil_append, badGroups, List.any_cons, List.any_nil, id_eq, Bool.or_false, Bool.or_assoc]
  induction es generalizing s pre with
  | nil =>
    subst hs'
    rw [List.append_nil, short _ h.short]
    exact ⟨rfl, rfl, rfl⟩
  | cons e es ih =>
    rw [List.length_cons] at hu
    obtain ⟨t1, t2, t3, t4, t5, t6⟩ := text_turn h hu.not_ended e _ rfl
    rw [loop_cons] at hs' ⊢
    obtain ⟨g1, g2, g3⟩ := ih t2 (hu.next t3 t4) hs'
    refine ⟨?_, by rw [told_append, t5, g2], by rw [told_append, t6, g3]⟩
    rw [g1, t1, List.length_cons]
    by_cases h6 : pre.length = 6
    · rw [if_pos h6, group pre e es h6]
      simp only [h6, true_and, List.nil_append, Results.mk.injEq]
      refine ⟨by omega, by omega, trivial⟩
    · rw [if_neg h6]
      simp only [h6, false_and, if_false, List.append_assoc, List.cons_append, List.nil_append, Results.mk.injEq]
      refine ⟨by omega, by omega, trivial⟩

end Bert
