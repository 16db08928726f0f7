import Verif.Silence.Model

/-!
# The silence generator gives the silence it was asked for (C33)
-/

namespace Silence

/-! ## What it is for -/

/-- An ideal generator which has so much silence left. A call for samples gets what is left at most, and tells of the
completion if it takes the last of something. An alteration leaves nothing less than nothing. -/
def ideal (left : Int) : List Op → Int × List (Int × Bool)
  | [] => (left, [])
  | .gen m :: ops =>
    let n := min m left
    let (l, out) := ideal (left - n) ops
    (l, (n, decide (0 < left ∧ left ≤ m)) :: out)
  | .alter k :: ops => ideal (max 0 (left + k)) ops

/-- What a block shows: how many samples, all of them zero, and whether it was the last. -/
def shows (handler : Bool) (n : Int) (last : Bool) : Block :=
  ⟨List.replicate n.toNat 0, n, if last ∧ handler then 1 else 0⟩

/-- The samples in the blocks. -/
def samples (out : List Block) : Int := (out.map (·.length)).sum

/-- How often the completion was told. -/
def completions (out : List Block) : Nat := (out.map (·.completed)).sum

/-- The requests are not negative and the alterations only add. -/
def Grows : List Op → Prop
  | [] => True
  | .gen m :: ops => 0 ≤ m ∧ Grows ops
  | .alter k :: ops => 0 ≤ k ∧ Grows ops

/-- What the alterations add. -/
def added : List Op → Int
  | [] => 0
  | .gen _ :: ops => added ops
  | .alter k :: ops => k + added ops

/-- The sum of the requests. -/
def asked : List Op → Int
  | [] => 0
  | .gen m :: ops => m + asked ops
  | .alter _ :: ops => asked ops

theorem int_ok {x : Int} (h1 : -2147483648 ≤ x) (h2 : x ≤ 2147483647) : int x = some x := if_pos ⟨h1, h2⟩

theorem added_nonneg {ops : List Op} (h : Grows ops) : 0 ≤ added ops := by
  induction ops with
  | nil => exact Int.le_refl 0
  | cons op ops ih =>
    cases op with
    | gen m => exact ih h.2
    | alter k => have := ih h.2; have := h.1; simp only [added]; omega

theorem count_ok {t n : Int} (h0 : 0 ≤ t) (hn : 0 ≤ n) (h : t + n ≤ intMax) : count t n = some (t + n) := by
  simp only [intMax] at h
  simp only [count, intMax]
  rw [int_ok (by omega) (by omega)]
  simp only [Option.bind_some]
  rw [if_pos (by omega), int_ok (by omega) (by omega)]

/-- A generator which is asked for a given time, and whose time may be made longer as it runs, gives exactly the silence of the ideal one.
Nothing in it overflows. It counts as generated what it gave and also what was added. -/
theorem silence_follows (s : State) (ops : List Op) (hg : Grows ops) (h0 : 0 ≤ s.remaining) (ht : 0 ≤ s.total)
    (hr : s.remaining + added ops < intMax) (htot : s.total + s.remaining + 2 * added ops ≤ intMax) :
    ∃ s' out, run s ops = some (s', out) ∧ remainder s' = (ideal s.remaining ops).1 ∧
      out = (ideal s.remaining ops).2.map (fun x => shows s.handler x.1 x.2) ∧
      s'.handler = s.handler ∧
      samples out + remainder s' = s.remaining + added ops ∧
      generated s' = s.total + samples out + added ops := by
  induction ops generalizing s with
  | nil => exact ⟨s, [], rfl, rfl, rfl, rfl, by simp [samples, added, remainder], by simp [samples, added, generated]⟩
  | cons op ops ih =>
    have ha := added_nonneg hg
    cases op with
    | gen m =>
      have h2 := added_nonneg hg.2
      have hm : 0 ≤ m := hg.1
      simp only [added] at hr htot ha
      have hne : s.remaining ≠ intMax := by omega
      have hmin : (if decide (m ≥ s.remaining) = true then s.remaining else m) = min m s.remaining := by
        by_cases hc : m ≥ s.remaining
        · simp only [decide_eq_true hc, if_true]; omega
        · simp only [decide_eq_false hc, Bool.false_eq_true, if_false]; omega
      have hn0 : 0 ≤ min m s.remaining := by omega
      simp only [intMax] at hr htot
      have hgen : gen s m = some ({ s with remaining := s.remaining - min m s.remaining, total := s.total + min m s.remaining },
          shows s.handler (min m s.remaining) (decide (0 < s.remaining ∧ s.remaining ≤ m))) := by
        unfold gen
        rw [if_pos hne]
        simp only [hmin]
        rw [int_ok (by omega) (by omega), count_ok ht hn0 (by simp only [intMax]; omega)]
        simp only [Option.bind_some, zeros, if_pos hn0, Option.map_some, shows]
        congr 3
        by_cases hc : m ≥ s.remaining
        · by_cases hz : s.remaining = 0
          · have h1 : min m s.remaining = 0 := by omega
            have h3 : ¬ (0 < s.remaining ∧ s.remaining ≤ m) := by omega
            rw [h1, decide_eq_false h3]
            simp
          · have h1 : min m s.remaining ≠ 0 := by omega
            have h3 : 0 < s.remaining ∧ s.remaining ≤ m := ⟨by omega, hc⟩
            rw [decide_eq_true h3, decide_eq_true hc]
            simp [h1]
        · simp [hc]
      obtain ⟨s', out, r1, r2, r3, r4, r5, r6⟩ := ih
        { s with remaining := s.remaining - min m s.remaining, total := s.total + min m s.remaining } hg.2
        (by show 0 ≤ s.remaining - min m s.remaining; omega) (by show 0 ≤ s.total + min m s.remaining; omega)
        (by simp only [intMax]; omega) (by simp only [intMax]; omega)
      refine ⟨s', _, by simp only [run, hgen, Option.bind_some, r1, Option.map_some]; rfl, r2, ?_, r4, ?_, ?_⟩
      · simp only [ideal, List.map_cons]
        rw [r3]
      · simp only [samples, List.map_cons, List.sum_cons, added, shows] at r5 ⊢
        omega
      · simp only [samples, List.map_cons, List.sum_cons, added, shows] at r6 ⊢
        omega
    | alter k =>
      have hk : 0 ≤ k := hg.1
      have h2 := added_nonneg hg.2
      simp only [added] at hr htot ha
      simp only [intMax] at hr htot
      have halt : alter s k = some { s with remaining := s.remaining + k, total := s.total + k } := by
        simp only [alter, limited]
        rw [if_neg (by omega)]
        simp only [Option.bind_some]
        rw [int_ok (by omega) (by omega), int_ok (by omega) (by omega)]
        rfl
      obtain ⟨s', out, r1, r2, r3, r4, r5, r6⟩ := ih { s with remaining := s.remaining + k, total := s.total + k } hg.2
        (by show 0 ≤ s.remaining + k; omega) (by show 0 ≤ s.total + k; omega) (by simp only [intMax]; omega) (by simp only [intMax]; omega)
      have hmax : max 0 (s.remaining + k) = s.remaining + k := by omega
      refine ⟨s', out, by simp only [run, halt, Option.bind_some, r1], ?_, ?_, r4, ?_, ?_⟩
      · simp only [ideal, hmax]; exact r2
      · simp only [ideal, hmax]; exact r3
      · simp only [added] at r5 ⊢; omega
      · simp only [added] at r6 ⊢; omega

/-- An example: a hundred samples, fifty more, and three calls. -/
example : run (set (init 0) 100) [.gen 80, .alter 50, .gen 80, .gen 80] =
    some (⟨false, 0, 200⟩, [shows false 80 false, shows false 70 true, shows false 0 false]) := by decide +kernel

/-- The requests are not negative. -/
def Fair : List Op → Prop
  | [] => True
  | .gen m :: ops => 0 ≤ m ∧ Fair ops
  | .alter _ :: ops => Fair ops

/-- What the alterations which add add. -/
def gain : List Op → Int
  | [] => 0
  | .gen _ :: ops => gain ops
  | .alter k :: ops => max 0 k + gain ops

theorem gain_nonneg (ops : List Op) : 0 ≤ gain ops := by
  induction ops with
  | nil => exact Int.le_refl 0
  | cons op ops ih =>
    cases op with
    | gen m => exact ih
    | alter k => simp only [gain]; omega

theorem int_some {x y : Int} (h : int x = some y) : y = x := by
  unfold int at h
  split at h
  · exact (Option.some.inj h).symm
  · cases h

/-- When silence is also taken away, the generator gives the silence of the ideal one as long as nothing overflows. -/
theorem silence_follows_partial (s s' : State) (out : List Block) (ops : List Op) (hf : Fair ops) (h0 : 0 ≤ s.remaining)
    (hr : s.remaining + gain ops < intMax) (hrun : run s ops = some (s', out)) :
    remainder s' = (ideal s.remaining ops).1 ∧ out = (ideal s.remaining ops).2.map (fun x => shows s.handler x.1 x.2) := by
  induction ops generalizing s out with
  | nil =>
    cases hrun
    exact ⟨rfl, rfl⟩
  | cons op ops ih =>
    have hgain := gain_nonneg ops
    cases op with
    | gen m =>
      have hm : 0 ≤ m := hf.1
      simp only [gain] at hr
      have hne : s.remaining ≠ intMax := by omega
      have hmin : (if decide (m ≥ s.remaining) = true then s.remaining else m) = min m s.remaining := by
        by_cases hc : m ≥ s.remaining
        · simp only [decide_eq_true hc, if_true]; omega
        · simp only [decide_eq_false hc, Bool.false_eq_true, if_false]; omega
      have hn0 : 0 ≤ min m s.remaining := by omega
      simp only [run, Option.bind_eq_some_iff, Option.map_eq_some_iff, Prod.exists] at hrun
      obtain ⟨q, b, hq, q', bs, hq', heq⟩ := hrun
      unfold gen at hq
      rw [if_pos hne] at hq
      simp only [hmin, zeros, if_pos hn0, Option.map_some, Option.bind_eq_some_iff] at hq
      obtain ⟨r, hr1, t, _, hq⟩ := hq
      have hr2 := int_some hr1
      cases hq
      cases heq
      obtain ⟨i1, i2⟩ := ih _ _ hf.2 (by show 0 ≤ r; omega) (by show r + gain ops < intMax; omega) hq'
      simp only [hr2] at i1 i2
      refine ⟨i1, ?_⟩
      simp only [ideal, List.map_cons]
      rw [← i2]
      congr 1
      simp only [shows]
      congr 1
      by_cases hc : m ≥ s.remaining
      · by_cases hz : s.remaining = 0
        · have h1 : min m s.remaining = 0 := by omega
          have h3 : ¬ (0 < s.remaining ∧ s.remaining ≤ m) := by omega
          rw [h1, decide_eq_false h3]
          simp
        · have h1 : min m s.remaining ≠ 0 := by omega
          have h3 : 0 < s.remaining ∧ s.remaining ≤ m := ⟨by omega, hc⟩
          rw [decide_eq_true h3, decide_eq_true hc]
          simp [h1]
      · simp [hc]
    | alter k =>
      simp only [gain] at hr
      simp only [run, alter, Option.bind_eq_some_iff, Option.map_eq_some_iff] at hrun
      obtain ⟨q, ⟨n, hn, r, hr1, t, _, hq⟩, hrun⟩ := hrun
      have hr2 := int_some hr1
      cases hq
      have hnk : n = max k (-s.remaining) := by
        unfold limited at hn
        by_cases hk : k < 0
        · rw [if_pos hk] at hn
          simp only [Option.bind_eq_some_iff] at hn
          obtain ⟨m, hm, hn⟩ := hn
          have := int_some hm
          by_cases hc : m > s.remaining
          · rw [if_pos hc] at hn
            have := int_some hn
            omega
          · rw [if_neg hc] at hn
            have := Option.some.inj hn
            omega
        · rw [if_neg hk] at hn
          have := Option.some.inj hn
          omega
      have hmax : r = max 0 (s.remaining + k) := by omega
      obtain ⟨i1, i2⟩ := ih _ _ hf (by show 0 ≤ r; omega) (by show r + gain ops < intMax; omega) hrun
      simp only [ideal]
      rw [← hmax]
      exact ⟨i1, i2⟩

/-- Silence is taken away from a generator which has given enough for nothing to overflow. -/
example : run (statusHandler (set (init 0) 100) true) [.gen 60, .alter (-20), .gen 60] =
    some (⟨true, 0, 60⟩, [shows true 60 false, shows true 20 true]) := by decide +kernel

/-- A run without alterations: the requests. -/
def requests (rs : List Int) : List Op := rs.map .gen

theorem grows_requests {rs : List Int} (h : ∀ r ∈ rs, 0 ≤ r) : Grows (requests rs) := by
  induction rs with
  | nil => trivial
  | cons r rs ih =>
    exact ⟨h r (List.mem_cons_self ..), ih (fun x hx => h x (List.mem_cons_of_mem _ hx))⟩

theorem added_requests (rs : List Int) : added (requests rs) = 0 := by
  induction rs with
  | nil => rfl
  | cons r rs ih => simpa [requests, added] using ih

theorem ideal_requests (left : Int) (h0 : 0 ≤ left) (rs : List Int) (h : ∀ r ∈ rs, 0 ≤ r) :
    (ideal left (requests rs)).1 = left - min left rs.sum ∧
    ((ideal left (requests rs)).2.map (fun x => (shows true x.1 x.2).completed)).sum = (if 0 < left ∧ left ≤ rs.sum then 1 else 0) ∧ 0 ≤ rs.sum := by
  induction rs generalizing left with
  | nil =>
    have : ¬ (0 < left ∧ left ≤ ([] : List Int).sum) := by simp only [List.sum_nil]; omega
    rw [if_neg this]
    exact ⟨by simp only [requests, List.map_nil, ideal, List.sum_nil]; omega, rfl, Int.le_refl 0⟩
  | cons r rs ih =>
    have hr := h r (List.mem_cons_self ..)
    obtain ⟨i1, i2, i3⟩ := ih (left - min r left) (by omega) (fun x hx => h x (List.mem_cons_of_mem _ hx))
    have hs : (r :: rs).sum = r + rs.sum := List.sum_cons
    generalize (r :: rs).sum = total at hs ⊢
    simp only [requests, List.map_cons, ideal, List.sum_cons] at i1 i2 ⊢
    refine ⟨by rw [i1]; omega, ?_, by omega⟩
    rw [i2]
    simp only [shows]
    by_cases hc : 0 < left ∧ left ≤ r
    · have h1 : ¬ (0 < left - min r left ∧ left - min r left ≤ rs.sum) := by omega
      have h2 : 0 < left ∧ left ≤ total := by omega
      rw [if_neg h1, if_pos h2, decide_eq_true hc]
      rfl
    · rw [decide_eq_false hc]
      simp only [Bool.false_eq_true, false_and, if_false, Nat.zero_add]
      by_cases h2 : 0 < left ∧ left ≤ total
      · rw [if_pos h2, if_pos (by omega)]
      · rw [if_neg h2, if_neg (by omega)]

/-- A generator which was set to `n` samples gives `n` samples in all, however they are asked for, and all of them are zero. It tells of the
completion once, in the call which gives the last sample. -/
theorem silence_total (h : Bool) (s : State) (n : Int) (h0 : 0 ≤ n) (h1 : n < intMax) (rs : List Int) (hrs : ∀ r ∈ rs, 0 ≤ r) :
    ∃ s' out, run (statusHandler (set s n) h) (requests rs) = some (s', out) ∧
      samples out = min n rs.sum ∧ remainder s' = n - min n rs.sum ∧ generated s' = min n rs.sum ∧
      (∀ b ∈ out, b.samples = List.replicate b.length.toNat 0) ∧
      completions out = (if h ∧ 0 < n ∧ n ≤ rs.sum then 1 else 0) := by
  have ha := added_requests rs
  obtain ⟨s', out, r1, r2, r3, r4, r5, r6⟩ := silence_follows (statusHandler (set s n) h) (requests rs) (grows_requests hrs) h0
    (Int.le_refl 0) (by rw [ha]; simp only [statusHandler, set]; omega) (by rw [ha]; simp only [statusHandler, set]; omega)
  obtain ⟨i1, i2, i3⟩ := ideal_requests n h0 rs hrs
  have e1 : (statusHandler (set s n) h).remaining = n := rfl
  have e2 : (statusHandler (set s n) h).total = 0 := rfl
  have e3 : (statusHandler (set s n) h).handler = h := rfl
  rw [e1] at r2 r3 r5
  rw [e2] at r6
  rw [e3] at r3
  rw [ha] at r5 r6
  refine ⟨s', out, r1, by omega, by rw [r2, i1], by omega, ?_, ?_⟩
  · intro b hb
    rw [r3] at hb
    obtain ⟨x, _, rfl⟩ := List.mem_map.1 hb
    rfl
  · rw [r3, completions, List.map_map]
    cases h
    · simp only [Bool.false_eq_true, false_and, if_false]
      have : ∀ l : List (Int × Bool), (l.map ((fun b : Block => b.completed) ∘ fun x => shows false x.1 x.2)).sum = 0 := by
        intro l
        induction l with
        | nil => rfl
        | cons a l ih => simpa [shows] using ih
      exact this _
    · simp only [true_and]
      exact i2

example : ∃ s' out, run (statusHandler (set (init 0) 200) true) (requests [160, 160, 160]) = some (s', out) ∧ samples out = 200 ∧ completions out = 1 := by
  obtain ⟨s', out, h1, h2, _, _, _, h6⟩ := silence_total true (init 0) 200 (by decide) (by decide) [160, 160, 160] (by decide)
  exact ⟨s', out, h1, h2, h6⟩

/-- A generator which is set to run always gives whatever is asked for, and never completes. -/
theorem silence_always (s : State) (ht : 0 ≤ s.total) (ht' : s.total ≤ intMax) (rs : List Int) (hrs : ∀ r ∈ rs, 0 ≤ r) :
    ∃ s', run (always s) (requests rs) = some (s', rs.map (fun r => shows s.handler r false)) ∧ remainder s' = intMax := by
  have key : ∀ (q : State), q.remaining = intMax → 0 ≤ q.total → q.total ≤ intMax →
      ∃ s', run q (requests rs) = some (s', rs.map (fun r => shows s.handler r false)) ∧ remainder s' = intMax := by
    induction rs with
    | nil => intro q hq _ _; exact ⟨q, rfl, hq⟩
    | cons r rs ih =>
      intro q hq h0 h1
      have hr := hrs r (List.mem_cons_self ..)
      obtain ⟨t, hc, ht0, ht1⟩ : ∃ t, count q.total r = some t ∧ 0 ≤ t ∧ t ≤ intMax := by
        simp only [intMax] at h1 ⊢
        simp only [count, intMax]
        rw [int_ok (by omega) (by omega)]
        simp only [Option.bind_some]
        by_cases hroom : 2147483647 - q.total ≥ r
        · rw [if_pos hroom, int_ok (by omega) (by omega)]
          exact ⟨_, rfl, by omega, by omega⟩
        · rw [if_neg hroom]
          exact ⟨_, rfl, h0, h1⟩
      obtain ⟨s', e1, e2⟩ := ih (fun x hx => hrs x (List.mem_cons_of_mem _ hx)) { q with total := t } hq ht0 ht1
      refine ⟨s', ?_, e2⟩
      have hgen : gen q r = some ({ q with total := t }, shows s.handler r false) := by
        unfold gen
        rw [if_neg (by simp [hq]), hc]
        simp only [Option.bind_some, zeros, if_pos hr, Option.map_some, shows]
        simp
      simp only [requests, List.map_cons, run] at e1 ⊢
      rw [hgen]
      simp only [Option.bind_some]
      rw [e1]
      rfl
  exact key (always s) rfl ht ht'

example : ∃ s', run (always (init 0)) (requests [2000000000, 2000000000]) =
    some (s', [2000000000, 2000000000].map (fun r => shows false r false)) ∧ remainder s' = intMax :=
  silence_always (init 0) (by decide) (by decide) _ (by decide)

/-! ## What does not hold -/

/-- A generator which is cut short to nothing never tells that it has completed. -/
theorem silence_cut_not_reported (h : Bool) : (alter (statusHandler (set (init 0) 100) h) (-100)).map (fun s => s.remaining) = some 0 ∧
    ∀ r, 0 ≤ r → gen ⟨h, 0, 0⟩ r = some (⟨h, 0, 0⟩, ⟨[], 0, 0⟩) := by
  refine ⟨by cases h <;> decide, fun r hr => ?_⟩
  unfold gen
  simp only [show decide (r ≥ 0) = true from decide_eq_true hr]
  cases h <;> rfl

/-- The count of the generated samples includes what was only added to be generated. -/
theorem silence_generated_counts_alterations : ∃ s, alter (set (init 0) 100) 50 = some s ∧ generated s = 50 :=
  ⟨⟨false, 150, 50⟩, by decide, rfl⟩

/-- After silence was taken away, the next call overflows. -/
theorem silence_shortened_undefined : run (set (init 0) 100) [.alter (-50), .gen 10] = none := by decide +kernel

/-- A generator which is to run always can be altered: by taking a sample away it gets an end, and adding one is an overflow. -/
theorem silence_always_altered : (alter (always (init 0)) (-1)).map remainder = some (intMax - 1) ∧
    alter (always (init 0)) 1 = none := by decide +kernel

end Silence
