import Verif.T4.Feed
import Verif.T4.Runs

/-! # The decoder takes a code -/

namespace T4

theorem no_eol {s : Dec} (h : 12 ≤ s.rx.length) (hl : lead s.rx ≠ 11) : ¬ s.look 12 = 0x800 :=
  fun e => hl ((val_eol 11 s.rx (by omega)).mp e)

theorem is_eol {s : Dec} (h : 12 ≤ s.rx.length) (hl : lead s.rx = 11) : s.look 12 = 0x800 := (val_eol 11 s.rx (by omega)).mpr hl

theorem one_step {s : Dec} (h : 0 ≤ s.eols) : one s = step s := if_neg (by omega)

theorem skip_run (rest : List Bool) (hr : Good rest) : ∀ (x : List Bool) (v : Dec), 0 ≤ v.eols → (∀ i, i < x.length → tailOk (x.drop i) = true) →
    Run (v.rs (x ++ rest) x.length) (v.rs rest 0) := by
  intro x
  induction x with
  | nil => intro v _ _; exact .refl _
  | cons b t ih =>
    intro v he ht
    have hlen := hr.1
    refine .head (t := v.rs (t ++ rest) t.length) ?_ ?_ (ih v he ?_)
    · show 13 ≤ (b :: t ++ rest).length
      simp only [List.length_append, List.length_cons]; omega
    · rw [one_step (by exact he)]
      unfold step
      rw [if_neg (no_eol _ (tail_no_eol (ht 0 (by simp)) hr (by simp))), if_pos]
      · rfl
      · show (b :: t).length ≠ 0
        simp
      · show 12 ≤ (b :: t ++ rest).length
        simp only [List.length_append, List.length_cons]; omega
    · intro i hi
      exact ht (i + 1) (by simp only [List.length_cons]; omega)

/-- A code, the effect of which does not depend on what is waiting, is taken. -/
theorem code_run {s u v : Dec} {f : Dec → Option Dec} {c rest : List Bool} (hf : Blind f) (hk : Keeps f) (hx : s.rx = c ++ rest) (hs : s.skip = 0) (he : 0 ≤ s.eols)
    (hc : codeOk c = true) (hr : Good rest) (hstep : ¬ s.look 12 = 0x800 → step s = takeCode f c.length s) (hu : f s = some u) (hv : afterCode u = some v) : Run s (v.rs rest 0) := by
  have hl := codeOk_lead hc
  have hlen := hr.1
  have h12 : 12 ≤ s.rx.length := by rw [hx, List.length_append]; omega
  obtain ⟨c0, ct, rfl⟩ : ∃ b t, c = b :: t := by
    cases c with
    | nil => simp [lead] at hl
    | cons b t => exact ⟨b, t, rfl⟩
  have hg := good_append hl hr.1
  have hn : ¬ s.look 12 = 0x800 := no_eol h12 (by
    rw [hx, lead_append, if_neg (by omega)]; omega)
  have hux := hf.rx hu
  have e : step s = some (v.rs (ct ++ rest) ct.length, false) := by
    rw [hstep hn]
    unfold takeCode
    rw [hu]
    simp only [Option.map_some, Option.bind_some]
    have : u.drop (c0 :: ct).length = u.rs (ct ++ rest) ct.length := by
      unfold Dec.drop Dec.rs
      rw [hux.1, hux.2, hx, hs]
      simp
    rw [this, blind_afterCode, hv]; rfl
  have hve : 0 ≤ v.eols := by rw [keeps_afterCode _ _ hv, hk _ _ hu]; exact he
  refine .head ?_ ((one_step he).trans e) (skip_run rest hr ct v hve ?_)
  · rw [hx]; simp only [List.length_append, List.length_cons]; omega
  · intro i hi
    unfold codeOk at hc
    simp only [Bool.and_eq_true, List.all_eq_true, List.mem_range] at hc
    exact hc.2 (i + 1) (by simp only [List.length_cons]; omega)

/-- What follows a code, once `a0` is in the row. -/
def fin (s : Dec) : Option Dec := if s.encoding = .t6 ∧ s.blackWhite = 0 ∧ s.rowLen ≥ s.width then endT6 s else some s

theorem afterCode_fin (s : Dec) : afterCode s = fin (clampA0 s) := rfl

theorem clampA0_eq (s : Dec) : clampA0 s = { s with a0 := min s.a0 (s.width - 1) } := by
  unfold clampA0
  split
  · rw [Int.min_eq_right (by omega)]
  · rw [Int.min_eq_left (by omega)]

theorem fin_more {s : Dec} (h : s.blackWhite ≠ 0) : fin s = some s := if_neg (fun h2 => h h2.2.1)

/-- The next code is one of the run tables. -/
structure In1d (s : Dec) (k : Bool) : Prop where
  mode : ¬ (s.rowIs2d = true ∧ s.blackWhite = 0)
  col : s.inBlack = k

theorem step_run {s : Dec} {k : Bool} (h : In1d s k) {i : Nat} (hi : i < 104) {rest : List Bool} (hx : s.rx = rcode k i ++ rest) (hs : s.skip = 0) (hr : Good rest) :
    ∃ e, hits k i ((codesOf k).getD i (0, 0, 0)) e = true ∧ (¬ s.look 12 = 0x800 → step s = takeCode (code1d e) (rcode k i).length s) := by
  refine ⟨_, lookup_code k i hi rest hr.1, fun hn => ?_⟩
  unfold step
  rw [if_neg hn, if_neg (by omega), if_neg h.mode]
  have e : entry1d s = entry (tableOf k) (val ((rcode k i ++ rest).take (lookOf k))) := by
    unfold entry1d Dec.look
    rw [hx, h.col]
    cases k <;> rfl
  have hh := lookup_code k i hi rest hr.1
  have hw : width (entry1d s) = (rcode k i).length := by
    rw [e]
    unfold hits at hh
    simp only [Bool.and_eq_true, beq_iff_eq] at hh
    rw [show rcode k i = cb ((codesOf k).getD i (0, 0, 0)) from rfl, hh.1.1]; simp [cb]
  rw [hw, e]; rfl

theorem step_make {s : Dec} {k : Bool} (h : In1d s k) (h6 : s.encoding = .t6 → s.rowIs2d = true) {i : Nat} (h64 : 64 ≤ i) (hi : i < 104) {rest : List Bool}
    (hx : s.rx = rcode k i ++ rest) (hs : s.skip = 0) (he : 0 ≤ s.eols) (hr : Good rest) :
    Run s (Dec.rs { s with runLength := s.runLength + rrun i, a0 := min (s.a0 + rrun i) (s.width - 1) } rest 0) := by
  obtain ⟨e, hh, hst⟩ := step_run h hi hx hs hr
  have hrun : ((codesOf k).getD i (0, 0, 0)).2.2 = rrun i := (codes_ok k i hi).2.2.2
  unfold hits at hh
  simp only [Bool.and_eq_true, beq_iff_eq, if_neg (show ¬ i < 64 by omega), Bool.or_eq_true] at hh
  have hu : code1d e s = some { s with runLength := s.runLength + rrun i, a0 := s.a0 + rrun i } := by
    have : runCode e k s = some { s with runLength := s.runLength + param e, a0 := s.a0 + param e } := by
      unfold runCode
      rcases hh.2 with h2 | h2 <;> rw [h2] <;> cases k <;> rfl
    rw [← hrun, ← hh.1.2, ← this, ← h.col]; rfl
  refine code_run (blind_code1d e) (keeps_code1d e) hx hs he (rcode_ok k i hi) hr hst hu ?_
  rw [afterCode_fin, clampA0_eq]
  refine if_neg ?_
  intro ⟨h1, h2, _⟩
  exact h.mode ⟨h6 h1, h2⟩

theorem makes_run (k : Bool) (rest : List Bool) : ∀ (mk : List Nat) (s : Dec), In1d s k → (s.encoding = .t6 → s.rowIs2d = true) → (∀ i ∈ mk, 64 ≤ i ∧ i < 104) →
    s.a0 ≤ (s.width : Int) - 1 → s.rx = mk.flatMap (rcode k) ++ rest → s.skip = 0 → 0 ≤ s.eols → Good rest →
    Run s (Dec.rs { s with runLength := s.runLength + ((mk.map rrun).sum : Nat), a0 := min (s.a0 + ((mk.map rrun).sum : Nat)) (s.width - 1) } rest 0) := by
  intro mk
  induction mk with
  | nil =>
    intro s _ _ _ ha hx hs _ _
    have : Dec.rs { s with runLength := s.runLength + (([].map rrun).sum : Nat), a0 := min (s.a0 + (([].map rrun).sum : Nat)) (s.width - 1) } rest 0 = s := by
      simp only [List.flatMap_nil, List.nil_append] at hx
      cases s
      simp only [Dec.rs, List.map_nil, List.sum_nil, Dec.mk.injEq] at *
      simp only [hx, hs, true_and, and_true]
      omega
    rw [this]; exact .refl s
  | cons i t ih =>
    intro s h h6 hm ha hx hs he hr
    have hi := hm i (by simp)
    have hg : Good (t.flatMap (rcode k) ++ rest) := by
      cases t with
      | nil => simpa using hr
      | cons j t' =>
        have := codeOk_lead (rcode_ok k j (hm j (by simp)).2)
        rw [List.flatMap_cons, List.append_assoc]
        exact good_append this (by rw [List.length_append]; have := hr.1; omega)
    have r1 := step_make h h6 hi.1 hi.2 (rest := t.flatMap (rcode k) ++ rest) (by rw [hx, List.flatMap_cons, List.append_assoc]) hs he hg
    have r2 := ih (Dec.rs { s with runLength := s.runLength + rrun i, a0 := min (s.a0 + rrun i) (s.width - 1) } (t.flatMap (rcode k) ++ rest) 0)
      ⟨h.mode, h.col⟩ h6 (fun j hj => hm j (by simp [hj])) (Int.min_le_right _ _) rfl rfl he hr
    refine r1.trans ?_
    have e : Dec.rs { s with runLength := s.runLength + (((i :: t).map rrun).sum : Nat), a0 := min (s.a0 + (((i :: t).map rrun).sum : Nat)) (s.width - 1) } rest 0 =
        Dec.rs { (Dec.rs { s with runLength := s.runLength + rrun i, a0 := min (s.a0 + rrun i) (s.width - 1) } (t.flatMap (rcode k) ++ rest) 0) with
          runLength := s.runLength + rrun i + ((t.map rrun).sum : Nat), a0 := min (min (s.a0 + rrun i) (s.width - 1) + ((t.map rrun).sum : Nat)) (s.width - 1) } rest 0 := by
      simp only [Dec.rs, List.map_cons, List.sum_cons]
      have e1 : s.runLength + ((rrun i + (t.map rrun).sum : Nat) : Int) = s.runLength + rrun i + ((t.map rrun).sum : Nat) := by omega
      have e2 : min (s.a0 + ((rrun i + (t.map rrun).sum : Nat) : Int)) (s.width - 1) = min (min (s.a0 + rrun i) (s.width - 1) + ((t.map rrun).sum : Nat)) (s.width - 1) := by omega
      rw [e1, e2]
    rw [e]; exact r2

/-- A run has been added to the row. -/
def spanned (s : Dec) (span : Nat) : Dec :=
  { s with cur := fun j => if j = s.aCursor then (s.runLength + span).toNat else s.cur j, aCursor := s.aCursor + 1, rowLen := s.rowLen + s.runLength + span,
           runLength := 0, a0 := min (s.a0 + span) (s.width - 1), inBlack := !s.inBlack, blackWhite := s.blackWhite - 1 }

theorem addRun_ok {s : Dec} (h0 : 0 ≤ s.runLength) (hw : s.rowLen + s.runLength ≤ s.width) (ha : s.aCursor < s.width + 4) :
    addRun s = some { s with cur := fun j => if j = s.aCursor then s.runLength.toNat else s.cur j, aCursor := s.aCursor + 1, rowLen := s.rowLen + s.runLength, runLength := 0 } := by
  unfold addRun
  rw [if_pos h0]
  simp only
  rw [if_pos hw]
  exact congrArg (Option.map _) (if_pos ha)

theorem span_run {s v : Dec} {k : Bool} {span : Nat} {mk : List Nat} {t : Nat} (hsp : SpanOf span mk t) {rest : List Bool} (h : In1d s k) (h6 : s.encoding = .t6 → s.rowIs2d = true)
    (hx : s.rx = spanBits k mk t ++ rest) (hs : s.skip = 0) (he : 0 ≤ s.eols) (hr : Good rest) (ha : s.a0 ≤ (s.width : Int) - 1) (h0 : 0 ≤ s.runLength)
    (hlt : s.rowLen < s.width) (hw : s.rowLen + s.runLength + span ≤ s.width) (hc : s.aCursor < s.width + 4) (hv : fin (spanned s span) = some v) :
    Run s (v.rs rest 0) := by
  have ht : t < 104 := by have := hsp.term; omega
  have hg : Good (rcode k t ++ rest) := good_append (codeOk_lead (rcode_ok k t ht)) hr.1
  have r1 := makes_run k (rcode k t ++ rest) mk s h h6 hsp.up ha (by rw [hx]; simp [spanBits]) hs he hg
  refine r1.trans ?_
  generalize hm : (mk.map rrun).sum = m at *
  have hsum := hsp.sum
  rw [hm] at hsum
  generalize hs1 : Dec.rs { s with runLength := s.runLength + (m : Nat), a0 := min (s.a0 + (m : Nat)) (s.width - 1) } (rcode k t ++ rest) 0 = s1
  have i1 : In1d s1 k := by rw [← hs1]; exact ⟨h.mode, h.col⟩
  obtain ⟨e, hh, hst⟩ := step_run i1 ht (rest := rest) (by rw [← hs1]; rfl) (by rw [← hs1]; rfl) hr
  have hrun : ((codesOf k).getD t (0, 0, 0)).2.2 = t := by rw [(codes_ok k t ht).2.2.2, if_pos hsp.term]
  unfold hits at hh
  simp only [Bool.and_eq_true, beq_iff_eq, if_pos hsp.term] at hh
  have hu : code1d e s1 = termRun s1 (!k) t := by
    unfold code1d
    rw [i1.col, ← hrun, ← hh.1.2]
    unfold runCode
    rw [hh.2]
    cases k <;> rfl
  have hterm : termRun s1 (!k) t = some (Dec.rs { spanned s span with a0 := min (s.a0 + (m : Nat)) (s.width - 1) + t } (rcode k t ++ rest) 0) := by
    unfold termRun
    rw [if_pos (by rw [← hs1]; exact hlt), addRun_ok]
    · rw [← hs1]
      simp only [Option.bind_some, Dec.rs, spanned, ← hsum, h.col]
      have e1 : s.runLength + (m : Int) + (t : Int) = s.runLength + ((m + t : Nat) : Int) := by omega
      have e2 : s.rowLen + (s.runLength + ((m + t : Nat) : Int)) = s.rowLen + s.runLength + ((m + t : Nat) : Int) := by omega
      rw [e1, e2]
    · rw [← hs1]; show 0 ≤ s.runLength + (m : Int) + (t : Int); omega
    · rw [← hs1]; show s.rowLen + (s.runLength + (m : Int) + (t : Int)) ≤ s.width; omega
    · rw [← hs1]; exact hc
  have hv2 : afterCode (Dec.rs { spanned s span with a0 := min (s.a0 + (m : Nat)) (s.width - 1) + t } (rcode k t ++ rest) 0) = some (v.rs (rcode k t ++ rest) 0) := by
    rw [blind_afterCode, afterCode_fin, clampA0_eq]
    have : ({ ({ spanned s span with a0 := min (s.a0 + (m : Nat)) (s.width - 1) + t } : Dec) with a0 := min (min (s.a0 + (m : Nat)) (s.width - 1) + t) ((s.width : Int) - 1) } : Dec) = spanned s span := by
      have : min (min (s.a0 + (m : Nat)) (s.width - 1) + t) ((s.width : Int) - 1) = min (s.a0 + (span : Nat)) (s.width - 1) := by omega
      simp only [this]; rfl
    refine (congrArg (fun d => Option.map _ (fin d)) this).trans ?_
    rw [hv]; rfl
  have := code_run (blind_code1d e) (keeps_code1d e) (c := rcode k t) (rest := rest) (by rw [← hs1]; rfl) (by rw [← hs1]; rfl) (by rw [← hs1]; exact he) (rcode_ok k t ht) hr hst
    (hu.trans hterm) hv2
  exact this

/-- A run of no pixels after the end of the row has no effect. -/
theorem span_zero {s v : Dec} {k : Bool} {mk : List Nat} {t : Nat} (hsp : SpanOf 0 mk t) {rest : List Bool} (h : In1d s k)
    (hx : s.rx = spanBits k mk t ++ rest) (hs : s.skip = 0) (he : 0 ≤ s.eols) (hr : Good rest) (ha : s.a0 ≤ (s.width : Int) - 1)
    (hlt : ¬ s.rowLen < s.width) (hv : fin { s with inBlack := !k, blackWhite := s.blackWhite - 1 } = some v) :
    Run s (v.rs rest 0) := by
  have hmk : mk = [] := by
    cases mk with
    | nil => rfl
    | cons i m =>
      have := hsp.up i (by simp)
      have h2 := hsp.sum
      simp only [List.map_cons, List.sum_cons] at h2
      have : rrun i ≠ 0 := by unfold rrun; split <;> omega
      omega
  have ht0 : t = 0 := by have := hsp.sum; omega
  subst hmk ht0
  obtain ⟨e, hh, hst⟩ := step_run h (i := 0) (by omega) (rest := rest) (by simpa [spanBits] using hx) hs hr
  unfold hits at hh
  simp only [Bool.and_eq_true, beq_iff_eq, if_pos (show 0 < 64 by omega)] at hh
  have hu : code1d e s = some { s with inBlack := !k, blackWhite := s.blackWhite - 1 } := by
    unfold code1d
    rw [h.col]
    unfold runCode
    rw [hh.2]
    cases k
    · show termRun s true _ = _
      unfold termRun
      rw [if_neg hlt]; rfl
    · show termRun s false _ = _
      unfold termRun
      rw [if_neg hlt]; rfl
  refine code_run (blind_code1d e) (keeps_code1d e) (c := rcode k 0) (rest := rest) (by simpa [spanBits] using hx) hs he (rcode_ok k 0 (by omega)) hr hst hu ?_
  rw [afterCode_fin, clampA0_eq]
  refine Eq.trans (congrArg fin ?_) hv
  show ({ s with inBlack := !k, blackWhite := s.blackWhite - 1, a0 := min s.a0 (s.width - 1) } : Dec) = _
  rw [Int.min_eq_left ha]

end T4
