import Verif.G726.Model
import Verif.G711.Props

/-!
# Nothing goes wrong inside of the coders
-/

namespace G726

/-! ## Arithmetic -/

theorem s16_def (x : Int) : s16 x = if x % 65536 < 32768 then x % 65536 else x % 65536 - 65536 := rfl

theorem s16_range (x : Int) : -32768 ≤ s16 x ∧ s16 x ≤ 32767 := by
  rw [s16_def]; split <;> omega

theorem s16_id (x : Int) (h : -32768 ≤ x) (h' : x ≤ 32767) : s16 x = x := by
  rw [s16_def]; split <;> omega

theorem shl_ok (a n : Int) (h : 0 ≤ n) (h' : n < 32) : shl a n = some (a*2^n.toNat) := if_pos ⟨h, h'⟩

theorem shr_ok (a n : Int) (h : 0 ≤ n) (h' : n < 32) : shr a n = some (a/2^n.toNat) := if_pos ⟨h, h'⟩

theorem top_ge (n : Nat) : -1 ≤ top n := by
  unfold top; split <;> omega

theorem top_lt (n k : Nat) (h : n < 2^k) : top n < k := by
  unfold top
  split
  · omega
  · rename_i h0
    have := (Nat.log2_lt h0).mpr h
    omega

/-- It is what the code of `top_bit` finds. -/
theorem top_eq (n : Nat) (h : n < 2^32) : top n = BitOps.topBit (BitVec.ofNat 32 n) := by
  unfold top
  split
  · rename_i h0; subst h0; decide +kernel
  · rename_i h0
    refine (G711.top_range ?_ ?_).symm
    · rw [BitVec.toNat_ofNat, Nat.mod_eq_of_lt h]; exact Nat.log2_self_le h0
    · rw [BitVec.toNat_ofNat, Nat.mod_eq_of_lt h]; exact Nat.lt_log2_self

/-! ## The predictor and the scale -/

/-- The tables of the four rates. -/
def Tab.Valid (t : Tab) : Prop := t = tab16 ∨ t = tab24 ∨ t = tab32 ∨ t = tab40

/-- A value of `int16_t`. -/
def I16 (x : Int) : Prop := -32768 ≤ x ∧ x ≤ 32767

instance (x : Int) : Decidable (I16 x) := inferInstanceAs (Decidable (_ ∧ _))

/-- What holds between samples. -/
structure Ok (s : Pred) : Prop where
  yl : 34816 ≤ s.yl ∧ s.yl ≤ 327680
  yu : 544 ≤ s.yu ∧ s.yu ≤ 5120
  ap : 0 ≤ s.ap ∧ s.ap ≤ 512
  a0 : I16 s.a0
  a1 : I16 s.a1
  b : s.b.length = 6 ∧ ∀ x ∈ s.b, I16 x
  dq : s.dq.length = 6 ∧ ∀ x ∈ s.dq, I16 x
  sr0 : I16 s.sr0
  sr1 : I16 s.sr1

theorem ok_init : Ok predInit := by
  refine ⟨by decide, by decide, by decide, by decide, by decide, ⟨by decide, ?_⟩, ⟨by decide, ?_⟩, by decide, by decide⟩
  · intro x hx; rw [List.eq_of_mem_replicate hx]; decide
  · intro x hx; rw [List.eq_of_mem_replicate hx]; decide

theorem mantissa_ok (m e : Int) (h : -31 ≤ e ∧ e < 32) : ∃ w, mantissa m e = some w := by
  unfold mantissa
  split
  · exact ⟨_, rfl⟩
  · split
    · exact ⟨_, shr_ok _ _ (by omega) (by omega)⟩
    · exact ⟨_, shl_ok _ _ (by omega) (by omega)⟩

theorem scaled_ok (m e : Int) (h : -31 ≤ e ∧ e < 32) : ∃ w, scaled m e = some w := by
  unfold scaled
  split
  · rw [shl_ok _ _ (by omega) (by omega)]
    exact ⟨_, rfl⟩
  · exact ⟨_, shr_ok _ _ (by omega) (by omega)⟩

theorem fmult_ok (an srn : Int) (h : -8192 ≤ an) (h' : an ≤ 8191) : ∃ v, fmult an srn = some v := by
  unfold fmult
  simp only
  generalize hm : (if an > 0 then an else (-an) % 8192) = m
  have hm1 : 0 ≤ m ∧ m < 8192 := by rw [← hm]; split <;> omega
  have t1 := top_ge m.toNat
  have t2 := top_lt m.toNat 13 (by omega)
  have e1 : 0 ≤ srn/64 % 16 ∧ srn/64 % 16 < 16 := by omega
  obtain ⟨w, hw⟩ := mantissa_ok m (top m.toNat - 5) (by omega)
  obtain ⟨v, hv⟩ := scaled_ok ((w*(srn % 64) + 0x30)/16) (top m.toNat - 5 + srn/64 % 16 - 13) (by omega)
  rw [hw]
  simp only [bind, Option.bind_some, hv]
  exact ⟨_, rfl⟩

theorem zeros_ok : ∀ (b d : List Int), (∀ x ∈ b, I16 x) → ∃ v, zeros b d = some v
  | [], _, _ => ⟨0, rfl⟩
  | _ :: _, [], _ => ⟨0, rfl⟩
  | x :: b, y :: d, h => by
    obtain ⟨u, hu⟩ := zeros_ok b d fun x hx => h x (List.mem_cons_of_mem _ hx)
    have hx := h x (List.mem_cons_self ..)
    unfold I16 at hx
    obtain ⟨v, hv⟩ := fmult_ok (x/4) y (by omega) (by omega)
    exact ⟨v + u, by simp only [zeros, hu, hv, bind, Option.bind_some, pure]⟩

theorem predictorZero_ok (s : Pred) (h : Ok s) : ∃ v, predictorZero s = some v ∧ I16 v := by
  obtain ⟨v, hv⟩ := zeros_ok s.b s.dq h.b.2
  exact ⟨s16 v, by rw [predictorZero, hv]; rfl, s16_range v⟩

theorem predictorPole_ok (s : Pred) (h : Ok s) : ∃ v, predictorPole s = some v ∧ I16 v := by
  have h0 := h.a0
  have h1 := h.a1
  unfold I16 at h0 h1
  obtain ⟨u, hu⟩ := fmult_ok (s.a1/4) s.sr1 (by omega) (by omega)
  obtain ⟨v, hv⟩ := fmult_ok (s.a0/4) s.sr0 (by omega) (by omega)
  exact ⟨s16 (u + v), by simp only [predictorPole, hu, hv, bind, Option.bind_some, pure], s16_range _⟩

theorem stepSize_range (s : Pred) (h : Ok s) : 544 ≤ stepSize s ∧ stepSize s ≤ 5120 := by
  have hu := h.yu
  have hl := h.yl
  have ha := h.ap
  unfold stepSize
  split
  · exact hu
  · rename_i hap
    simp only
    have hy : 544 ≤ s.yl/64 ∧ s.yl/64 ≤ 5120 := by omega
    have hal : 0 ≤ s.ap/4 ∧ s.ap/4 ≤ 63 := by omega
    generalize s.yl/64 = y at *
    generalize s.ap/4 = al at *
    split
    · have h1 : 0 ≤ (s.yu - y)*al := Int.mul_nonneg (by omega) hal.1
      have h2 : (s.yu - y)*al ≤ (s.yu - y)*63 := Int.mul_le_mul_of_nonneg_left hal.2 (by omega)
      omega
    · split
      · have h1 : 0 ≤ (y - s.yu)*al := Int.mul_nonneg (by omega) hal.1
        have h2 : (y - s.yu)*al ≤ (y - s.yu)*63 := Int.mul_le_mul_of_nonneg_left hal.2 (by omega)
        have h3 : (s.yu - y)*al = -((y - s.yu)*al) := by rw [← Int.neg_mul]; congr 1; omega
        rw [h3]
        omega
      · exact hy

theorem logMag_ok (d : Int) (h : -32767 ≤ d) (h' : d ≤ 32767) : ∃ v, logMag d = some v := by
  unfold logMag
  have e : s16 d.natAbs = d.natAbs := s16_id _ (by omega) (by omega)
  simp only [e]
  have t1 := top_ge ((d.natAbs : Int)/2).toNat
  have t2 := top_lt ((d.natAbs : Int)/2).toNat 14 (by omega)
  rw [shr_ok _ _ (by omega) (by omega)]
  exact ⟨_, rfl⟩

theorem search_le (x : Int) (l : List Int) : search x l ≤ l.length := by
  induction l with
  | nil => simp [search]
  | cons t l ih =>
    simp only [search]
    split
    · omega
    · simp only [List.length_cons]; omega

theorem quantize_ok (d y : Int) (t : Tab) (ht : t.Valid) (h : -32767 ≤ d) (h' : d ≤ 32767) :
    ∃ i, quantize d y t = some i ∧ i < 2^t.bits := by
  obtain ⟨v, hv⟩ := logMag_ok d h h'
  have e : ¬ s16 d.natAbs < 0 := by rw [s16_id _ (by omega) (by omega)]; omega
  unfold quantize
  rw [if_neg e, hv]
  simp only [bind, Option.bind_some]
  have hs := search_le (s16 (v - s16 (y/4))) (t.q.take ((t.states - 1)/2))
  generalize search (s16 (v - s16 (y/4))) (t.q.take ((t.states - 1)/2)) = i at *
  rw [List.length_take] at hs
  have hb : i ≤ (t.states - 1)/2 := by omega
  have hq : (t.states - 1)/2*2 + 1 < 2^t.bits ∧ t.states < 2^t.bits + 1 ∧ (t.states % 2 = 1 → t.states < 2^t.bits) := by
    rcases ht with rfl | rfl | rfl | rfl <;> decide
  split
  · exact ⟨_, rfl, by omega⟩
  · split
    · rename_i hc
      exact ⟨_, rfl, hq.2.2 hc.2⟩
    · exact ⟨_, rfl, by omega⟩

theorem reconstruct_ok (sign : Bool) (l y : Int) (h : -2048 ≤ l ∧ l ≤ 566) (hy : 544 ≤ y ∧ y ≤ 5120) :
    ∃ v, reconstruct sign l y = some v ∧ I16 v := by
  unfold reconstruct
  have e : s16 (l + y/4) = l + y/4 := s16_id _ (by omega) (by omega)
  simp only [e]
  split
  · refine ⟨_, rfl, ?_⟩
    cases sign <;> decide
  · rw [shr_ok _ _ (by omega) (by omega)]
    simp only [Option.map_some, bind, Option.bind_some, pure]
    refine ⟨_, rfl, ?_⟩
    split <;> exact s16_range _

theorem floatOf_ok (m : Int) (n : Bool) (h' : m ≤ 32767) : ∃ v, floatOf m n = some v ∧ I16 v := by
  unfold floatOf
  have t1 := top_ge m.toNat
  have t2 := top_lt m.toNat 15 (by omega)
  simp only
  rw [shr_ok _ _ (by omega) (by omega)]
  exact ⟨_, rfl, s16_range _⟩

theorem limc_range (a : Int) (p : Bool) : I16 (limc a p) := by
  unfold limc
  split <;> split <;> try decide
  all_goals split <;> first | decide | exact s16_range _

theorem upa2_range (a0 a1 q : Int) (p p' : Bool) : I16 (upa2 a0 a1 q p p') := by
  unfold upa2
  simp only
  split
  · exact s16_range _
  · exact limc_range _ _

theorem upa1_range (a0 a2p q : Int) (p : Bool) : I16 (upa1 a0 a2p q p) := by
  unfold upa1
  simp only
  generalize hx : (if q = 0 then s16 (a0 - a0/256) else if (!p) = true then s16 (s16 (a0 - a0/256) + 192)
    else s16 (s16 (a0 - a0/256) - 192)) = x
  have hx' : I16 x := by
    rw [← hx]
    split
    · exact s16_range _
    · split <;> exact s16_range _
  split
  · exact s16_range _
  · split
    · exact s16_range _
    · exact hx'

theorem upb_range (n : Nat) (dq b d : Int) : I16 (upb n dq b d) := by
  unfold upb
  simp only
  split
  · exact s16_range _
  · split <;> exact s16_range _

theorem upb_all (n : Nat) (dq : Int) : ∀ (b d : List Int), ∀ x ∈ List.zipWith (upb n dq) b d, I16 x
  | [], _, x, hx => by simp at hx
  | _ :: _, [], x, hx => by simp at hx
  | u :: b, v :: d, x, hx => by
    rw [List.zipWith_cons_cons, List.mem_cons] at hx
    rcases hx with rfl | hx
    · exact upb_range ..
    · exact upb_all n dq b d x hx

theorem threshold_ok (yl : Int) (h : 34816 ≤ yl ∧ yl ≤ 327680) : ∃ v, threshold yl = some v := by
  unfold threshold
  have e1 : s16 (yl/32768) = yl/32768 := s16_id _ (by omega) (by omega)
  simp only [e1]
  split
  · exact ⟨_, rfl⟩
  · rw [shl_ok _ _ (by omega) (by omega)]; exact ⟨_, rfl⟩

theorem dqFloat_ok (dq : Int) : ∃ v, dqFloat dq = some v ∧ I16 v := by
  unfold dqFloat
  split
  · refine ⟨_, rfl, ?_⟩
    split <;> decide
  · exact floatOf_ok _ _ (by omega)

theorem srFloat_ok (sr : Int) (h : I16 sr) : ∃ v, srFloat sr = some v ∧ I16 v := by
  unfold I16 at h
  unfold srFloat
  split
  · exact ⟨_, rfl, by decide⟩
  · split
    · exact floatOf_ok _ _ (by omega)
    · split
      · exact floatOf_ok _ _ (by omega)
      · exact ⟨_, rfl, by decide⟩

theorem update_ok (n : Nat) (s : Pred) (y wi fi dq sr dqsez : Int) (h : Ok s) (hsr : I16 sr) :
    ∃ s', update n s y wi fi dq sr dqsez = some s' ∧ Ok s' := by
  have hl := h.yl
  obtain ⟨thr, hthr⟩ := threshold_ok s.yl hl
  obtain ⟨d, hd, hd'⟩ := dqFloat_ok dq
  obtain ⟨r, hr, hr'⟩ := srFloat_ok sr hsr
  unfold update
  simp only [hthr, hd, hr, bind, Option.bind_some, pure]
  refine ⟨_, rfl, ?_⟩
  generalize (s.td && decide (dq % 32768 > s16 ((thr + thr/2)/2))) = tr
  generalize hyu : (if s16 (y + (wi - y)/32) < 544 then 544 else if s16 (y + (wi - y)/32) > 5120 then 5120
    else s16 (y + (wi - y)/32)) = yu
  have hyu' : 544 ≤ yu ∧ yu ≤ 5120 := by
    rw [← hyu]
    generalize s16 (y + (wi - y)/32) = z
    split
    · decide
    · split
      · decide
      · omega
  have ha := h.ap
  have q1 : s16 (s.ap + (0x200 - s.ap)/16) = s.ap + (0x200 - s.ap)/16 := s16_id _ (by omega) (by omega)
  have q2 : s16 (s.ap + (-s.ap)/16) = s.ap + (-s.ap)/16 := s16_id _ (by omega) (by omega)
  refine ⟨?_, hyu', ?_, ?_, ?_, ⟨?_, ?_⟩, ⟨?_, ?_⟩, hr', h.sr0⟩
  · show 34816 ≤ s.yl + yu + (-s.yl)/64 ∧ s.yl + yu + (-s.yl)/64 ≤ 327680
    omega
  · simp only [q1, q2]
    split
    · decide
    · split
      · omega
      · split
        · omega
        · split <;> omega
  · show I16 (if tr = true then 0 else _)
    split
    · decide
    · exact upa1_range ..
  · show I16 (if tr = true then 0 else _)
    split
    · decide
    · exact upa2_range ..
  · show (if tr = true then _ else _ : List Int).length = 6
    split
    · rfl
    · rw [List.length_zipWith, h.b.1, h.dq.1]; rfl
  · show ∀ x ∈ (if tr = true then _ else _ : List Int), I16 x
    split
    · intro x hx; rw [List.eq_of_mem_replicate hx]; decide
    · exact upb_all n dq s.b s.dq
  · show (d :: s.dq.take 5).length = 6
    rw [List.length_cons, List.length_take, h.dq.1]; rfl
  · intro x hx
    rcases List.mem_cons.mp hx with rfl | hx
    · exact hd'
    · exact h.dq.2 x (List.mem_of_mem_take hx)

/-! ## Codes -/

theorem dqln_ok (t : Tab) (ht : t.Valid) (i : Nat) (hi : i < 2^t.bits) :
    ∃ v, t.dqln[i]? = some v ∧ -2048 ≤ v ∧ v ≤ 566 := by
  have h : t.dqln.length = 2^t.bits ∧ ∀ v ∈ t.dqln, -2048 ≤ v ∧ v ≤ 566 := by
    rcases ht with rfl | rfl | rfl | rfl <;> decide
  exact ⟨_, List.getElem?_eq_getElem (by rw [h.1]; exact hi), h.2 _ (List.getElem_mem _)⟩

theorem wi_ok (t : Tab) (ht : t.Valid) (i : Nat) (hi : i < 2^t.bits) : ∃ v, t.wi[i]? = some v := by
  have h : t.wi.length = 2^t.bits := by rcases ht with rfl | rfl | rfl | rfl <;> decide
  exact ⟨_, List.getElem?_eq_getElem (by rw [h]; exact hi)⟩

theorem fi_ok (t : Tab) (ht : t.Valid) (i : Nat) (hi : i < 2^t.bits) : ∃ v, t.fi[i]? = some v := by
  have h : t.fi.length = 2^t.bits := by rcases ht with rfl | rfl | rfl | rfl <;> decide
  exact ⟨_, List.getElem?_eq_getElem (by rw [h]; exact hi)⟩

/-- What a code does to the predictor, and the estimate `se`, the scale `y` and the signal `sr` which come with
it. -/
def follow (t : Tab) (s : Pred) (i : Nat) : Option (Pred × Int × Int × Int) := do
  let sezi ← predictorZero s
  let sei := s16 (sezi + (← predictorPole s))
  let se := sei/2
  let y := stepSize s
  let dq ← reconstruct (i &&& t.sign ≠ 0) (← t.dqln[i]?) y
  let sr := s16 (if dq < 0 then se - dq % t.mask else se + dq)
  let dqsez := s16 (sr + sezi/2 - se)
  let s ← update t.bits s y (← t.wi[i]?) (← t.fi[i]?) dq sr dqsez
  return (s, se, y, sr)

theorem follow_ok (t : Tab) (ht : t.Valid) (s : Pred) (h : Ok s) (i : Nat) (hi : i < 2^t.bits) :
    ∃ s' se y sr, follow t s i = some (s', se, y, sr) ∧ Ok s' ∧ (-16384 ≤ se ∧ se ≤ 16383) ∧
      (544 ≤ y ∧ y ≤ 5120) ∧ I16 sr := by
  obtain ⟨z, hz, -⟩ := predictorZero_ok s h
  obtain ⟨p, hp, -⟩ := predictorPole_ok s h
  obtain ⟨l, hl, hl'⟩ := dqln_ok t ht i hi
  obtain ⟨w, hw⟩ := wi_ok t ht i hi
  obtain ⟨f, hf⟩ := fi_ok t ht i hi
  have hy := stepSize_range s h
  obtain ⟨q, hq, -⟩ := reconstruct_ok (i &&& t.sign ≠ 0) l (stepSize s) hl' hy
  have hse := s16_range (z + p)
  unfold follow
  simp only [hz, hp, hl, hw, hf, hq, bind, Option.bind_some, pure]
  obtain ⟨s', hs, ho⟩ := update_ok t.bits s (stepSize s) w f q
    (s16 (if q < 0 then s16 (z + p)/2 - q % t.mask else s16 (z + p)/2 + q))
    (s16 (s16 (if q < 0 then s16 (z + p)/2 - q % t.mask else s16 (z + p)/2 + q) + z/2 - s16 (z + p)/2)) h (s16_range _)
  rw [hs]
  exact ⟨s', _, _, _, rfl, ho, by omega, hy, s16_range _⟩

theorem encoder_ok (t : Tab) (ht : t.Valid) (s : Pred) (h : Ok s) (a : Int) (ha : -8192 ≤ a ∧ a ≤ 8191) :
    ∃ s' se y sr i, encoder t s a = some (s', i) ∧ i < 2^t.bits ∧ follow t s i = some (s', se, y, sr) ∧ Ok s' ∧
      quantize (a - se) y t = some i := by
  obtain ⟨z, hz, -⟩ := predictorZero_ok s h
  obtain ⟨p, hp, -⟩ := predictorPole_ok s h
  have hse := s16_range (z + p)
  have hd : s16 (a - s16 (z + p)/2) = a - s16 (z + p)/2 := s16_id _ (by omega) (by omega)
  obtain ⟨i, hi, hlt⟩ := quantize_ok (a - s16 (z + p)/2) (stepSize s) t ht (by omega) (by omega)
  obtain ⟨l, hl, hl'⟩ := dqln_ok t ht i hlt
  obtain ⟨w, hw⟩ := wi_ok t ht i hlt
  obtain ⟨f, hf⟩ := fi_ok t ht i hlt
  have hy := stepSize_range s h
  obtain ⟨q, hq, -⟩ := reconstruct_ok (i &&& t.sign ≠ 0) l (stepSize s) hl' hy
  obtain ⟨s', hs, ho⟩ := update_ok t.bits s (stepSize s) w f q
    (s16 (if q < 0 then s16 (z + p)/2 - q % t.mask else s16 (z + p)/2 + q))
    (s16 (s16 (if q < 0 then s16 (z + p)/2 - q % t.mask else s16 (z + p)/2 + q) + z/2 - s16 (z + p)/2)) h (s16_range _)
  refine ⟨s', s16 (z + p)/2, stepSize s, s16 (if q < 0 then s16 (z + p)/2 - q % t.mask else s16 (z + p)/2 + q), i, ?_, hlt, ?_,
    ho, hi⟩
  rotate_left
  · unfold follow
    simp only [hz, hp, hl, hw, hf, hq, bind, Option.bind_some, pure]
    rw [hs]
    rfl
  · unfold encoder
    simp only
    rw [hz, Option.bind_eq_bind, Option.bind_some, hp, Option.bind_some, hd, hi, Option.bind_eq_bind, Option.bind_some,
      hl, Option.bind_some, hq, Option.bind_some, hw, Option.bind_some, hf, Option.bind_some, hs, Option.bind_eq_bind,
      Option.bind_some]
    rfl

theorem alaw_level (c : Byte) : -8064 ≤ G711.alawToLinear c/4 ∧ G711.alawToLinear c/4 ≤ 8064 := by
  revert c; decide +kernel

theorem ulaw_level (c : Byte) : -8031 ≤ G711.ulawToLinear c/4 ∧ G711.ulawToLinear c/4 ≤ 8031 := by
  revert c; decide +kernel

theorem tandemAlaw_ok (sr se y : Int) (i : Nat) (t : Tab) (ht : t.Valid) (hsr : I16 sr)
    (hse : -16384 ≤ se ∧ se ≤ 16383) : ∃ c, tandemAlaw sr se y i t = some c := by
  unfold I16 at hsr
  unfold tandemAlaw
  simp only
  generalize hx : (if sr ≤ -32768 then -1 else sr) = x
  have hx' : -32768 ≤ x ∧ x ≤ 32767 := by rw [← hx]; split <;> omega
  obtain ⟨c, hc⟩ := (G711.alaw_defined_iff (x/2*8) (by omega) (by omega)).mpr (by omega)
  have hl := alaw_level c
  obtain ⟨d, hd, -⟩ := quantize_ok (G711.alawToLinear c/4 - se) y t ht (by omega) (by omega)
  rw [hc, Option.bind_eq_bind, Option.bind_some, s16_id (G711.alawToLinear c/4 - se) (by omega) (by omega), hd,
    Option.bind_eq_bind, Option.bind_some]
  exact ⟨_, rfl⟩

theorem tandemUlaw_ok (sr se y : Int) (i : Nat) (t : Tab) (ht : t.Valid) (hsr : I16 sr)
    (hse : -16384 ≤ se ∧ se ≤ 16383) : ∃ c, tandemUlaw sr se y i t = some c := by
  unfold I16 at hsr
  unfold tandemUlaw
  simp only
  generalize hx : (if sr ≤ -32768 then 0 else sr) = x
  have hx' : -32768 ≤ x ∧ x ≤ 32767 := by rw [← hx]; split <;> omega
  obtain ⟨c, hc⟩ := (G711.ulaw_defined_iff (x*4)).mpr (by omega)
  have hl := ulaw_level c
  obtain ⟨d, hd, -⟩ := quantize_ok (G711.ulawToLinear c/4 - se) y t ht (by omega) (by omega)
  rw [hc, Option.bind_eq_bind, Option.bind_some, s16_id (G711.ulawToLinear c/4 - se) (by omega) (by omega), hd,
    Option.bind_eq_bind, Option.bind_some]
  exact ⟨_, rfl⟩

/-- What comes out for a code. -/
def output (t : Tab) (c : Coding) (se y sr : Int) (i : Nat) : Option Int :=
  match c with
  | .alaw => (tandemAlaw sr se y i t).map fun b => (b.toNat : Int)
  | .ulaw => (tandemUlaw sr se y i t).map fun b => (b.toNat : Int)
  | .linear => some (s16 (sr*4))

theorem bind_map {α β : Type} (x : Option α) (f : α → β) : (x.bind fun a => some (f a)) = x.map f := by
  cases x <;> rfl

theorem decoder_eq (t : Tab) (c : Coding) (s : Pred) (o : Byte) : decoder t c s o =
    (follow t s (o.toNat % 2^t.bits)).bind fun f =>
      (output t c f.2.1 f.2.2.1 f.2.2.2 (o.toNat % 2^t.bits)).map fun a => (f.1, a) := by
  unfold decoder follow
  simp only [bind, pure, Option.bind_assoc, Option.bind_some]
  cases c <;> simp only [output, Option.map_some] <;> congr 1 <;> funext z <;> congr 1 <;> funext p <;> congr 1 <;>
    funext l <;> congr 1 <;> funext q <;> congr 1 <;> funext w <;> congr 1 <;> funext f <;> congr 1 <;> funext u <;>
    rw [Option.map_map] <;> exact bind_map _ _

theorem decoder_ok (t : Tab) (ht : t.Valid) (c : Coding) (s : Pred) (h : Ok s) (o : Byte) :
    ∃ s' se y sr a, decoder t c s o = some (s', a) ∧ follow t s (o.toNat % 2^t.bits) = some (s', se, y, sr) ∧ Ok s' ∧
      output t c se y sr (o.toNat % 2^t.bits) = some a := by
  obtain ⟨s', se, y, sr, hf, ho, hse, hy, hsr⟩ := follow_ok t ht s h (o.toNat % 2^t.bits) (Nat.mod_lt _ (Nat.two_pow_pos _))
  have : ∃ a, output t c se y sr (o.toNat % 2^t.bits) = some a := by
    cases c
    · exact ⟨_, rfl⟩
    · obtain ⟨b, hb⟩ := tandemAlaw_ok sr se y (o.toNat % 2^t.bits) t ht hsr hse
      exact ⟨_, by rw [output, hb]; rfl⟩
    · obtain ⟨b, hb⟩ := tandemUlaw_ok sr se y (o.toNat % 2^t.bits) t ht hsr hse
      exact ⟨_, by rw [output, hb]; rfl⟩
  obtain ⟨a, ha⟩ := this
  refine ⟨s', se, y, sr, a, ?_, hf, ho, ha⟩
  rw [decoder_eq, hf]
  simp only [Option.bind_some, ha, Option.map_some]

theorem linearise_range (c : Coding) (a : Int) (h : I16 a) : -8192 ≤ linearise c a ∧ linearise c a ≤ 8191 := by
  unfold I16 at h
  cases c
  · show -8192 ≤ a/4 ∧ a/4 ≤ 8191; omega
  · have := alaw_level (BitVec.ofInt 8 a)
    show -8192 ≤ G711.alawToLinear (BitVec.ofInt 8 a)/4 ∧ G711.alawToLinear (BitVec.ofInt 8 a)/4 ≤ 8191
    omega
  · have := ulaw_level (BitVec.ofInt 8 a)
    show -8192 ≤ G711.ulawToLinear (BitVec.ofInt 8 a)/4 ∧ G711.ulawToLinear (BitVec.ofInt 8 a)/4 ≤ 8191
    omega

end G726
