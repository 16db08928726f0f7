import Verif.G726.Close
import Verif.G726.Laws
import Verif.G726.Run

/-!
# Coding what was decoded
-/

namespace G726

theorem ranks' (t : Tab) (ht : t.Valid) : ∀ n n' : Bool, ∀ k, k ≤ t.q.length → ∀ k', k' ≤ t.q.length →
    (!decide (rank t (codeAt t n k) < rank t (codeAt t n' k')) ||
    ((n && !n') || (decide (k < k') && !n') || (decide (k' < k) && n))) = true := by
  rcases ht with rfl | rfl | rfl | rfl <;> decide +kernel

theorem ranks (t : Tab) (ht : t.Valid) (k : Nat) (hk : k ≤ t.q.length) (k' : Nat) (hk' : k' ≤ t.q.length) (n n' : Bool)
    (h : rank t (codeAt t n k) < rank t (codeAt t n' k')) :
    (n = true ∧ n' = false) ∨ (k < k' ∧ n' = false) ∨ (k' < k ∧ n = true) := by
  have := ranks' t ht n n' k hk k' hk'
  simp only [h, decide_true, Bool.not_true, Bool.false_or, Bool.or_eq_true, Bool.and_eq_true, Bool.not_eq_true',
    decide_eq_true_eq] at this
  rcases this with (h | h) | h
  · exact Or.inl h
  · exact Or.inr (Or.inl h)
  · exact Or.inr (Or.inr h)

theorem q_mono (t : Tab) (ht : t.Valid) : ∀ k, k ≤ t.q.length → ∀ j, j < k → ∀ u ∈ t.q[j]?, ∀ v ∈ t.q[k - 1]?, u ≤ v := by
  rcases ht with rfl | rfl | rfl | rfl <;> decide +kernel

theorem rank_inj (t : Tab) {i j : Nat} (h : rank t i = rank t j) : i = j := by
  unfold rank at h
  have := congrArg (· ^^^ t.sign) h
  simpa only [Nat.xor_assoc, Nat.xor_self, Nat.xor_zero] using this

theorem value_sign (t : Tab) (ht : t.Valid) (n : Bool) (k : Nat) (hk : k ≤ t.q.length) (l y : Int)
    (hl : t.dqln[codeAt t n k]? = some l) (hy : 544 ≤ y ∧ y ≤ 5120) :
    (n = true → value t (codeAt t n k) l y ≤ 0) ∧ (n = false → 0 ≤ value t (codeAt t n k) l y) := by
  obtain ⟨f1, f2, f3, f4, f5⟩ := tables t ht n k hk
  obtain ⟨g1, g2, g3, g4, g5⟩ := tables' t ht _ f1 l hl
  obtain ⟨n1, n2, -⟩ := reconstruct_eq true l y g3 hy
  constructor
  · intro h
    have := f5 h
    rw [value, if_neg (by omega)]
    omega
  · intro h
    unfold value
    split
    · exact n1
    · rename_i hneg
      have hk0 : k = 0 := by
        by_cases h0 : k = 0
        · exact h0
        · exact absurd ((f3 (by omega)).mpr h) hneg
      have hodd : t.states % 2 = 1 := by
        by_cases h1 : t.states % 2 = 1
        · exact h1
        · exfalso
          apply hneg
          rw [codeAt, if_neg (by simp [h]), if_neg (by omega), hk0]
          exact Nat.two_pow_pos _
      rw [g5 (by rw [f2, hk0]) hodd, level, if_pos (by omega)]
      omega

theorem between (t : Tab) (ht : t.Valid) (y : Int) (i j : Nat) (u v : Int) (hi : Cell t y i u) (hj : Cell t y j v)
    (h : index t i < index t j) (hl : index t j ≤ t.q.length) : u.natAbs ≤ v.natAbs := by
  have h1 := List.getElem?_eq_getElem (l := t.q) (i := index t i) (by omega)
  have h2 := List.getElem?_eq_getElem (l := t.q) (i := index t j - 1) (by omega)
  have a := hi.upper _ h1
  have b := hj.lower _ (by omega) h2
  have c := level_mono (u := t.q[index t i]'(by omega) + y/4) (v := t.q[index t j - 1]'(by omega) + y/4)
    (by have := q_mono t ht _ hl _ h _ h1 _ h2; omega)
  omega

/-- The value for a code lies to the same side of any difference as the code does. -/
theorem apart (t : Tab) (ht : t.Valid) (y a d l : Int) (i j : Nat) (hy : 544 ≤ y ∧ y ≤ 5120) (ha : -32767 ≤ a ∧ a ≤ 32767)
    (hd : -32767 ≤ d ∧ d ≤ 32767) (hi : quantize a y t = some i) (hj : quantize d y t = some j) (hl : t.dqln[i]? = some l) :
    (rank t i < rank t j → value t i l y ≤ d) ∧ (rank t j < rank t i → d ≤ value t i l y) := by
  rw [quantize_eq _ _ t ht ha.1 ha.2 hy, Option.some.injEq] at hi
  rw [quantize_eq _ _ t ht hd.1 hd.2 hy, Option.some.injEq] at hj
  have pa := place_le t a y
  have pd := place_le t d y
  obtain ⟨e1, e2, -⟩ := tables t ht (decide (a < 0)) _ pa
  obtain ⟨f1, f2, -⟩ := tables t ht (decide (d < 0)) _ pd
  have ci := cell_out t ht i (hi ▸ e1) l y hl hy
  have cj := cell_in t ht d y hy
  obtain ⟨s1, s2⟩ := value_sign t ht (decide (a < 0)) (place t a y) pa l y (by rw [hi]; exact hl) hy
  rw [hi] at s1 s2 e2
  rw [hj] at cj f2
  constructor
  · intro h
    rw [← hi, ← hj] at h
    rcases ranks t ht _ pa _ pd _ _ h with ⟨h1, h2⟩ | ⟨h1, h2⟩ | ⟨h1, h2⟩
    · have := s1 h1
      simp only [decide_eq_false_iff_not] at h2
      omega
    · have := between t ht y i j _ _ ci cj (by omega) (by omega)
      simp only [decide_eq_false_iff_not] at h2
      omega
    · have := between t ht y j i _ _ cj ci (by omega) (by omega)
      have := s1 h2
      omega
  · intro h
    rw [← hi, ← hj] at h
    rcases ranks t ht _ pd _ pa _ _ h with ⟨h1, h2⟩ | ⟨h1, h2⟩ | ⟨h1, h2⟩
    · have := s2 h2
      simp only [decide_eq_true_eq] at h1
      omega
    · have := between t ht y j i _ _ cj ci (by omega) (by omega)
      have := s2 h2
      omega
    · have := between t ht y i j _ _ ci cj (by omega) (by omega)
      simp only [decide_eq_true_eq] at h2
      omega

/-- A code of a law which is chosen as the tandem adjustment does has the code which was received. -/
theorem tandem_core (t : Tab) (ht : t.Valid) (lv : Byte → Int) (hlv : ∀ b, -32768 ≤ lv b ∧ lv b ≤ 32767 ∧ lv b % 4 = 0)
    (y se sr l : Int) (i id : Nat) (hy : 544 ≤ y ∧ y ≤ 5120) (hse : -16384 ≤ se ∧ se ≤ 16383) (b sp c : Byte)
    (hl : t.dqln[i]? = some l) (hsr : sr = se + value t i l y)
    (up : ∀ c, sr ≤ lv c/4 → lv sp ≤ lv c) (dn : ∀ c, lv c/4 ≤ sr → lv c ≤ lv sp)
    (hb : quantize (lv b/4 - se) y t = some i) (hid : quantize (lv sp/4 - se) y t = some id)
    (h1 : id = i → c = sp) (h2 : rank t i < rank t id → Lower lv sp c) (h3 : rank t id < rank t i → Higher lv sp c) :
    quantize (lv c/4 - se) y t = some i := by
  have rb := hlv b
  have rs := hlv sp
  have rc := hlv c
  by_cases he : id = i
  · rw [h1 he, hid, he]
  · have hne : rank t id ≠ rank t i := fun h => he (rank_inj t h)
    obtain ⟨j, hj⟩ : ∃ j, quantize (lv c/4 - se) y t = some j := ⟨_, quantize_eq _ _ t ht (by omega) (by omega) hy⟩
    have ap := apart t ht y (lv b/4 - se) (lv c/4 - se) l i j hy (by omega) (by omega) hb hj hl
    have hji : rank t j = rank t i := by
      by_cases hlt : rank t i < rank t id
      · have hbs : lv b < lv sp := by
          by_cases hle : lv b < lv sp
          · exact hle
          · have := quantize_mono t ht (lv sp/4 - se) (lv b/4 - se) y (by omega) (by omega) (by omega) hy _ _ hid hb
            omega
        rcases h2 hlt with ⟨k1, k2⟩ | ⟨k1, k2⟩
        · have hbc := k2 b hbs
          have := quantize_mono t ht (lv b/4 - se) (lv c/4 - se) y (by omega) (by omega) (by omega) hy _ _ hb hj
          by_cases hgt : rank t i < rank t j
          · have := ap.1 hgt
            have := up c (by omega)
            omega
          · omega
        · have := k2 b
          omega
      · have hbs : lv sp < lv b := by
          by_cases hle : lv sp < lv b
          · exact hle
          · have := quantize_mono t ht (lv b/4 - se) (lv sp/4 - se) y (by omega) (by omega) (by omega) hy _ _ hb hid
            omega
        rcases h3 (by omega) with ⟨k1, k2⟩ | ⟨k1, k2⟩
        · have hbc := k2 b hbs
          have := quantize_mono t ht (lv c/4 - se) (lv b/4 - se) y (by omega) (by omega) (by omega) hy _ _ hj hb
          by_cases hgt : rank t j < rank t i
          · have := ap.2 hgt
            have := dn c (by omega)
            omega
          · omega
        · have := k2 b
          omega
    rw [hj, rank_inj t hji]

/-! ## A code -/

theorem alaw_lv : ∀ b : Byte, -32768 ≤ G711.alawToLinear b ∧ G711.alawToLinear b ≤ 32767 ∧ G711.alawToLinear b % 8 = 0 := by
  decide +kernel

theorem ulaw_lv : ∀ b : Byte, -32768 ≤ G711.ulawToLinear b ∧ G711.ulawToLinear b ≤ 32767 ∧ G711.ulawToLinear b % 4 = 0 := by
  decide +kernel

theorem follow_value (t : Tab) (ht : t.Valid) (s : Pred) (h : Ok s) (a : Int) (ha : -8192 ≤ a ∧ a ≤ 8191) (s' : Pred) (i : Nat)
    (he : encoder t s a = some (s', i)) :
    ∃ se sr l, i < 2^t.bits ∧ follow t s i = some (s', se, stepSize s, sr) ∧ (-16384 ≤ se ∧ se ≤ 16383) ∧
      quantize (a - se) (stepSize s) t = some i ∧ t.dqln[i]? = some l ∧ sr = se + value t i l (stepSize s) ∧
      -31488 ≤ sr ∧ sr ≤ 31487 ∧ estimate s = some se := by
  obtain ⟨s1, i1, se, sr, e1, hi, hf, -, hes, -, -, hr, l, hl, hsr⟩ := encoder_close t ht s h a ha
  rw [he] at e1
  simp only [Option.some.injEq, Prod.mk.injEq] at e1
  obtain ⟨rfl, rfl⟩ := e1
  obtain ⟨s2, se2, y2, sr2, i2, e2, -, f2, -, q2⟩ := encoder_ok t ht s h a ha
  rw [he] at e2
  simp only [Option.some.injEq, Prod.mk.injEq] at e2
  obtain ⟨rfl, rfl⟩ := e2
  rw [hf] at f2
  simp only [Option.some.injEq, Prod.mk.injEq] at f2
  obtain ⟨-, rfl, rfl, rfl⟩ := f2
  obtain ⟨s3, se3, y3, sr3, f3, -, r3, -⟩ := follow_ok t ht s h i hi
  rw [hf] at f3
  simp only [Option.some.injEq, Prod.mk.injEq] at f3
  obtain ⟨-, rfl, -, -⟩ := f3
  exact ⟨se, sr, l, hi, hf, r3, q2, hl, hsr, hr.1, hr.2, hes⟩

theorem again (t : Tab) (ht : t.Valid) (s : Pred) (h : Ok s) (a b : Int) (ha : -8192 ≤ a ∧ a ≤ 8191) (hb : -8192 ≤ b ∧ b ≤ 8191)
    (s' : Pred) (i : Nat) (se : Int) (he : encoder t s a = some (s', i)) (hes : estimate s = some se)
    (hq : quantize (b - se) (stepSize s) t = some i) : encoder t s b = some (s', i) := by
  obtain ⟨s2, se2, y2, sr2, i2, e2, hi, f2, -, q2⟩ := encoder_ok t ht s h b hb
  obtain ⟨h1, h2, -⟩ := follow_eq t ht s h i2 hi _ _ _ _ f2
  rw [hes, Option.some.injEq] at h1
  rw [h2, ← h1, hq, Option.some.injEq] at q2
  obtain ⟨se3, sr3, l3, -, f3, -⟩ := follow_value t ht s h a ha s' i he
  rw [← q2, f3] at f2
  simp only [Option.some.injEq, Prod.mk.injEq] at f2
  rw [e2, f2.1, q2]

theorem ofNat_toNat (i : Nat) (h : i < 2^5) : (BitVec.ofNat 8 i).toNat = i := by
  rw [BitVec.toNat_ofNat, Nat.mod_eq_of_lt (by omega)]

theorem byte_back (c : Byte) : BitVec.ofInt 8 (c.toNat : Int) = c := by
  rw [BitVec.ofInt_natCast]; exact BitVec.eq_of_toNat_eq (by rw [BitVec.toNat_ofNat]; exact Nat.mod_eq_of_lt c.isLt)

theorem tandem_step (t : Tab) (ht : t.Valid) (c : Coding) (hc : c ≠ .linear) (s : Pred) (h : Ok s) (a : Int) (ha : I16 a)
    (s' : Pred) (i : Nat) (he : encoder t s (linearise c a) = some (s', i)) :
    ∃ x, decoder t c s (BitVec.ofNat 8 i) = some (s', x) ∧ 0 ≤ x ∧ x ≤ 255 ∧ encoder t s (linearise c x) = some (s', i) := by
  obtain ⟨se, sr, l, hi, hf, hse, hq, hl, hsr, r1, r2, hes⟩ := follow_value t ht s h _ (linearise_range c a ha) s' i he
  have hb := bits_of t ht
  have hi5 : i < 2^5 := Nat.lt_of_lt_of_le hi (Nat.pow_le_pow_right (by omega) hb.2)
  have hmod : (BitVec.ofNat 8 i).toNat % 2^t.bits = i := by rw [ofNat_toNat i hi5, Nat.mod_eq_of_lt hi]
  obtain ⟨s2, se2, y2, sr2, x, hd, f2, -, ho⟩ := decoder_ok t ht c s h (BitVec.ofNat 8 i)
  rw [hmod] at f2 ho
  rw [hf] at f2
  simp only [Option.some.injEq, Prod.mk.injEq] at f2
  obtain ⟨rfl, rfl, rfl, rfl⟩ := f2
  have hy := stepSize_range s h
  refine ⟨x, hd, ?_⟩
  cases c
  · exact absurd rfl hc
  · simp only [output, Option.map_eq_some_iff] at ho
    obtain ⟨z, hz, rfl⟩ := ho
    have hlt := z.isLt
    refine ⟨by omega, by omega, ?_⟩
    simp only [linearise, byte_back]
    simp only [linearise] at he hq
    have lvc := alaw_lv z
    have lvb := alaw_lv (BitVec.ofInt 8 a)
    refine again t ht s h _ _ (by omega) (by omega) s' i se he hes ?_
    unfold tandemAlaw at hz
    rw [if_neg (by omega)] at hz
    simp only [Option.bind_eq_bind, Option.bind_eq_some_iff] at hz
    obtain ⟨sp, hsp, id, hid, hz⟩ := hz
    have lvs := alaw_lv sp
    rw [s16_id _ (by omega) (by omega)] at hid
    simp only [pure, Option.some.injEq] at hz
    refine tandem_core t ht G711.alawToLinear (fun b => by have := alaw_lv b; omega) _ se sr l i id hy hse
      (BitVec.ofInt 8 a) sp z hl hsr ?_ ?_ hq hid ?_ ?_ ?_
    · intro c hc
      have lv := alaw_lv c
      exact G711.alaw_monotone _ _ (by omega) (by omega) sp c hsp (G711.alaw_code_round_trip c)
    · intro c hc
      have lv := alaw_lv c
      exact G711.alaw_monotone _ _ (by omega) (by omega) c sp (G711.alaw_code_round_trip c) hsp
    · intro h; rw [if_pos h] at hz; exact hz.symm
    · intro h
      rw [if_neg (by rintro rfl; omega), if_pos (by exact h)] at hz
      rw [← hz]; exact alaw_lower sp
    · intro h
      rw [if_neg (by rintro rfl; omega), if_neg (by unfold rank at h; omega)] at hz
      rw [← hz]; exact alaw_higher sp
  · simp only [output, Option.map_eq_some_iff] at ho
    obtain ⟨z, hz, rfl⟩ := ho
    have hlt := z.isLt
    refine ⟨by omega, by omega, ?_⟩
    simp only [linearise, byte_back]
    simp only [linearise] at he hq
    have lvc := ulaw_lv z
    have lvb := ulaw_lv (BitVec.ofInt 8 a)
    refine again t ht s h _ _ (by omega) (by omega) s' i se he hes ?_
    unfold tandemUlaw at hz
    rw [if_neg (by omega)] at hz
    simp only [Option.bind_eq_bind, Option.bind_eq_some_iff] at hz
    obtain ⟨sp, hsp, id, hid, hz⟩ := hz
    have lvs := ulaw_lv sp
    rw [s16_id _ (by omega) (by omega)] at hid
    simp only [pure, Option.some.injEq] at hz
    have rt : ∀ c, ∃ d, G711.linearToUlaw (G711.ulawToLinear c) = some d ∧ G711.ulawToLinear d = G711.ulawToLinear c := by
      intro c
      refine ⟨_, G711.ulaw_code_round_trip c, ?_⟩
      split
      · rename_i h; rw [h]; decide
      · rfl
    refine tandem_core t ht G711.ulawToLinear (fun b => by have := ulaw_lv b; omega) _ se sr l i id hy hse
      (BitVec.ofInt 8 a) sp z hl hsr ?_ ?_ hq hid ?_ ?_ ?_
    · intro c hc
      have lv := ulaw_lv c
      obtain ⟨d, hd, e⟩ := rt c
      rw [← e]
      exact G711.ulaw_monotone _ _ (by omega) sp d hsp hd
    · intro c hc
      have lv := ulaw_lv c
      obtain ⟨d, hd, e⟩ := rt c
      rw [← e]
      exact G711.ulaw_monotone _ _ (by omega) d sp hd hsp
    · intro h; rw [if_pos h] at hz; exact hz.symm
    · intro h
      rw [if_neg (by rintro rfl; omega), if_pos (by exact h)] at hz
      rw [← hz]; exact ulaw_lower sp
    · intro h
      rw [if_neg (by rintro rfl; omega), if_neg (by unfold rank at h; omega)] at hz
      rw [← hz]; exact ulaw_higher sp

/-! ## Many -/

theorem tandem_run (t : Tab) (ht : t.Valid) (c : Coding) (hc : c ≠ .linear) : ∀ (l : List Int) (s p : Pred) (codes : List Nat),
    Ok s → (∀ a ∈ l, I16 a) → codesRun t s (l.map (linearise c)) = some (p, codes) →
    ∃ out, speak t c s (codes.map (BitVec.ofNat 8)) = some (p, out) ∧ (∀ x ∈ out, 0 ≤ x ∧ x ≤ 255) ∧
      codesRun t s (out.map (linearise c)) = some (p, codes) := by
  intro l
  induction l with
  | nil =>
    intro s p codes _ _ h
    simp only [List.map_nil, codesRun, Option.some.injEq, Prod.mk.injEq] at h
    obtain ⟨rfl, rfl⟩ := h
    exact ⟨[], rfl, by simp, rfl⟩
  | cons a l ih =>
    intro s p codes ho ha h
    simp only [List.map_cons, codesRun, Option.bind_eq_some_iff] at h
    obtain ⟨⟨s', i⟩, h1, ⟨p', is⟩, h2, h3⟩ := h
    simp only [Option.some.injEq, Prod.mk.injEq] at h3
    obtain ⟨rfl, rfl⟩ := h3
    have haa := ha a (List.mem_cons_self ..)
    obtain ⟨x, d1, d2, d3, d4⟩ := tandem_step t ht c hc s ho a haa s' i h1
    obtain ⟨s1, se, y, sr, i1, e1, -, -, ok1, -⟩ := encoder_ok t ht s ho _ (linearise_range c a haa)
    rw [h1] at e1
    simp only [Option.some.injEq, Prod.mk.injEq] at e1
    obtain ⟨rfl, rfl⟩ := e1
    obtain ⟨out, o1, o2, o3⟩ := ih s' p' is ok1 (fun b hb => ha b (List.mem_cons_of_mem _ hb)) h2
    refine ⟨x :: out, ?_, ?_, ?_⟩
    · simp only [List.map_cons, speak, d1, Option.bind_some, o1]
    · intro z hz
      rcases List.mem_cons.mp hz with rfl | hz
      · exact ⟨d2, d3⟩
      · exact o2 z hz
    · simp only [List.map_cons, codesRun, d4, Option.bind_some, o3]

end G726
