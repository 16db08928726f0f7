import Verif.G722.Model
import Mathlib.Tactic.Linarith

/-!
# Nothing overflows: bounds for a band
-/

namespace G722

/-- `x` fits in 16 bits. -/
def Fits (x : Int) : Prop := -32768 ≤ x ∧ x ≤ 32767

theorem chk16_some {x : Int} (h : Fits x) : chk16 x = some x := if_pos h

theorem chk32_some {x : Int} (h : -2147483648 ≤ x ∧ x ≤ 2147483647) : chk32 x = some x := if_pos h

theorem sat16_fits (x : Int) : Fits (sat16 x) := by unfold Fits sat16; omega

theorem sat15_range (x : Int) : -16384 ≤ sat15 x ∧ sat15 x ≤ 16383 := by
  unfold sat15; split
  · omega
  · split <;> omega

theorem lim_range (x m : Int) (h : 0 ≤ m) : -m ≤ lim x m ∧ lim x m ≤ m := by
  unfold lim
  split
  · split <;> omega
  · omega

/-- A product over 32768. -/
theorem mul_shift (x y A : Int) (hA : 0 ≤ A) (hx : -A ≤ x ∧ x ≤ A) (hy : Fits y) :
    -A ≤ x*y/32768 ∧ x*y/32768 ≤ A := by
  obtain ⟨h1, h2⟩ := hx
  obtain ⟨h3, h4⟩ := hy
  have u : x*y ≤ A*32768 := by nlinarith
  have l : -(A*32768) ≤ x*y := by nlinarith
  constructor
  · omega
  · omega

theorem mul_shift16 (x y : Int) (hx : -32767 ≤ x ∧ x ≤ 32767) (hy : Fits y) : Fits (x*y/32768) := by
  have := mul_shift x y 32767 (by omega) hx hy
  unfold Fits; omega

/-- A band as it always is; `top` is the limit of the logarithm of the scale. -/
structure Ok (top : Int) (s : Band) : Prop where
  nb : 0 ≤ s.nb ∧ s.nb ≤ top
  det : 0 < s.det ∧ s.det ≤ 16384
  sp : Fits s.s
  sz : Fits s.sz
  r : Fits s.r
  a1 : -12288 ≤ s.a1 ∧ s.a1 ≤ 12288
  a0 : -(15360 - s.a1) ≤ s.a0 ∧ s.a0 ≤ 15360 - s.a1
  b : s.b.length = 6 ∧ ∀ x ∈ s.b, Fits x
  d : s.d.length = 6 ∧ ∀ x ∈ s.d, Fits x

theorem Ok.set {top : Int} {s : Band} (h : Ok top s) {nb det : Int} (hn : 0 ≤ nb ∧ nb ≤ top)
    (hd : 0 < det ∧ det ≤ 16384) : Ok top { s with nb := nb, det := det } :=
  ⟨hn, hd, h.sp, h.sz, h.r, h.a1, h.a0, h.b, h.d⟩

theorem uppol2_ok (s : Band) (p : Int) (h1 : -12288 ≤ s.a1 ∧ s.a1 ≤ 12288) :
    ∃ a, uppol2 s p = some a ∧ -12288 ≤ a ∧ a ≤ 12288 := by
  unfold uppol2
  have hw := sat16_fits (4*s.a0)
  unfold Fits at hw
  generalize sat16 (4*s.a0) = w at hw
  simp only
  rw [chk16_some (by unfold Fits; split <;> split <;> (try split) <;> omega)]
  exact ⟨_, rfl, lim_range _ _ (by omega)⟩

theorem uppol1_ok (s : Band) (p ap1 : Int) (h0 : -32767 ≤ s.a0 ∧ s.a0 ≤ 32767) (h1 : -12288 ≤ ap1 ∧ ap1 ≤ 12288) :
    ∃ a, uppol1 s p ap1 = some a ∧ -(15360 - ap1) ≤ a ∧ a ≤ 15360 - ap1 := by
  unfold uppol1
  rw [chk16_some (by unfold Fits; omega)]
  refine ⟨_, rfl, ?_⟩
  have e : sat16 (15360 - ap1) = 15360 - ap1 := by unfold sat16; omega
  rw [e]
  exact lim_range _ _ (by omega)

theorem filtep_ok (s : Band) (r ap0 ap1 : Int) (h0 : -32767 ≤ ap0 ∧ ap0 ≤ 32767)
    (h1 : -32767 ≤ ap1 ∧ ap1 ≤ 32767) : ∃ a, filtep s r ap0 ap1 = some a ∧ Fits a := by
  unfold filtep
  rw [chk16_some (mul_shift16 _ _ h0 (sat16_fits _)), Option.bind_some,
    chk16_some (mul_shift16 _ _ h1 (sat16_fits _))]
  exact ⟨_, rfl, sat16_fits _⟩

theorem filtez_ok (dx : Int) : ∀ (b d : List Int) (prev : Int), b.length ≤ d.length → b.length ≤ 6 →
    (∀ x ∈ b, Fits x) →
    ∃ b' sz, filtez dx prev b d = some (b', sz) ∧ b'.length = b.length ∧ (∀ x ∈ b', Fits x) ∧
      -(32768*(b.length : Int)) ≤ sz ∧ sz ≤ 32768*(b.length : Int) := by
  intro b
  induction b with
  | nil => intro d prev _ _ _; exact ⟨[], 0, by simp [filtez], rfl, by simp, by simp, by simp⟩
  | cons x b ih =>
    intro d prev hl h6 hb
    rcases d with _ | ⟨y, d⟩
    · simp at hl
    simp only [List.length_cons] at hl h6
    obtain ⟨b', sz, e, h1, h2, h3, h4⟩ := ih d y (by omega) (by omega) (fun z hz => hb z (List.mem_cons_of_mem _ hz))
    have hx := hb x (List.mem_cons_self ..)
    unfold Fits at hx
    unfold filtez
    rw [e, Option.bind_some]
    simp only
    rw [chk16_some (by unfold Fits; omega), Option.bind_some]
    have hf := sat16_fits ((if differ y dx = true then -(if dx = 0 then 0 else 128) else if dx = 0 then 0 else 128) +
      x*32640/32768)
    generalize sat16 ((if differ y dx = true then -(if dx = 0 then 0 else 128) else if dx = 0 then 0 else 128) +
      x*32640/32768) = z at hf
    have hm := mul_shift z (sat16 (prev + prev)) 32768 (by omega) (by unfold Fits at hf; omega) (sat16_fits _)
    rw [chk32_some (by omega)]
    refine ⟨_, _, rfl, by simp [h1], ?_, ?_, ?_⟩
    · intro w hw
      rcases List.mem_cons.mp hw with rfl | hw
      · exact hf
      · exact h2 w hw
    · simp only [List.length_cons, Nat.cast_add, Nat.cast_one]; omega
    · simp only [List.length_cons, Nat.cast_add, Nat.cast_one]; omega

theorem block4_ok (top : Int) (s : Band) (dx : Int) (h : Ok top s) (hd : Fits dx) :
    ∃ s', block4 s dx = some s' ∧ Ok top s' := by
  have h0 := h.a0
  have h1 := h.a1
  unfold block4
  simp only
  obtain ⟨a1, e1, f1⟩ := uppol2_ok s (sat16 (s.sz + dx)) h1
  obtain ⟨a0, e0, f0⟩ := uppol1_ok s (sat16 (s.sz + dx)) a1 (by omega) f1
  obtain ⟨sp, e2, f2⟩ := filtep_ok s (sat16 (s.s + dx)) a0 a1 (by omega) (by omega)
  obtain ⟨b, sz, e3, g1, g2, -⟩ := filtez_ok dx s.b s.d dx (by rw [h.b.1, h.d.1]) (by rw [h.b.1]) h.b.2
  rw [e1, Option.bind_some, e0, Option.bind_some, e2, Option.bind_some, e3]
  refine ⟨_, rfl, ⟨h.nb, h.det, sat16_fits _, sat16_fits _, sat16_fits _, f1, f0, ?_, ?_⟩⟩
  · exact ⟨by rw [g1, h.b.1], g2⟩
  · refine ⟨by simp [h.d.1], ?_⟩
    intro x hx
    rcases List.mem_cons.mp (List.mem_of_mem_take hx) with rfl | hx
    · exact hd
    · exact h.d.2 x hx

/-- The scale is right for all logarithms up to the limit. -/
theorem scale_ok (k nb : Int) (h : k = 8 ∧ 0 ≤ nb ∧ nb ≤ 18432 ∨ k = 10 ∧ 0 ≤ nb ∧ nb ≤ 22528) :
    ∃ d, scale k nb = some d ∧ 0 < d ∧ d ≤ 16384 := by
  have hv : ∀ i : Fin 32, ∃ v, ilb[i.val]? = some v ∧ 2048 ≤ v ∧ v ≤ 4008 ∧ (i = 0 → v = 2048) := by decide
  obtain ⟨v, e, h1, h2, h3⟩ := hv ⟨(nb/64 % 32).toNat, by omega⟩
  unfold scale
  simp only at e
  rw [e, Option.bind_some]
  simp only
  have key : 0 < (if k - nb/2048 < 0 then v*2^(-(k - nb/2048)).toNat else v/2^(k - nb/2048).toNat)*4 ∧
      (if k - nb/2048 < 0 then v*2^(-(k - nb/2048)).toNat else v/2^(k - nb/2048).toNat)*4 ≤ 16384 := by
    by_cases hn : k - nb/2048 < 0
    · have h4 : (-(k - nb/2048)).toNat = 1 := by omega
      have h5 : (nb/64 % 32).toNat = 0 := by omega
      have := h3 (Fin.ext h5)
      rw [if_pos hn, h4, this]
      decide
    · rw [if_neg hn]
      have h4 : (k - nb/2048).toNat ≤ 10 := by omega
      generalize (k - nb/2048).toNat = j at h4
      have : j = 0 ∨ j = 1 ∨ j = 2 ∨ j = 3 ∨ j = 4 ∨ j = 5 ∨ j = 6 ∨ j = 7 ∨ j = 8 ∨ j = 9 ∨ j = 10 := by omega
      rcases this with rfl | rfl | rfl | rfl | rfl | rfl | rfl | rfl | rfl | rfl | rfl <;> norm_num <;> omega
  rw [chk16_some (by unfold Fits; omega)]
  exact ⟨_, rfl, key⟩

/-! ## The filters -/

def absSum : List Int → Int
  | [] => 0
  | c :: l => c.natAbs + absSum l

theorem absSum_nonneg (l : List Int) : 0 ≤ absSum l := by
  induction l with
  | nil => exact Int.le_refl _
  | cons c l ih => simp only [absSum]; omega

theorem absSum_append (l m : List Int) : absSum (l ++ m) = absSum l + absSum m := by
  induction l with
  | nil => simp [absSum]
  | cons c l ih => simp only [List.cons_append, absSum, ih]; omega

theorem dotAcc_ok : ∀ (xs cs : List Int) (acc : Int), (∀ x ∈ xs, Fits x) →
    (acc.natAbs : Int) + 32768*absSum cs ≤ 2147483647 →
    ∃ z, dotAcc acc xs cs = some z ∧ (z.natAbs : Int) ≤ acc.natAbs + 32768*absSum cs := by
  intro xs
  induction xs with
  | nil => intro cs acc _ h; exact ⟨acc, by simp [dotAcc], by have := absSum_nonneg cs; omega⟩
  | cons x xs ih =>
    intro cs acc hx h
    rcases cs with _ | ⟨c, cs⟩
    · exact ⟨acc, by simp [dotAcc], by have := absSum_nonneg []; omega⟩
    simp only [absSum] at h ⊢
    have hf := hx x (List.mem_cons_self ..)
    unfold Fits at hf
    have hc := absSum_nonneg cs
    have hp : ((x*c).natAbs : Int) ≤ 32768*c.natAbs := by
      rw [Int.natAbs_mul]; push_cast
      have : ((x.natAbs : Nat) : Int) ≤ 32768 := by omega
      simp only [Int.natCast_natAbs] at this ⊢
      nlinarith [abs_nonneg c]
    unfold dotAcc
    rw [chk32_some (by omega), Option.bind_some]
    obtain ⟨z, e, hz⟩ := ih cs (acc + x*c) (fun y hy => hx y (List.mem_cons_of_mem _ hy)) (by omega)
    exact ⟨z, e, by omega⟩

theorem circDot_ok (x c : List Int) (pos : Nat) (hx : ∀ v ∈ x, Fits v) (hc : absSum c ≤ 6482) :
    ∃ z, circDot x c pos = some z ∧ (z.natAbs : Int) ≤ 212402176 := by
  have hs : absSum (c.take (12 - pos)) + absSum (c.drop (12 - pos)) = absSum c := by
    rw [← absSum_append, List.take_append_drop]
  have n1 := absSum_nonneg (c.take (12 - pos))
  have n2 := absSum_nonneg (c.drop (12 - pos))
  unfold circDot
  obtain ⟨z, e, h1⟩ := dotAcc_ok (x.drop pos) (c.take (12 - pos)) 0 (fun v hv => hx v (List.mem_of_mem_drop hv))
    (by simp only [Int.natAbs_zero, Nat.cast_zero]; omega)
  obtain ⟨w, e2, h2⟩ := dotAcc_ok (x.take pos) (c.drop (12 - pos)) 0 (fun v hv => hx v (List.mem_of_mem_take hv))
    (by simp only [Int.natAbs_zero, Nat.cast_zero]; omega)
  simp only [Int.natAbs_zero, Nat.cast_zero] at h1 h2
  rw [e, Option.bind_some, e2, Option.bind_some, chk32_some (by omega)]
  exact ⟨_, rfl, by omega⟩

/-! ## The coder as a whole -/

/-- A coder as it always is. -/
structure Good (s : Codec) : Prop where
  low : Ok 18432 s.low
  high : Ok 22528 s.high
  x : s.x.length = 12 ∧ ∀ v ∈ s.x, Fits v
  y : s.y.length = 12 ∧ ∀ v ∈ s.y, Fits v
  ptr : s.ptr < 12

theorem bandInit_ok (top det : Int) (ht : 0 ≤ top) (h : 0 < det ∧ det ≤ 16384) : Ok top (bandInit det) := by
  have z : ∀ n, ∀ x ∈ List.replicate n (0 : Int), Fits x := by
    intro n x hx
    rw [List.mem_replicate] at hx
    rw [hx.2]; unfold Fits; omega
  refine ⟨⟨Int.le_refl _, ht⟩, h, ?_, ?_, ?_, ?_, ?_, ⟨rfl, z 6⟩, ⟨rfl, z 6⟩⟩ <;> simp [bandInit, Fits]

theorem init_good : Good init := by
  have z : ∀ n, ∀ x ∈ List.replicate n (0 : Int), Fits x := by
    intro n x hx
    rw [List.mem_replicate] at hx
    rw [hx.2]; unfold Fits; omega
  exact ⟨bandInit_ok _ _ (by omega) (by omega), bandInit_ok _ _ (by omega) (by omega), ⟨rfl, z 12⟩, ⟨rfl, z 12⟩,
    by decide⟩

theorem set_fits (l : List Int) (i : Nat) (v : Int) (h : ∀ x ∈ l, Fits x) (hv : Fits v) :
    ∀ x ∈ l.set i v, Fits x := by
  intro x hx
  rcases List.mem_or_eq_of_mem_set hx with h' | rfl
  · exact h x h'
  · exact hv

theorem advance_lt (p : Nat) : advance p < 12 := by unfold advance; split <;> omega

/-- What the quantised difference does to a band: the same in the encoder and the decoder. -/
def adapt (s : Band) (q w top k : Int) : Option Band :=
  let nb := max 0 (min top (s.nb*127/128 + w))
  (scale k nb).bind fun det => block4 { s with nb := nb, det := det } (s.det*q/32768)

theorem logsclD_eq (nb w top : Int) (ht : 0 ≤ top ∧ top ≤ 22528) :
    logsclD nb w top = some (max 0 (min top (nb*127/128 + w))) := by
  unfold logsclD
  simp only
  have : (if nb*127/128 + w < 0 then 0 else if nb*127/128 + w > top then top else nb*127/128 + w) =
      max 0 (min top (nb*127/128 + w)) := by
    split
    · omega
    · split <;> omega
  rw [this, chk16_some (by unfold Fits; omega)]

theorem logsclE_eq (nb w top : Int) (hn : 0 ≤ nb ∧ nb ≤ top) (ht : 0 ≤ top ∧ top ≤ 22528)
    (hw : -214 ≤ w ∧ w ≤ 3042) : logsclE nb w top = some (max 0 (min top (nb*127/128 + w))) := by
  unfold logsclE
  rw [chk16_some (by unfold Fits; omega)]
  simp only [Option.map_some, Option.some.injEq]
  split
  · omega
  · split <;> omega

theorem adapt_ok (s : Band) (q w top k : Int) (h : Ok top s) (hk : k = 8 ∧ top = 18432 ∨ k = 10 ∧ top = 22528)
    (hq : -32767 ≤ q ∧ q ≤ 32767) : ∃ s', adapt s q w top k = some s' ∧ Ok top s' := by
  unfold adapt
  simp only
  obtain ⟨d, e, hd⟩ := scale_ok k (max 0 (min top (s.nb*127/128 + w))) (by omega)
  rw [e, Option.bind_some]
  have := h.det
  exact block4_ok top _ _ (h.set (by omega) hd)
    (by rw [Int.mul_comm]; exact mul_shift16 _ _ hq (by unfold Fits; omega))

theorem det_mul_fits (s : Band) (top q : Int) (h : Ok top s) (hq : -32767 ≤ q ∧ q ≤ 32767) :
    Fits (s.det*q/32768) := by
  have := h.det
  rw [Int.mul_comm]; exact mul_shift16 _ _ hq (by unfold Fits; omega)

/-- What the four bits of the lower band stand for: a difference and a change of scale. -/
def lowQ (c : Nat) : Int := (qm4[c]?).getD 0
def lowW (c : Nat) : Int := ((rl42[c]?).bind (wl[·]?)).getD 0
def highQ (c : Nat) : Int := (qm2[c]?).getD 0
def highW (c : Nat) : Int := ((rh2[c]?).bind (wh[·]?)).getD 0

theorem low_tables : ∀ c : Fin 16, qm4[c.val]? = some (lowQ c) ∧
    (∃ i, rl42[c.val]? = some i ∧ wl[i]? = some (lowW c)) ∧
    (-32767 ≤ lowQ c ∧ lowQ c ≤ 32767) ∧ (-214 ≤ lowW c ∧ lowW c ≤ 3042) := by
  have h : ∀ c : Fin 16, qm4[c.val]? = some (lowQ c) ∧
    (∃ i : Fin 8, rl42[c.val]? = some i.val ∧ wl[i.val]? = some (lowW c)) ∧
    (-32767 ≤ lowQ c ∧ lowQ c ≤ 32767) ∧ (-214 ≤ lowW c ∧ lowW c ≤ 3042) := by decide
  intro c
  obtain ⟨h1, ⟨i, h2⟩, h3⟩ := h c
  exact ⟨h1, ⟨i.val, h2⟩, h3⟩

theorem high_tables : ∀ c : Fin 4, qm2[c.val]? = some (highQ c) ∧
    (∃ i, rh2[c.val]? = some i ∧ wh[i]? = some (highW c)) ∧
    (-32767 ≤ highQ c ∧ highQ c ≤ 32767) ∧ (-214 ≤ highW c ∧ highW c ≤ 3042) := by
  have h : ∀ c : Fin 4, qm2[c.val]? = some (highQ c) ∧
    (∃ i : Fin 3, rh2[c.val]? = some i.val ∧ wh[i.val]? = some (highW c)) ∧
    (-32767 ≤ highQ c ∧ highQ c ≤ 32767) ∧ (-214 ≤ highW c ∧ highW c ≤ 3042) := by decide
  intro c
  obtain ⟨h1, ⟨i, h2⟩, h3⟩ := h c
  exact ⟨h1, ⟨i.val, h2⟩, h3⟩

theorem decLow_eq (s : Band) (v : Int) (c : Nat) (hc : c < 16) (h : Ok 18432 s) :
    decLow s v c = (adapt s (lowQ c) (lowW c) 18432 8).map fun s' => (s', sat15 (s.s + s.det*v/32768)) := by
  obtain ⟨t1, ⟨i, t2, t3⟩, t4, t5⟩ := low_tables ⟨c, hc⟩
  simp only at t1 t2 t3 t4 t5
  unfold decLow adapt
  simp only
  rw [t1, Option.bind_some, chk16_some (det_mul_fits s _ _ h t4), Option.bind_some, t2, Option.bind_some, t3,
    Option.bind_some, logsclD_eq _ _ _ (by omega), Option.bind_some, Option.map_bind]
  rfl

theorem decHigh_eq (s : Band) (c : Nat) (hc : c < 4) (h : Ok 22528 s) :
    decHigh s c = (adapt s (highQ c) (highW c) 22528 10).map fun s' =>
      (s', sat15 (s.det*highQ c/32768 + s.s)) := by
  obtain ⟨t1, ⟨i, t2, t3⟩, t4, t5⟩ := high_tables ⟨c, hc⟩
  simp only at t1 t2 t3 t4 t5
  unfold decHigh adapt
  simp only
  rw [t1, Option.bind_some, chk16_some (det_mul_fits s _ _ h t4), Option.bind_some, t2, Option.bind_some, t3,
    Option.bind_some, logsclD_eq _ _ _ (by omega), Option.bind_some, Option.map_bind]
  rfl

theorem quantl_ok (det wd : Int) : ∀ (n i : Nat), 1 ≤ i → i + n ≤ 30 →
    ∃ j, quantl det wd i n = some j ∧ 1 ≤ j ∧ j ≤ 30 := by
  intro n
  induction n with
  | zero => intro i _ _; exact ⟨30, rfl, by omega⟩
  | succ n ih =>
    intro i h1 h2
    unfold quantl
    have : i < q6.length := by show i < 32; omega
    rw [List.getElem?_eq_getElem this, Option.bind_some]
    split
    · exact ⟨i, rfl, by omega⟩
    · exact ih (i + 1) (by omega) (by omega)

theorem encLow_eq (s : Band) (x : Int) (h : Ok 18432 s) : ∃ c, 4 ≤ c ∧ c < 64 ∧
    encLow s x = (adapt s (lowQ (c/4)) (lowW (c/4)) 18432 8).map fun s' => (s', c) := by
  unfold encLow
  simp only
  generalize sat16 (x - s.s) = el
  obtain ⟨j, e, h1, h2⟩ := quantl_ok s.det (if el ≥ 0 then el else -el - 1) 29 1 (by omega) (by omega)
  rw [e, Option.bind_some]
  have hn : ∀ j : Fin 31, 1 ≤ j.val → ∃ c : Fin 64, iln[j.val]? = some c.val ∧ 4 ≤ c.val := by decide +kernel
  have hp : ∀ j : Fin 31, 1 ≤ j.val → ∃ c : Fin 64, ilp[j.val]? = some c.val ∧ 4 ≤ c.val := by decide +kernel
  have : ∃ c : Fin 64, (if el < 0 then iln else ilp)[j]? = some c.val ∧ 4 ≤ c.val := by
    split
    · exact hn ⟨j, by omega⟩ h1
    · exact hp ⟨j, by omega⟩ h1
  obtain ⟨⟨c, hc⟩, e2, h4⟩ := this
  simp only at e2 h4
  rw [e2, Option.bind_some]
  refine ⟨c, h4, hc, ?_⟩
  obtain ⟨t1, ⟨i, t2, t3⟩, t4, t5⟩ := low_tables ⟨c/4, by omega⟩
  simp only at t1 t2 t3 t4 t5
  have hb := h.nb
  rw [t1, Option.bind_some, chk16_some (det_mul_fits s _ _ h t4), Option.bind_some, t2, Option.bind_some, t3,
    Option.bind_some, logsclE_eq _ _ _ hb (by omega) t5, Option.bind_some]
  unfold adapt
  rw [Option.map_bind]
  rfl

theorem encHigh_eq (s : Band) (x : Int) (h : Ok 22528 s) : ∃ c, c < 4 ∧
    encHigh s x = (adapt s (highQ c) (highW c) 22528 10).map fun s' => (s', c) := by
  unfold encHigh
  simp only
  generalize sat16 (x - s.s) = el
  have : ∃ c : Fin 4, (if el < 0 then ihn else ihp)[if (if el ≥ 0 then el else -el - 1) ≥ 564*s.det/4096 then 2 else 1]?
      = some c.val := by
    by_cases h1 : el < 0 <;> by_cases h2 : (if el ≥ 0 then el else -el - 1) ≥ 564*s.det/4096 <;>
      simp only [h1, h2, if_true, if_false] <;> decide
  obtain ⟨⟨c, hc⟩, e2⟩ := this
  simp only at e2
  rw [e2, Option.bind_some]
  refine ⟨c, hc, ?_⟩
  obtain ⟨t1, ⟨i, t2, t3⟩, t4, t5⟩ := high_tables ⟨c, hc⟩
  simp only at t1 t2 t3 t4 t5
  have hb := h.nb
  rw [t1, Option.bind_some, chk16_some (det_mul_fits s _ _ h t4), Option.bind_some, t2, Option.bind_some, t3,
    Option.bind_some, logsclE_eq _ _ _ hb (by omega) t5, Option.bind_some]
  unfold adapt
  rw [Option.map_bind]
  rfl

end G722
