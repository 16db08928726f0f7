import Verif.T4.Runs

/-! # The runs of a row become its pixels -/

namespace T4

/-- The low `r` bits of `x` are the `r` pixels from `q` on. -/
def Stream (px : Nat → Bool) (x r q : Nat) : Prop := ∀ j, j < r → x.testBit (r - 1 - j) = px (q + j)

/-- The pixels of `buf` before `q` are right. -/
def PxOk (px : Nat → Bool) (buf : List Byte) (q : Nat) : Prop := ∀ y, y < q → black buf y = px y

/-- `fudge` for a colour. -/
def fudgeOf (c : Bool) : Nat := if c then 0xFF else 0

theorem fudge_bit (c : Bool) (j : Nat) (h : j < 8) : (fudgeOf c).testBit j = c := by
  cases c
  · simp [fudgeOf]
  · show (0xFF : Nat).testBit j = true
    have : j = 0 ∨ j = 1 ∨ j = 2 ∨ j = 3 ∨ j = 4 ∨ j = 5 ∨ j = 6 ∨ j = 7 := by omega
    rcases this with rfl | rfl | rfl | rfl | rfl | rfl | rfl | rfl <;> rfl

theorem fudge_xor (c : Bool) : fudgeOf c ^^^ 0xFF = fudgeOf (!c) := by cases c <;> rfl

theorem stream_push {px : Nat → Bool} {x r q : Nat} (h : Stream px x r q) (i : Nat) (c : Bool) (hi : r + i ≤ 8) (hc : ∀ y, q + r ≤ y → y < q + r + i → px y = c) :
    Stream px ((x * 2 ^ i ||| ((2 ^ i - 1) &&& fudgeOf c)) % 2 ^ 32) (r + i) q := by
  intro j hj
  rw [Nat.testBit_mod_two_pow, Nat.testBit_or, Nat.testBit_mul_two_pow, Nat.testBit_and, Nat.testBit_two_pow_sub_one]
  by_cases hjr : j < r
  · rw [show decide (r + i - 1 - j < 32) = true by simp; omega, show decide (r + i - 1 - j ≥ i) = true by simp; omega, show decide (r + i - 1 - j < i) = false by simp; omega,
      show r + i - 1 - j - i = r - 1 - j by omega, h j hjr]
    simp
  · rw [show decide (r + i - 1 - j < 32) = true by simp; omega, show decide (r + i - 1 - j ≥ i) = false by simp; omega, show decide (r + i - 1 - j < i) = true by simp; omega,
      fudge_bit c _ (by omega), hc (q + j) (by omega) (by omega)]
    simp

theorem black_set {px : Nat → Bool} {buf : List Byte} {pos x : Nat} (hp : pos < buf.length) (h : PxOk px buf (8 * pos)) (hs : Stream px x 8 (8 * pos)) :
    PxOk px (buf.set pos (BitVec.ofNat 8 x)) (8 * (pos + 1)) := by
  intro y hy
  unfold black
  by_cases e : y / 8 = pos
  · rw [e, List.getD_eq_getElem?_getD, List.getElem?_set_self hp]
    simp only [Option.getD_some, BitVec.getLsbD_ofNat]
    have := hs (y - 8 * pos) (by omega)
    rw [show 7 - y % 8 = 8 - 1 - (y - 8 * pos) by omega, this, show 8 * pos + (y - 8 * pos) = y by omega, show decide (8 - 1 - (y - 8 * pos) < 8) = true by simp; omega]
    rfl
  · rw [List.getD_eq_getElem?_getD, List.getElem?_set_ne (Ne.symm e), ← List.getD_eq_getElem?_getD]
    exact h y (by omega)

theorem packBytes_spec {px : Nat → Bool} (c : Bool) : ∀ n i (p : Pk), i / 8 < n → p.pos + i / 8 ≤ p.buf.length →
    (8 ≤ i → Stream px p.stream 8 (8 * p.pos)) → (i < 8 → p.stream = fudgeOf c ∧ p.pixels = 8) → (∀ y, 8 * p.pos + 8 ≤ y → y < 8 * p.pos + i → px y = c) → PxOk px p.buf (8 * p.pos) →
    ∃ p', packBytes (fudgeOf c) n i p = some (i % 8, p') ∧ p'.pos = p.pos + i / 8 ∧ p'.stream = fudgeOf c ∧ p'.pixels = 8 ∧ p'.buf.length = p.buf.length ∧ PxOk px p'.buf (8 * p'.pos) := by
  intro n
  induction n with
  | zero => intro i p h; omega
  | succ n ih =>
    intro i p hn hl hs h8 hc hb
    unfold packBytes
    by_cases hi : i ≥ 8
    · rw [if_pos hi, if_pos (by omega)]
      obtain ⟨p', h1, h2, h3, h4, h5, h6⟩ := ih (i - 8) { p with pixels := 8, buf := p.buf.set p.pos (BitVec.ofNat 8 p.stream), pos := p.pos + 1, stream := fudgeOf c } (by omega)
        (by simp only [List.length_set]; omega)
        (fun h16 => by
          intro j hj
          simp only
          rw [fudge_bit c _ (by omega), hc _ (by omega) (by omega)])
        (fun _ => ⟨rfl, rfl⟩) (fun y hy1 hy2 => hc y (by simp only at hy1; omega) (by simp only at hy2; omega)) (black_set (by omega) hb (hs hi))
      refine ⟨p', ?_, by rw [h2]; simp only; omega, h3, h4, by rw [h5]; simp, h6⟩
      rw [h1, show (i - 8) % 8 = i % 8 by omega]
    · obtain ⟨e1, e2⟩ := h8 (by omega)
      rw [if_neg hi]
      exact ⟨p, by rw [Nat.mod_eq_of_lt (by omega)], by omega, e1, e2, rfl, hb⟩

/-- The first `q` pixels have been put into the row. -/
structure Packed (px : Nat → Bool) (p : Pk) (q : Nat) : Prop where
  pos : p.pos = q / 8
  pixels : p.pixels = 8 - q % 8
  stream : Stream px p.stream (q % 8) (8 * (q / 8))
  done : PxOk px p.buf (8 * (q / 8))

theorem packRun_spec {px : Nat → Bool} (c : Bool) (i q : Nat) (p : Pk) (h : Packed px p q) (hl : q + i ≤ 8 * p.buf.length) (hc : ∀ y, q ≤ y → y < q + i → px y = c) :
    ∃ p', packRun i (fudgeOf c) p = some p' ∧ Packed px p' (q + i) ∧ p'.buf.length = p.buf.length := by
  unfold packRun
  by_cases hi : i ≥ p.pixels
  · have hpix := h.pixels
    have hpos := h.pos
    have hs := stream_push h.stream p.pixels c (by omega) (fun y h1 h2 => hc y (by omega) (by omega))
    rw [show q % 8 + p.pixels = 8 by omega] at hs
    obtain ⟨p', h1, h2, h3, h4, h5, h6⟩ := packBytes_spec (px := px) c (i + 9) (i + (8 - p.pixels))
      { p with stream := (p.stream * 2 ^ p.pixels ||| ((2 ^ p.pixels - 1) &&& fudgeOf c)) % 2 ^ 32 } (by omega) (by simp only; omega)
      (fun _ => by simp only; rw [hpos]; exact hs) (fun h8 => by omega) (fun y hy1 hy2 => hc y (by simp only at hy1; omega) (by simp only at hy2; omega))
      (by simp only; rw [hpos]; exact h.done)
    simp only [if_pos hi, h1, Option.map_some]
    refine ⟨_, rfl, ⟨?_, ?_, ?_, ?_⟩, h5⟩
    · simp only [h2]; omega
    · simp only [h4]; omega
    · simp only [h3]
      have := stream_push (px := px) (x := fudgeOf c) (r := 0) (q := 8 * ((q + i) / 8)) (fun j hj => by omega) ((i + (8 - p.pixels)) % 8) c (by omega)
        (fun y h1 h2 => hc y (by omega) (by omega))
      rw [Nat.zero_add, show (i + (8 - p.pixels)) % 8 = (q + i) % 8 by omega] at this
      rw [show (i + (8 - p.pixels)) % 8 = (q + i) % 8 by omega]
      exact this
    · simp only
      rw [show 8 * ((q + i) / 8) = 8 * p'.pos by rw [h2]; simp only; omega]
      exact h6
  · have hpix := h.pixels
    simp only [if_neg hi, Option.map_some]
    have hq : (q + i) / 8 = q / 8 := by omega
    refine ⟨_, rfl, ⟨?_, ?_, ?_, ?_⟩, rfl⟩
    · simp only [h.pos, hq]
    · simp only; omega
    · simp only
      rw [hq, show (q + i) % 8 = q % 8 + i by omega]
      exact stream_push h.stream i c (by omega) (fun y h1 h2 => hc y (by omega) (by omega))
    · simp only [hq]; exact h.done

theorem Runs.le {px : Nat → Bool} {w : Nat} {P : List Nat} (h : Runs px w P) (i : Nat) (hi : i < P.length) : prev P i ≤ P.getD i 0 := by
  unfold prev
  split
  · omega
  · have := h.mono (i - 1) (by omega)
    rw [show i - 1 + 1 = i by omega] at this
    omega

theorem prev_succ (P : List Nat) (i : Nat) : prev P (i + 1) = P.getD i 0 := by simp [prev]

theorem Runs.prev_le {px : Nat → Bool} {w : Nat} {P : List Nat} (h : Runs px w P) : ∀ d i, i + d = P.length → prev P i ≤ w := by
  intro d
  induction d with
  | zero => intro i hi; rw [← h.last, ← hi]; exact Nat.le_refl _
  | succ d ih =>
    intro i hi
    have := ih (i + 1) (by omega)
    rw [prev_succ] at this
    have := h.le i (by omega)
    omega

theorem packRuns_spec {px : Nat → Bool} {w : Nat} {P : List Nat} (h : Runs px w P) (cur : Nat → Nat) (hcur : ∀ j, j < P.length → cur j = P.getD j 0 - prev P j) :
    ∀ n x (p : Pk), x + n = P.length → Packed px p (prev P x) → w ≤ 8 * p.buf.length →
    ∃ p', packRuns cur n x (fudgeOf (x % 2 == 1)) p = some p' ∧ Packed px p' w ∧ p'.buf.length = p.buf.length := by
  intro n
  induction n with
  | zero => intro x p hx hp _; exact ⟨p, rfl, by rw [← h.last, ← hx]; exact hp, rfl⟩
  | succ n ih =>
    intro x p hx hp hl
    have hle := h.le x (by omega)
    have hpl := h.prev_le n (x + 1) (by omega)
    rw [prev_succ] at hpl
    obtain ⟨p1, e1, h1, l1⟩ := packRun_spec (x % 2 == 1) (cur x) (prev P x) p hp (by rw [hcur x (by omega)]; omega)
      (fun y hy1 hy2 => h.col x (by omega) y hy1 (by rw [hcur x (by omega)] at hy2; omega))
    rw [show prev P x + cur x = prev P (x + 1) by rw [hcur x (by omega), prev_succ]; omega] at h1
    obtain ⟨p2, e2, h2, l2⟩ := ih (x + 1) p1 (by omega) h1 (by omega)
    refine ⟨p2, ?_, h2, l2.trans l1⟩
    unfold packRuns
    rw [e1]
    simp only [Option.bind_some]
    rw [fudge_xor, ← e2, show (!(x % 2 == 1)) = ((x + 1) % 2 == 1) by
      rcases Nat.mod_two_eq_zero_or_one x with hh | hh <;> simp [hh, Nat.add_mod]]

/-- Two rows with the same pixels are the same. -/
theorem black_ext {a b : List Byte} (hl : a.length = b.length) (h : ∀ y, y < 8 * a.length → black a y = black b y) : a = b := by
  refine List.ext_getElem hl fun i ha hb => ?_
  apply BitVec.eq_of_getLsbD_eq
  intro j hj
  have := h (8 * i + (7 - j)) (by omega)
  unfold black at this
  rw [show (8 * i + (7 - j)) / 8 = i by omega, show 7 - (8 * i + (7 - j)) % 8 = j by omega] at this
  simpa [List.getD, List.getElem?_eq_getElem ha, List.getElem?_eq_getElem hb] using this

/-- The runs of a row of whole octets give the row. -/
theorem pack_row {row : List Byte} {w : Nat} {P : List Nat} (h : Runs (black row) w P) (hw : w = 8 * row.length) (cur : Nat → Nat) (hcur : ∀ j, j < P.length → cur j = P.getD j 0 - prev P j)
    (x : Nat) (buf : List Byte) (hb : buf.length = row.length) :
    ∃ p', packRuns cur P.length 0 0 ⟨x, 8, 0, buf⟩ = some p' ∧ p'.pixels = 8 ∧ p'.buf = row := by
  obtain ⟨p', e, hp, hl⟩ := packRuns_spec h cur hcur P.length 0 ⟨x, 8, 0, buf⟩ (by omega)
    ⟨by simp [prev], by simp [prev], fun j hj => by simp [prev] at hj, fun y hy => by simp [prev] at hy⟩ (by simp only [hb]; omega)
  refine ⟨p', e, by rw [hp.pixels]; omega, black_ext (by rw [hl]; exact hb) fun y hy => hp.done y ?_⟩
  rw [hl] at hy
  simp only at hy
  omega

end T4
