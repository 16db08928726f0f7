import Verif.T4.Model
import Verif.BitOps.Props

/-! # The positions at which the colour of a row changes -/

namespace T4
open BitOps

/-- Where the run with the given index begins. -/
def prev (P : List Nat) (i : Nat) : Nat := if i = 0 then 0 else P.getD (i - 1) 0

/-- `P` has the ends of the runs of a row of `w` pixels, white and black in turns, beginning with white. Only the first run may be empty. -/
structure Runs (px : Nat → Bool) (w : Nat) (P : List Nat) : Prop where
  ne : P ≠ []
  last : prev P P.length = w
  mono : ∀ i, i + 1 < P.length → P.getD i 0 < P.getD (i + 1) 0
  col : ∀ i, i < P.length → ∀ x, prev P i ≤ x → x < P.getD i 0 → px x = (i % 2 == 1)

/-- The pixels up to `e` have been looked at, and `P` has the changes. -/
structure Scan (px : Nat → Bool) (P : List Nat) (e : Nat) : Prop where
  mono : ∀ i, i + 1 < P.length → P.getD i 0 < P.getD (i + 1) 0
  col : ∀ i, i < P.length → ∀ x, prev P i ≤ x → x < P.getD i 0 → px x = (i % 2 == 1)
  tail : ∀ x, prev P P.length ≤ x → x < e → px x = (P.length % 2 == 1)
  le : prev P P.length ≤ e

theorem prev_snoc (P : List Nat) (p : Nat) : prev (P ++ [p]) (P ++ [p]).length = p := by
  simp [prev, List.getD]

theorem getD_snoc_lt (P : List Nat) (p i : Nat) (h : i < P.length) : (P ++ [p]).getD i 0 = P.getD i 0 := by
  simp [List.getD, List.getElem?_append_left h]

theorem getD_snoc_len (P : List Nat) (p : Nat) : (P ++ [p]).getD P.length 0 = p := by simp [List.getD]

theorem prev_snoc_le (P : List Nat) (p i : Nat) (h : i ≤ P.length) : prev (P ++ [p]) i = prev P i := by
  unfold prev
  split
  · rfl
  · exact getD_snoc_lt _ _ _ (by omega)

theorem mono_snoc {P : List Nat} {p : Nat} (h : ∀ i, i + 1 < P.length → P.getD i 0 < P.getD (i + 1) 0) (hp : P ≠ [] → prev P P.length < p) :
    ∀ i, i + 1 < (P ++ [p]).length → (P ++ [p]).getD i 0 < (P ++ [p]).getD (i + 1) 0 := by
  intro i hi
  simp only [List.length_append, List.length_singleton] at hi
  by_cases h1 : i + 1 < P.length
  · rw [getD_snoc_lt _ _ _ h1, getD_snoc_lt _ _ _ (by omega)]; exact h i h1
  · have h2 : i + 1 = P.length := by omega
    have := hp (by intro h; rw [h] at h2; simp at h2)
    rw [h2, getD_snoc_len, getD_snoc_lt _ _ _ (by omega)]
    unfold prev at this
    rw [if_neg (by omega), ← h2] at this
    exact this

theorem col_snoc {px : Nat → Bool} {P : List Nat} {p : Nat}
    (h : ∀ i, i < P.length → ∀ x, prev P i ≤ x → x < P.getD i 0 → px x = (i % 2 == 1))
    (hp : ∀ x, prev P P.length ≤ x → x < p → px x = (P.length % 2 == 1)) :
    ∀ i, i < (P ++ [p]).length → ∀ x, prev (P ++ [p]) i ≤ x → x < (P ++ [p]).getD i 0 → px x = (i % 2 == 1) := by
  intro i hi x h1 h2
  simp only [List.length_append, List.length_singleton] at hi
  rw [prev_snoc_le _ _ _ (by omega)] at h1
  by_cases h3 : i < P.length
  · rw [getD_snoc_lt _ _ _ h3] at h2; exact h i h3 x h1 h2
  · have h4 : i = P.length := by omega
    subst h4
    rw [getD_snoc_len] at h2
    exact hp x h1 h2

theorem Scan.snoc {px : Nat → Bool} {P : List Nat} {e p e' : Nat} (h : Scan px P e) (hlt : P ≠ [] → prev P P.length < p)
    (hp : ∀ x, prev P P.length ≤ x → x < p → px x = (P.length % 2 == 1)) (ht : ∀ x, p ≤ x → x < e' → px x = !(P.length % 2 == 1)) (hle : p ≤ e') :
    Scan px (P ++ [p]) e' where
  mono := mono_snoc h.mono hlt
  col := col_snoc h.col hp
  tail := by
    rw [prev_snoc]
    intro x h1 h2
    rw [ht x h1 h2]
    simp only [List.length_append, List.length_singleton]
    rcases Nat.mod_two_eq_zero_or_one P.length with h | h <;> simp [h, Nat.add_mod]
  le := by rw [prev_snoc]; exact hle

theorem Scan.extend {px : Nat → Bool} {P : List Nat} {e e' : Nat} (h : Scan px P e) (hle : e ≤ e') (ht : ∀ x, e ≤ x → x < e' → px x = (P.length % 2 == 1)) :
    Scan px P e' where
  mono := h.mono
  col := h.col
  tail := fun x h1 h2 => if hx : x < e then h.tail x h1 hx else ht x (by omega) h2
  le := Nat.le_trans h.le hle

theorem Scan.finish {px : Nat → Bool} {P : List Nat} {w : Nat} (h : Scan px P w) (hlt : P ≠ [] → prev P P.length < w) : Runs px w (P ++ [w]) where
  ne := by simp
  last := prev_snoc P w
  mono := mono_snoc h.mono hlt
  col := col_snoc h.col h.tail

/-! ## Finding the next change -/

theorem frag_spec (y : BitVec 32) : frag y ≤ 32 ∧ (∀ k, k < frag y → k < 32 → y.getLsbD (31 - k) = false) ∧
    (frag y < 32 → y.getLsbD (31 - frag y) = true) := by
  rcases top_bit_correct y with ⟨rfl, h⟩ | ⟨k, hk, h1, h2⟩
  · unfold frag; rw [h]; exact ⟨by decide, by simp, by simp⟩
  · have hk32 : k < 32 := by
      rcases Nat.lt_or_ge k 32 with h | h
      · exact h
      · rw [BitVec.getLsbD_of_ge _ _ h] at h1; cases h1
    have e : frag y = 31 - k := by unfold frag; rw [hk]; omega
    rw [e]
    refine ⟨by omega, fun j hj hj2 => h2 _ (by omega), fun _ => ?_⟩
    rw [show 31 - (31 - k) = k by omega]; exact h1

/-- `x` has the pixels from `q` on, `rem` of them, in its highest bits, and zeros after them. -/
def Holds (px : Nat → Bool) (x : BitVec 32) (q rem : Nat) : Prop :=
  ∀ k, k < 32 → x.getLsbD (31 - k) = (decide (k < rem) && px (q + k))

/-- `flip` has the present colour in all of the places of `mask`, which are the highest `size`. -/
def Masks (mask : BitVec 32) (size : Nat) : Prop := ∀ k, k < 32 → mask.getLsbD (31 - k) = decide (k < size)

theorem masks32 : Masks 0xFFFFFFFF 32 := by unfold Masks; decide
theorem masks8 : Masks 0xFF000000 8 := by unfold Masks; decide

theorem Holds.shift {px : Nat → Bool} {x : BitVec 32} {q rem f : Nat} (h : Holds px x q rem) (hf : f ≤ rem) (h32 : rem ≤ 32) : Holds px (x <<< f) (q + f) (rem - f) := by
  intro k hk
  rw [BitVec.getLsbD_shiftLeft]
  by_cases h1 : k + f < 32
  · have : 31 - k - f = 31 - (k + f) := by omega
    rw [this, h _ h1]
    have h2 : ¬ 31 - k < f := by omega
    have h3 : (k + f < rem) = (k < rem - f) := by apply propext; omega
    simp only [show 31 - k < 32 by omega, h2, h3, Nat.add_assoc, Nat.add_comm f k, decide_true, decide_false, Bool.not_false, Bool.true_and]
  · by_cases h2 : 31 - k < f
    · have h3 : ¬ k < rem - f ∨ 32 < rem := by omega
      simp only [h2, decide_true, Bool.not_true, Bool.and_false, Bool.false_and]
      rcases h3 with h3 | h3
      · simp [h3]
      · omega
    · omega

/-- The colour of `flip`. -/
def flipOf (mask : BitVec 32) (n : Nat) : BitVec 32 := if n % 2 = 1 then mask else 0

theorem flipOf_succ (mask : BitVec 32) (n : Nat) : flipOf mask n ^^^ mask = flipOf mask (n + 1) := by
  unfold flipOf
  rcases Nat.mod_two_eq_zero_or_one n with h | h
  · rw [if_neg (by omega), if_pos (by omega)]; simp
  · rw [if_pos h, if_neg (by omega)]; simp

theorem frag_flip {px : Nat → Bool} {x mask : BitVec 32} {q rem size n : Nat} (hx : Holds px x q rem) (hm : Masks mask size) (hrem : rem ≤ size) (hs : size ≤ 32) :
    (∀ k, k < frag (x ^^^ flipOf mask n) → k < rem → px (q + k) = (n % 2 == 1)) ∧
    (frag (x ^^^ flipOf mask n) < rem → px (q + frag (x ^^^ flipOf mask n)) = !(n % 2 == 1)) := by
  obtain ⟨_, h2, h3⟩ := frag_spec (x ^^^ flipOf mask n)
  have key : ∀ k, k < rem → (x ^^^ flipOf mask n).getLsbD (31 - k) = (px (q + k) ^^ (n % 2 == 1)) := by
    intro k hk
    rw [BitVec.getLsbD_xor, hx k (by omega)]
    simp only [hk, decide_true, Bool.true_and]
    congr 1
    unfold flipOf
    split
    · next h => rw [hm k (by omega)]; simp [h]; omega
    · next h => simp [h]
  refine ⟨fun k hk hr => ?_, fun hr => ?_⟩
  · have := h2 k hk (by omega)
    rw [key k hr] at this
    revert this; cases px (q + k) <;> cases (n % 2 == 1) <;> simp
  · have := h3 (by omega)
    rw [key _ hr] at this
    revert this; cases px (q + frag (x ^^^ flipOf mask n)) <;> cases (n % 2 == 1) <;> simp

/-- The state of the search at the pixel `e`. -/
structure At (px : Nat → Bool) (mask : BitVec 32) (r : Rl) (e : Nat) : Prop where
  scan : Scan px r.list e
  pos : r.pos = prev r.list r.list.length
  flip : r.flip = flipOf mask r.list.length
  lt : r.list ≠ [] → prev r.list r.list.length < e

theorem getD_last_col {px : Nat → Bool} {P : List Nat} {e : Nat} (h : Scan px P e) (hlt : prev P P.length < e) : px (prev P P.length) = (P.length % 2 == 1) :=
  h.tail _ (Nat.le_refl _) hlt

theorem moreRuns_spec {px : Nat → Bool} {mask : BitVec 32} {size : Nat} (hm : Masks mask size) (hs : size ≤ 32) :
    ∀ n (x : BitVec 32) (rem : Nat) (r : Rl) (q : Nat), rem ≤ n → rem ≤ size → Holds px x q rem → Scan px r.list (q + 1) → r.pos = q → prev r.list r.list.length = q →
      r.list ≠ [] → r.flip = flipOf mask r.list.length → rem > 0 →
      At px mask (moreRuns mask n x rem r).2 (q + rem) ∧ (moreRuns mask n x rem r).1 + (moreRuns mask n x rem r).2.pos = q + rem := by
  intro n
  induction n with
  | zero => intro x rem r q h1 _ _ _ _ _ _ _ h; omega
  | succ n ih =>
    intro x rem r q h1 h2 hx hsc hpos hprev hne hflip h0
    obtain ⟨f1, f2⟩ := frag_flip (n := r.list.length) hx hm h2 hs
    rw [← hflip] at f1 f2
    unfold moreRuns
    simp only
    have hq : px q = (r.list.length % 2 == 1) := hsc.tail q (by omega) (by omega)
    split
    · next hf =>
      have f2 := f2 hf
      have hf0 : frag (x ^^^ r.flip) > 0 := by
        rcases Nat.eq_zero_or_pos (frag (x ^^^ r.flip)) with h | h
        · rw [h, Nat.add_zero, hq] at f2
          revert f2; cases (r.list.length % 2 == 1) <;> simp
        · exact h
      generalize hfe : frag (x ^^^ r.flip) = f at *
      have hcol : ∀ y, prev r.list r.list.length ≤ y → y < q + f → px y = (r.list.length % 2 == 1) := by
        intro y hy1 hy2
        have := f1 (y - q) (by omega) (by omega)
        rwa [show q + (y - q) = y by omega] at this
      have := ih (x <<< f) (rem - f) { r with pos := r.pos + f, list := r.list ++ [r.pos + f], flip := r.flip ^^^ mask } (q + f) (by omega) (by omega)
        (hx.shift (by omega) (by omega)) (by
          simp only [hpos]
          exact hsc.snoc (fun _ => by omega) hcol (fun y hy1 hy2 => by rw [show y = q + f by omega]; exact f2) (by omega)) (by simp [hpos])
        (by simp only [hpos]; exact prev_snoc _ _) (by simp) (by simp only [List.length_append, List.length_singleton, hflip]; exact flipOf_succ _ _) (by omega)
      rw [show q + f + (rem - f) = q + rem by omega] at this
      exact this
    · next hf =>
      have hcol : ∀ y, q ≤ y → y < q + rem → px y = (r.list.length % 2 == 1) := by
        intro y hy1 hy2
        have := f1 (y - q) (by omega) (by omega)
        rwa [show q + (y - q) = y by omega] at this
      exact ⟨⟨hsc.extend (by omega) (fun y h1 h2 => hcol y (by omega) h2), by rw [hpos, hprev], hflip, fun _ => by show prev r.list r.list.length < _; omega⟩, by simp only [hpos]; omega⟩

theorem chunk_spec {px : Nat → Bool} {mask : BitVec 32} {size : Nat} (hm : Masks mask size) (hs : size ≤ 32) (h0 : size > 0) (x : BitVec 32) (i : Nat) (r : Rl)
    (hx : Holds px x (i * 8) size) (h : At px mask r (i * 8)) (hsp : r.span = r.pos) :
    At px mask (chunk mask size x i r) (i * 8 + size) ∧ (chunk mask size x i r).span = (chunk mask size x i r).pos := by
  obtain ⟨f1, f2⟩ := frag_flip (n := r.list.length) hx hm (Nat.le_refl _) hs
  rw [← h.flip] at f1 f2
  have hle := h.scan.le
  rw [← h.pos] at hle
  unfold chunk
  split
  · next hne =>
    have hf : frag (x ^^^ r.flip) < size := by
      rcases Nat.lt_or_ge (frag (x ^^^ r.flip)) size with h1 | h1
      · exact h1
      · exfalso
        apply hne
        apply BitVec.eq_of_getLsbD_eq
        intro k hk
        have e1 := hx (31 - k) (by omega)
        rw [show 31 - (31 - k) = k by omega] at e1
        rw [e1, h.flip]
        unfold flipOf
        have e2 := hm (31 - k) (by omega)
        rw [show 31 - (31 - k) = k by omega] at e2
        by_cases hk2 : 31 - k < size
        · have := f1 (31 - k) (by omega) hk2
          split
          · next hh => rw [this, e2]; simp [hh, hk2]
          · next hh => rw [this]; simp [hh, hk2]
        · split
          · rw [e2]; simp [hk2]
          · simp [hk2]
    have f2 := f2 hf
    simp only
    generalize hfe : frag (x ^^^ r.flip) = f at *
    have hp : r.pos + (i * 8 - r.span + f) = i * 8 + f := by omega
    rw [hp]
    have hcol : ∀ y, i * 8 ≤ y → y < i * 8 + f → px y = (r.list.length % 2 == 1) := by
      intro y hy1 hy2
      have := f1 (y - i * 8) (by omega) (by omega)
      rwa [show i * 8 + (y - i * 8) = y by omega] at this
    have hcol2 : ∀ y, prev r.list r.list.length ≤ y → y < i * 8 + f → px y = (r.list.length % 2 == 1) := fun y h1 h2 =>
      if h3 : y < i * 8 then h.scan.tail y h1 h3 else hcol y (by omega) h2
    have := moreRuns_spec (px := px) hm hs 32 (x <<< f) (size - f) { r with pos := i * 8 + f, list := r.list ++ [i * 8 + f], flip := r.flip ^^^ mask } (i * 8 + f)
      (by omega) (by omega) (hx.shift (by omega) (by omega))
      (h.scan.snoc (fun hne => by have := h.lt hne; omega) hcol2 (fun y h1 h2 => by rw [show y = i * 8 + f by omega]; exact f2) (by omega)) rfl
      (prev_snoc _ _) (by simp) (by simp only [List.length_append, List.length_singleton, h.flip]; exact flipOf_succ _ _) (by omega)
    rw [show i * 8 + f + (size - f) = i * 8 + size by omega] at this
    refine ⟨⟨this.1.scan, this.1.pos, this.1.flip, this.1.lt⟩, ?_⟩
    show i * 8 + size - _ = _
    have := this.2
    omega
  · next he =>
    have he : x = r.flip := Classical.not_not.mp he
    have hcol : ∀ y, i * 8 ≤ y → y < i * 8 + size → px y = (r.list.length % 2 == 1) := by
      intro y hy1 hy2
      have hf0 : frag (x ^^^ r.flip) = 32 := by rw [he, BitVec.xor_self]; decide
      have := f1 (y - i * 8) (by omega) (by omega)
      rwa [show i * 8 + (y - i * 8) = y by omega] at this
    exact ⟨⟨h.scan.extend (by omega) hcol, h.pos, h.flip, fun hne => by have := h.lt hne; omega⟩, hsp⟩

/-! ## The whole of a row -/

theorem byte_holds (row : List Byte) (i : Nat) : Holds (black row) (byteAt row i <<< 24) (i * 8) 8 := by
  intro k hk
  rw [BitVec.getLsbD_shiftLeft]
  unfold black byteAt
  by_cases h : k < 8
  · rw [show (i * 8 + k) / 8 = i by omega, show (i * 8 + k) % 8 = k by omega, show 31 - k - 24 = 7 - k by omega, BitVec.getLsbD_setWidth]
    simp [h, show 31 - k < 32 by omega, show ¬ 31 - k < 24 by omega, show 7 - k < 32 by omega]
  · simp [h, show 31 - k < 24 by omega]

theorem word_holds (row : List Byte) (i : Nat) : Holds (black row) (wordAt row i) (i * 8) 32 := by
  have key : ∀ j m, (byteAt row j).getLsbD m = (decide (m < 8) && black row (j * 8 + (7 - m))) := by
    intro j m
    unfold black byteAt
    rw [BitVec.getLsbD_setWidth]
    by_cases h : m < 8
    · rw [show (j * 8 + (7 - m)) / 8 = j by omega, show 7 - (j * 8 + (7 - m)) % 8 = m by omega]
      simp [h, show m < 32 by omega]
    · rw [BitVec.getLsbD_of_ge _ _ (by omega : 8 ≤ m)]; simp [h]
  intro k hk
  unfold wordAt
  simp only [BitVec.getLsbD_or, BitVec.getLsbD_shiftLeft, key, hk, show 31 - k < 32 by omega, decide_true, Bool.true_and]
  rcases (by omega : k < 8 ∨ (8 ≤ k ∧ k < 16) ∨ (16 ≤ k ∧ k < 24) ∨ (24 ≤ k ∧ k < 32)) with h | h | h | h
  · rw [show i * 8 + (7 - (31 - k - 24)) = i * 8 + k by omega]
    simp [show ¬ 31 - k < 24 by omega, show ¬ 31 - k < 16 by omega, show ¬ 31 - k < 8 by omega, show 31 - k - 24 < 8 by omega, show ¬ 31 - k - 16 < 8 by omega, show ¬ 31 - k - 8 < 8 by omega]
  · rw [show (i + 1) * 8 + (7 - (31 - k - 16)) = i * 8 + k by omega]
    simp [show 31 - k < 24 by omega, show ¬ 31 - k < 16 by omega, show ¬ 31 - k < 8 by omega, show 31 - k - 16 < 8 by omega, show ¬ 31 - k - 8 < 8 by omega]
  · rw [show (i + 2) * 8 + (7 - (31 - k - 8)) = i * 8 + k by omega]
    simp [show 31 - k < 24 by omega, show 31 - k < 16 by omega, show ¬ 31 - k < 8 by omega, show 31 - k - 8 < 8 by omega]
  · rw [show (i + 3) * 8 + (7 - (31 - k)) = i * 8 + k by omega]
    simp [show 31 - k < 24 by omega, show 31 - k < 16 by omega, show 31 - k < 8 by omega]

theorem wordLoop_spec (row : List Byte) : ∀ n i r, At (black row) 0xFFFFFFFF r (i * 8) → r.span = r.pos →
    At (black row) 0xFFFFFFFF (wordLoop row n i r) ((i + 4 * n) * 8) ∧ (wordLoop row n i r).span = (wordLoop row n i r).pos := by
  intro n
  induction n with
  | zero => intro i r h hs; exact ⟨h, hs⟩
  | succ n ih =>
    intro i r h hs
    obtain ⟨h1, h2⟩ := chunk_spec masks32 (by decide) (by decide) (wordAt row i) i r (word_holds row i) h hs
    have := ih (i + 4) _ (by rw [show (i + 4) * 8 = i * 8 + 32 by omega]; exact h1) h2
    rw [show (i + 4 + 4 * n) * 8 = (i + 4 * (n + 1)) * 8 by omega] at this
    exact this

theorem byteLoop_spec (row : List Byte) : ∀ n i r, At (black row) 0xFF000000 r (i * 8) → r.span = r.pos →
    At (black row) 0xFF000000 (byteLoop row n i r) ((i + n) * 8) ∧ (byteLoop row n i r).span = (byteLoop row n i r).pos := by
  intro n
  induction n with
  | zero => intro i r h hs; exact ⟨h, hs⟩
  | succ n ih =>
    intro i r h hs
    obtain ⟨h1, h2⟩ := chunk_spec masks8 (by decide) (by decide) (byteAt row i <<< 24) i r (byte_holds row i) h hs
    have := ih (i + 1) _ (by rw [show (i + 1) * 8 = i * 8 + 8 by omega]; exact h1) h2
    rw [show (i + 1 + n) * 8 = (i + (n + 1)) * 8 by omega] at this
    exact this

theorem fracLoop_spec {px : Nat → Bool} (w : Nat) : ∀ n (x : BitVec 32) (rem : Nat) (r : Rl) (q : Nat), q + rem = w → 0 < rem → rem ≤ 8 → rem + (if px q = (r.list.length % 2 == 1) then 0 else 1) ≤ n →
    (∃ m, rem ≤ m ∧ m ≤ 8 ∧ Holds px x q m) → Scan px r.list q → r.pos + r.span = q → (r.list ≠ [] → prev r.list r.list.length < q ∨ px q = (r.list.length % 2 == 1)) →
    r.flip = flipOf 0xFF000000 r.list.length → Runs px w (fracLoop n x rem r).list := by
  intro n
  induction n with
  | zero => intro x rem r q _ h _ h2; omega
  | succ n ih =>
    intro x rem r q hw h0 h8 hn hx hsc hpos hlt hflip
    obtain ⟨m, hm1, hm8, hx⟩ := hx
    obtain ⟨f1, f2⟩ := frag_flip (n := r.list.length) hx masks8 hm8 (by decide)
    rw [← hflip] at f1 f2
    unfold fracLoop
    simp only
    have hcolq : ∀ y, q ≤ y → y < q + min (frag (x ^^^ r.flip)) rem → px y = (r.list.length % 2 == 1) := by
      intro y hy1 hy2
      have := f1 (y - q) (by omega) (by omega)
      rwa [show q + (y - q) = y by omega] at this
    have hcol : ∀ y, prev r.list r.list.length ≤ y → y < q + min (frag (x ^^^ r.flip)) rem → px y = (r.list.length % 2 == 1) := fun y h1 h2 =>
      if h3 : y < q then hsc.tail y h1 h3 else hcolq y (by omega) h2
    rw [show r.pos + (r.span + min (frag (x ^^^ r.flip)) rem) = q + min (frag (x ^^^ r.flip)) rem by omega]
    have hle := hsc.le
    split
    · next hf =>
      have hf : frag (x ^^^ r.flip) < rem := by omega
      have hmin : min (frag (x ^^^ r.flip)) rem = frag (x ^^^ r.flip) := by omega
      have f2 := f2 (by omega)
      rw [hmin] at hcol hcolq ⊢
      generalize hfe : frag (x ^^^ r.flip) = f at *
      have hnew : px (q + f) = ((r.list ++ [q + f]).length % 2 == 1) := by
        rw [f2]
        simp only [List.length_append, List.length_singleton]
        rcases Nat.mod_two_eq_zero_or_one r.list.length with h | h <;> simp [h, Nat.add_mod]
      apply ih (x <<< f) (rem - f) _ (q + f) (by omega) (by omega) (by omega)
      · rw [if_pos (by exact hnew)]
        split at hn
        · next hq =>
          have : f ≠ 0 := by
            intro h
            rw [h, Nat.add_zero, hq] at f2
            revert f2; cases (r.list.length % 2 == 1) <;> simp
          omega
        · omega
      · exact ⟨m - f, by omega, by omega, hx.shift (by omega) (by omega)⟩
      · refine hsc.snoc (fun hne => ?_) hcol (fun y h1 h2 => by omega) (by omega)
        rcases hlt hne with h | h
        · omega
        · have : f ≠ 0 := by
            intro h0
            rw [h0, Nat.add_zero, h] at f2
            revert f2; cases (r.list.length % 2 == 1) <;> simp
          omega
      · simp
      · intro _; right; exact hnew
      · simp only [List.length_append, List.length_singleton, hflip]; exact flipOf_succ _ _
    · next hf =>
      have hf : min (frag (x ^^^ r.flip)) rem = rem := by omega
      rw [hf, hw] at hcol hcolq ⊢
      refine Scan.finish (hsc.extend (by omega) (fun y h1 h2 => hcolq y h1 h2)) (fun hne => ?_)
      rcases hlt hne with h | h <;> omega

/-- `row_to_run_lengths` gives the ends of the runs, whatever the width. -/
theorem rowToRuns_spec (row : List Byte) (w : Nat) (hw : 0 < w) : Runs (black row) w (rowToRuns row w) := by
  unfold rowToRuns
  simp only
  obtain ⟨a1, s1⟩ := wordLoop_spec row (w / 8 / 4) 0 ⟨0, 0, 0, []⟩
    ⟨⟨by simp, by simp, by simp [prev], by simp [prev]⟩, by simp [prev], by simp [flipOf], by simp⟩ rfl
  rw [Nat.zero_add] at a1
  generalize wordLoop row (w / 8 / 4) 0 ⟨0, 0, 0, []⟩ = r1 at *
  obtain ⟨a2, s2⟩ := byteLoop_spec row (w / 8 - 4 * (w / 8 / 4)) (4 * (w / 8 / 4)) { r1 with flip := r1.flip &&& 0xFF000000 }
    ⟨a1.scan, a1.pos, by rw [a1.flip]; unfold flipOf; split <;> rfl, a1.lt⟩ s1
  rw [show 4 * (w / 8 / 4) + (w / 8 - 4 * (w / 8 / 4)) = w / 8 by omega] at a2
  generalize byteLoop row (w / 8 - 4 * (w / 8 / 4)) (4 * (w / 8 / 4)) { r1 with flip := r1.flip &&& 0xFF000000 } = r2 at *
  have hle := a2.scan.le
  rw [← a2.pos] at hle
  split
  · next h =>
    apply fracLoop_spec w 8 _ _ { r2 with span := w / 8 * 8 - r2.span } (w / 8 * 8) (by omega) (by omega) (by omega) (by split <;> omega) ⟨8, by omega, by omega, byte_holds row _⟩ a2.scan
    · simp only; omega
    · intro h; left; exact a2.lt h
    · exact a2.flip
  · next h =>
    have h8 : w / 8 * 8 = w := by omega
    rw [h8] at a2 hle ⊢
    split
    · rw [show r2.pos + (w - r2.span) = w by omega]
      exact a2.scan.finish a2.lt
    · next h0 =>
      exfalso
      by_cases hn : r2.list = []
      · have := a2.pos; rw [hn] at this; simp [prev] at this; omega
      · have := a2.lt hn; rw [← a2.pos] at this; omega

end T4
