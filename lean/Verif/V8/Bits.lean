import Verif.V8.Spec

/-! Lemmas: bits going through the receiver's window. -/

namespace V8

def push (s : BitVec 20) (b : Bool) : BitVec 20 := (s >>> 1) ||| (if b then 0x80000#20 else 0#20)

def pushes (s : BitVec 20) (l : List Bool) : BitVec 20 := l.foldl push s

theorem push_bit (s : BitVec 20) (b : Bool) (i : Nat) (hi : i < 20) :
    (push s b).getLsbD i = if i = 19 then b else s.getLsbD (i + 1) := by
  have h : ∀ i : Fin 20, (0x80000#20).getLsbD i = decide (i.val = 19) := by decide
  have h := h ⟨i, hi⟩
  simp only at h
  unfold push
  rw [BitVec.getLsbD_or, BitVec.getLsbD_ushiftRight, Nat.add_comm 1 i]
  by_cases h19 : i = 19
  · subst h19
    have : s.getLsbD (19 + 1) = false := BitVec.getLsbD_of_ge _ _ (by omega)
    rw [this]; cases b <;> simp
  · rw [if_neg h19]; cases b <;> simp [h, h19]

theorem pushes_bit (l : List Bool) (s : BitVec 20) (i : Nat) (hi : i < 20) :
    (pushes s l).getLsbD i =
      if i + l.length < 20 then s.getLsbD (i + l.length) else (l[i + l.length - 20]?).getD false := by
  induction l generalizing s with
  | nil => simp [pushes, hi]
  | cons b l ih =>
    show (pushes (push s b) l).getLsbD i = _
    rw [ih]
    by_cases h : i + l.length < 20
    · rw [if_pos h, push_bit _ _ _ h]
      by_cases h2 : i + l.length = 19
      · rw [if_pos h2, if_neg (by simp; omega)]
        simp only [List.length_cons]
        rw [show i + (l.length + 1) - 20 = 0 by omega]
        rfl
      · rw [if_neg h2, if_pos (by simp; omega)]
        rfl
    · rw [if_neg h, if_neg (by simp; omega)]
      simp only [List.length_cons]
      rw [show i + (l.length + 1) - 20 = (i + l.length - 20) + 1 by omega, List.getElem?_cons_succ]

theorem pushes_append (s : BitVec 20) (l k : List Bool) : pushes s (l ++ k) = pushes (pushes s l) k := by
  simp [pushes]

theorem syncOf_unknown_ten (s : BitVec 20) (h : s.getLsbD 10 = true) : syncOf s = .unknown := by
  unfold syncOf
  rw [if_neg (by rintro rfl; revert h; decide), if_neg (by rintro rfl; revert h; decide),
    if_neg (by rintro rfl; revert h; decide)]

theorem syncOf_unknown_low (s : BitVec 20) (i : Nat) (hi : i < 10) (h : s.getLsbD i = false) :
    syncOf s = .unknown := by
  have a : ∀ i : Fin 10, (0x803FF#20).getLsbD i = true ∧ (0xF03FF#20).getLsbD i = true ∧
      (0xAABFF#20).getLsbD i = true := by decide
  have a := a ⟨i, hi⟩
  simp only at a
  unfold syncOf
  rw [if_neg (by rintro rfl; rw [a.1] at h; cases h), if_neg (by rintro rfl; rw [a.2.1] at h; cases h),
    if_neg (by rintro rfl; rw [a.2.2] at h; cases h)]

theorem putBit_eq (r : Rx) (b : Bool) : putBit r b =
    if syncOf (push r.stream b) ≠ .unknown then
      (finish { r with stream := push r.stream b }).map fun x =>
        parse { x with sync := syncOf (push r.stream b), cnt := 0, data := [] }
    else some (parse { r with stream := push r.stream b }) := rfl

theorem putBit_stream (r r' : Rx) (b : Bool) (h : putBit r b = some r') : r'.stream = push r.stream b := by
  have hp : ∀ r : Rx, (parse r).stream = r.stream := by
    intro r; unfold parse store; simp only
    repeat' split
    all_goals rfl
  have hf : ∀ r r' : Rx, finish r = some r' → r'.stream = r.stream := by
    intro r r' h
    unfold finish at h
    split at h
    · cases h; unfold ciDecode; repeat' split
      all_goals rfl
    · unfold cmJmDecode at h
      repeat' split at h
      all_goals first | (cases h; rfl) | cases h
    · cases h; rfl
  rw [putBit_eq] at h
  split at h
  · rw [Option.map_eq_some_iff] at h
    obtain ⟨a, ha, rfl⟩ := h
    rw [hp]; exact hf _ _ ha
  · cases h; rw [hp]

theorem puts_stream (l : List Bool) (r r' : Rx) (h : puts r l = some r') :
    r'.stream = pushes r.stream l := by
  induction l generalizing r with
  | nil => cases h; rfl
  | cons b l ih =>
    simp only [puts, Option.bind_eq_some_iff] at h
    obtain ⟨a, ha, h⟩ := h
    rw [ih a h, putBit_stream _ _ _ ha]; rfl

theorem puts_append (l k : List Bool) (r : Rx) : puts r (l ++ k) = (puts r l).bind fun r => puts r k := by
  induction l generalizing r with
  | nil => rfl
  | cons b l ih =>
    simp only [List.cons_append, puts]
    cases putBit r b with
    | none => rfl
    | some a => exact ih a

/-- Bits among which nothing is found. -/
theorem quiet (l : List Bool) (r : Rx)
    (h : ∀ k, 0 < k → k ≤ l.length → syncOf (pushes r.stream (l.take k)) = .unknown ∧
      (r.cnt + k < 10 ∨ (pushes r.stream (l.take k)).getLsbD 10 = true)) :
    puts r l = some { r with
      stream := pushes r.stream l, cnt := if r.sync = .unknown then r.cnt else r.cnt + l.length } := by
  induction l generalizing r with
  | nil => simp [puts, pushes]
  | cons b l ih =>
    have h1 := h 1 (by omega) (by simp)
    rw [show (b :: l).take 1 = [b] by simp] at h1
    have e : putBit r b = some { r with
        stream := push r.stream b, cnt := if r.sync = .unknown then r.cnt else r.cnt + 1 } := by
      have hs : syncOf (push r.stream b) = .unknown := h1.1
      rw [putBit_eq, hs]
      simp only [ne_eq, not_true, if_false, Option.some.injEq]
      unfold parse
      by_cases hu : r.sync = .unknown
      · rw [if_pos hu, if_pos hu]
      · rw [if_neg hu, if_neg hu]
        simp only
        rw [if_neg]
        intro hc
        simp only [Bool.and_eq_true, Bool.not_eq_true', decide_eq_true_eq] at hc
        rcases h1.2 with h | h
        · omega
        · have h : (push r.stream b).getLsbD 10 = true := h
          rw [h] at hc
          simp at hc
    simp only [puts, e, Option.bind_some]
    rw [ih]
    · show some _ = some _
      congr 2
      by_cases hu : r.sync = .unknown
      · simp [hu]
      · simp [hu]; omega
    · intro k hk hl
      have := h (k + 1) (by omega) (by simp; omega)
      rw [show (b :: l).take (k + 1) = b :: l.take k by simp] at this
      refine ⟨this.1, ?_⟩
      rcases this.2 with h | h
      · left; simp only; split <;> omega
      · right; exact h

theorem frame_length (o : Byte) : (frame o).length = 10 := by simp [frame]

theorem frame_get (o : Byte) (j : Nat) (hj : j < 10) :
    (frame o)[j]? = some (if j = 0 then false else if j = 9 then true else o.getLsbD (j - 1)) := by
  rcases j with _ | j
  · rfl
  · unfold frame
    by_cases h : j = 8
    · subst h; rfl
    · rw [if_neg (by omega), if_neg (by omega)]
      rw [List.cons_append, List.getElem?_cons_succ, List.getElem?_append_left (by simp; omega)]
      simp [show j < 8 by omega]

/-- Between two octets: the bits of a frame and its stop bit are in the window. -/
structure Bd (r : Rx) : Prop where
  sync : r.sync ≠ .unknown
  cnt : r.cnt ≤ 1
  start : r.stream.getLsbD 10 = false
  stop : r.stream.getLsbD 19 = true

theorem store_cnt (r : Rx) (c : Nat) (o : Byte) : store { r with cnt := c } o = store r o := by
  unfold store
  by_cases h : o = 0#8 <;> by_cases h2 : r.data.length < 63 <;> simp only [h, h2, if_true, if_false]

/-- An octet is received. -/
theorem puts_frame (r : Rx) (o : Byte) (h : Bd r) :
    puts r (frame o) = some (store { r with stream := pushes r.stream (frame o) } o) ∧
    Bd (store { r with stream := pushes r.stream (frame o) } o) := by
  have bits : ∀ k i, k ≤ 10 → i < 20 → (pushes r.stream ((frame o).take k)).getLsbD i =
      if i + k < 20 then r.stream.getLsbD (i + k) else ((frame o)[i + k - 20]?).getD false := by
    intro k i hk hi
    rw [pushes_bit _ _ _ hi]
    have : ((frame o).take k).length = k := by simp [frame_length]; omega
    rw [this]
    split
    · rfl
    · rw [List.getElem?_take, if_pos (by omega)]
  have hsplit : frame o = (frame o).take 9 ++ [true] := by simp [frame]
  have hq := quiet ((frame o).take 9) r (by
    intro k hk hl
    have hl9 : ((frame o).take 9).length = 9 := by simp [frame_length]
    rw [hl9] at hl
    rw [List.take_take, show min k 9 = k by omega]
    refine ⟨syncOf_unknown_low _ (10 - k) (by omega) ?_, ?_⟩
    · rw [bits k _ (by omega) (by omega), if_pos (by omega), show 10 - k + k = 10 by omega]; exact h.start
    · by_cases h9 : k = 9
      · right; subst h9
        rw [bits 9 _ (by omega) (by omega), if_pos (by omega)]; exact h.stop
      · left; have := h.cnt; omega)
  have hl9 : ((frame o).take 9).length = 9 := by simp [frame_length]
  rw [if_neg h.sync, hl9] at hq
  have hful : pushes r.stream (frame o) = push (pushes r.stream ((frame o).take 9)) true := by
    conv => lhs; rw [hsplit]
    rw [pushes_append]; rfl
  have full : ∀ i, i < 20 → (pushes r.stream (frame o)).getLsbD i =
      if i + 10 < 20 then r.stream.getLsbD (i + 10) else ((frame o)[i + 10 - 20]?).getD false := by
    intro i hi
    have := bits 10 i (by omega) hi
    rwa [show (frame o).take 10 = frame o from List.take_of_length_le (by simp [frame_length])] at this
  have b19 : (pushes r.stream (frame o)).getLsbD 19 = true := by
    rw [full 19 (by omega), if_neg (by omega), frame_get o _ (by omega)]; rfl
  have b10 : (pushes r.stream (frame o)).getLsbD 10 = false := by
    rw [full 10 (by omega), if_neg (by omega), frame_get o _ (by omega)]; rfl
  have hoct : ((pushes r.stream (frame o)) >>> 11).setWidth 8 = o := by
    apply BitVec.eq_of_getLsbD_eq
    intro i hi
    rw [BitVec.getLsbD_setWidth, BitVec.getLsbD_ushiftRight, full (11 + i) (by omega), if_neg (by omega),
      frame_get o _ (by omega), if_neg (by omega), if_neg (by omega)]
    rw [show 11 + i + 10 - 20 - 1 = i by omega]
    simp [hi]
  constructor
  · rw [hsplit, puts_append, hq]
    simp only [Option.bind_some, puts]
    rw [← hsplit]
    rw [putBit_eq]
    simp only
    rw [← hful]
    have hu : syncOf (pushes r.stream (frame o)) = .unknown :=
      syncOf_unknown_low _ 0 (by omega) (by rw [full 0 (by omega), if_pos (by omega)]; exact h.start)
    rw [hu]
    simp only [ne_eq, not_true, if_false, Option.bind_some]
    unfold parse
    simp only
    rw [if_neg h.sync, if_pos (by rw [b19, b10]; simp), hoct]
    exact congrArg some (store_cnt { r with stream := pushes r.stream (frame o) } _ o)
  · have e : ∀ r : Rx, (store r o).stream = r.stream ∧ (store r o).sync = r.sync ∧ (store r o).cnt = 0 := by
      intro r; unfold store; simp only
      repeat' split
      all_goals simp
    obtain ⟨e1, e2, e3⟩ := e { r with stream := pushes r.stream (frame o) }
    exact ⟨by rw [e2]; exact h.sync, by omega, by rw [e1]; exact b10, by rw [e1]; exact b19⟩

/-- Up to ten ones: only the window changes. -/
theorem puts_ones (r : Rx) (h : Bd r) (j : Nat) (hj : j ≤ 10) :
    ∃ c, puts r (List.replicate j true) =
      some { r with stream := pushes r.stream (List.replicate j true), cnt := c } := by
  have bits : ∀ k i, k ≤ j → i < 20 → (pushes r.stream ((List.replicate j true).take k)).getLsbD i =
      if i + k < 20 then r.stream.getLsbD (i + k) else true := by
    intro k i hk hi
    rw [pushes_bit _ _ _ hi]
    have : ((List.replicate j true).take k).length = k := by simp; omega
    rw [this]
    split
    · rfl
    · rw [List.getElem?_take, if_pos (by omega), List.getElem?_replicate, if_pos (by omega)]; rfl
  refine ⟨_, quiet _ r ?_⟩
  intro k hk hl
  have hl : k ≤ j := by simpa using hl
  refine ⟨syncOf_unknown_low _ (10 - k) (by omega) ?_, ?_⟩
  · rw [bits k _ (by omega) (by omega), if_pos (by omega), show 10 - k + k = 10 by omega]; exact h.start
  · by_cases h9 : k < 9
    · left; have := h.cnt; omega
    · right
      rw [bits k _ (by omega) (by omega)]
      split
      · rw [show 10 + k = 19 by omega]; exact h.stop
      · rfl

theorem puts_preamble (r : Rx) (h : Bd r) :
    ∃ c, puts r preamble = some { r with stream := pushes r.stream preamble, cnt := c } :=
  puts_ones r h 10 (Nat.le_refl _)

theorem ones_pre (s : BitVec 20) (i : Nat) (h : 10 ≤ i) (hi : i < 20) :
    (pushes s preamble).getLsbD i = true := by
  rw [pushes_bit _ _ _ hi]
  have : preamble.length = 10 := by simp [preamble]
  rw [this, if_neg (by omega), preamble, List.getElem?_replicate, if_pos (by omega)]; rfl

/-- A synchronising octet after ten ones: what was received before is done with. -/
theorem puts_sync (r : Rx) (o : Byte) (y : Sync)
    (ho : (o = 0x00#8 ∧ y = .ci) ∨ (o = 0xE0#8 ∧ y = .cmJm) ∨ (o = 0x55#8 ∧ y = .v92))
    (h : ∀ i, 10 ≤ i → i < 20 → r.stream.getLsbD i = true) :
    ∃ c, puts r (frame o) = (finish { r with stream := pushes r.stream (frame o), cnt := c }).map
      fun r => { r with sync := y, cnt := 1, data := [] } := by
  have bits : ∀ k i, k ≤ 10 → i < 20 → (pushes r.stream ((frame o).take k)).getLsbD i =
      if i + k < 20 then r.stream.getLsbD (i + k) else ((frame o)[i + k - 20]?).getD false := by
    intro k i hk hi
    rw [pushes_bit _ _ _ hi]
    have : ((frame o).take k).length = k := by simp [frame_length]; omega
    rw [this]
    split
    · rfl
    · rw [List.getElem?_take, if_pos (by omega)]
  have hsplit : frame o = (frame o).take 9 ++ [true] := by simp [frame]
  have hq := quiet ((frame o).take 9) r (by
    intro k hk hl
    have hl9 : ((frame o).take 9).length = 9 := by simp [frame_length]
    rw [hl9] at hl
    rw [List.take_take, show min k 9 = k by omega]
    have : (pushes r.stream ((frame o).take k)).getLsbD 10 = true := by
      rw [bits k _ (by omega) (by omega), if_pos (by omega)]; exact h _ (by omega) (by omega)
    exact ⟨syncOf_unknown_ten _ this, Or.inr this⟩)
  generalize hc : (if r.sync = .unknown then r.cnt else r.cnt + ((frame o).take 9).length) = c at hq
  refine ⟨c, ?_⟩
  have hful : pushes r.stream (frame o) = push (pushes r.stream ((frame o).take 9)) true := by
    conv => lhs; rw [hsplit]
    rw [pushes_append]; rfl
  have full : ∀ i, i < 20 → (pushes r.stream (frame o)).getLsbD i =
      if i < 10 then true else ((frame o)[i - 10]?).getD false := by
    intro i hi
    have := bits 10 i (by omega) hi
    rw [show (frame o).take 10 = frame o from List.take_of_length_le (by simp [frame_length])] at this
    rw [this]
    by_cases h10 : i < 10
    · rw [if_pos (by omega), if_pos h10]; exact h _ (by omega) (by omega)
    · rw [if_neg (by omega), if_neg h10, show i + 10 - 20 = i - 10 by omega]
  have hv : pushes r.stream (frame o) =
      if o = 0x00#8 then 0x803FF#20 else if o = 0xE0#8 then 0xF03FF#20 else 0xAABFF#20 := by
    apply BitVec.eq_of_getLsbD_eq
    intro i hi
    rw [full i hi]
    rcases ho with ⟨rfl, -⟩ | ⟨rfl, -⟩ | ⟨rfl, -⟩
    · have k : ∀ i : Fin 20, (if i.val < 10 then true else ((frame 0x00#8)[i.val - 10]?).getD false) =
        (0x803FF#20).getLsbD i.val := by decide
      exact k ⟨i, hi⟩
    · have k : ∀ i : Fin 20, (if i.val < 10 then true else ((frame 0xE0#8)[i.val - 10]?).getD false) =
        (0xF03FF#20).getLsbD i.val := by decide
      exact k ⟨i, hi⟩
    · have k : ∀ i : Fin 20, (if i.val < 10 then true else ((frame 0x55#8)[i.val - 10]?).getD false) =
        (0xAABFF#20).getLsbD i.val := by decide
      exact k ⟨i, hi⟩
  have hsy : syncOf (pushes r.stream (frame o)) = y := by
    rw [hv]; rcases ho with ⟨rfl, rfl⟩ | ⟨rfl, rfl⟩ | ⟨rfl, rfl⟩ <;> decide
  have hy : y ≠ .unknown := by rcases ho with ⟨_, rfl⟩ | ⟨_, rfl⟩ | ⟨_, rfl⟩ <;> decide
  rw [hsplit, puts_append, hq]
  simp only [Option.bind_some, puts]
  rw [← hsplit]
  rw [putBit_eq]
  simp only
  rw [← hful, hsy, if_pos hy]
  cases finish { r with stream := pushes r.stream (frame o), cnt := c } with
  | none => rfl
  | some a =>
    simp only [Option.map_some, Option.bind_some, Option.some.injEq]
    unfold parse
    simp only
    rw [if_neg hy, if_neg (by simp)]

end V8
