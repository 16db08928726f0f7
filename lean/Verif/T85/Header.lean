import Verif.T85.Final
import Verif.T85.Safe

/-!
# Model of further parts of src/t85_encode.c and src/t85_decode.c

A page after another, the end of a page, the look at a header, and the memory for the rows of the decoder.
-/

namespace T85

open Qm (u32)

/-- `t85_encode_set_image_width`, src/t85_encode.c:549-572. The rows are all zero after a change. The return value -1 is `none`. -/
def Enc.setWidth (s : Enc) (xd : Nat) : Option Enc :=
  if s.xd = xd then some s
  else if s.y > 0 then none
  else some { s with xd := xd, row0 := white xd, row1 := white xd, row2 := white xd }

/-- `t85_encode_restart`, src/t85_encode.c:702-736, with the rows which the handler will give for the next page. The return value of
`t85_encode_set_image_width` is not looked at. -/
def Enc.restart (s : Enc) (xd yd : Nat) (src : List (List Nat)) : Enc :=
  let s := (s.setWidth xd).getD s
  { s with
    yd := yd, y := 0, i := 0, newlen := .none, newTx := none, tx := 0, prevLtp := false, out := [], fill := false, row0 := white s.xd, row1 := white s.xd
    row2 := white s.xd, qm := Qm.encodeRestart (fun _ => 0) false, src := src }

/-- `t85_encode_image_complete`, src/t85_encode.c:633-639: is `SIG_STATUS_END_OF_DATA` returned. -/
def Enc.complete (s : Enc) : Bool := decide (s.y ≥ s.yd)

/-- The search for a new length in `t85_analyse_header`, src/t85_decode.c:277-300, from byte `i` on. `i` is 32 bits wide, which is not modelled: `data` is
shorter than that. -/
def scanLen : Nat → List Nat → Nat → Nat → Nat
  | 0, _, _, length => length
  | k + 1, data, i, length =>
    if i < data.length - 6 then
      if data.getD i 0 = 0xFF then
        if data.getD (i + 1) 0 = 0x07 then
          let skip := get32 (data.drop 2)
          if u32 (skip + 6) > data.length - i then length else scanLen k data (u32 (i + u32 (skip + 5)) + 1) length
        else if data.getD (i + 1) 0 = 0x06 then scanLen k data (i + 8) length
        else if data.getD (i + 1) 0 = 0x05 then get32 (data.drop (i + 2))
        else scanLen k data (i + 1) length
      else scanLen k data (i + 1) length
    else length

/-- `t85_analyse_header`, src/t85_decode.c:260-303: the width and the length, and what is returned. The loop makes progress unless the offset of 32 bits
wraps. -/
def analyse (data : List Nat) : Nat × Nat × Bool :=
  if data.length < 20 then (0, 0, false)
  else
    let width := get32 (data.drop 6)
    let length := get32 (data.drop 10)
    if (data.getD 19 0).testBit 5 then (width, scanLen data.length data 20 length, true) else (width, length, true)

/-- What matters for the memory in `t85_decode_state_s`, src/spandsp/private/t85.h:116-209. `bpr` is `bytes_per_row`, `bufLen` is `row_buf_len`. -/
structure Mem where
  maxXd : Nat
  maxYd : Nat
  xd : Nat
  yd : Nat
  l0 : Nat
  two : Bool
  bpr : Nat
  bufLen : Nat
deriving DecidableEq, Repr

/-- The complete header has been read, src/t85_decode.c:306-403 and 466-502: the new state, and is it accepted. What `extract_bih` has written before it finds a
fault stays. -/
def Mem.header (s : Mem) (b : List Nat) : Mem × Bool :=
  let xd := get32 (b.drop 4)
  let yd := get32 (b.drop 8)
  let l0 := get32 (b.drop 12)
  let mx := b.getD 16 0
  let op := b.getD 19 0
  if b.getD 0 0 ≠ 0 ∨ b.getD 1 0 ≠ 0 ∨ b.getD 3 0 ≠ 0 ∨ b.getD 17 0 ≠ 0 ∨ b.getD 18 0 / 16 ≠ 0 then (s, false)
  else
    let s := { s with xd := xd, yd := yd, l0 := l0, two := op.testBit 6 }
    if b.getD 2 0 ≠ 1 ∨ xd = 0 ∨ (s.maxXd ≠ 0 ∧ xd > s.maxXd) ∨ yd = 0 then (s, false)
    else if s.maxYd ≠ 0 ∧ op.testBit 5 = false ∧ yd > s.maxYd then (s, false)
    else
      let s := { s with yd := if s.maxYd ≠ 0 ∧ yd > s.maxYd then s.maxYd else yd }
      if l0 = 0 ∨ mx > 127 ∨ op &&& 0x97 ≠ 0 then (s, false)
      else
        let minLen := (if s.two then 2 else 3) * (u32 (xd + 7) / 8)
        ({ s with bpr := u32 (xd + 7) / 8, bufLen := max s.bufLen minLen }, true)

/-- `t85_decode_init` and `t85_decode_restart`, src/t85_decode.c:904-967: the buffer stays. -/
def Mem.restart (s : Mem) : Mem := { s with xd := 0, yd := 0, l0 := 0, bpr := 0 }

def Mem.init (maxXd maxYd : Nat) : Mem := ⟨maxXd, maxYd, 0, 0, 0, false, 0, 0⟩

/-! ## Facts -/

/-- After a page of the same width. -/
theorem restart_fresh {s : Enc} {xd : Nat} (hx : s.xd = xd ∨ s.y = 0) (yd : Nat) (src : List (List Nat)) :
    s.restart xd yd src = fresh s.cAll s.c xd yd s.l0 s.mx s.tpb s.vlen s.two src := by
  unfold Enc.restart Enc.setWidth
  by_cases h : s.xd = xd
  · rw [if_pos h]
    subst h
    rfl
  · rcases hx with hx | hx
    · exact absurd hx h
    · rw [if_neg h, if_neg (by omega)]
      rfl

/-- After a page of another width the width is the old one. -/
theorem restart_stays {s : Enc} {xd : Nat} (hx : s.xd ≠ xd) (hy : 0 < s.y) (yd : Nat) (src : List (List Nat)) :
    s.restart xd yd src = fresh s.cAll s.c s.xd yd s.l0 s.mx s.tpb s.vlen s.two src := by
  unfold Enc.restart Enc.setWidth
  rw [if_neg hx, if_pos hy]
  rfl

theorem be_ff02 (a : List Nat) : a ++ [0xFF, 0x02] ≠ [] := by
  intro h
  cases List.append_eq_nil_iff.1 h with
  | intro _ h => cases h

theorem putNewlen_out (s : Enc) : ∃ t, s.putNewlen.out = s.out ++ t := by
  unfold Enc.putNewlen
  split
  · dsimp only
    split
    · exact ⟨_, List.append_assoc _ _ _⟩
    · exact ⟨_, rfl⟩
  · exact ⟨[], (List.append_nil _).symm⟩

theorem endRow_last {s : Enc} (h : s.y + 1 = s.yd) : s.endRow.out ≠ [] := by
  unfold Enc.endRow
  dsimp only
  rw [look_eq]
  dsimp only
  rw [if_pos (.inr h)]
  obtain ⟨t, ht⟩ := putNewlen_out (Enc.endStripe { s with i := s.i + 1, y := s.y + 1 })
  rw [ht, endStripe_eq]
  intro hc
  exact be_ff02 _ (List.append_eq_nil_iff.1 hc).1

theorem doRow_last {s : Enc} {row : List Nat} (h : s.y + 1 = s.yd) : (s.doRow row).out ≠ [] := by
  unfold Enc.doRow
  have h1 := beginRow_keeps { s with row0 := mask s.xd row }
  generalize Enc.beginRow { s with row0 := mask s.xd row } = s1 at h1
  apply endRow_last
  rw [codeRow_eq]
  show s1.y + 1 = s1.yd
  rw [h1.1, h1.2]
  exact h

theorem setLength_last {s s' : Enc} {n : Nat} (hy : s.y < s.yd) (h : s.setLength n = some s') (hl : s'.yd ≤ s'.y) : s'.out ≠ [] := by
  unfold Enc.setLength at h
  split at h
  · cases h
  · rename_i hc
    have hn : n < s.yd ∧ 1 ≤ n := by
      rcases Nat.lt_or_ge n s.yd with g | g
      · rcases Nat.lt_or_ge n 1 with g' | g'
        · exact absurd (.inr (.inr (.inr g'))) hc
        · exact ⟨g, g'⟩
      · exact absurd (.inr (.inr (.inl g))) hc
    generalize hm : (if s.y > 0 ∧ n < s.y then s.y else n) = m at h
    have hm' : m < s.yd ∧ s.y ≤ m ∧ 1 ≤ m := by
      rw [← hm]
      split
      · omega
      · omega
    dsimp only at h
    generalize hs1 : (if s.y > 0 ∧ s.yd ≠ m then ({ s with newlen := NewLen.pending } : Enc) else s) = s1 at h
    have k1 : s1.y = s.y := by rw [← hs1]; split <;> rfl
    split at h
    · rename_i he
      have he' : s.y = m := by rw [← k1]; exact he
      have k2 : s1.newlen = .pending := by rw [← hs1, if_pos (by omega)]
      rw [← Option.some.inj h]
      generalize hs2 : (if s1.i > 0 then Enc.endStripe { s1 with yd := m } else { s1 with yd := m }) = s2
      have j1 : s2.newlen = .pending := by
        rw [← hs2]
        split
        · rw [endStripe_eq]; exact k2
        · exact k2
      have j2 : s2.y = s2.yd := by
        rw [← hs2]
        split
        · rw [endStripe_eq]; exact he
        · exact he
      unfold Enc.putNewlen
      rw [if_pos j1]
      dsimp only
      rw [if_pos (by exact j2)]
      exact be_ff02 _
    · rename_i he
      have : s'.y = s.y ∧ s'.yd = m := by
        rw [← Option.some.inj h]
        exact ⟨k1, rfl⟩
      have : ¬s.y = m := by rw [← k1]; exact he
      omega

theorem nextRow_last {s s' : Enc} (h : s.nextRow = some s') (hl : s'.yd ≤ s'.y) : s'.out ≠ [] := by
  have hy := (nextRow_less h).1
  unfold Enc.nextRow at h
  rw [if_neg (by omega)] at h
  dsimp only at h
  split at h
  · rw [← Option.some.inj h] at hl ⊢
    have := doRow_keeps { s with out := [], row0 := s.row2, row1 := s.row0, row2 := s.row1 } (white s.xd)
    rw [this.1, this.2] at hl
    have hl' : s.yd ≤ s.y + 1 := hl
    exact doRow_last (by show s.y + 1 = s.yd; omega)
  · split at h
    · rename_i row t _
      rw [← Option.some.inj h] at hl ⊢
      have := doRow_keeps { s with out := [], row0 := s.row2, row1 := s.row0, row2 := s.row1, src := t } row
      rw [this.1, this.2] at hl
      have hl' : s.yd ≤ s.y + 1 := hl
      exact doRow_last (by show s.y + 1 = s.yd; omega)
    · split at h
      · rename_i s'' hl'
        cases h
        exact setLength_last (s := { s with out := [], row0 := s.row2, row1 := s.row0, row2 := s.row1 }) hy hl' hl
      · rw [← Option.some.inj h] at hl ⊢
        have := doRow_keeps { s with out := [], row0 := s.row2, row1 := s.row0, row2 := s.row1, fill := true } (white s.xd)
        rw [this.1, this.2] at hl
        have hl' : s.yd ≤ s.y + 1 := hl
        exact doRow_last (by show s.y + 1 = s.yd; omega)

/-- As long as there are rows to come there are bytes to come. -/
theorem left_some (k : Nat) (e : Enc) (hk : e.yd - e.y ≤ k) (hy : e.y < e.yd) : e.left ≠ [] := by
  induction k generalizing e with
  | zero => omega
  | succ k ih =>
    intro hc
    have ho : e.out = [] := (List.append_eq_nil_iff.1 hc).1
    match hn : e.nextRow with
    | none =>
      unfold Enc.nextRow at hn
      rw [if_neg (by omega)] at hn
      dsimp only at hn
      split at hn
      · cases hn
      · split at hn
        · cases hn
        · split at hn <;> cases hn
    | some e' =>
      have hless := (nextRow_less hn).2
      rw [left_next ho hn] at hc
      by_cases hl : e'.yd ≤ e'.y
      · exact nextRow_last hn hl (List.append_eq_nil_iff.1 hc).1
      · exact ih e' (by omega) (by omega) hc

end T85
