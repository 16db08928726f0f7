import Verif.T85.Feed

/-!
# The T.85 decoder, given anything
-/

namespace T85

open Qm (u32 sub32 Cx St)

attribute [local irreducible] Qm.u32 Qm.sub32 Qm.decode

/-- What holds of the decoder of the pixels, whatever it is given. `Y` is the number of rows which were announced. -/
structure Safe (xd Y : Nat) (p : Pic) : Prop where
  wide : p.xd = xd
  cnt : p.rows.length = p.y
  low : p.y ≤ Y
  lim : p.yd ≤ Y
  rows : ∀ r ∈ p.rows, r.length = bpr xd ∧ ∀ b ∈ r, b < 256
  len : p.buf.length = 3
  buf : ∀ r ∈ p.buf, r.length = bpr xd ∧ ∀ b ∈ r, b < 256
  p0 : p.p0 < 3
  p1 : ∀ q, p.p1 = some q → q < 3
  p2 : ∀ q, p.p2 = some q → q < 3

theorem Safe.row {xd Y : Nat} {p : Pic} (h : Safe xd Y p) {q : Nat} (hq : q < 3) : (p.row q).length = bpr xd ∧ ∀ b ∈ p.row q, b < 256 := by
  have hq' : q < p.buf.length := by rw [h.len]; exact hq
  have : p.row q = p.buf[q] := by
    unfold Pic.row
    rw [List.getD_eq_getElem?_getD, List.getElem?_eq_getElem hq']
    rfl
  rw [this]
  exact h.buf _ (List.getElem_mem hq')

theorem white_row (xd : Nat) : (white xd).length = bpr xd ∧ ∀ b ∈ white xd, b < 256 := by
  refine ⟨List.length_replicate, ?_⟩
  intro b hb
  rw [List.eq_of_mem_replicate hb]
  omega

theorem set_row {n : Nat} {r : List Nat} (h : r.length = n ∧ ∀ b ∈ r, b < 256) (k v : Nat) : (r.set k (v % 256)).length = n ∧ ∀ b ∈ r.set k (v % 256), b < 256 := by
  refine ⟨by rw [List.length_set]; exact h.1, ?_⟩
  intro b hb
  rcases List.mem_or_eq_of_mem_set hb with hb | hb
  · exact h.2 b hb
  · rw [hb]; omega

theorem set_buf {n : Nat} {buf : List (List Nat)} (h : ∀ r ∈ buf, r.length = n ∧ ∀ b ∈ r, b < 256) {r : List Nat} (hr : r.length = n ∧ ∀ b ∈ r, b < 256) (k : Nat) :
    ∀ r' ∈ buf.set k r, r'.length = n ∧ ∀ b ∈ r', b < 256 := by
  intro r' hr'
  rcases List.mem_or_eq_of_mem_set hr' with h' | h'
  · exact h r' h'
  · rw [h']; exact hr

theorem next_lt (p : Pic) (h : p.p0 < 3) : p.next < 3 := by
  unfold Pic.next
  by_cases h2 : p.two = true
  · rw [if_pos h2]
    split <;> omega
  · rw [if_neg h2]
    split <;> omega

theorem rows_snoc {n : Nat} {rows : List (List Nat)} (h : ∀ r ∈ rows, r.length = n ∧ ∀ b ∈ r, b < 256) {r : List Nat} (hr : r.length = n ∧ ∀ b ∈ r, b < 256) :
    ∀ r' ∈ rows ++ [r], r'.length = n ∧ ∀ b ∈ r', b < 256 := by
  intro r' hr'
  rcases List.mem_append.1 hr' with h' | h'
  · exact h r' h'
  · rw [List.mem_singleton.1 h']; exact hr

theorem safe_ask {xd Y : Nat} {p : Pic} (h : Safe xd Y p) : Safe xd Y p.ask.1 ∧ p.ask.1.y = p.y := by
  unfold Pic.ask
  dsimp only
  split
  · exact ⟨⟨h.wide, h.cnt, h.low, h.lim, h.rows, h.len, h.buf, h.p0, h.p1, h.p2⟩, rfl⟩
  · exact ⟨⟨h.wide, h.cnt, h.low, h.lim, h.rows, h.len, h.buf, h.p0, h.p1, h.p2⟩, rfl⟩

theorem safe_typical {xd Y : Nat} {p : Pic} (h : Safe xd Y p) (hy : p.y < Y) : Safe xd Y p.typical := by
  unfold Pic.typical
  have hc := h.cnt
  match hp : p.p1 with
  | none =>
    exact ⟨h.wide, by show (p.rows ++ [_]).length = p.y + 1; rw [List.length_append]; exact congrArg (· + 1) hc, hy, h.lim,
      rows_snoc h.rows (by rw [h.wide]; exact white_row xd), by show (p.buf.set _ _).length = 3; rw [List.length_set]; exact h.len,
      set_buf h.buf (by rw [h.wide]; exact white_row xd) _, next_lt p h.p0, (fun q hq => by rw [← Option.some.inj hq]; exact h.p0), (fun q hq => by cases hq)⟩
  | some q0 =>
    exact ⟨h.wide, by show (p.rows ++ [_]).length = p.y + 1; rw [List.length_append]; exact congrArg (· + 1) hc, hy, h.lim,
      rows_snoc h.rows (h.row (h.p1 _ hp)), h.len, h.buf, h.p0, (fun q hq => h.p1 q (hp.trans hq)), (fun q hq => h.p1 q (hp.trans hq))⟩

theorem safe_shift {xd Y : Nat} {p : Pic} (h : Safe xd Y p) (b : Bool) : Safe xd Y (p.shift b) ∧ (p.shift b).y = p.y := by
  refine ⟨⟨h.wide, h.cnt, h.low, h.lim, h.rows, ?_, ?_, h.p0, h.p1, h.p2⟩, rfl⟩
  · unfold Pic.shift
    dsimp only
    split
    · rw [List.length_set]; exact h.len
    · exact h.len
  · unfold Pic.shift
    dsimp only
    split
    · exact set_buf h.buf (set_row (h.row h.p0) _ _) _
    · exact h.buf

theorem safe_endRow {xd Y : Nat} {p : Pic} (h : Safe xd Y p) (hy : p.y < Y) : Safe xd Y p.endRow := by
  have hr := set_row (h.row h.p0) (bpr p.xd - 1) ((p.row p.p0).getD (bpr p.xd - 1) 0 * 2 ^ (bpr p.xd * 8 - p.xd))
  have hc := h.cnt
  exact ⟨h.wide, by show (p.rows ++ [_]).length = p.y + 1; rw [List.length_append]; exact congrArg (· + 1) hc, hy, h.lim, rows_snoc h.rows hr,
    by show (p.buf.set _ _).length = 3; rw [List.length_set]; exact h.len, set_buf h.buf hr _, next_lt p h.p0,
    (fun q hq => by rw [← Option.some.inj hq]; exact h.p0), h.p1⟩

theorem safe_feed {xd Y : Nat} {p : Pic} (h : Safe xd Y p) (hy : p.y < Y) (b : Bool) : Safe xd Y (p.feed b) := by
  unfold Pic.feed
  split
  · split
    · exact safe_typical ⟨h.wide, h.cnt, h.low, h.lim, h.rows, h.len, h.buf, h.p0, h.p1, h.p2⟩ hy
    · exact ⟨h.wide, h.cnt, h.low, h.lim, h.rows, h.len, h.buf, h.p0, h.p1, h.p2⟩
  · split
    · obtain ⟨h1, h2⟩ := safe_shift h b
      exact safe_endRow h1 (by rw [h2]; exact hy)
    · exact (safe_shift h b).1

theorem safe_loop {xd Y : Nat} (n : Nat) {p : Pic} {d : Qm.Dec} (h : Safe xd Y p) : Safe xd Y (pscdLoop n p d).1 := by
  induction n generalizing p d with
  | zero => exact h
  | succ n ih =>
    rw [pscdLoop]
    split
    · rename_i hc
      obtain ⟨h1, h2⟩ := safe_ask h
      split
      · exact ih (safe_feed h1 (by rw [h2]; have := h.lim; omega) _)
      · exact h1
    · exact h

theorem safe_pscd {xd Y : Nat} {s : Dec} (h : Safe xd Y s.pic) (data : List Nat) : Safe xd Y (s.pscd data).1.pic := safe_loop _ h

theorem safe_finish {xd Y : Nat} {s : Dec} (h : Safe xd Y s.pic) (m : Nat) : Safe xd Y (s.finish m).pic := by
  have := safe_pscd (s := { s with qm := { s.qm with nopadding := false } }) h [0xFF, m]
  unfold Dec.finish
  dsimp only
  generalize (Dec.pscd { s with qm := { s.qm with nopadding := false } } [0xFF, m]).1 = s1 at this
  split
  · exact ⟨this.wide, this.cnt, this.low, this.lim, this.rows, this.len, this.buf, by show 0 < 3; omega, (fun q hq => by cases hq), (fun q hq => by cases hq)⟩
  · exact ⟨this.wide, this.cnt, this.low, this.lim, this.rows, this.len, this.buf, this.p0, this.p1, this.p2⟩

/-- The state which is reached in a round. -/
def Act.dec : Act → Dec
  | .again s _ => s
  | .stop s _ => s

/-- Nothing of the state which matters here changes, but for the pixels. -/
structure Keeps (s s' : Dec) : Prop where
  bih : s'.bih = s.bih
  mx : s'.maxXd = s.maxXd
  my : s'.maxYd = s.maxYd
  safe : ∀ xd Y, Safe xd Y s.pic → Safe xd Y s'.pic

theorem Keeps.refl (s : Dec) : Keeps s s := ⟨rfl, rfl, rfl, fun _ _ h => h⟩

theorem Keeps.trans {s s' s'' : Dec} (h : Keeps s s') (h' : Keeps s' s'') : Keeps s s'' :=
  ⟨h'.bih.trans h.bih, h'.mx.trans h.mx, h'.my.trans h.my, fun _ _ g => h'.safe _ _ (h.safe _ _ g)⟩

theorem keeps_pscd (s : Dec) (data : List Nat) : Keeps s (s.pscd data).1 := ⟨rfl, rfl, rfl, fun _ _ h => safe_pscd h data⟩

theorem keeps_finish (s : Dec) (m : Nat) : Keeps s (s.finish m) := ⟨rfl, rfl, rfl, fun _ _ h => safe_finish h m⟩

theorem keeps_sde (s : Dec) (m : Nat) (next data : List Nat) : Keeps s (s.sde m next data).dec := by
  have := keeps_finish s m
  unfold Dec.sde
  dsimp only
  split
  · exact this
  · exact ⟨this.bih, this.mx, this.my, this.safe⟩

theorem safe_yd {xd Y y : Nat} {p : Pic} (h : Safe xd Y p) (hy : y ≤ p.yd) : Safe xd Y { p with yd := y } :=
  ⟨h.wide, h.cnt, h.low, Nat.le_trans hy h.lim, h.rows, h.len, h.buf, h.p0, h.p1, h.p2⟩

theorem keeps_sdMark (s : Dec) (m : Nat) (data : List Nat) : Keeps s (s.sdMark m data).dec := by
  unfold Dec.sdMark
  dsimp only
  split
  · exact ⟨(keeps_sde { s with mark := [] } m [] data).bih, (keeps_sde { s with mark := [] } m [] data).mx, (keeps_sde { s with mark := [] } m [] data).my,
      (keeps_sde { s with mark := [] } m [] data).safe⟩
  · split
    · exact ⟨rfl, rfl, rfl, fun _ _ h => h⟩
    · split
      · have := fun d => keeps_sde { s with needed := 2, mark := [] } m [] d
        exact ⟨(this _).bih, (this _).mx, (this _).my, (this _).safe⟩
      · split
        · exact ⟨rfl, rfl, rfl, fun _ _ h => h⟩
        · split
          · have := fun n d => keeps_sde { s with needed := 2 } m n d
            exact ⟨(this _ _).bih, (this _ _).mx, (this _ _).my, (this _ _).safe⟩
          · split
            · exact ⟨rfl, rfl, rfl, fun _ _ h => h⟩
            · split
              · exact ⟨rfl, rfl, rfl, fun _ _ h => h⟩
              · rename_i hy
                exact ⟨rfl, rfl, rfl, fun _ _ h => safe_finish (s := { s with needed := 2, mark := [], vlen := false, pic := { s.pic with yd := get32 (s.mark.drop 4) } }) (safe_yd h (Nat.le_of_not_lt hy)) m⟩

theorem keeps_marker (s : Dec) (data : List Nat) : Keeps s (s.marker data).dec := by
  unfold Dec.marker
  dsimp only
  split
  · have := keeps_pscd s (s.mark.take 2)
    exact ⟨this.bih, this.mx, this.my, this.safe⟩
  · split
    · exact ⟨rfl, rfl, rfl, fun _ _ h => h⟩
    · split
      · unfold Dec.commentMark
        dsimp only
        split <;> exact ⟨rfl, rfl, rfl, fun _ _ h => h⟩
      · split
        · unfold Dec.atMark
          dsimp only
          split
          · exact ⟨rfl, rfl, rfl, fun _ _ h => h⟩
          · split
            · exact ⟨rfl, rfl, rfl, fun _ _ h => h⟩
            · split
              · exact ⟨rfl, rfl, rfl, fun _ _ h => h⟩
              · exact ⟨rfl, rfl, rfl, fun _ _ h => ⟨h.wide, h.cnt, h.low, h.lim, h.rows, h.len, h.buf, h.p0, h.p1, h.p2⟩⟩
        · split
          · unfold Dec.newlenMark
            dsimp only
            split
            · exact ⟨rfl, rfl, rfl, fun _ _ h => h⟩
            · split
              · exact ⟨rfl, rfl, rfl, fun _ _ h => h⟩
              · split
                · exact ⟨rfl, rfl, rfl, fun _ _ h => h⟩
                · rename_i hy
                  exact ⟨rfl, rfl, rfl, fun _ _ h => safe_yd h (Nat.le_of_not_lt hy)⟩
          · split
            · exact keeps_sdMark s _ data
            · exact ⟨rfl, rfl, rfl, fun _ _ h => h⟩

theorem keeps_round (s : Dec) (data : List Nat) : Keeps s (s.round data).dec := by
  have h0 : Keeps s (if s.eod = 1 then { s with needed := 2, vlen := false, eod := 2 } else s) := by
    split
    · exact ⟨rfl, rfl, rfl, fun _ _ h => h⟩
    · exact Keeps.refl s
  unfold Dec.round
  generalize (if s.eod = 1 then { s with needed := 2, vlen := false, eod := 2 } else s) = s1 at h0
  refine h0.trans ?_
  dsimp only
  split
  · split <;> exact ⟨rfl, rfl, rfl, fun _ _ h => h⟩
  · split
    · split
      · exact ⟨rfl, rfl, rfl, fun _ _ h => h⟩
      · have := keeps_marker { s1 with mark := s1.mark ++ data.take (s1.needed - s1.mark.length) } (data.drop (s1.needed - s1.mark.length))
        exact ⟨this.bih, this.mx, this.my, this.safe⟩
    · split
      · exact ⟨rfl, rfl, rfl, fun _ _ h => h⟩
      · have := keeps_pscd s1 data
        split
        · exact ⟨this.bih, this.mx, this.my, this.safe⟩
        · exact this

theorem keeps_dloop (n : Nat) (s : Dec) (data : List Nat) : Keeps s (s.loop n data).1 := by
  induction n generalizing s data with
  | zero => exact Keeps.refl s
  | succ n ih =>
    rw [Dec.loop]
    split
    · exact Keeps.refl s
    · have := keeps_round s data
      split
      · rename_i s' d' hr
        rw [hr] at this
        exact Keeps.trans this (ih _ _)
      · rename_i s' d' hr
        rw [hr] at this
        exact this

/-- What holds of the decoder, whatever it has been given. -/
def Held (maxXd maxYd : Nat) (s : Dec) : Prop :=
  s.maxXd = maxXd ∧ s.maxYd = maxYd ∧ ((s.bih.length < 20 ∧ s.pic.rows = []) ∨
    20 ≤ s.bih.length ∧ ∃ xd Y, Safe xd Y s.pic ∧ xd = get32 (s.bih.drop 4) ∧ Y ≤ get32 (s.bih.drop 8) ∧ (maxXd = 0 ∨ xd ≤ maxXd) ∧ (maxYd = 0 ∨ Y ≤ maxYd))

theorem begin_safe {s s' : Dec} (h : s.begin = some s') : s'.maxXd = s.maxXd ∧ s'.maxYd = s.maxYd ∧ s'.bih = s.bih ∧
    ∃ xd Y, Safe xd Y s'.pic ∧ xd = get32 (s.bih.drop 4) ∧ Y ≤ get32 (s.bih.drop 8) ∧ (s.maxXd = 0 ∨ xd ≤ s.maxXd) ∧ (s.maxYd = 0 ∨ Y ≤ s.maxYd) := by
  unfold Dec.begin at h
  dsimp only at h
  split at h
  · cases h
  · rename_i hc
    have h1 : s.maxXd = 0 ∨ get32 (s.bih.drop 4) ≤ s.maxXd := by
      by_cases g : s.maxXd = 0
      · exact .inl g
      · refine .inr (Nat.le_of_not_lt fun g' => hc ?_)
        exact .inr (.inr (.inr (.inr (.inr (.inr (.inr (.inl ⟨g, g'⟩)))))))
    rw [← Option.some.inj h]
    refine ⟨rfl, rfl, rfl, get32 (s.bih.drop 4), (if s.maxYd ≠ 0 ∧ get32 (s.bih.drop 8) > s.maxYd then s.maxYd else get32 (s.bih.drop 8)), ?_, rfl, ?_, h1, ?_⟩
    · refine ⟨rfl, rfl, Nat.zero_le _, Nat.le_refl _, (fun r hr => by cases hr), rfl, ?_, by show 0 < 3; omega, (fun q hq => by cases hq), (fun q hq => by cases hq)⟩
      intro r hr
      rw [List.eq_of_mem_replicate hr]
      exact white_row _
    · split <;> omega
    · split
      · exact .inr (Nat.le_refl _)
      · rename_i g
        rcases Nat.eq_zero_or_pos s.maxYd with g1 | g1
        · exact .inl g1
        · refine .inr (Nat.le_of_not_lt fun g' => g ⟨by omega, g'⟩)

theorem held_keeps {maxXd maxYd : Nat} {s s' : Dec} (k : Keeps s s') (h : s.maxXd = maxXd ∧ s.maxYd = maxYd ∧
    20 ≤ s.bih.length ∧ ∃ xd Y, Safe xd Y s.pic ∧ xd = get32 (s.bih.drop 4) ∧ Y ≤ get32 (s.bih.drop 8) ∧ (maxXd = 0 ∨ xd ≤ maxXd) ∧ (maxYd = 0 ∨ Y ≤ maxYd)) : Held maxXd maxYd s' := by
  obtain ⟨h1, h2, h3, xd, Y, g1, g2, g3, g4, g5⟩ := h
  exact ⟨k.mx.trans h1, k.my.trans h2, .inr ⟨by rw [k.bih]; exact h3, xd, Y, k.safe _ _ g1, by rw [k.bih]; exact g2, by rw [k.bih]; exact g3, g4, g5⟩⟩

/-- A call, with anything. After a header which is not accepted there is nothing to say about later calls. -/
theorem held_put {maxXd maxYd : Nat} {s : Dec} (h : Held maxXd maxYd s) (data : List Nat) :
    ((s.put data).2 = .moreData → Held maxXd maxYd (s.put data).1) ∧ (Held maxXd maxYd (s.put data).1 ∨ (s.put data).1.pic.rows = []) := by
  have both : Held maxXd maxYd (s.put data).1 → ((s.put data).2 = .moreData → Held maxXd maxYd (s.put data).1) ∧ (Held maxXd maxYd (s.put data).1 ∨ (s.put data).1.pic.rows = []) :=
    fun g => ⟨fun _ => g, .inl g⟩
  by_cases c1 : data = [] ∧ s.pic.y ≥ s.pic.yd
  · apply both
    unfold Dec.put
    rw [if_pos c1]
    exact h
  by_cases c2 : data = [] ∧ s.eod > 0
  · apply both
    unfold Dec.put
    rw [if_neg c1, if_pos c2]
    exact h
  have hput : s.put data = (let s1 := if data = [] then { s with eod := 1 } else s
    if s1.bih.length < 20 then
      let k := 20 - s1.bih.length
      let s2 := { s1 with bih := s1.bih ++ data.take k }
      if s2.bih.length < 20 then (s2, .moreData)
      else
        match s2.begin with
        | none => ({ s2 with eod := 2 }, .invalid)
        | some s => s.loop (s.work (data.drop k)) (data.drop k)
    else s1.loop (s1.work data) data) := by
    unfold Dec.put
    rw [if_neg c1, if_neg c2]
    rfl
  rw [hput] at both ⊢
  have h1 : Held maxXd maxYd (if data = [] then { s with eod := 1 } else s) ∧ (if data = [] then { s with eod := 1 } else s).bih = s.bih := by
    split
    · exact ⟨h, rfl⟩
    · exact ⟨h, rfl⟩
  generalize (if data = [] then { s with eod := 1 } else s) = s1 at h1 both
  dsimp only at both ⊢
  obtain ⟨⟨m1, m2, hs⟩, hb⟩ := h1
  by_cases c3 : s1.bih.length < 20
  · rw [if_pos c3] at both ⊢
    have hr : s1.pic.rows = [] := by
      rcases hs with hs | ⟨hs, _⟩
      · exact hs.2
      · omega
    by_cases c4 : (s1.bih ++ data.take (20 - s1.bih.length)).length < 20
    · rw [if_pos c4] at both ⊢
      exact both ⟨m1, m2, .inl ⟨c4, hr⟩⟩
    · rw [if_neg c4] at both ⊢
      match hbg : Dec.begin { s1 with bih := s1.bih ++ data.take (20 - s1.bih.length) } with
      | none => exact ⟨(fun h => nomatch h), .inr hr⟩
      | some s' =>
        rw [hbg] at both
        apply both
        obtain ⟨b1, b2, b3, b4⟩ := begin_safe hbg
        dsimp only at b1 b2 b3 b4 ⊢
        refine held_keeps (keeps_dloop _ _ _) ⟨b1.trans m1, b2.trans m2, by rw [b3]; exact Nat.le_of_not_lt c4, ?_⟩
        rw [b3]
        rw [m1, m2] at b4
        exact b4
  · rw [if_neg c3] at both ⊢
    apply both
    rcases hs with hs | hs
    · exact absurd hs.1 c3
    · exact held_keeps (keeps_dloop _ _ _) ⟨m1, m2, hs⟩

end T85
