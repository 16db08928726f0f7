import Verif.T85.Pages

/-!
# T.85: what the decoder delivers is what the encoder was given

`Enc.reads e sizes` are calls of `t85_encode_get` for `sizes` bytes, `Dec.puts s chunks` are calls of `t85_decode_put`.
-/

namespace T85

open Spec
open Qm (u32)

/-- Rows as an application gives them to an encoder for pages which are `xd` pixels wide. -/
def Rows (xd : Nat) (src : List (List Nat)) : Prop := ∀ r ∈ src, r.length = (xd + 7) / 8 ∧ ∀ b ∈ r, b < 256

instance (xd : Nat) (src : List (List Nat)) : Decidable (Rows xd src) := inferInstanceAs (Decidable (∀ r ∈ src, r.length = (xd + 7) / 8 ∧ ∀ b ∈ r, b < 256))

/-- A page goes from the encoder to the decoder and is the same: for every size of the page, for all rows of pixels, for every number of rows to a stripe, every
range of the adaptive pixel, every choice of the options for typical prediction, for the variable length and for the template, for however many rows there
are, too few or too many. It does not matter in which pieces the code is read from the encoder, or in which pieces it is given to the decoder. The decoder
never reports an error, needs the whole stream, and when it has got all of it, and is told so, it reports the end of the page. A limit on the size of pages
which the page keeps does no harm, and if the length is variable the limit is for the real length. -/
theorem t85_round_trip (xd yd l0 mx options : Nat) (src : List (List Nat)) (hx : 0 < xd) (hx' : xd + 7 < 2 ^ 32) (hy : 0 < yd) (hy' : yd < 2 ^ 32)
    (hsrc : Rows xd src) :
    ∃ B : List Nat, (∀ sizes, (((Enc.init xd yd src).setOptions l0 mx options).reads sizes).2 = B.take sizes.sum) ∧
      ∀ (maxXd maxYd : Nat) (chunks : List (List Nat)), (maxXd = 0 ∨ xd ≤ maxXd) →
        (maxYd = 0 ∨ yd ≤ maxYd ∨ options.testBit 5 = true ∧ (page yd (options.testBit 5) src).length ≤ maxYd) → (∀ c ∈ chunks, c ≠ []) → chunks.flatten = B →
        (∀ r ∈ ((Dec.init maxXd maxYd).puts chunks).2.dropLast, r = .moreData) ∧
        (∀ r ∈ ((Dec.init maxXd maxYd).puts chunks).2, r = .moreData ∨ r = .ok) ∧
        (((Dec.init maxXd maxYd).puts chunks).1.put []).2 = .ok ∧
        ShowsAll xd (page yd (options.testBit 5) src) (((Dec.init maxXd maxYd).puts chunks).1.put []).1.pic.rows := by
  have hrows : ∀ r ∈ src, r.length = bpr xd ∧ ∀ b ∈ r, b < 256 := by
    intro r hr
    rw [bpr_eq hx']
    exact hsrc r hr
  obtain ⟨l0', mx', k1, k2, k3, k4⟩ := options_fresh xd yd l0 mx options src hy'
  rw [k4]
  refine ⟨_, fun sizes => reads_spec sizes _, ?_⟩
  intro maxXd maxYd chunks g1 g2 g3 g4
  obtain ⟨a, ok, a1, a2, a3, a4, _⟩ := fresh_page (tpb := options.testBit 3) (vlen := options.testBit 5) (two := options.testBit 6) hx hx' k1 k2 k3 hy hy' hrows maxXd maxYd g1 g2
  have := puts_spec ok chunks (s := Dec.init maxXd maxYd) g3 (.inl ⟨⟨a1.symm, a2.symm, rfl⟩, by show 0 < 20; omega, by show [] ++ _ = _; rw [List.nil_append, g4, a4]⟩)
  refine ⟨this.1, this.2.1, this.2.2.1, ?_⟩
  rw [this.2.2.2, a3]
  apply shows_paint hx hx'
  intro r hr
  rcases page_rows r hr with h | h
  · exact .inl h
  · exact .inr (hrows r h)

/-- A page which is 9 pixels wide, with 2 rows announced and given, and stripes of one row. -/
example : Rows 9 [[0xA5, 0x80], [0x5A, 0x00]] ∧ 0 < 9 ∧ 9 + 7 < 2 ^ 32 ∧ page 2 ((0x28 : Nat).testBit 5) [[0xA5, 0x80], [0x5A, 0x00]] = [[0xA5, 0x80], [0x5A, 0x00]] ∧
    ((((Enc.init 9 2 [[0xA5, 0x80], [0x5A, 0x00]]).setOptions 1 0 0x28).reads [7, 1000]).2).length > 20 := by
  decide +kernel

/-! ## Pages one after the other -/

/-- The next page goes through as the first one does, with an encoder and a decoder which have been used for anything before: pages which were sent to the
end or not, or good or bad data. The limits of the decoder stay, and if no options are set for the page those of the encoder stay.

Partial: the page has the width of the one before it, or nothing of the page before it was read. -/
theorem t85_next_page_partial (s e : Enc) (hs : Used s) (d : Dec) (xd yd : Nat) (src : List (List Nat)) (hx : 0 < xd) (hx' : xd + 7 < 2 ^ 32) (hy : 0 < yd)
    (hy' : yd < 2 ^ 32) (hsrc : Rows xd src) (hw : s.xd = xd ∨ s.y = 0)
    (he : e = s.restart xd yd src ∨ ∃ l0 mx options, e = (s.restart xd yd src).setOptions l0 mx options) :
    ∃ B : List Nat, (∀ sizes, (e.reads sizes).2 = B.take sizes.sum) ∧
      ∀ (chunks : List (List Nat)), (d.maxXd = 0 ∨ xd ≤ d.maxXd) →
        (d.maxYd = 0 ∨ yd ≤ d.maxYd ∨ e.vlen = true ∧ (page yd e.vlen src).length ≤ d.maxYd) → (∀ c ∈ chunks, c ≠ []) → chunks.flatten = B →
        (∀ r ∈ (d.restart.puts chunks).2.dropLast, r = .moreData) ∧
        (∀ r ∈ (d.restart.puts chunks).2, r = .moreData ∨ r = .ok) ∧
        ((d.restart.puts chunks).1.put []).2 = .ok ∧
        ShowsAll xd (page yd e.vlen src) ((d.restart.puts chunks).1.put []).1.pic.rows := by
  have hrows : ∀ r ∈ src, r.length = bpr xd ∧ ∀ b ∈ r, b < 256 := by
    intro r hr
    rw [bpr_eq hx']
    exact hsrc r hr
  obtain ⟨ca, cc, l0', mx', tpb, two, k1, k2, k3, k4⟩ := next_fresh hs hy' src hw he
  refine ⟨e.left, fun sizes => reads_spec sizes _, ?_⟩
  intro chunks g1 g2 g3 g4
  obtain ⟨a, ok, a1, a2, a3, a4, _⟩ := fresh_page (ca := ca) (cc := cc) (tpb := tpb) (vlen := e.vlen) (two := two) hx hx' k1 k2 k3 hy hy' hrows d.maxXd d.maxYd g1 g2
  rw [← k4] at a4
  have := puts_spec ok chunks (s := d.restart) g3 (.inl ⟨⟨a1.symm, a2.symm, rfl⟩, by show 0 < 20; omega, by show [] ++ _ = _; rw [List.nil_append, g4, a4]⟩)
  refine ⟨this.1, this.2.1, this.2.2.1, ?_⟩
  rw [this.2.2.2, a3]
  apply shows_paint hx hx'
  intro r hr
  rcases page_rows r hr with h | h
  · exact .inl h
  · exact .inr (hrows r h)

/-- A page of 8 pixels has been sent, and another one is. -/
example : Used ((Enc.init 8 1 [[0x5A]]).get 100).1 ∧ ((Enc.init 8 1 [[0x5A]]).get 100).1.xd = 8 ∧ 0 < ((Enc.init 8 1 [[0x5A]]).get 100).1.y ∧ Rows 8 [[0x81]] :=
  ⟨.get _ (.init _ _ _ (by decide)), by decide +kernel, by decide +kernel, by decide +kernel⟩

/-- It is not so for every page: after a page which was 8 pixels wide a page of 16 pixels is sent as one of 8 pixels. `t85_encode_restart` asks
`t85_encode_set_image_width` for the width while the rows of the page before it still count. -/
theorem t85_next_page_width_lost : Used ((Enc.init 8 1 [[0x5A]]).get 100).1 ∧
    ((((Enc.init 8 1 [[0x5A]]).get 100).1.restart 16 1 [[0xFF, 0xFF]]).reads [8]).2 = [0, 0, 1, 0, 0, 0, 0, 8] ∧
    ∀ (s : Enc) (xd yd : Nat) (src : List (List Nat)), s.xd ≠ xd → 0 < s.y → (s.restart xd yd src).xd = s.xd := by
  refine ⟨.get _ (.init _ _ _ (by decide)), by decide +kernel, ?_⟩
  intro s xd yd src h1 h2
  rw [restart_stays h1 h2]
  rfl

/-! ## Any data -/

/-- Whatever a decoder is given, in whatever pieces, as long as it asks for more: it delivers no rows before there is a header, never more rows than the
header announces or the limit allows, rows only of a width which the limit allows, and each row has the bytes for the width which the header announces. -/
theorem t85_any_data (maxXd maxYd : Nat) (chunks : List (List Nat)) (h : ∀ r ∈ ((Dec.init maxXd maxYd).puts chunks).2.dropLast, r = .moreData) :
    ((Dec.init maxXd maxYd).puts chunks).1.pic.rows = [] ∨
      20 ≤ chunks.flatten.length ∧
      ((Dec.init maxXd maxYd).puts chunks).1.pic.rows.length ≤ get32 (chunks.flatten.drop 8) ∧
      (maxYd = 0 ∨ ((Dec.init maxXd maxYd).puts chunks).1.pic.rows.length ≤ maxYd) ∧
      (maxXd = 0 ∨ get32 (chunks.flatten.drop 4) ≤ maxXd) ∧
      ∀ row ∈ ((Dec.init maxXd maxYd).puts chunks).1.pic.rows, (∀ b ∈ row, b < 256) ∧
        (get32 (chunks.flatten.drop 4) + 7 < 2 ^ 32 → row.length = (get32 (chunks.flatten.drop 4) + 7) / 8) := by
  have hb := puts_bih chunks (Dec.init maxXd maxYd) (by show 0 ≤ 20; omega)
  have hb' : ((Dec.init maxXd maxYd).puts chunks).1.bih = chunks.flatten.take 20 := hb
  rcases puts_held chunks (maxXd := maxXd) (maxYd := maxYd) ⟨rfl, rfl, .inl ⟨by show 0 < 20; omega, rfl⟩⟩ h with ⟨_, _, ⟨_, g⟩ | ⟨g0, xd, Y, g1, g2, g3, g4, g5⟩⟩ | g
  · exact .inl g
  · right
    rw [hb'] at g0 g2 g3
    have hl : 20 ≤ chunks.flatten.length := by
      rw [List.length_take] at g0
      omega
    have e4 : get32 ((chunks.flatten.take 20).drop 4) = get32 (chunks.flatten.drop 4) := by
      unfold get32
      simp only [List.getD_eq_getElem?_getD, List.getElem?_drop, List.getElem?_take]
      rfl
    have e8 : get32 ((chunks.flatten.take 20).drop 8) = get32 (chunks.flatten.drop 8) := by
      unfold get32
      simp only [List.getD_eq_getElem?_getD, List.getElem?_drop, List.getElem?_take]
      rfl
    rw [e4] at g2
    rw [e8] at g3
    have hn : ((Dec.init maxXd maxYd).puts chunks).1.pic.rows.length ≤ Y := by
      have := g1.cnt
      have := g1.low
      omega
    refine ⟨hl, by omega, by omega, by omega, ?_⟩
    intro row hrow
    have := g1.rows row hrow
    refine ⟨this.2, fun hw => ?_⟩
    rw [this.1, g2, bpr_eq hw]
  · exact .inl g

/-- Ten bytes, and the rest of a header for 8 pixels and one row, and something. One row comes out. -/
example : (∀ r ∈ ((Dec.init 0 0).puts [[0, 0, 1, 0, 0, 0, 0, 8, 0, 0], [0, 1, 0, 0, 0, 1, 0, 0, 0, 0, 1, 2, 3], [4, 5, 0xFF, 2]]).2.dropLast, r = .moreData) ∧
    ((Dec.init 0 0).puts [[0, 0, 1, 0, 0, 0, 0, 8, 0, 0], [0, 1, 0, 0, 0, 1, 0, 0, 0, 0, 1, 2, 3], [4, 5, 0xFF, 2]]).1.pic.rows.length = 1 := by
  decide +kernel

/-- The memory for the rows is large enough, whatever the decoder was used for before: if a header is accepted each byte of each row of the ring has a place
of its own in it.

Partial: the width is less than 2 ^ 32 - 7, and the header is accepted. -/
theorem t85_row_memory_partial (s : Mem) (b : List Nat) (h : (s.header b).2 = true) (hw : (s.header b).1.xd + 7 < 2 ^ 32) :
    (∀ q k, q < (if (s.header b).1.two then 2 else 3) → k < ((s.header b).1.xd + 7) / 8 → q * (s.header b).1.bpr + k < (s.header b).1.bufLen) ∧
    (∀ q k q' k', k < ((s.header b).1.xd + 7) / 8 → k' < ((s.header b).1.xd + 7) / 8 → q * (s.header b).1.bpr + k = q' * (s.header b).1.bpr + k' → q = q' ∧ k = k') := by
  obtain ⟨e1, e2⟩ : (s.header b).1.bpr = u32 ((s.header b).1.xd + 7) / 8 ∧
      (if (s.header b).1.two then 2 else 3) * (u32 ((s.header b).1.xd + 7) / 8) ≤ (s.header b).1.bufLen := by
    unfold Mem.header at h ⊢
    dsimp only at h ⊢
    split at h
    · cases h
    · rename_i c1
      rw [if_neg c1]
      split at h
      · cases h
      · rename_i c2
        rw [if_neg c2]
        split at h
        · cases h
        · rename_i c3
          rw [if_neg c3]
          split at h
          · cases h
          · rename_i c4
            rw [if_neg c4]
            exact ⟨rfl, Nat.le_max_right _ _⟩
  generalize (s.header b).1 = m at e1 e2 hw
  have e3 : u32 (m.xd + 7) = m.xd + 7 := Nat.mod_eq_of_lt hw
  rw [e3] at e1 e2
  rw [e1]
  generalize (m.xd + 7) / 8 = n at e1 e2
  constructor
  · intro q k hq hk
    generalize (if m.two = true then 2 else 3) = c at hq e2
    have : (q + 1) * n ≤ c * n := Nat.mul_le_mul_right n hq
    rw [Nat.add_mul] at this
    omega
  · intro q k q' k' hk hk' he
    have hd : ∀ q k, k < n → (q * n + k) / n = q ∧ (q * n + k) % n = k := by
      intro q k h
      refine ⟨?_, ?_⟩
      · rw [Nat.mul_comm, Nat.mul_add_div (by omega), Nat.div_eq_of_lt h, Nat.add_zero]
      · rw [Nat.mul_comm, Nat.mul_add_mod, Nat.mod_eq_of_lt h]
    have h1 := hd q k hk
    have h2 := hd q' k' hk'
    rw [he] at h1
    exact ⟨h1.1.symm.trans h2.1, h1.2.symm.trans h2.2⟩

example : ((Mem.init 0 0).header [0, 0, 1, 0, 0, 0, 6, 192, 0, 0, 9, 0, 0, 0, 0, 128, 127, 0, 0, 0x28]).2 = true ∧
    ((Mem.init 0 0).header [0, 0, 1, 0, 0, 0, 6, 192, 0, 0, 9, 0, 0, 0, 0, 128, 127, 0, 0, 0x28]).1 = ⟨0, 0, 1728, 2304, 128, false, 216, 648⟩ := by decide

/-- It is not so for every header. A width of 2 ^ 32 - 1 is accepted, and there is no memory for the rows at all. And a header which is not accepted, because of
the range of the adaptive pixel, or because it asks for what the decoder does not do, has set the size of the page, and there is no memory either: data which
is given to the decoder after that is decoded. -/
theorem t85_row_memory_missing :
    (((Mem.init 0 0).header [0, 0, 1, 0, 255, 255, 255, 255, 0, 0, 0, 1, 0, 0, 0, 1, 0, 0, 0, 0]).2 = true ∧
      ((Mem.init 0 0).header [0, 0, 1, 0, 255, 255, 255, 255, 0, 0, 0, 1, 0, 0, 0, 1, 0, 0, 0, 0]).1 = ⟨0, 0, 2 ^ 32 - 1, 1, 1, false, 0, 0⟩) ∧
    ((Mem.init 0 0).header [0, 0, 1, 0, 0, 0, 0, 8, 0, 0, 0, 1, 0, 0, 0, 1, 128, 0, 0, 0]).2 = false ∧
      ((Mem.init 0 0).header [0, 0, 1, 0, 0, 0, 0, 8, 0, 0, 0, 1, 0, 0, 0, 1, 128, 0, 0, 0]).1 = ⟨0, 0, 8, 1, 1, false, 0, 0⟩ := by decide

/-! ## A look at the header -/

/-- The look at a header is refused if there is not a whole header.

Partial: what is said about a whole header is wrong, see below. -/
theorem t85_analyse_header_partial (data : List Nat) : (analyse data).2.2 = true ↔ 20 ≤ data.length := by
  unfold analyse
  by_cases h : data.length < 20
  · rw [if_pos h]
    exact ⟨fun h => (by cases h), fun g => (by omega)⟩
  · rw [if_neg h]
    dsimp only
    constructor
    · intro _
      omega
    · intro _
      split <;> rfl

/-- The width which `t85_analyse_header` reports for a page which the encoder makes is never the width of the page, if neither the width nor the length needs
more than 16 bits: it is 65536 times the width. It reads the width from byte 6, where the second half of it is, and the length from byte 10. -/
theorem t85_analyse_header_wrong (xd yd l0 mx options : Nat) (src : List (List Nat)) (hx : 0 < xd) (hx' : xd < 65536) (hy : 0 < yd) (hy' : yd < 65536)
    (hsrc : Rows xd src) (n : Nat) (hn : 20 ≤ (((Enc.init xd yd src).setOptions l0 mx options).get n).2.length) :
    (analyse (((Enc.init xd yd src).setOptions l0 mx options).get n).2).1 = xd * 65536 := by
  have hw : xd + 7 < 2 ^ 32 := by omega
  have hrows : ∀ r ∈ src, r.length = bpr xd ∧ ∀ b ∈ r, b < 256 := by
    intro r hr
    rw [bpr_eq hw]
    exact hsrc r hr
  obtain ⟨l0', mx', k1, k2, k3, k4⟩ := options_fresh xd yd l0 mx options src (by omega)
  rw [k4] at hn ⊢
  obtain ⟨a, ok, a1, a2, a3, a4, a5, a6⟩ := fresh_page (ca := 0) (cc := List.replicate 128 0) (tpb := options.testBit 3) (vlen := options.testBit 5) (two := options.testBit 6) hx hw k1 k2 k3 hy
    (by omega) hrows 0 0 (.inl rfl) (.inl rfl)
  have hr := reads_spec [n] (fresh 0 (List.replicate 128 0) xd yd l0' mx' (options.testBit 3) (options.testBit 5) (options.testBit 6) src)
  rw [Enc.reads, Enc.reads] at hr
  simp only [List.append_nil, List.sum_cons, List.sum_nil, Nat.add_zero] at hr
  rw [hr] at hn ⊢
  rw [← a4] at hn ⊢
  have hn' : 20 ≤ n := by
    rw [List.length_take] at hn
    omega
  have hwd : (analyse (a.bytes.take n)).1 = get32 ((a.bytes.take n).drop 6) := by
    unfold analyse
    rw [if_neg (by omega)]
    dsimp only
    split <;> rfl
  rw [hwd]
  have e6 : get32 ((a.bytes.take n).drop 6) = get32 (a.bytes.drop 6) := by
    unfold get32
    simp only [List.getD_eq_getElem?_getD, List.getElem?_drop, List.getElem?_take]
    rw [if_pos (by omega), if_pos (by omega), if_pos (by omega), if_pos (by omega)]
  rw [e6]
  have : get32 (a.bytes.drop 6) = a.xd / 2 ^ 8 % 256 * 2 ^ 24 + a.xd % 256 * 2 ^ 16 + a.yd / 2 ^ 24 % 256 * 2 ^ 8 + a.yd / 2 ^ 16 % 256 := rfl
  rw [this, a5]
  omega

example : (analyse (((Enc.init 8 1 [[0x5A]]).get 100)).2) = (8 * 65536, 65536, true) := by decide +kernel

/-! ## The end of a page -/

/-- If a read gives less than was asked for the encoder says that the page is complete, and every later read gives nothing.

Partial: that it says so only when every byte has been read is not true, see below. -/
theorem t85_image_complete_partial (s : Enc) (n : Nat) (h : (s.get n).2.length < n) : (s.get n).1.complete = true ∧ ∀ sizes, ((s.get n).1.reads sizes).2 = [] := by
  have hg := getLoop_spec (s.yd - s.y + 2) s n (by split <;> omega)
  have h1 : (s.get n).2 = s.left.take n := hg.1
  have h2 : (s.get n).1.left = s.left.drop n := hg.2
  have h3 : (s.get n).1.left = [] := by
    rw [h2]
    apply List.drop_eq_nil_of_le
    rw [h1, List.length_take] at h
    omega
  refine ⟨?_, fun sizes => by rw [reads_spec, h3, List.take_nil]⟩
  refine decide_eq_true ?_
  rcases Nat.lt_or_ge (s.get n).1.y (s.get n).1.yd with g | g
  · exact absurd h3 (left_some _ _ (Nat.le_refl _) g)
  · exact g

example : ((Enc.init 8 1 [[0x5A]]).get 100).2.length < 100 ∧ ((Enc.init 8 1 [[0x5A]]).get 100).2.length > 20 := by decide +kernel

/-- The page is said to be complete when its last row has been coded, although bytes of it have still to be read: here all but one. -/
theorem t85_image_complete_early : ((Enc.init 8 1 [[0x5A]]).get 1).1.complete = true ∧ (((Enc.init 8 1 [[0x5A]]).get 1).1.get 100).2.length > 20 := by decide +kernel

end T85
