import Verif.T85.Frame
import Verif.T85.Row
import Verif.T85.Feed

/-!
# The stream which the T.85 encoder makes
-/

namespace T85

open Qm (u32 sub32 Cx St)

attribute [local irreducible] Qm.u32 Qm.sub32 Qm.flush Qm.encodeAll Qm.encode encPixels stats

/-! ## The offset of the adaptive pixel -/

def TxOk (mx : Nat) (two : Bool) (t : Nat) : Prop := t ≤ mx ∧ (t = 0 ∨ lowTx two ≤ t)

theorem offsets_ok {mx : Nat} {two : Bool} {t : Nat} (h : t ∈ offsets mx two) : TxOk mx two t := by
  unfold offsets at h
  rw [List.mem_filter, List.mem_range] at h
  exact ⟨by omega, .inr (by simpa using h.2)⟩

theorem tMax_fold {mx : Nat} {two : Bool} (c : List Nat) (l : List Nat) (hl : ∀ t ∈ l, TxOk mx two t) (m : Nat) (hm : TxOk mx two m) :
    TxOk mx two (l.foldl (fun m i => if c.getD i 0 > c.getD m 0 then i else m) m) := by
  induction l generalizing m with
  | nil => exact hm
  | cons x l ih =>
    rw [List.foldl_cons]
    apply ih (fun t ht => hl t (List.mem_cons_of_mem _ ht))
    split
    · exact hl x List.mem_cons_self
    · exact hm

theorem newOffset_ok {mx : Nat} {two : Bool} {tx : Nat} (cAll : Nat) (c : List Nat) (h : TxOk mx two tx) : TxOk mx two (newOffset mx two tx cAll c) := by
  have h1 : TxOk mx two (tMax mx two c) := tMax_fold c _ (fun t ht => offsets_ok ht) 0 ⟨Nat.zero_le _, .inl rfl⟩
  have h2 : ∀ (P : Prop) [Decidable P], TxOk mx two (if P then tMax mx two c else tx) := by
    intro P _
    split
    · exact h1
    · exact h
  exact h2 _

/-! ## The parts of a row -/

/-- The new offset which is announced before a stripe. -/
def Enc.move (s : Enc) : Option Nat := s.newTx.filter (· ≠ s.tx)

theorem beginRow_inside {s : Enc} (hi : 0 < s.i) (hy : 0 < s.y) : s.beginRow = s := by
  unfold Enc.beginRow
  simp only [if_neg (show ¬s.y = 0 by omega), if_neg (show ¬s.i = 0 by omega)]

/-- The state at the start of a stripe. -/
def Enc.started (s : Enc) : Enc :=
  { s with
    tx := s.move.getD s.tx
    newTx := if s.mx = 0 then some 0 else none
    cAll := if s.mx = 0 then s.cAll else 0
    c := if s.mx = 0 then s.c else List.replicate 128 0
    qm := Qm.encodeRestart s.qm.st true
    out := s.out ++ ((if s.y = 0 then s.bih else []) ++ atBytes s.move) }

theorem putAtmove_eq (s : Enc) : s.putAtmove = { s with tx := s.move.getD s.tx, out := s.out ++ atBytes s.move } := by
  obtain ⟨xd, yd, l0, mx, tpb, vlen, two, y, i, newlen, tx, newTx, cAll, c, prevLtp, row0, row1, row2, fill, qm, out, src⟩ := s
  unfold Enc.putAtmove Enc.move
  dsimp only
  match newTx with
  | none =>
    show _ = Enc.mk _ _ _ _ _ _ _ _ _ _ tx _ _ _ _ _ _ _ _ _ (out ++ []) _
    rw [List.append_nil]
  | some t =>
    by_cases h : t ≠ tx
    · simp only [if_pos h, Option.filter_some, decide_eq_true h, if_true]
      rfl
    · have h' : decide (t ≠ tx) = false := decide_eq_false h
      simp only [if_neg h, Option.filter_some, h', Bool.false_eq_true, if_false, atBytes, List.append_nil]
      rfl

theorem beginRow_start {s : Enc} (hi : s.i = 0) (hn : s.newlen = .none) : s.beginRow = s.started := by
  have h1 : (if s.y = 0 then s.put s.bih else s) = { s with out := s.out ++ (if s.y = 0 then s.bih else []) } := by
    split
    · rfl
    · rw [List.append_nil]
  unfold Enc.beginRow
  rw [h1]
  dsimp only
  rw [if_pos hi]
  have h2 : Enc.putNewlen { s with out := s.out ++ (if s.y = 0 then s.bih else []) } = { s with out := s.out ++ (if s.y = 0 then s.bih else []) } := by
    unfold Enc.putNewlen
    rw [if_neg (by show ¬s.newlen = .pending; rw [hn]; decide)]
  rw [h2]
  have h3 : Enc.putAtmove { s with out := s.out ++ (if s.y = 0 then s.bih else []) } =
      { s with tx := s.move.getD s.tx, out := s.out ++ ((if s.y = 0 then s.bih else []) ++ atBytes s.move) } := by
    rw [putAtmove_eq]
    show ({ s with tx := _, out := s.out ++ _ ++ _ } : Enc) = _
    rw [List.append_assoc]
    rfl
  rw [h3]
  unfold Enc.started
  by_cases hm : s.mx = 0
  · simp only [if_pos hm]
    unfold Enc.arith Qm.encodeRestart
    dsimp only
    rw [List.append_nil]
  · simp only [if_neg hm]
    unfold Enc.arith Qm.encodeRestart
    dsimp only
    rw [List.append_nil]

/-- The decisions of the row which is in `row0`. -/
def Enc.decs (s : Enc) : List (Cx × Bool) := rowDecs s.xd s.tpb s.two s.prevLtp s.tx s.row0 s.row1 s.row2

theorem codeRow_eq (s : Enc) : s.codeRow =
    { s with
      qm := Qm.encodeAll { s.qm with out := [] } s.decs
      out := s.out ++ (Qm.encodeAll { s.qm with out := [] } s.decs).out
      prevLtp := if s.tpb then s.ltp else s.prevLtp
      cAll := s.codeRow.cAll
      c := s.codeRow.c } := rfl

/-! ## The rows to come -/

/-- The encoder will code the rows `F`. With `nl` the rows of the source end too early, and that is told by a new length. -/
structure Feeds (e : Enc) (F : List (List Nat)) (nl : Bool) : Prop where
  le : e.y + F.length ≤ e.yd
  all : nl = false → e.y + F.length = e.yd
  short : nl = true → e.vlen = true ∧ 0 < e.y + F.length ∧ e.y + F.length < e.yd ∧ e.fill = false ∧ F = e.src.map (mask e.xd)
  rows : nl = false → (e.fill = true ∧ ∀ r ∈ F, r = white e.xd) ∨
    (e.fill = false ∧ ∃ A B, F = A.map (mask e.xd) ++ B ∧ (∀ r ∈ B, r = white e.xd) ∧ A <+: e.src ∧ (B ≠ [] → A = e.src ∧ (e.vlen = false ∨ e.yd = 1)))

theorem mask_white (xd : Nat) : mask xd (white xd) = white xd := by
  unfold mask
  split
  · rw [white_getD, Nat.zero_div, Nat.zero_mul]
    apply ext_getD
    · rw [List.length_set]
    · intro k hk
      rw [List.length_set] at hk
      by_cases h : bpr xd - 1 < (white xd).length
      · rw [getD_set _ _ _ _ h, white_getD]
        split <;> rfl
      · rw [List.set_eq_of_length_le (by omega)]
  · rfl

/-- The state in which a row is coded. -/
def Enc.turned (e : Enc) (src : List (List Nat)) (fill : Bool) (r : List Nat) : Enc :=
  { e with out := [], row0 := r, row1 := e.row0, row2 := e.row1, src := src, fill := fill }

theorem next_empty {e : Enc} (hy : ¬e.y ≥ e.yd) (hf : e.fill = false) (hs : e.src = []) :
    e.nextRow = match Enc.setLength { e with out := [], row0 := e.row2, row1 := e.row0, row2 := e.row1 } 1 with
      | some s => some s
      | none => some (Enc.doRow { e with out := [], row0 := e.row2, row1 := e.row0, row2 := e.row1, fill := true } (white e.xd)) := by
  obtain ⟨xd, yd, l0, mx, tpb, vlen, two, y, i, newlen, tx, newTx, cAll, c, prevLtp, row0, row1, row2, fill, qm, out, src⟩ := e
  dsimp only at hf hs hy
  subst hf hs
  unfold Enc.nextRow
  rw [if_neg hy]
  rfl

theorem next_row {e : Enc} {row : List Nat} {t : List (List Nat)} (hy : ¬e.y ≥ e.yd) (hf : e.fill = false) (hs : e.src = row :: t) :
    e.nextRow = some ((e.turned t false (mask e.xd row)).beginRow.codeRow.endRow) := by
  obtain ⟨xd, yd, l0, mx, tpb, vlen, two, y, i, newlen, tx, newTx, cAll, c, prevLtp, row0, row1, row2, fill, qm, out, src⟩ := e
  dsimp only at hf hs hy
  subst hf hs
  unfold Enc.nextRow
  rw [if_neg hy]
  rfl

theorem next_fill {e : Enc} (hy : ¬e.y ≥ e.yd) (hf : e.fill = true) :
    e.nextRow = some ((e.turned e.src true (white e.xd)).beginRow.codeRow.endRow) := by
  obtain ⟨xd, yd, l0, mx, tpb, vlen, two, y, i, newlen, tx, newTx, cAll, c, prevLtp, row0, row1, row2, fill, qm, out, src⟩ := e
  dsimp only at hf hy
  subst hf
  unfold Enc.nextRow
  rw [if_neg hy]
  show some (Enc.doRow _ (white xd)) = _
  unfold Enc.doRow
  dsimp only
  rw [mask_white]
  rfl

theorem feeds_next {e : Enc} {r : List Nat} {F : List (List Nat)} {nl : Bool} (h : Feeds e (r :: F) nl) : ∃ src fill,
    e.nextRow = some ((e.turned src fill r).beginRow.codeRow.endRow) ∧
    ∀ e2 : Enc, e2.y = e.y + 1 → e2.yd = e.yd → e2.xd = e.xd → e2.vlen = e.vlen → e2.src = src → e2.fill = fill → Feeds e2 F nl := by
  have hle := h.le
  rw [List.length_cons] at hle
  have hlt : ¬e.y ≥ e.yd := by omega
  cases hnl : nl with
  | true =>
    obtain ⟨s1, s2, s3, s4, s5⟩ := h.short hnl
    match hsrc : e.src, s5 with
    | row :: t, s5 =>
      rw [List.map_cons] at s5
      obtain ⟨rfl, rfl⟩ := List.cons.inj s5
      refine ⟨t, false, next_row hlt s4 hsrc, ?_⟩
      intro e2 h1 h2 h3 h4 h5 h6
      rw [List.length_cons] at s2 s3
      exact ⟨by omega, (fun h => nomatch h), fun _ => ⟨by rw [h4]; exact s1, by omega, by omega, h6, by rw [h3, h5]⟩, (fun h => nomatch h)⟩
    | [], s5 => cases s5
  | false =>
    have hall := h.all hnl
    rw [List.length_cons] at hall
    rcases h.rows hnl with ⟨f1, f2⟩ | ⟨f1, A, B, f2, f3, f4, f5⟩
    · have hr := f2 r List.mem_cons_self
      refine ⟨e.src, true, ?_, ?_⟩
      · rw [hr]
        exact next_fill hlt f1
      · intro e2 h1 h2 h3 h4 h5 h6
        exact ⟨by omega, fun _ => by omega, (fun h => nomatch h), fun _ => .inl ⟨h6, fun r hr => by rw [h3]; exact f2 r (List.mem_cons_of_mem _ hr)⟩⟩
    · match A, f2, f4, f5 with
      | a :: A, f2, f4, f5 =>
        obtain ⟨T, hT⟩ := f4
        rw [List.map_cons, List.cons_append] at f2
        obtain ⟨rfl, rfl⟩ := List.cons.inj f2
        refine ⟨A ++ T, false, next_row hlt f1 (by rw [← hT, List.cons_append]), ?_⟩
        intro e2 h1 h2 h3 h4 h5 h6
        refine ⟨by omega, fun _ => by omega, (fun h => nomatch h), fun _ => .inr ⟨h6, A, B, by rw [h3], fun r hr => by rw [h3]; exact f3 r hr, ⟨T, h5.symm⟩, ?_⟩⟩
        intro hB
        obtain ⟨g1, g2⟩ := f5 hB
        rw [← hT] at g1
        have : T = [] := by
          have := congrArg List.length g1
          rw [List.length_append] at this
          exact List.length_eq_zero_iff.1 (by omega)
        rw [h4, h2, h5, this, List.append_nil]
        exact ⟨rfl, g2⟩
      | [], f2, f4, f5 =>
        rw [List.map_nil, List.nil_append] at f2
        obtain ⟨g1, g2⟩ := f5 (by rw [← f2]; exact List.cons_ne_nil _ _)
        have hset : Enc.setLength { e with out := [], row0 := e.row2, row1 := e.row0, row2 := e.row1 } 1 = none := by
          unfold Enc.setLength
          rw [if_pos]
          rcases g2 with g | g
          · exact .inl g
          · exact .inr (.inr (.inl (by show 1 ≥ e.yd; omega)))
        have hr : r = white e.xd := f3 r (by rw [← f2]; exact List.mem_cons_self)
        refine ⟨[], true, ?_, ?_⟩
        · rw [next_empty hlt f1 g1.symm]
          rw [hset, hr]
          unfold Enc.doRow
          dsimp only
          rw [mask_white]
          unfold Enc.turned
          rw [← g1]
        · intro e2 h1 h2 h3 h4 h5 h6
          exact ⟨by omega, fun _ => by omega, (fun h => nomatch h),
            fun _ => .inl ⟨h6, fun r hr => by rw [h3]; exact f3 r (by rw [← f2]; exact List.mem_cons_of_mem _ hr)⟩⟩

/-! ## All the bytes -/

/-- What the encoder will still put out. -/
def Enc.all : Nat → Enc → List Nat
  | 0, _ => []
  | n + 1, e =>
    match e.nextRow with
    | none => []
    | some e => e.out ++ Enc.all n e

theorem arith_put (s : Enc) (f : Qm.Enc → Qm.Enc) (b : List Nat) : ({ (s.arith f).put b with i := 0 } : Enc) =
    { s with qm := f { s.qm with out := [] }, out := s.out ++ (f { s.qm with out := [] }).out ++ b, i := 0 } := rfl

theorem endStripe_eq (s : Enc) : s.endStripe =
    { s with qm := Qm.flush { s.qm with out := [] }, out := s.out ++ (Qm.flush { s.qm with out := [] }).out ++ [0xFF, 0x02], i := 0 } := arith_put s Qm.flush _

theorem feeds_end {e : Enc} (h : Feeds e [] false) (n : Nat) : e.all n = [] := by
  have := h.all rfl
  have : e.nextRow = none := by
    unfold Enc.nextRow
    rw [if_pos (by rw [List.length_nil] at this; omega)]
  match n with
  | 0 => rfl
  | n + 1 => rw [Enc.all, this]

/-- The rows of the source end too early. -/
theorem feeds_short {e : Enc} (h : Feeds e [] true) (hn : e.newlen = .none) (n : Nat) :
    e.all (n + 2) = (if 0 < e.i then (Qm.flush { e.qm with out := [] }).out ++ [0xFF, 0x02] else []) ++ endBytes true e.y := by
  obtain ⟨s1, s2, s3, s4, s5⟩ := h.short rfl
  rw [List.length_nil, Nat.add_zero] at s2 s3
  have s5' : e.src = [] := List.map_eq_nil_iff.1 s5.symm
  have hset : Enc.setLength { e with out := [], row0 := e.row2, row1 := e.row0, row2 := e.row1 } 1 =
      some (Enc.putNewlen (if 0 < e.i then Enc.endStripe { e with out := [], row0 := e.row2, row1 := e.row0, row2 := e.row1, newlen := .pending, yd := e.y }
        else { e with out := [], row0 := e.row2, row1 := e.row0, row2 := e.row1, newlen := .pending, yd := e.y })) := by
    have hn1 : (if 0 < e.y ∧ 1 < e.y then e.y else 1) = e.y := by split <;> omega
    unfold Enc.setLength
    rw [if_neg (by
      rintro (h | h | h | h)
      · have h' : e.vlen = false := h
        rw [s1] at h'
        cases h'
      · have h' : e.newlen = .handled := h
        rw [hn] at h'
        cases h'
      · have h' : 1 ≥ e.yd := h
        omega
      · omega)]
    simp only [gt_iff_lt, hn1, if_pos (show 0 < e.y ∧ e.yd ≠ e.y from ⟨s2, by omega⟩)]
    rw [if_pos trivial]
  have hnext : e.nextRow = Enc.setLength { e with out := [], row0 := e.row2, row1 := e.row0, row2 := e.row1 } 1 := by
    rw [next_empty (by omega) s4 s5', hset]
  rw [Enc.all, hnext, hset]
  dsimp only
  have hlast : ∀ e' : Enc, e'.yd ≤ e'.y → Enc.all (n + 1) e' = [] := by
    intro e' h
    rw [Enc.all, show e'.nextRow = none by unfold Enc.nextRow; rw [if_pos h]]
  have hput : ∀ e' : Enc, e'.newlen = .pending → e'.y = e'.yd → e'.putNewlen = { e' with out := e'.out ++ endBytes true e'.y, newlen := .handled } := by
    intro e' h1 h2
    unfold Enc.putNewlen
    rw [if_pos h1]
    dsimp only
    rw [if_pos (by exact h2)]
    show ({ e' with out := e'.out ++ ([0xFF, 0x05] ++ net32 e'.yd) ++ [0xFF, 0x02], newlen := .handled } : Enc) = _
    rw [← h2, List.append_assoc]
    rfl
  by_cases hi : 0 < e.i
  · rw [if_pos hi, if_pos hi, endStripe_eq, hput _ rfl rfl, hlast _ (Nat.le_refl _), List.append_nil]
    dsimp only
    rw [List.nil_append]
  · rw [if_neg hi, if_neg hi, hput _ rfl rfl, hlast _ (Nat.le_refl _), List.append_nil]

/-! ## The encoder and the decoder -/

/-- The encoder and the decoder between two rows. -/
structure Rel (mx yf : Nat) (R F : List (List Nat)) (e : Enc) (p : Pic) : Prop where
  xd : p.xd = e.xd
  l0 : p.l0 = e.l0
  tpb : p.tpb = e.tpb
  two : p.two = e.two
  y : p.y = e.y
  i : p.i = e.i
  yd : p.yd = yf
  gap : Gap p e.row0 e.row1
  tx : p.tx = e.tx
  lntp : p.lntp = !e.prevLtp
  at0 : e.i = 0 → p.at' = none
  at1 : 0 < e.i → p.at' = none ∨ ∃ t, p.at' = some (0, t)
  rows : p.rows ++ F = R
  mxe : e.mx = mx
  txok : TxOk mx e.two e.tx
  newtx : ∀ t, e.newTx = some t → TxOk mx e.two t
  newlen : e.newlen = .none
  il : e.i < e.l0
  iy : e.i ≤ e.y
  hw : e.xd + 7 < 2 ^ 32
  ok : ∀ r ∈ F, RowOk e.xd r

/-- The rest of a stripe, of which the decisions `lp` have been coded, and what comes behind it. -/
def StripeEnd (mx yf : Nat) (nl : Bool) (R : List (List Nat)) (p : Pic) (st : Cx → St) (lp : List (Cx × Bool)) (Y : List Nat) : Prop :=
  ∃ l S p' rest, Y = (Qm.flush (Qm.encodeAll (Qm.encodeRestart st true) (lp ++ l))).out ++ 0xFF :: 0x02 :: rest ∧ p.run l = some p' ∧ p'.Stops ∧
    (S ≠ [] → p'.l0 ≤ p'.i) ∧ Plan mx yf nl R S p'.sdn (Qm.encodeAll (Qm.encodeRestart st true) (lp ++ l)).st rest

theorem StripeEnd.more {mx yf : Nat} {nl : Bool} {R : List (List Nat)} {p p2 : Pic} {st : Cx → St} {lp l : List (Cx × Bool)} {Y : List Nat}
    (h : StripeEnd mx yf nl R p2 st (lp ++ l) Y) (hr : p.run l = some p2) : StripeEnd mx yf nl R p st lp Y := by
  obtain ⟨l', S, p', rest, h1, h2, h3, h4, h5⟩ := h
  rw [List.append_assoc] at h1 h5
  exact ⟨l ++ l', S, p', rest, h1, by rw [run_append l l' hr]; exact h2, h3, h4, h5⟩

theorem frame_all (q : Qm.Enc) (O : List Nat) (l : List (Cx × Bool)) :
    Qm.encodeAll { q with out := O } l = { Qm.encodeAll { q with out := [] } l with out := O ++ (Qm.encodeAll { q with out := [] } l).out } := by
  have := Qm.pre_encodeAll O l { q with out := [] }
  rw [show ({ q with out := [] } : Qm.Enc).pre O = { q with out := O } by unfold Qm.Enc.pre; dsimp only; rw [List.append_nil]] at this
  exact this

theorem frame_flush (q : Qm.Enc) (O : List Nat) : (Qm.flush { q with out := O }).out = O ++ (Qm.flush { q with out := [] }).out := by
  have := Qm.pre_flush O { q with out := [] }
  rw [show ({ q with out := [] } : Qm.Enc).pre O = { q with out := O } by unfold Qm.Enc.pre; dsimp only; rw [List.append_nil]] at this
  rw [this]
  rfl

theorem encodeAll_append (s : Qm.Enc) (a b : List (Cx × Bool)) : Qm.encodeAll s (a ++ b) = Qm.encodeAll (Qm.encodeAll s a) b := by
  unfold Qm.encodeAll
  exact List.foldl_append

theorem encodeAll_nil (s : Qm.Enc) : Qm.encodeAll s [] = s := by unfold Qm.encodeAll; rfl

theorem rowDecs_ne {xd : Nat} (hx : 0 < xd) (tpb two prev : Bool) (t : Nat) (r0 r1 r2 : List Nat) : rowDecs xd tpb two prev t r0 r1 r2 ≠ [] := by
  unfold rowDecs
  cases tpb with
  | true =>
    simp only [if_true]
    exact List.cons_ne_nil _ _
  | false =>
    simp only [Bool.false_and, Bool.false_eq_true, if_false, List.nil_append]
    match xd, hx with
    | n + 1, _ =>
      unfold encPixels
      exact List.cons_ne_nil _ _

/-- A row is coded, by an encoder which has the offset `t` of the adaptive pixel. -/
theorem code_row {mx yf : Nat} {R F : List (List Nat)} {e : Enc} {p q : Pic} {r : List Nat} (h : Rel mx yf R (r :: F) e p) (hy : e.y < yf) {t : Nat}
    (ht : TxOk mx e.two t) (hq : q = { p with at' := q.at' }) (hm : q.move.tx = t) :
    ∃ p', q.run (rowDecs e.xd e.tpb e.two e.prevLtp t r e.row0 e.row1) = some p' ∧
      After { q with tx := t, lntp := if p.tpb then !(r == e.row0) else p.lntp } p' r e.row0 := by
  have hok := h.ok r List.mem_cons_self
  have q1 : q.xd = e.xd := by rw [hq]; exact h.xd
  have q2 : q.tpb = e.tpb := by rw [hq]; exact h.tpb
  have q3 : q.two = e.two := by rw [hq]; exact h.two
  have q4 : q.lntp = p.lntp := by rw [hq]
  have hg : Gap q e.row0 e.row1 := by
    rw [hq]
    exact ⟨h.gap.x, h.gap.xd, h.gap.pseudo, ⟨h.gap.ring.len, h.gap.ring.lens, h.gap.ring.p0, h.gap.ring.p1, h.gap.ring.p2⟩⟩
  have := row_run (p := q) (r0 := r) hg (by rw [q1]; exact hok) (by rw [q1]; exact h.hw)
    (by rw [hq]; show p.i < p.l0; rw [h.i, h.l0]; exact h.il) (by rw [hq]; show p.y < p.yd; rw [h.y, h.yd]; exact hy)
    (by rw [hm, q3]; exact ht.2) e.prevLtp (by rw [q4]; exact h.lntp)
  rw [hm] at this
  have hd : rowDecs e.xd e.tpb e.two e.prevLtp t r e.row0 e.row1 = rowDecs q.xd q.tpb q.two e.prevLtp t r e.row0 e.row1 := by rw [q1, q2, q3]
  have hl : (if p.tpb then !(r == e.row0) else p.lntp) = (if q.tpb then !(r == e.row0) else q.lntp) := by rw [q2, q4, h.tpb]
  rw [hd, hl]
  exact this

/-- The state after a row, before it is counted. -/
structure Coded' (mx yf : Nat) (R F : List (List Nat)) (m : Enc) (p2 : Pic) (st : Cx → St) (lp : List (Cx × Bool)) (O : List Nat) : Prop where
  xd : p2.xd = m.xd
  l0 : p2.l0 = m.l0
  tpb : p2.tpb = m.tpb
  two : p2.two = m.two
  y : p2.y = m.y + 1
  i : p2.i = m.i + 1
  yd : p2.yd = yf
  gap : Gap p2 m.row0 m.row1
  tx : p2.tx = m.tx
  lntp : p2.lntp = !m.prevLtp
  at1 : p2.at' = none ∨ ∃ t, p2.at' = some (0, t)
  rows : p2.rows ++ F = R
  mxe : m.mx = mx
  txok : TxOk mx m.two m.tx
  newtx : ∀ t, m.newTx = some t → TxOk mx m.two t
  newlen : m.newlen = .none
  il : m.i < m.l0
  iy : m.i ≤ m.y
  hw : m.xd + 7 < 2 ^ 32
  ok : ∀ r ∈ F, RowOk m.xd r
  ghost : { m.qm with out := O } = Qm.encodeAll (Qm.encodeRestart st true) lp

def StartsWell (mx yf : Nat) (nl : Bool) (R F : List (List Nat)) : Prop :=
  ∀ n e p, Rel mx yf R F e p → Feeds e F nl → 0 < e.yd → e.i = 0 → F.length + 2 ≤ n → e.y + F.length = yf →
    ∃ S W, (F = [] → S = []) ∧ e.all n = (if e.y = 0 then e.bih else []) ++ W ∧ Plan mx yf nl R S p e.qm.st W

def GoesOn (mx yf : Nat) (nl : Bool) (R F : List (List Nat)) : Prop :=
  ∀ n e p st lp O, Rel mx yf R F e p → Feeds e F nl → 0 < e.i → e.y < e.yd → F.length + 2 ≤ n → e.y + F.length = yf →
    { e.qm with out := O } = Qm.encodeAll (Qm.encodeRestart st true) lp → StripeEnd mx yf nl R p st lp (O ++ e.all n)

/-- The offset which is looked for after a row. -/
def Enc.look (m : Enc) : Option Nat := if m.newTx = none ∧ m.cAll > 2048 then some (newOffset m.mx m.two m.tx m.cAll m.c) else m.newTx

theorem look_eq (s : Enc) : (if s.newTx = none ∧ s.cAll > 2048 then { s with newTx := some (newOffset s.mx s.two s.tx s.cAll s.c) } else s) = { s with newTx := s.look } := by
  unfold Enc.look
  split
  · rfl
  · rfl

theorem endRow_inside {m : Enc} (h : ¬(m.i + 1 = m.l0 ∨ m.y + 1 = m.yd)) : m.endRow = { m with i := m.i + 1, y := m.y + 1, newTx := m.look } := by
  unfold Enc.endRow
  dsimp only
  rw [if_neg h]
  exact look_eq _

theorem endRow_end {m : Enc} (h : m.i + 1 = m.l0 ∨ m.y + 1 = m.yd) (hn : m.newlen = .none) : m.endRow =
    { m with
      i := 0, y := m.y + 1, qm := Qm.flush { m.qm with out := [] }, out := m.out ++ (Qm.flush { m.qm with out := [] }).out ++ [0xFF, 0x02]
      newTx := m.look } := by
  have hpn : ∀ s : Enc, s.newlen = .none → s.putNewlen = s := by
    intro s hs
    unfold Enc.putNewlen
    rw [if_neg (by rw [hs]; decide)]
  unfold Enc.endRow
  dsimp only
  rw [if_pos h, hpn _ (by rw [endStripe_eq]; exact hn), endStripe_eq]
  exact look_eq _

/-- After a row. -/
theorem row_end {mx yf : Nat} {nl : Bool} {R F : List (List Nat)} {m : Enc} {p2 : Pic} {st : Cx → St} {lp : List (Cx × Bool)} {O : List Nat} {n : Nat}
    (ha : StartsWell mx yf nl R F) (hb : GoesOn mx yf nl R F) (h : Coded' mx yf R F m p2 st lp O)
    (hf : ∀ e2 : Enc, e2.y = m.y + 1 → e2.yd = m.yd → e2.xd = m.xd → e2.vlen = m.vlen → e2.src = m.src → e2.fill = m.fill → Feeds e2 F nl)
    (hy : m.y < m.yd) (hn : F.length + 2 ≤ n) (hyf : m.y + 1 + F.length = yf) (hnl : nl = false → m.yd = yf) (hnl' : nl = true → yf < m.yd) :
    ∃ X, m.endRow.out = m.out ++ X ∧ StripeEnd mx yf nl R p2 st lp (O ++ (X ++ m.endRow.all n)) := by
  have hnew : ∀ t, m.look = some t → TxOk mx m.two t := by
    intro t ht
    unfold Enc.look at ht
    split at ht
    · rw [← Option.some.inj ht, h.mxe]
      exact newOffset_ok _ _ h.txok
    · exact h.newtx t ht
  by_cases hend : m.i + 1 = m.l0 ∨ m.y + 1 = m.yd
  · rw [endRow_end hend h.newlen]
    refine ⟨(Qm.flush { m.qm with out := [] }).out ++ [0xFF, 0x02], by dsimp only; rw [List.append_assoc], ?_⟩
    generalize he2 : ({ m with
          i := 0, y := m.y + 1, qm := Qm.flush { m.qm with out := [] }, out := m.out ++ (Qm.flush { m.qm with out := [] }).out ++ [0xFF, 0x02]
          newTx := m.look } : Enc) = e2
    have hrel : Rel mx yf R F e2 p2.sdn := by
      rw [← he2]
      exact ⟨h.xd, h.l0, h.tpb, h.two, h.y, rfl, h.yd, ⟨rfl, h.gap.xd, rfl, ⟨h.gap.ring.len, h.gap.ring.lens, h.gap.ring.p0, h.gap.ring.p1, h.gap.ring.p2⟩⟩, h.tx, h.lntp,
        fun _ => rfl, fun _ => .inl rfl, h.rows, h.mxe, h.txok, hnew, h.newlen, Nat.lt_of_le_of_lt (Nat.zero_le _) h.il, Nat.zero_le _, h.hw, h.ok⟩
    have e1 : e2.y = m.y + 1 := by rw [← he2]
    have e2' : e2.yd = m.yd := by rw [← he2]
    have e3 : e2.i = 0 := by rw [← he2]
    have e4 : e2.qm.st = m.qm.st := by
      rw [← he2]
      exact Qm.flush_st _
    have hfe : Feeds e2 F nl := hf e2 e1 e2' (by rw [← he2]) (by rw [← he2]) (by rw [← he2]) (by rw [← he2])
    obtain ⟨S, W, hS, hW, hp⟩ := ha n e2 p2.sdn hrel hfe (by omega) e3 hn (by omega)
    rw [if_neg (by omega), List.nil_append] at hW
    rw [hW]
    refine ⟨[], S, p2, W, ?_, rfl, ?_, ?_, ?_⟩
    · rw [List.append_nil, ← h.ghost, frame_flush m.qm O, List.append_assoc, List.append_assoc]
      rfl
    · rintro ⟨h1, h2⟩
      rw [h.i, h.l0] at h1
      rw [h.y, h.yd] at h2
      rcases hend with h3 | h3
      · omega
      · cases hb : nl with
        | false => have := hnl hb; omega
        | true => have := hnl' hb; omega
    · intro hS'
      rw [h.l0, h.i]
      rcases hend with h3 | h3
      · omega
      · exfalso
        apply hS'
        apply hS
        have : F.length = 0 := by
          cases hb : nl with
          | false => have := hnl hb; omega
          | true => have := hnl' hb; omega
        exact List.length_eq_zero_iff.1 this
    · rw [List.append_nil]
      have : (Qm.encodeAll (Qm.encodeRestart st true) lp).st = m.qm.st := by rw [← h.ghost]
      rw [this, ← e4]
      exact hp
  · rw [endRow_inside hend]
    refine ⟨[], by rw [List.append_nil], ?_⟩
    rw [List.nil_append]
    generalize he2 : ({ m with
          i := m.i + 1, y := m.y + 1
          newTx := m.look } : Enc) = e2
    have e1 : e2.y = m.y + 1 := by rw [← he2]
    have e2' : e2.yd = m.yd := by rw [← he2]
    have e3 : e2.i = m.i + 1 := by rw [← he2]
    have hrel : Rel mx yf R F e2 p2 := by
      rw [← he2]
      have := h.il
      have := h.iy
      exact ⟨h.xd, h.l0, h.tpb, h.two, h.y, h.i, h.yd, h.gap, h.tx, h.lntp, fun h => absurd h (Nat.succ_ne_zero _), fun _ => h.at1, h.rows, h.mxe, h.txok, hnew, h.newlen,
        by dsimp only; omega, by dsimp only; omega, h.hw, h.ok⟩
    have hfe : Feeds e2 F nl := hf e2 e1 e2' (by rw [← he2]) (by rw [← he2]) (by rw [← he2]) (by rw [← he2])
    exact hb n e2 p2 st lp O hrel hfe (by omega) (by omega) hn (by omega) (by rw [← h.ghost, ← he2])

/-- A row has been coded. -/
theorem coded {mx yf : Nat} {R F : List (List Nat)} {e : Enc} {p q p2 : Pic} {r : List Nat} {src : List (List Nat)} {fill : Bool} {t : Nat} {nt : Option Nat} {ca : Nat}
    {cc : List Nat} {sq : Qm.Enc} {so : List Nat} {st : Cx → St} {lp : List (Cx × Bool)} {O : List Nat} (h : Rel mx yf R (r :: F) e p)
    (ht : TxOk mx e.two t) (hnt : ∀ t, nt = some t → TxOk mx e.two t) (hq : q = { p with at' := q.at' }) (hat : q.at' = none ∨ ∃ t, q.at' = some (0, t))
    (ha : After { q with tx := t, lntp := if p.tpb then !(r == e.row0) else p.lntp } p2 r e.row0)
    (hs : { sq with out := O } = Qm.encodeAll (Qm.encodeRestart st true) lp) :
    Coded' mx yf R F (Enc.codeRow { e.turned src fill r with tx := t, newTx := nt, cAll := ca, c := cc, qm := sq, out := so }) p2 st
      (lp ++ rowDecs e.xd e.tpb e.two e.prevLtp t r e.row0 e.row1)
      (O ++ (Qm.encodeAll { sq with out := [] } (rowDecs e.xd e.tpb e.two e.prevLtp t r e.row0 e.row1)).out) := by
  rw [codeRow_eq]
  have hg : Gap p2 r e.row0 := ⟨ha.x, by rw [ha.xd]; show 0 < q.xd; rw [hq]; exact h.gap.xd, ha.pseudo, ha.ring⟩
  refine ⟨?_, ?_, ?_, ?_, ?_, ?_, ?_, hg, ha.tx, ?_, ?_, ?_, h.mxe, ht, hnt, h.newlen, h.il, h.iy, h.hw, fun r hr => h.ok r (List.mem_cons_of_mem _ hr), ?_⟩
  · rw [ha.xd]; show q.xd = e.xd; rw [hq]; exact h.xd
  · rw [ha.l0]; show q.l0 = e.l0; rw [hq]; exact h.l0
  · rw [ha.tpb]; show q.tpb = e.tpb; rw [hq]; exact h.tpb
  · rw [ha.two]; show q.two = e.two; rw [hq]; exact h.two
  · rw [ha.y]; show q.y + 1 = e.y + 1; rw [hq]; exact congrArg (· + 1) h.y
  · rw [ha.i]; show q.i + 1 = e.i + 1; rw [hq]; exact congrArg (· + 1) h.i
  · rw [ha.yd]; show q.yd = yf; rw [hq]; exact h.yd
  · rw [ha.lntp]
    show (if p.tpb then !(r == e.row0) else p.lntp) = !(if e.tpb then e.tpb && r == e.row0 else e.prevLtp)
    rw [h.tpb, h.lntp]
    cases e.tpb <;> rfl
  · rw [ha.at']; exact hat
  · rw [ha.rows]
    show q.rows ++ [r] ++ F = R
    rw [hq, List.append_assoc]
    exact h.rows
  · show _ = Qm.encodeAll _ _
    rw [encodeAll_append, ← hs, frame_all sq O]
    rfl

theorem both {mx yf : Nat} {nl : Bool} {R : List (List Nat)} (F : List (List Nat)) : StartsWell mx yf nl R F ∧ GoesOn mx yf nl R F := by
  induction F with
  | nil =>
    constructor
    · intro n e p h hf hyd hi hn hy
      rw [List.length_nil, Nat.add_zero] at hy
      refine ⟨[], endBytes nl yf, fun _ => rfl, ?_, by rw [h.y]; omega, rfl, by rw [← h.rows, List.append_nil]⟩
      cases hnl : nl with
      | false =>
        subst hnl
        have := hf.all rfl
        rw [List.length_nil] at this
        rw [feeds_end hf, if_neg (by omega)]
        rfl
      | true =>
        subst hnl
        obtain ⟨m, rfl⟩ : ∃ m, n = m + 2 := ⟨n - 2, by rw [List.length_nil] at hn; omega⟩
        have := (hf.short rfl).2.1
        rw [List.length_nil] at this
        rw [feeds_short hf h.newlen, if_neg (by omega), if_neg (by omega), hy]
    · intro n e p st lp O h hf hi hy' hn hy hg
      rw [List.length_nil, Nat.add_zero] at hy
      cases hnl : nl with
      | false =>
        subst hnl
        have := hf.all rfl
        rw [List.length_nil] at this
        omega
      | true =>
        subst hnl
        obtain ⟨m, rfl⟩ : ∃ m, n = m + 2 := ⟨n - 2, by rw [List.length_nil] at hn; omega⟩
        rw [feeds_short hf h.newlen, if_pos hi]
        refine ⟨[], [], p, endBytes true yf, ?_, rfl, ?_, fun h => absurd rfl h, ?_⟩
        · rw [List.append_nil, ← hg, frame_flush e.qm O, List.append_assoc, List.append_assoc, hy]
          rfl
        · rintro ⟨_, h2⟩
          rw [h.y, h.yd] at h2
          omega
        · exact ⟨by show yf ≤ p.y; rw [h.y]; omega, rfl, by show p.rows = R; rw [← h.rows, List.append_nil]⟩
  | cons r F ih =>
    constructor
    · intro n e p h hf hyd hi hn hy
      obtain ⟨n, rfl⟩ : ∃ m, n = m + 1 := ⟨n - 1, by rw [List.length_cons] at hn; omega⟩
      rw [List.length_cons] at hn hy
      obtain ⟨src, fill, hnext, hf2⟩ := feeds_next hf
      have hle := hf.le
      rw [List.length_cons] at hle
      have hmove : TxOk mx e.two (e.move.getD e.tx) ∧ ∀ t, e.move = some t → TxOk mx e.two t := by
        unfold Enc.move
        cases hnt : e.newTx with
        | none => exact ⟨h.txok, fun t h => nomatch h⟩
        | some u =>
          have hu := h.newtx u hnt
          rw [Option.filter_some]
          by_cases hc : decide (u ≠ e.tx) = true
          · rw [if_pos hc]
            exact ⟨hu, fun t ht => by rw [← Option.some.inj ht]; exact hu⟩
          · rw [if_neg hc]
            exact ⟨h.txok, fun t h => nomatch h⟩
      have hpm : (p.withAt e.move).move.tx = e.move.getD e.tx := by
        have h1 : p.x = 0 := h.gap.x
        have h2 : p.pseudo = true := h.gap.pseudo
        have h3 : p.i = 0 := by rw [h.i, hi]
        unfold Pic.withAt Pic.move
        cases e.move with
        | none => exact h.tx
        | some u =>
          show (if p.x = 0 ∧ p.pseudo = true ∧ 0 = p.i then u else p.tx) = u
          rw [if_pos ⟨h1, h2, h3.symm⟩]
      obtain ⟨p2, hr, ha⟩ := code_row (q := p.withAt e.move) h (by omega) hmove.1 rfl hpm
      have hc := coded (src := src) (fill := fill) (nt := if e.mx = 0 then some 0 else none) (ca := if e.mx = 0 then e.cAll else 0)
        (cc := if e.mx = 0 then e.c else List.replicate 128 0) (sq := Qm.encodeRestart e.qm.st true)
        (so := [] ++ ((if e.y = 0 then e.bih else []) ++ atBytes e.move)) (st := e.qm.st) (lp := []) (O := []) h hmove.1
        (by
          intro t ht
          split at ht
          · rw [← Option.some.inj ht]
            exact ⟨Nat.zero_le _, .inl rfl⟩
          · cases ht)
        rfl
        (by
          cases e.move with
          | none => exact .inl rfl
          | some u => exact .inr ⟨u, rfl⟩)
        ha (by rw [encodeAll_nil]; rfl)
      have hbeg : (e.turned src fill r).beginRow = { e.turned src fill r with tx := e.move.getD e.tx, newTx := if e.mx = 0 then some 0 else none, cAll := if e.mx = 0 then e.cAll else 0, c := if e.mx = 0 then e.c else List.replicate 128 0, qm := Qm.encodeRestart e.qm.st true, out := [] ++ ((if e.y = 0 then e.bih else []) ++ atBytes e.move) } := by
        rw [beginRow_start (s := e.turned src fill r) hi h.newlen]
        rfl
      rw [hbeg] at hnext
      generalize hm : Enc.codeRow _ = m at hc hnext
      have hmo : m.out = ((if e.y = 0 then e.bih else []) ++ atBytes e.move) ++
          (Qm.encodeAll { Qm.encodeRestart e.qm.st true with out := [] } (rowDecs e.xd e.tpb e.two e.prevLtp (e.move.getD e.tx) r e.row0 e.row1)).out := by
        rw [← hm, codeRow_eq]
        rfl
      have m1 : m.y = e.y := by rw [← hm, codeRow_eq]; rfl
      have m2 : m.yd = e.yd := by rw [← hm, codeRow_eq]; rfl
      have m3 : m.xd = e.xd := by rw [← hm, codeRow_eq]; rfl
      have m4 : m.vlen = e.vlen := by rw [← hm, codeRow_eq]; rfl
      have m5 : m.src = src := by rw [← hm, codeRow_eq]; rfl
      have m6 : m.fill = fill := by rw [← hm, codeRow_eq]; rfl
      obtain ⟨X, hX, l', S, p', rest, k1, k2, k3, k4, k5⟩ := row_end (n := n) ih.1 ih.2 hc
        (fun e2 g1 g2 g3 g4 g5 g6 => hf2 e2 (by omega) (by omega) (by rw [g3, m3]) (by rw [g4, m4]) (by rw [g5, m5]) (by rw [g6, m6]))
        (by omega) (by omega) (by omega)
        (fun hnl => by have := hf.all hnl; rw [List.length_cons] at this; omega)
        (fun hnl => by have := (hf.short hnl).2.2.1; rw [List.length_cons] at this; omega)
      simp only [List.nil_append] at k1 k5
      refine ⟨(e.move, rowDecs e.xd e.tpb e.two e.prevLtp (e.move.getD e.tx) r e.row0 e.row1 ++ l') :: S, _, fun h => absurd h (List.cons_ne_nil _ _), ?_, ?_, ?_, ?_,
        p', rest, rfl, ?_, k3, k4, k5⟩
      · rw [Enc.all, hnext]
        dsimp only
        rw [hX, hmo, ← k1, List.append_assoc, List.append_assoc, List.append_assoc]
      · intro hc
        exact rowDecs_ne (by rw [← h.xd]; exact h.gap.xd) _ _ _ _ _ _ _ (List.append_eq_nil_iff.1 hc).1
      · rw [h.y]; omega
      · intro t ht
        rw [h.two]
        exact hmove.2 t ht
      · rw [run_append _ _ hr]
        exact k2
    · intro n e p st lp O h hf hi hy' hn hy hg
      obtain ⟨n, rfl⟩ : ∃ m, n = m + 1 := ⟨n - 1, by rw [List.length_cons] at hn; omega⟩
      rw [List.length_cons] at hn hy
      obtain ⟨src, fill, hnext, hf2⟩ := feeds_next hf
      have hpm : p.move.tx = e.tx := by
        unfold Pic.move
        rcases h.at1 hi with g | ⟨t, g⟩
        · rw [g]; exact h.tx
        · rw [g]
          show (if p.x = 0 ∧ p.pseudo = true ∧ 0 = p.i then t else p.tx) = e.tx
          rw [if_neg (by rw [h.i]; omega)]
          exact h.tx
      obtain ⟨p2, hr, ha⟩ := code_row (q := p) h (by omega) h.txok rfl hpm
      have hc := coded (src := src) (fill := fill) (nt := e.newTx) (ca := e.cAll) (cc := e.c) (sq := e.qm) (so := []) h h.txok h.newtx rfl (h.at1 hi) ha hg
      have hbeg : (e.turned src fill r).beginRow = { e.turned src fill r with tx := e.tx, newTx := e.newTx, cAll := e.cAll, c := e.c, qm := e.qm, out := [] } := by
        rw [beginRow_inside (s := e.turned src fill r) hi (Nat.lt_of_lt_of_le hi h.iy)]
        rfl
      rw [hbeg] at hnext
      generalize hm : Enc.codeRow _ = m at hc hnext
      have hmo : m.out = (Qm.encodeAll { e.qm with out := [] } (rowDecs e.xd e.tpb e.two e.prevLtp e.tx r e.row0 e.row1)).out := by
        rw [← hm, codeRow_eq]
        rfl
      have m1 : m.y = e.y := by rw [← hm, codeRow_eq]; rfl
      have m2 : m.yd = e.yd := by rw [← hm, codeRow_eq]; rfl
      have m3 : m.xd = e.xd := by rw [← hm, codeRow_eq]; rfl
      have m4 : m.vlen = e.vlen := by rw [← hm, codeRow_eq]; rfl
      have m5 : m.src = src := by rw [← hm, codeRow_eq]; rfl
      have m6 : m.fill = fill := by rw [← hm, codeRow_eq]; rfl
      obtain ⟨X, hX, hE⟩ := row_end (n := n) ih.1 ih.2 hc
        (fun e2 g1 g2 g3 g4 g5 g6 => hf2 e2 (by omega) (by omega) (by rw [g3, m3]) (by rw [g4, m4]) (by rw [g5, m5]) (by rw [g6, m6]))
        (by omega) (by omega) (by omega)
        (fun hnl => by have := hf.all hnl; rw [List.length_cons] at this; omega)
        (fun hnl => by have := (hf.short hnl).2.2.1; rw [List.length_cons] at this; omega)
      have := hE.more hr
      rw [Enc.all, hnext]
      dsimp only
      rw [hX, hmo]
      rw [List.append_assoc] at this ⊢
      exact this

end T85
