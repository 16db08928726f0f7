import Verif.Qm.Stream
import Verif.T85.Model

/-!
# The decisions which the T.85 decoder makes, and the data which arrives in pieces
-/

namespace T85

open Qm (u32 sub32 Cx St stuff Ret Comes comes_step comes_pad comes_start pair_eq)

attribute [local irreducible] Qm.u32 Qm.sub32 Qm.decode Qm.decision Qm.renormd

/-! ## Runs of the picture -/

def Pic.upTo (p : Pic) (y : Nat) : Pic := { p with yd := y }

/-- The picture asks for these contexts, and gets these answers. -/
def Pic.run (p : Pic) : List (Cx × Bool) → Option Pic
  | [] => some p
  | x :: l => if p.i < p.l0 ∧ p.y < p.yd ∧ p.ask.2 = x.1 then (p.ask.1.feed x.2).run l else none

def Pic.Stops (p : Pic) : Prop := ¬(p.i < p.l0 ∧ p.y < p.yd)

theorem ask_upTo (p : Pic) (y : Nat) : (p.upTo y).ask = (p.ask.1.upTo y, p.ask.2) := by
  unfold Pic.ask
  show (if p.tpb = true ∧ p.pseudo = true then _ else _) = ((if p.tpb = true ∧ p.pseudo = true then _ else _ : Pic × Cx).1.upTo y, (if p.tpb = true ∧ p.pseudo = true then _ else _ : Pic × Cx).2)
  split <;> rfl

theorem feed_upTo (p : Pic) (y : Nat) (b : Bool) : (p.upTo y).feed b = (p.feed b).upTo y := by
  unfold Pic.feed
  show (if p.tpb = true ∧ p.pseudo = true then (if (b == p.lntp) = false then _ else _) else if p.x + 1 = p.xd then _ else _) = (if p.tpb = true ∧ p.pseudo = true then _ else _ : Pic).upTo y
  split
  · split
    · unfold Pic.typical
      dsimp only
      show (match p.p1 with | none => _ | some q => _) = _
      match p.p1 with
      | none => rfl
      | some q => rfl
    · rfl
  · split <;> rfl

theorem or_or_self (a b : Nat) : a ||| b ||| b = a ||| b := by
  rw [Nat.or_assoc, Nat.or_self]

theorem load_load (p : Pic) : p.load.load = p.load := by
  have h : p.load.load = { p with r := p.load.load.r } := rfl
  have h' : p.load = { p with r := p.load.r } := rfl
  have hr : p.load.load.r = p.load.r := by
    unfold Pic.load
    dsimp only
    split
    · dsimp only [Pic.byte, Pic.row]
      rw [or_or_self]
      congr 1
      exact or_or_self _ _
    · rfl
  rw [h, hr, ← h']

theorem initRegs_load (p : Pic) : p.initRegs.load.initRegs.load = p.initRegs.load := by
  by_cases hx : p.x = 0
  · have h1 : p.initRegs.load.initRegs = p.initRegs := by
      unfold Pic.initRegs Pic.load
      dsimp only
      simp only [if_pos hx]
      rfl
    rw [h1]
  · have h1 : p.initRegs.load.initRegs = p.initRegs.load := by
      show ({ p.initRegs.load with r := if p.x = 0 then _ else p.initRegs.load.r } : Pic) = _
      rw [if_neg hx]
    rw [h1, load_load]

theorem move_move (p : Pic) : p.move.move = p.move := by
  have h : p.move.move = { p with tx := p.move.move.tx } := rfl
  have h' : p.move = { p with tx := p.move.tx } := rfl
  have ht : p.move.move.tx = p.move.tx := by
    unfold Pic.move
    dsimp only
    match p.at' with
    | none => rfl
    | some (row, tx) => dsimp only; split <;> rfl
  rw [h, ht, ← h']

/-- A second question is the same. -/
theorem ask_ask (p : Pic) : p.ask.1.ask = p.ask := by
  by_cases h : p.tpb = true ∧ p.pseudo = true
  · have e : p.ask = (p.move, tpCx p.two) := by unfold Pic.ask; exact if_pos h
    rw [e]
    show p.move.ask = _
    unfold Pic.ask
    rw [move_move]
    exact if_pos h
  · have e : p.ask = (({ p.move with pseudo := false } : Pic).initRegs.load, Fin.ofNat 4096 (({ p.move with pseudo := false } : Pic).initRegs.load).cx) := by
      unfold Pic.ask; exact if_neg h
    rw [e]
    generalize hq : ({ p.move with pseudo := false } : Pic) = q
    have h1 : q.pseudo = false := by rw [← hq]
    show q.initRegs.load.ask = _
    have h2 : q.initRegs.load.move = q.initRegs.load := by
      show ({ q.initRegs.load with tx := match q.at' with | some (row, tx) => if q.x = 0 ∧ q.pseudo = true ∧ row = q.i then tx else q.tx | none => q.tx } : Pic) = _
      rw [h1]
      match q.at' with
      | none => rfl
      | some (row, tx) =>
        dsimp only
        rw [if_neg (fun h => by cases h.2.1)]
        rfl
    have h3 : ({ q.initRegs.load with pseudo := false } : Pic) = q.initRegs.load := by
      rw [← h1]; rfl
    unfold Pic.ask
    rw [h2]
    dsimp only
    rw [if_neg (fun h => by have := h.2; rw [show q.initRegs.load.pseudo = q.pseudo from rfl, h1] at this; cases this), h3, initRegs_load]

/-! ## How long a run can be -/

structure Pic.Ok (p : Pic) : Prop where
  x : p.x < p.xd
  pseudo : p.pseudo = true → p.x = 0

/-- The number of decisions which may come. -/
def Pic.left (p : Pic) : Nat := (p.yd - p.y) * (p.xd + 1) - p.x - (if p.pseudo then 0 else 1)

theorem ask_same (p : Pic) : p.ask.1.xd = p.xd ∧ p.ask.1.yd = p.yd ∧ p.ask.1.x = p.x ∧ p.ask.1.y = p.y ∧ p.ask.1.i = p.i ∧ p.ask.1.l0 = p.l0 ∧ p.ask.1.tpb = p.tpb ∧
    p.ask.1.lntp = p.lntp ∧ p.ask.1.p1 = p.p1 ∧ (p.ask.1.pseudo = true → p.pseudo = true) ∧ (p.tpb = true → p.ask.1.pseudo = p.pseudo) ∧ p.ask.1.rows = p.rows := by
  by_cases h : p.tpb = true ∧ p.pseudo = true
  · have e : p.ask = (p.move, tpCx p.two) := by unfold Pic.ask; exact if_pos h
    rw [e]
    exact ⟨rfl, rfl, rfl, rfl, rfl, rfl, rfl, rfl, rfl, fun h => h, fun _ => rfl, rfl⟩
  · have e : p.ask = (({ p.move with pseudo := false } : Pic).initRegs.load, Fin.ofNat 4096 (({ p.move with pseudo := false } : Pic).initRegs.load).cx) := by
      unfold Pic.ask; exact if_neg h
    rw [e]
    refine ⟨rfl, rfl, rfl, rfl, rfl, rfl, rfl, rfl, rfl, fun h => (by cases h), fun ht => ?_, rfl⟩
    cases hp : p.pseudo with
    | true => exact absurd ⟨ht, hp⟩ h
    | false => rfl

theorem Pic.Ok.ask {p : Pic} (h : p.Ok) : p.ask.1.Ok := by
  obtain ⟨a1, _, a3, _, _, _, _, _, _, a4, _⟩ := ask_same p
  exact ⟨by rw [a1, a3]; exact h.x, fun h' => by rw [a3]; exact h.pseudo (a4 h')⟩

theorem left_ask (p : Pic) : p.ask.1.left ≤ p.left := by
  obtain ⟨a1, a2, a3, a5, _, _, _, _, _, a4, _⟩ := ask_same p
  unfold Pic.left
  rw [a1, a2, a3, a5]
  cases h1 : p.ask.1.pseudo with
  | true => rw [a4 h1]; exact Nat.le_refl _
  | false => cases p.pseudo <;> simp

theorem typical_same (p : Pic) : p.typical.xd = p.xd ∧ p.typical.yd = p.yd ∧ p.typical.x = p.x ∧ p.typical.y = p.y + 1 ∧ p.typical.i = p.i + 1 ∧ p.typical.l0 = p.l0 ∧
    p.typical.pseudo = p.pseudo := by
  unfold Pic.typical
  match p.p1 with
  | none => exact ⟨rfl, rfl, rfl, rfl, rfl, rfl, rfl⟩
  | some q => exact ⟨rfl, rfl, rfl, rfl, rfl, rfl, rfl⟩

theorem feed_ok {p : Pic} (h : p.Ok) (hy : p.y < p.yd) (hp : p.pseudo = true → p.tpb = true) (b : Bool) :
    (p.feed b).Ok ∧ (p.feed b).left + 1 ≤ p.left ∧ (p.feed b).xd = p.xd ∧ (p.feed b).yd = p.yd := by
  have hx := h.x
  have hm : (p.yd - p.y) * (p.xd + 1) = (p.yd - (p.y + 1)) * (p.xd + 1) + (p.xd + 1) := by
    rw [show p.yd - p.y = p.yd - (p.y + 1) + 1 by omega, Nat.add_mul, Nat.one_mul]
  unfold Pic.feed
  by_cases ht : p.tpb = true ∧ p.pseudo = true
  · rw [if_pos ht]
    have hx0 := h.pseudo ht.2
    by_cases hb : (b == p.lntp) = false
    · rw [if_pos hb]
      obtain ⟨t1, t2, t3, t4, _, _, t5⟩ := typical_same { p with lntp := b == p.lntp }
      refine ⟨⟨?_, fun _ => ?_⟩, ?_, t1, t2⟩
      · rw [t1, t3]; exact hx
      · rw [t3]; exact hx0
      · unfold Pic.left
        rw [t1, t2, t3, t4, t5]
        show (p.yd - (p.y + 1)) * (p.xd + 1) - p.x - (if p.pseudo then 0 else 1) + 1 ≤ (p.yd - p.y) * (p.xd + 1) - p.x - (if p.pseudo then 0 else 1)
        rw [hm, ht.2, hx0]
        simp only [if_true]
        omega
    · rw [if_neg hb]
      refine ⟨⟨hx, fun h => (by cases h)⟩, ?_, rfl, rfl⟩
      unfold Pic.left
      show (p.yd - p.y) * (p.xd + 1) - p.x - (if false then 0 else 1) + 1 ≤ (p.yd - p.y) * (p.xd + 1) - p.x - (if p.pseudo then 0 else 1)
      rw [hm, ht.2, hx0]
      simp only [if_true, Bool.false_eq_true, if_false]
      omega
  · rw [if_neg ht]
    have hp' : p.pseudo = false := by
      cases hc : p.pseudo with
      | false => rfl
      | true => exact absurd ⟨hp hc, hc⟩ ht
    by_cases hx' : p.x + 1 = p.xd
    · rw [if_pos hx']
      refine ⟨⟨?_, fun _ => rfl⟩, ?_, rfl, rfl⟩
      · show 0 < p.xd
        omega
      · unfold Pic.left
        show (p.yd - (p.y + 1)) * (p.xd + 1) - 0 - (if true then 0 else 1) + 1 ≤ (p.yd - p.y) * (p.xd + 1) - p.x - (if p.pseudo then 0 else 1)
        rw [hm, hp']
        simp only [if_true, Bool.false_eq_true, if_false]
        omega
    · rw [if_neg hx']
      refine ⟨⟨?_, fun h => ?_⟩, ?_, rfl, rfl⟩
      · show p.x + 1 < p.xd
        omega
      · have : p.pseudo = true := h
        rw [hp'] at this
        cases this
      · unfold Pic.left
        show (p.yd - p.y) * (p.xd + 1) - (p.x + 1) - (if p.pseudo then 0 else 1) + 1 ≤ (p.yd - p.y) * (p.xd + 1) - p.x - (if p.pseudo then 0 else 1)
        rw [hm, hp']
        simp only [Bool.false_eq_true, if_false]
        omega

theorem ask_tpb (p : Pic) : p.ask.1.pseudo = true → p.ask.1.tpb = true := by
  by_cases h : p.tpb = true ∧ p.pseudo = true
  · intro _
    rw [(ask_same p).2.2.2.2.2.2.1]
    exact h.1
  · have e : p.ask = (({ p.move with pseudo := false } : Pic).initRegs.load, Fin.ofNat 4096 (({ p.move with pseudo := false } : Pic).initRegs.load).cx) := by
      unfold Pic.ask; exact if_neg h
    rw [e]
    intro h
    cases h

theorem step_ok {p : Pic} (h : p.Ok) (hy : p.y < p.yd) (b : Bool) :
    (p.ask.1.feed b).Ok ∧ (p.ask.1.feed b).left + 1 ≤ p.left ∧ (p.ask.1.feed b).yd = p.yd := by
  obtain ⟨a1, a2, a3, a5, _, _, _, _, _, a4, _⟩ := ask_same p
  obtain ⟨f1, f2, f3, f4⟩ := feed_ok h.ask (by rw [a2, a5]; exact hy) (ask_tpb p) b
  exact ⟨f1, Nat.le_trans f2 (left_ask p), by rw [f4, a2]⟩

theorem run_cons {p p' : Pic} {x : Cx × Bool} {l : List (Cx × Bool)} (h : p.run (x :: l) = some p') :
    p.i < p.l0 ∧ p.y < p.yd ∧ p.ask.2 = x.1 ∧ (p.ask.1.feed x.2).run l = some p' := by
  rw [Pic.run] at h
  split at h
  · rename_i h'
    exact ⟨h'.1, h'.2.1, h'.2.2, h⟩
  · cases h

theorem run_length (l : List (Cx × Bool)) {p p' : Pic} (h : p.Ok) (hr : p.run l = some p') : l.length ≤ p.left := by
  induction l generalizing p with
  | nil => exact Nat.zero_le _
  | cons x l ih =>
    obtain ⟨_, h2, _, h4⟩ := run_cons hr
    obtain ⟨s1, s2, _⟩ := step_ok h h2 x.2
    have := ih s1 h4
    rw [List.length_cons]
    omega

theorem run_append (l m : List (Cx × Bool)) {p q : Pic} (h : p.run l = some q) : p.run (l ++ m) = q.run m := by
  induction l generalizing p with
  | nil => cases h; rfl
  | cons x l ih =>
    obtain ⟨h1, h2, h3, h4⟩ := run_cons h
    rw [List.cons_append, Pic.run, if_pos ⟨h1, h2, h3⟩, ih h4]

theorem run_yd (l : List (Cx × Bool)) {p p' : Pic} (h : p.Ok) (hr : p.run l = some p') : p'.yd = p.yd ∧ p'.Ok := by
  induction l generalizing p with
  | nil => cases hr; exact ⟨rfl, h⟩
  | cons x l ih =>
    obtain ⟨_, h2, _, h4⟩ := run_cons hr
    obtain ⟨s1, _, s3⟩ := step_ok h h2 x.2
    obtain ⟨i1, i2⟩ := ih s1 h4
    exact ⟨by rw [i1, s3], i2⟩

theorem run_ask {p p' : Pic} {x : Cx × Bool} {l : List (Cx × Bool)} (h : p.run (x :: l) = some p') : p.ask.1.run (x :: l) = some p' := by
  obtain ⟨h1, h2, h3, h4⟩ := run_cons h
  obtain ⟨_, a2, _, a5, a6, a7, _⟩ := ask_same p
  rw [Pic.run, ask_ask, if_pos ⟨by rw [a6, a7]; exact h1, by rw [a2, a5]; exact h2, h3⟩]
  exact h4

/-! ## The loop over the decisions -/

theorem comes_reads {tail : List Nat} {fin : Cx → St} (l : List (Cx × Bool)) {d : Qm.Dec} (h : Comes tail fin d l) (hs : d.Safe) : ∃ R, d.data = stuff R ++ tail := by
  induction l generalizing d with
  | nil => exact ⟨[], h.1⟩
  | cons x l ih =>
    have hd : d.more [] = d := Qm.more_nil d
    obtain ⟨⟨q, h1, h2⟩, _⟩ := h
    obtain ⟨R, hR⟩ := ih h2 (Qm.decodeAgain_safe hs h1)
    have : ∃ R, d.data = stuff R ++ q.data := by
      obtain ⟨d', r, e⟩ := pair_eq (Qm.decode d x.1)
      have hre := (Qm.decode_safe hs x.1).2.1
      have hs' := Qm.decode_safe' hs e
      rw [e] at hre
      cases r with
      | ok b =>
        rw [Qm.decodeAgain_other (fun h => by cases h) e] at h1
        rw [← (Prod.mk.inj h1).1]
        exact hre
      | moreData =>
        rw [Qm.decodeAgain_other (fun h => by cases h) e] at h1
        cases (Prod.mk.inj h1).2
      | marker =>
        obtain ⟨⟨R1, r1, _⟩, _⟩ := hre
        rw [Qm.decodeAgain_marker e] at h1
        have hre' := (Qm.decode_safe hs' x.1).2.1
        rw [h1] at hre'
        obtain ⟨R2, r2⟩ := hre'
        exact ⟨R1 ++ R2, by rw [r1, r2, Qm.stuff_append, List.append_assoc]⟩
    obtain ⟨R', hR'⟩ := this
    exact ⟨R' ++ R, by rw [hR', hR, Qm.stuff_append, List.append_assoc]⟩

theorem pscdLoop_spec (n : Nat) {tail : List Nat} {fin : Cx → St} {d : Qm.Dec} {y : List Nat} {l : List (Cx × Bool)} {p p' : Pic} {yf : Nat}
    (hc : Comes tail fin (d.more y) l) (hs : d.Safe) (hy : ∀ b ∈ y, b < 256) (hok : p.Ok) (hr : (p.upTo yf).run l = some p') (hyf : yf ≤ p.yd)
    (hstop : d.nopadding = false → (p'.upTo p.yd).Stops) (hl : l = [] → d.nopadding = false) (hn : l.length ≤ n) :
    ∃ q d' l', pscdLoop n p d = (q, d') ∧ d'.Safe ∧ (∃ R, d.data = stuff R ++ d'.data) ∧ Comes tail fin (d'.more y) l' ∧ q.Ok ∧ (q.upTo yf).run l' = some p' ∧
      q.yd = p.yd ∧
      ((l' = [] ∧ d.nopadding = false ∧ d'.nopadding = false) ∨ (l' ≠ [] ∧ d'.nopadding = d.nopadding ∧ (d'.data = [] ∨ d'.data = [0xFF])) ∨
        (l' ≠ [] ∧ d'.nopadding = false ∧ d.nopadding = true ∧ ∃ m r, d'.data = 0xFF :: m :: r ∧ m ≠ 0)) := by
  induction n generalizing d l p with
  | zero =>
    obtain rfl : l = [] := List.length_eq_zero_iff.1 (by omega)
    refine ⟨p, d, [], rfl, hs, ⟨[], rfl⟩, hc, hok, hr, rfl, .inl ⟨rfl, hl rfl, hl rfl⟩⟩
  | succ n ih =>
    match l with
    | [] =>
      have hst := hstop (hl rfl)
      have hp : p' = p.upTo yf := by cases hr; rfl
      refine ⟨p, d, [], ?_, hs, ⟨[], rfl⟩, hc, hok, hr, rfl, .inl ⟨rfl, hl rfl, hl rfl⟩⟩
      rw [pscdLoop]
      rw [hp] at hst
      exact if_neg hst
    | x :: l =>
      obtain ⟨r1, r2, r3, r4⟩ := run_cons hr
      rw [ask_upTo] at r3 r4
      have hyy : p.y < p.yd := Nat.lt_of_lt_of_le r2 hyf
      have hgo : p.i < p.l0 ∧ p.y < p.yd := ⟨r1, hyy⟩
      obtain ⟨s1, s2, s3⟩ := step_ok hok hyy x.2
      obtain ⟨d', h1, ⟨R, h2⟩, h3⟩ := comes_step hc hs hy
      have r3' : p.ask.2 = x.1 := r3
      rw [pscdLoop, if_pos hgo, r3']
      rcases h3 with ⟨e, c1, c2, c3⟩ | ⟨e, c1, c2, c3⟩ | ⟨e, c1, c2, c3⟩
      · rw [e]
        have r5 : ((p.ask.1.feed x.2).upTo yf).run l = some p' := by rw [← feed_upTo]; exact r4
        obtain ⟨q, d'', l', k1, k2, ⟨R', k3⟩, k4, k5, k6, k7, k8⟩ := ih c1 h1 s1 r5 (by rw [s3]; exact hyf) (by rw [c2, s3]; exact hstop)
          (by rw [c2]; exact c3) (by rw [List.length_cons] at hn; omega)
        refine ⟨q, d'', l', k1, k2, ⟨R ++ R', ?_⟩, k4, k5, k6, by rw [k7, s3], ?_⟩
        · rw [h2, k3, Qm.stuff_append, List.append_assoc]
        · rw [← c2]
          exact k8
      · rw [e]
        refine ⟨p.ask.1, d', x :: l, rfl, h1, ⟨R, h2⟩, c1, hok.ask, ?_, (ask_same p).2.1, .inr (.inl ⟨List.cons_ne_nil _ _, c2, c3⟩)⟩
        have := run_ask hr
        rw [ask_upTo] at this
        exact this
      · rw [e]
        refine ⟨p.ask.1, d', x :: l, rfl, h1, ⟨R, h2⟩, c1, hok.ask, ?_, (ask_same p).2.1, .inr (.inr ⟨List.cons_ne_nil _ _, Qm.decode_np e, c2, c3⟩)⟩
        have := run_ask hr
        rw [ask_upTo] at this
        exact this

end T85
