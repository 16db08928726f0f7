import Verif.Qm.Props
import Verif.T85.Run

/-!
# The T.85 decoder, and the stream of data in pieces
-/

namespace T85

open Qm (u32 sub32 Cx St stuff Ret Comes comes_step comes_pad comes_start pair_eq InTable)

attribute [local irreducible] Qm.u32 Qm.sub32 Qm.decode Qm.decision Qm.renormd Qm.encodeAll Qm.flush Pic.ask Pic.feed

/-! ## What is to come -/

def atBytes : Option Nat → List Nat
  | none => []
  | some tx => [0xFF, 0x06, 0, 0, 0, 0, tx, 0]

def endBytes (nl : Bool) (yf : Nat) : List Nat := if nl then [0xFF, 0x05] ++ net32 yf ++ [0xFF, 0x02] else []

/-- The picture after the end of a stripe. -/
def Pic.sdn (p : Pic) : Pic := { p with x := 0, i := 0, pseudo := true, at' := none }

def Pic.withAt (p : Pic) (a : Option Nat) : Pic := { p with at' := a.map (fun tx => (0, tx)) }

/-- The stripes to come: for each of them a new offset of the adaptive pixel, and the decisions. -/
def Plan (mx yf : Nat) (nl : Bool) (R : List (List Nat)) : List (Option Nat × List (Cx × Bool)) → Pic → (Cx → St) → List Nat → Prop
  | [], p, _, W => yf ≤ p.y ∧ W = endBytes nl yf ∧ p.rows = R
  | (a, l) :: S, p, st, W => l ≠ [] ∧ p.y < yf ∧ (∀ tx, a = some tx → tx ≤ mx ∧ (tx = 0 ∨ lowTx p.two ≤ tx)) ∧
    ∃ p' rest, W = atBytes a ++ ((Qm.flush (Qm.encodeAll (Qm.encodeRestart st true) l)).out ++ 0xFF :: 0x02 :: rest) ∧
      (p.withAt a).run l = some p' ∧ p'.Stops ∧ (S ≠ [] → p'.l0 ≤ p'.i) ∧ Plan mx yf nl R S p'.sdn (Qm.encodeAll (Qm.encodeRestart st true) l).st rest

theorem net32_bytes (v : Nat) : ∀ b ∈ net32 v, b < 256 := by
  intro b hb
  simp only [net32, List.mem_cons, List.not_mem_nil, or_false] at hb
  rcases hb with rfl | rfl | rfl | rfl <;> omega

theorem get32_net32 {v : Nat} (h : v < 2 ^ 32) (l : List Nat) : get32 (net32 v ++ l) = v := by
  simp only [net32, get32, List.cons_append, List.getD_cons_zero, List.getD_cons_succ]
  omega

theorem endBytes_bytes (nl : Bool) (yf : Nat) : ∀ b ∈ endBytes nl yf, b < 256 := by
  intro b hb
  unfold endBytes at hb
  cases nl with
  | false => simp at hb
  | true =>
    simp only [if_true, List.append_assoc, List.mem_append, List.mem_cons, List.not_mem_nil, or_false] at hb
    rcases hb with (rfl | rfl) | hb | (rfl | rfl)
    · omega
    · omega
    · exact net32_bytes _ b hb
    · omega
    · omega

theorem atBytes_bytes {a : Option Nat} (h : ∀ tx, a = some tx → tx < 256) : ∀ b ∈ atBytes a, b < 256 := by
  intro b hb
  cases a with
  | none => simp [atBytes] at hb
  | some tx =>
    have := h tx rfl
    simp only [atBytes, List.mem_cons, List.not_mem_nil, or_false] at hb
    rcases hb with rfl | rfl | rfl | rfl | rfl | rfl | rfl | rfl <;> omega

theorem plan_bytes {mx yf : Nat} {nl : Bool} {R : List (List Nat)} (hmx : mx < 256) (S : List (Option Nat × List (Cx × Bool))) {p : Pic} {st : Cx → St} (hst : InTable st)
    {W : List Nat} (h : Plan mx yf nl R S p st W) : ∀ b ∈ W, b < 256 := by
  induction S generalizing p st W with
  | nil => rw [h.2.1]; exact endBytes_bytes nl yf
  | cons x S ih =>
    obtain ⟨a, l⟩ := x
    obtain ⟨_, _, ha, p', rest, hW, _, _, _, hp⟩ := h
    have hrest := ih (Qm.encoder_in_table st hst true l) hp
    have hcode := (Qm.no_marker st hst true l).2.2
    rw [hW]
    intro b hb
    rcases List.mem_append.1 hb with hb | hb
    · exact atBytes_bytes (fun tx e => by have := (ha tx e).1; omega) b hb
    · rcases List.mem_append.1 hb with hb | hb
      · exact hcode b hb
      · rcases List.mem_cons.1 hb with rfl | hb
        · omega
        · rcases List.mem_cons.1 hb with rfl | hb
          · omega
          · exact hrest b hb

/-! ## The end of a stripe -/

theorem stuff_marker {R rest V : List Nat} {m c : Nat} (h : stuff R ++ 0xFF :: m :: rest = 0xFF :: c :: V) (hc : c ≠ 0) : R = [] := by
  match R with
  | [] => rfl
  | b :: R =>
    rw [stuff] at h
    split at h
    · rename_i hb
      simp only [List.cons_append, List.cons.injEq] at h
      exact absurd h.2.1.symm hc
    · rename_i hb
      simp only [List.cons_append, List.cons.injEq] at h
      exact absurd h.1 hb

theorem finish_spec {s : Dec} {rest : List Nat} {fin : Cx → St} {l : List (Cx × Bool)} {p' : Pic} {yf : Nat} (hd : s.qm.data = [])
    (hc : Comes (0xFF :: 0x02 :: rest) fin (s.qm.more (0xFF :: 0x02 :: rest)) l) (hs : s.qm.Safe) (hrest : ∀ b ∈ rest, b < 256) (hok : s.pic.Ok)
    (hr : (s.pic.upTo yf).run l = some p') (hyf : yf ≤ s.pic.yd) (hstop : (p'.upTo s.pic.yd).Stops) :
    s.finish 0x02 = { s with qm := Qm.decodeRestart fin true s.vlen [], pic := (p'.upTo s.pic.yd).sdn } := by
  have hb2 : ∀ b ∈ [0xFF, 0x02], b < 256 := by decide
  have hbr : ∀ b ∈ 0xFF :: 0x02 :: rest, b < 256 := by
    intro b hb
    rcases List.mem_cons.1 hb with rfl | hb
    · omega
    · rcases List.mem_cons.1 hb with rfl | hb
      · omega
      · exact hrest b hb
  have hpad : s.qm.pad.Safe := ⟨hs.enough, hs.good, hs.c, hs.ct1, hs.ct2, hs.low, hs.bytes⟩
  have hc2 := comes_pad l hc (hs.more hbr)
  have hc' : Comes (0xFF :: 0x02 :: rest) fin ((s.qm.pad.more [0xFF, 0x02]).more rest) l := by
    have : (s.qm.pad.more [0xFF, 0x02]).more rest = (s.qm.more (0xFF :: 0x02 :: rest)).pad := by
      unfold Qm.Dec.more Qm.Dec.pad
      dsimp only
      rw [List.append_assoc]
      rfl
    rw [this]
    exact hc2
  have hlen : l.length ≤ (s.pic.yd - s.pic.y) * (s.pic.xd + 1) := by
    have h1 := run_length l (p := s.pic.upTo yf) ⟨hok.x, hok.pseudo⟩ hr
    have h2 : (s.pic.upTo yf).left ≤ (yf - s.pic.y) * (s.pic.xd + 1) := by
      unfold Pic.left
      exact Nat.le_trans (Nat.sub_le _ _) (Nat.sub_le _ _)
    have h3 : (yf - s.pic.y) * (s.pic.xd + 1) ≤ (s.pic.yd - s.pic.y) * (s.pic.xd + 1) := Nat.mul_le_mul_right _ (by omega)
    omega
  obtain ⟨q, d', l', e, k2, ⟨R, k3⟩, k4, k5, k6, k7, k8⟩ := pscdLoop_spec _ hc' (hpad.more hb2) hrest hok hr hyf (fun _ => hstop) (fun _ => rfl) hlen
  have k3' : [0xFF, 0x02] = stuff R ++ d'.data := by
    have : (s.qm.pad.more [0xFF, 0x02]).data = s.qm.data ++ [0xFF, 0x02] := rfl
    rw [hd] at this
    rw [← k3, this]
    rfl
  have hl' : l' = [] := by
    rcases k8 with ⟨h, _⟩ | ⟨_, _, h⟩ | ⟨_, _, h, _⟩
    · exact h
    · exfalso
      rcases h with h | h
      · rw [h, List.append_nil] at k3'
        match R with
        | [] => cases k3'
        | b :: R =>
          rw [stuff] at k3'
          split at k3'
          · simp only [List.cons.injEq] at k3'
            exact absurd k3'.2.1 (by decide)
          · rename_i hb
            simp only [List.cons.injEq] at k3'
            exact absurd k3'.1.symm hb
      · rw [h] at k3'
        have := congrArg (fun l => l.getLast?) k3'
        simp at this
    · cases h
  rw [hl'] at k4 k6
  have k4' : d'.st = fin := k4.2
  have hq : q = p'.upTo s.pic.yd := by
    have : q.upTo yf = p' := by
      have := k6
      rw [Pic.run] at this
      exact Option.some.inj this
    rw [← this, ← k7]
    rfl
  have e' : pscdLoop ((s.pic.yd - s.pic.y) * (s.pic.xd + 1)) s.pic { { s.qm with nopadding := false } with data := [0xFF, 0x02] } = (q, d') := by
    rw [← e]
    congr 1
    unfold Qm.Dec.more Qm.Dec.pad
    dsimp only
    rw [hd]
    rfl
  unfold Dec.finish Dec.pscd
  dsimp only
  rw [e']
  dsimp only
  rw [k4', hq]
  rfl

/-! ## The states of the decoder, with the bytes which will come -/

structure Base (mx yf : Nat) (nl : Bool) (s : Dec) : Prop where
  bih : s.bih.length = 20
  eod : s.eod = 0
  comment : s.commentLen = 0
  hmx : s.mx = mx
  hyf : yf ≤ s.pic.yd
  vlen : s.vlen = false → s.pic.yd = yf
  hnl : nl = false → s.pic.yd = yf
  data : s.qm.data = []
  safe : s.qm.Safe
  pic : s.pic.Ok

/-- In front of a new offset of the adaptive pixel. -/
structure Lead (mx yf : Nat) (nl : Bool) (R : List (List Nat)) (s : Dec) (V : List Nat) : Prop where
  base : Base mx yf nl s
  nv : nl = true → s.vlen = true
  plan : ∃ tx l S st, Plan mx yf nl R ((some tx, l) :: S) (s.pic.upTo yf) st (s.mark ++ V) ∧ InTable st ∧ s.qm = Qm.decodeRestart st true s.vlen []
  no : s.pic.at' = none
  marks : ((s.mark = [] ∨ s.mark = [0xFF] ∨ s.mark = [0xFF, 0x06]) ∧ s.needed = 2) ∨ (2 ≤ s.mark.length ∧ s.mark.length < 8 ∧ s.needed = 8)

/-- In the middle of a stripe. -/
structure Core (mx yf : Nat) (nl : Bool) (R : List (List Nat)) (s : Dec) (W : List Nat) : Prop where
  base : Base mx yf nl s
  nv : nl = true → s.vlen = true
  plan : ∃ l S p' fin rest, Comes (0xFF :: 0x02 :: rest) fin (s.qm.more W) l ∧ (s.pic.upTo yf).run l = some p' ∧ p'.Stops ∧
    (S ≠ [] → p'.l0 ≤ p'.i) ∧ Plan mx yf nl R S p'.sdn fin rest ∧ InTable fin ∧ (l = [] → s.qm.nopadding = false) ∧
    (s.qm.nopadding = true ∨ s.vlen = false ∨ W = 0xFF :: 0x02 :: rest)
  np : s.vlen = false → s.qm.nopadding = false
  bytes : ∀ b ∈ W, b < 256

def BodyMarks (s : Dec) : Prop :=
  ((s.mark = [] ∨ s.mark = [0xFF]) ∧ s.needed = 2) ∨ s.vlen = true ∧ ((∃ m, s.mark = [0xFF, m] ∧ s.needed = 2) ∨
    (s.mark = [0xFF, 0x02] ∧ s.needed = 3) ∨ (s.mark = [0xFF, 0x02, 0xFF] ∧ s.needed = 4) ∨
    ((∃ t, s.mark = 0xFF :: 0x02 :: 0xFF :: 0x05 :: t) ∧ s.mark.length < 8 ∧ s.needed = 8))

structure Body (mx yf : Nat) (nl : Bool) (R : List (List Nat)) (s : Dec) (V : List Nat) : Prop where
  core : Core mx yf nl R s (s.mark ++ V)
  marks : BodyMarks s

/-- Behind the new length. -/
structure Tail (yf : Nat) (R : List (List Nat)) (s : Dec) (V : List Nat) : Prop where
  bih : s.bih.length = 20
  eod : s.eod = 0
  comment : s.commentLen = 0
  vlen : s.vlen = false
  y : s.pic.yd ≤ s.pic.y
  rows : s.pic.rows = R
  bytes : s.mark ++ V = [0xFF, 0x02]
  marks : (s.mark = [] ∨ s.mark = [0xFF]) ∧ s.needed = 2

/-- The image is complete. -/
structure Done (R : List (List Nat)) (s : Dec) : Prop where
  y : s.pic.yd ≤ s.pic.y
  rows : s.pic.rows = R

def Inv (mx yf : Nat) (nl : Bool) (R : List (List Nat)) (s : Dec) (V : List Nat) : Prop := Lead mx yf nl R s V ∨ Body mx yf nl R s V ∨ Tail yf R s V

theorem second_byte {m tx : Nat} {V X : List Nat} (h : [0xFF, m] ++ V = atBytes (some tx) ++ X) : m = 0x06 := by
  simp only [atBytes, List.cons_append, List.cons.injEq] at h
  exact h.2.1

/-- The code of a stripe comes. -/
theorem core_start {mx yf : Nat} {nl : Bool} {R : List (List Nat)} {s : Dec} {W rest : List Nat} {l : List (Cx × Bool)} {S : List (Option Nat × List (Cx × Bool))}
    {st : Cx → St} {p' : Pic} (hmx : mx < 256) (hb : Base mx yf nl s) (hnv : nl = true → s.vlen = true) (hl : l ≠ [])
    (hW : W = (Qm.flush (Qm.encodeAll (Qm.encodeRestart st true) l)).out ++ 0xFF :: 0x02 :: rest) (hr : (s.pic.upTo yf).run l = some p') (hstop : p'.Stops)
    (hi : S ≠ [] → p'.l0 ≤ p'.i) (hp : Plan mx yf nl R S p'.sdn (Qm.encodeAll (Qm.encodeRestart st true) l).st rest)
    (hst : InTable st) (hq : s.qm = Qm.decodeRestart st true s.vlen []) (hbytes : ∀ b ∈ W, b < 256) : Core mx yf nl R s W := by
  have hrest := plan_bytes hmx S (Qm.encoder_in_table st hst true l) hp
  obtain ⟨B, b1, b2, b3⟩ := comes_start st hst s.vlen l hl 0x02 (by decide) (by decide) rest hrest
  have hW' : W = stuff B ++ 0xFF :: 0x02 :: rest := by rw [hW, b1]
  refine ⟨hb, hnv, ⟨l, S, p', _, rest, ?_, hr, hstop, hi, hp, Qm.encoder_in_table st hst true l, fun h => absurd h hl, ?_⟩, ?_, hbytes⟩
  · rw [hW', hq]
    exact b3
  · rw [hq]
    cases h : s.vlen with
    | true => exact .inl rfl
    | false => exact .inr (.inl rfl)
  · intro h
    rw [hq, h]
    rfl

/-- The beginning of a stripe. -/
theorem start_spec {mx yf : Nat} {nl : Bool} {R : List (List Nat)} {s : Dec} {V : List Nat} {x : Option Nat × List (Cx × Bool)} {S : List (Option Nat × List (Cx × Bool))}
    {st : Cx → St} (hmx : mx < 256) (hb : Base mx yf nl s) (hnv : nl = true → s.vlen = true) (hp : Plan mx yf nl R (x :: S) (s.pic.upTo yf) st (s.mark ++ V))
    (hst : InTable st) (hq : s.qm = Qm.decodeRestart st true s.vlen []) (hno : s.pic.at' = none)
    (hm : s.needed = 2 ∧ (s.mark = [] ∨ s.mark = [0xFF] ∨ s.vlen = true ∧ ∃ m, s.mark = [0xFF, m])) : Inv mx yf nl R s V := by
  obtain ⟨a, l⟩ := x
  have hbytes := plan_bytes hmx _ hst hp
  cases a with
  | some tx =>
    refine .inl ⟨hb, hnv, ⟨tx, l, S, st, hp, hst, hq⟩, hno, .inl ⟨?_, hm.1⟩⟩
    rcases hm.2 with h | h | ⟨_, m, h⟩
    · exact .inl h
    · exact .inr (.inl h)
    · obtain ⟨_, _, _, _, _, hW, _⟩ := hp
      rw [h] at hW
      rw [h, second_byte hW]
      exact .inr (.inr rfl)
  | none =>
    obtain ⟨hl, hy, _, p', rest, hW, hr, hstop, hi, hp'⟩ := hp
    have hpic : (s.pic.upTo yf).withAt none = s.pic.upTo yf := by
      unfold Pic.withAt Pic.upTo
      dsimp only
      rw [Option.map_none, ← hno]
    rw [hpic] at hr
    rw [show atBytes none = [] from rfl, List.nil_append] at hW
    refine .inr (.inl ⟨core_start hmx hb hnv hl hW hr hstop hi hp' hst hq hbytes, ?_⟩)
    rcases hm.2 with h | h | h
    · exact .inl ⟨.inl h, hm.1⟩
    · exact .inl ⟨.inr h, hm.1⟩
    · obtain ⟨hv, m, h⟩ := h
      exact .inr ⟨hv, .inl ⟨m, h, hm.1⟩⟩

/-- What a round leads to. -/
def Good (mx yf : Nat) (nl : Bool) (R : List (List Nat)) (later : List Nat) (w : Nat) : Act → Prop
  | .again s data => Inv mx yf nl R s (data ++ later) ∧ s.work data < w
  | .stop s r => r = .ok ∧ Done R s ∧ later = []

/-- A stripe is complete: the bytes to come are `rest`. -/
theorem sde_spec {mx yf : Nat} {nl : Bool} {R : List (List Nat)} {s : Dec} {rest later next data : List Nat} {fin : Cx → St} {l : List (Cx × Bool)} {p' : Pic}
    {S : List (Option Nat × List (Cx × Bool))} {w : Nat} (hmx : mx < 256) (hb : Base mx yf nl s) (hnv : nl = true → s.vlen = true)
    (hc : Comes (0xFF :: 0x02 :: rest) fin (s.qm.more (0xFF :: 0x02 :: rest)) l) (hr : (s.pic.upTo yf).run l = some p') (hstop : p'.Stops)
    (hi : S ≠ [] → p'.l0 ≤ p'.i) (hp : Plan mx yf nl R S p'.sdn fin rest) (hfin : InTable fin) (hS : s.vlen = true → S ≠ [])
    (hrest : rest = next ++ (data ++ later)) (hneed : s.needed = 2) (hnext : next = [] ∨ s.vlen = true ∧ ∃ m, next = [0xFF, m])
    (hw : ∀ s' : Dec, s'.needed = 2 → s'.mark = next → s'.work data < w) : Good mx yf nl R later w (s.sde 0x02 next data) := by
  have hrb := plan_bytes hmx S hfin hp
  have hyd : p'.yd = yf := (run_yd l (p := s.pic.upTo yf) ⟨hb.pic.x, hb.pic.pseudo⟩ hr).1
  have hup : (p'.upTo s.pic.yd).Stops := by
    by_cases hS' : S = []
    · have hv : s.vlen = false := by
        cases hv : s.vlen with
        | false => rfl
        | true => exact absurd hS' (hS hv)
      have : p'.upTo s.pic.yd = p' := by
        rw [hb.vlen hv, ← hyd]
        rfl
      rw [this]
      exact hstop
    · have := hi hS'
      intro h
      have h1 : p'.i < p'.l0 := h.1
      omega
  have hfs := finish_spec hb.data hc hb.safe hrb hb.pic hr hb.hyf hup
  have hokp : p'.Ok := (run_yd l (p := s.pic.upTo yf) ⟨hb.pic.x, hb.pic.pseudo⟩ hr).2
  unfold Dec.sde
  rw [hfs]
  dsimp only
  have hupsdn : ((p'.upTo s.pic.yd).sdn).upTo yf = p'.sdn := by
    rw [← hyd]
    rfl
  match S with
  | [] =>
    obtain ⟨h1, h2, h3⟩ := hp
    have hv : s.vlen = false := by
      cases hv : s.vlen with
      | false => rfl
      | true => exact absurd rfl (hS hv)
    have hnl : nl = false := by
      cases h : nl with
      | false => rfl
      | true => rw [hnv h] at hv; cases hv
    have hy : (p'.upTo s.pic.yd).sdn.y ≥ (p'.upTo s.pic.yd).sdn.yd := by
      show s.pic.yd ≤ p'.y
      rw [hb.vlen hv]
      exact h1
    rw [if_pos hy]
    refine ⟨rfl, ⟨hy, h3⟩, ?_⟩
    rw [hnl] at h2
    rw [show endBytes false yf = [] from rfl] at h2
    rw [h2] at hrest
    have := List.append_eq_nil_iff.1 hrest.symm
    exact (List.append_eq_nil_iff.1 this.2).2
  | x :: S =>
    have hylt : p'.sdn.y < yf := by obtain ⟨a, l⟩ := x; exact hp.2.1
    have hy : ¬((p'.upTo s.pic.yd).sdn.y ≥ (p'.upTo s.pic.yd).sdn.yd) := by
      have h1 := hb.hyf
      have h2 : p'.y < yf := hylt
      show ¬(s.pic.yd ≤ p'.y)
      omega
    rw [if_neg hy]
    refine ⟨start_spec hmx (st := fin) ⟨hb.bih, hb.eod, hb.comment, hb.hmx, hb.hyf, hb.vlen, hb.hnl, rfl, Qm.start_safe hfin true s.vlen, ⟨?_, fun _ => rfl⟩⟩ hnv (x := x) (S := S) ?_ hfin rfl rfl ?_, hw _ hneed rfl⟩
    · show 0 < p'.xd
      have := hokp.x
      omega
    · rw [hupsdn]
      show Plan mx yf nl R (x :: S) p'.sdn fin (next ++ (data ++ later))
      rw [← hrest]
      exact hp
    · refine ⟨hneed, ?_⟩
      rcases hnext with h | h
      · exact .inl h
      · exact .inr (.inr h)

theorem pscd_core {mx yf : Nat} {nl : Bool} {R : List (List Nat)} {s : Dec} {X Y : List Nat} (h : Core mx yf nl R s (X ++ Y))
    (hw : ∀ t, X ++ Y ≠ 0xFF :: 0x02 :: t) :
    ∃ q d rest, s.pscd X = ({ s with pic := q, qm := d }, rest) ∧ Core mx yf nl R { s with pic := q, qm := d } (rest ++ Y) ∧ (∃ B, X = stuff B ++ rest) ∧
      (rest = [] ∨ rest = [0xFF] ∨ ∃ t, rest ++ Y = 0xFF :: 0x02 :: t) := by
  obtain ⟨hb, hnv, ⟨l, S, p', fin, rest, hc, hr, hst, hi, hp, hfin, hl, hnp⟩, hnpv, hbytes⟩ := h
  have hX : ∀ b ∈ X, b < 256 := fun b hb => hbytes b (List.mem_append_left _ hb)
  have hY : ∀ b ∈ Y, b < 256 := fun b hb => hbytes b (List.mem_append_right _ hb)
  have hyd : p'.yd = yf := (run_yd l (p := s.pic.upTo yf) ⟨hb.pic.x, hb.pic.pseudo⟩ hr).1
  have hc' : Comes (0xFF :: 0x02 :: rest) fin ((s.qm.more X).more Y) l := by
    have : (s.qm.more X).more Y = s.qm.more (X ++ Y) := by
      unfold Qm.Dec.more
      dsimp only
      rw [List.append_assoc]
    rw [this]
    exact hc
  have hv : s.qm.nopadding = false → s.vlen = false := by
    intro h0
    rcases hnp with h1 | h1 | h1
    · rw [h0] at h1; cases h1
    · exact h1
    · exact absurd h1 (hw rest)
  have hstop : (s.qm.more X).nopadding = false → (p'.upTo s.pic.yd).Stops := by
    intro h0
    have : p'.upTo s.pic.yd = p' := by
      rw [hb.vlen (hv h0), ← hyd]
      rfl
    rw [this]
    exact hst
  have hlen : l.length ≤ (s.pic.yd - s.pic.y) * (s.pic.xd + 1) := by
    have h1 := run_length l (p := s.pic.upTo yf) ⟨hb.pic.x, hb.pic.pseudo⟩ hr
    have h2 : (s.pic.upTo yf).left ≤ (yf - s.pic.y) * (s.pic.xd + 1) := by
      unfold Pic.left
      exact Nat.le_trans (Nat.sub_le _ _) (Nat.sub_le _ _)
    have h3 : (yf - s.pic.y) * (s.pic.xd + 1) ≤ (s.pic.yd - s.pic.y) * (s.pic.xd + 1) := Nat.mul_le_mul_right _ (by have := hb.hyf; omega)
    omega
  obtain ⟨q, d', l', e, k2, ⟨B, k3⟩, k4, k5, k6, k7, k8⟩ := pscdLoop_spec _ hc' (hb.safe.more hX) hY hb.pic hr hb.hyf hstop hl hlen
  have hmX : s.qm.more X = { s.qm with data := X } := by
    unfold Qm.Dec.more
    rw [hb.data]
    rfl
  have k3' : X = stuff B ++ d'.data := by
    rw [hmX] at k3
    exact k3
  have hmore : ∀ z : List Nat, ({ d' with data := [] } : Qm.Dec).more (d'.data ++ z) = d'.more z := fun z => rfl
  have hd'Y := comes_reads l' k4 (k2.more hY)
  refine ⟨q, { d' with data := [] }, d'.data, ?_, ⟨⟨hb.bih, hb.eod, hb.comment, hb.hmx, ?_, ?_, ?_, rfl, ?_, k5⟩, hnv,
    ⟨l', S, p', fin, rest, ?_, k6, hst, hi, hp, hfin, ?_, ?_⟩, ?_, ?_⟩, ⟨B, k3'⟩, ?_⟩
  · unfold Dec.pscd
    dsimp only
    rw [← hmX, e]
  · show yf ≤ q.yd
    rw [k7]
    exact hb.hyf
  · intro h
    show q.yd = yf
    rw [k7]
    exact hb.vlen h
  · intro h
    show q.yd = yf
    rw [k7]
    exact hb.hnl h
  · exact ⟨k2.enough, k2.good, k2.c, k2.ct1, k2.ct2, k2.low, fun b hb => by cases hb⟩
  · show Comes _ fin (({ d' with data := [] } : Qm.Dec).more (d'.data ++ Y)) l'
    rw [hmore]
    exact k4
  · intro hl0
    rcases k8 with ⟨_, _, h⟩ | ⟨h, _⟩ | ⟨h, _⟩
    · exact h
    · exact absurd hl0 h
    · exact absurd hl0 h
  · show d'.nopadding = true ∨ s.vlen = false ∨ d'.data ++ Y = 0xFF :: 0x02 :: rest
    rcases k8 with ⟨_, h, _⟩ | ⟨_, h, _⟩ | ⟨_, _, _, m, r, h1, h2⟩
    · exact .inr (.inl (hv h))
    · rw [h]
      cases h0 : s.qm.nopadding with
      | true => exact .inl h0
      | false => exact .inr (.inl (hv h0))
    · obtain ⟨B', hB'⟩ := hd'Y
      have hB'' : stuff B' ++ 0xFF :: 0x02 :: rest = 0xFF :: m :: (r ++ Y) := by
        rw [← hB']
        show d'.data ++ Y = _
        rw [h1]
        rfl
      have hn := stuff_marker hB'' h2
      rw [hn] at hB'
      exact .inr (.inr hB')
  · intro h
    have h0 := hnpv h
    show d'.nopadding = false
    rcases k8 with ⟨_, _, h⟩ | ⟨_, h, _⟩ | ⟨_, h, _⟩
    · exact h
    · rw [h]; exact h0
    · exact h
  · intro b hb
    rcases List.mem_append.1 hb with hb | hb
    · exact k2.bytes b hb
    · exact hY b hb
  · rcases k8 with ⟨h, _⟩ | ⟨_, _, h⟩ | ⟨_, _, _, m, r, h, h2⟩
    · rw [h] at k4
      exact .inr (.inr ⟨rest, k4.1⟩)
    · rcases h with h | h
      · exact .inl h
      · exact .inr (.inl h)
    · obtain ⟨B', hB'⟩ := hd'Y
      have hB'' : stuff B' ++ 0xFF :: 0x02 :: rest = 0xFF :: m :: (r ++ Y) := by
        rw [← hB']
        show d'.data ++ Y = _
        rw [h]
        rfl
      have hn := stuff_marker hB'' h2
      rw [hn] at hB'
      exact .inr (.inr ⟨rest, hB'⟩)

/-! ## Markers -/

theorem Base.set {mx yf : Nat} {nl : Bool} {s : Dec} (h : Base mx yf nl s) (m : List Nat) (n : Nat) : Base mx yf nl { s with mark := m, needed := n } :=
  ⟨h.bih, h.eod, h.comment, h.hmx, h.hyf, h.vlen, h.hnl, h.data, h.safe, h.pic⟩

theorem Core.set {mx yf : Nat} {nl : Bool} {R : List (List Nat)} {s : Dec} {W : List Nat} (h : Core mx yf nl R s W) (m : List Nat) (n : Nat) :
    Core mx yf nl R { s with mark := m, needed := n } W := ⟨h.base.set m n, h.nv, h.plan, h.np, h.bytes⟩

/-- In front of the marker at the end of a stripe. -/
theorem core_marker {mx yf : Nat} {nl : Bool} {R : List (List Nat)} {s : Dec} {c : Nat} {V : List Nat} (h : Core mx yf nl R s (0xFF :: c :: V)) (hc : c ≠ 0) :
    c = 2 ∧ ∃ l S p' fin, Comes (0xFF :: 0x02 :: V) fin (s.qm.more (0xFF :: 0x02 :: V)) l ∧ (s.pic.upTo yf).run l = some p' ∧ p'.Stops ∧
      (S ≠ [] → p'.l0 ≤ p'.i) ∧ Plan mx yf nl R S p'.sdn fin V ∧ InTable fin := by
  obtain ⟨hb, hnv, ⟨l, S, p', fin, rest, hc', hr, hst, hi, hp, hfin, hl, hnp⟩, hnpv, hbytes⟩ := h
  obtain ⟨B, hB⟩ := comes_reads l hc' (hb.safe.more hbytes)
  have hB' : stuff B ++ 0xFF :: 0x02 :: rest = 0xFF :: c :: V := by
    rw [← hB]
    show s.qm.data ++ _ = _
    rw [hb.data]
    rfl
  have hn := stuff_marker hB' hc
  rw [hn] at hB'
  have h1 := (List.cons.inj hB').2
  have hc2 : c = 2 := (List.cons.inj h1).1.symm
  have hV : rest = V := (List.cons.inj h1).2
  rw [hc2] at hc'
  rw [hV] at hc' hp
  exact ⟨hc2, l, S, p', fin, hc', hr, hst, hi, hp, hfin⟩

theorem code_after {X rest : List Nat} (h : ∀ k, X[k]? = some 0xFF → X[k + 1]? = some 0x00) (a : Option Nat) :
    2 ≤ (atBytes a ++ (X ++ 0xFF :: 0x02 :: rest)).length ∧ ∀ t, atBytes a ++ (X ++ 0xFF :: 0x02 :: rest) ≠ 0xFF :: 0x05 :: t := by
  refine ⟨?_, fun t ht => ?_⟩
  · simp only [List.length_append, List.length_cons]
    omega
  · cases a with
    | some tx =>
      simp only [atBytes, List.cons_append, List.cons.injEq] at ht
      exact absurd ht.2.1 (by decide)
    | none =>
      match X with
      | [] =>
        simp only [atBytes, List.nil_append, List.cons.injEq] at ht
        exact absurd ht.2.1 (by decide)
      | [b] =>
        have := h 0
        simp only [atBytes, List.nil_append, List.cons_append, List.cons.injEq] at ht
        rw [ht.1] at this
        simp at this
      | b :: b' :: X =>
        have := h 0
        simp only [atBytes, List.nil_append, List.cons_append, List.cons.injEq] at ht
        rw [ht.1, ht.2.1] at this
        simp at this

/-- The bytes behind the end of a stripe. -/
theorem plan_bytes_after {mx yf : Nat} {nl : Bool} {R : List (List Nat)} {S : List (Option Nat × List (Cx × Bool))} {p : Pic} {st : Cx → St} (hst : InTable st) {V : List Nat}
    (h : Plan mx yf nl R S p st V) : (S = [] ∧ V = endBytes nl yf) ∨ (S ≠ [] ∧ 2 ≤ V.length ∧ ∀ t, V ≠ 0xFF :: 0x05 :: t) := by
  match S with
  | [] => exact .inl ⟨rfl, h.2.1⟩
  | (a, l) :: S =>
    refine .inr ⟨List.cons_ne_nil _ _, ?_⟩
    obtain ⟨_, _, _, p', rest, hW, _⟩ := h
    rw [hW]
    exact code_after (Qm.no_marker st hst true l).2.1 a

end T85
