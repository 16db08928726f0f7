import Verif.T85.Round

/-!
# The T.85 decoder, given a stream in pieces
-/

namespace T85

open Qm (u32 sub32 Cx St stuff Ret Comes)

attribute [local irreducible] Qm.u32 Qm.sub32 Qm.decode Qm.decision Qm.renormd pscdLoop Qm.flush Qm.encodeAll Qm.encode

/-- The header. -/
def header (xd yd l0 mx : Nat) (tpb vlen two : Bool) : List Nat :=
  [0, 0, 1, 0] ++ net32 xd ++ net32 yd ++ net32 l0 ++ [mx, 0, 0, optionsByte tpb vlen two]

/-- The picture before the first row. -/
def Pic.first (xd yd l0 : Nat) (tpb two : Bool) : Pic :=
  ⟨xd, yd, l0, tpb, two, 0, 0, 0, true, true, 0, none, ⟨0, 0, 0⟩, List.replicate 3 (white xd), 0, none, none, []⟩

/-- What is given to the decoder. -/
structure Sent where
  xd : Nat
  yd : Nat
  l0 : Nat
  mx : Nat
  tpb : Bool
  vlen : Bool
  two : Bool
  maxXd : Nat
  maxYd : Nat
  yf : Nat
  nl : Bool
  R : List (List Nat)
  S : List (Option Nat × List (Cx × Bool))
  W : List Nat

structure Sent.Ok (a : Sent) : Prop where
  x0 : 0 < a.xd
  x1 : a.xd < 2 ^ 32
  mxd : a.maxXd = 0 ∨ a.xd ≤ a.maxXd
  y0 : 0 < a.yf
  y1 : a.yf ≤ a.yd
  y2 : a.yd < 2 ^ 32
  myd : a.maxYd = 0 ∨ a.yd ≤ a.maxYd ∨ a.nl = true ∧ a.yf ≤ a.maxYd
  l0 : 0 < a.l0
  l1 : a.l0 < 2 ^ 32
  mx : a.mx ≤ 127
  nl : a.nl = true → a.vlen = true
  nl' : a.nl = false → a.yd = a.yf
  ne : a.S ≠ []
  plan : Plan a.mx a.yf a.nl a.R a.S (Pic.first a.xd a.yf a.l0 a.tpb a.two) (fun _ => 0) a.W

def Sent.bytes (a : Sent) : List Nat := header a.xd a.yd a.l0 a.mx a.tpb a.vlen a.two ++ a.W

theorem options_bits (tpb vlen two : Bool) : (optionsByte tpb vlen two).testBit 3 = tpb ∧ (optionsByte tpb vlen two).testBit 5 = vlen ∧
    (optionsByte tpb vlen two).testBit 6 = two ∧ optionsByte tpb vlen two &&& 0x97 = 0 := by
  cases tpb <;> cases vlen <;> cases two <;> decide

theorem header_fields {xd yd l0 : Nat} (mx : Nat) (tpb vlen two : Bool) (h1 : xd < 2 ^ 32) (h2 : yd < 2 ^ 32) (h3 : l0 < 2 ^ 32) :
    get32 ((header xd yd l0 mx tpb vlen two).drop 4) = xd ∧ get32 ((header xd yd l0 mx tpb vlen two).drop 8) = yd ∧
    get32 ((header xd yd l0 mx tpb vlen two).drop 12) = l0 :=
  ⟨get32_net32 h1 _, get32_net32 h2 _, get32_net32 h3 _⟩

theorem begin_spec {a : Sent} (ha : a.Ok) : ∃ s, Dec.begin { Dec.init a.maxXd a.maxYd with bih := header a.xd a.yd a.l0 a.mx a.tpb a.vlen a.two } = some s ∧
    Inv a.mx a.yf a.nl a.R s a.W ∧ s.eod = 0 := by
  obtain ⟨f1, f2, f3⟩ := header_fields a.mx a.tpb a.vlen a.two ha.x1 ha.y2 ha.l1
  obtain ⟨o1, o2, o3, o4⟩ := options_bits a.tpb a.vlen a.two
  have g16 : (header a.xd a.yd a.l0 a.mx a.tpb a.vlen a.two).getD 16 0 = a.mx := rfl
  have g19 : (header a.xd a.yd a.l0 a.mx a.tpb a.vlen a.two).getD 19 0 = optionsByte a.tpb a.vlen a.two := rfl
  have hv : a.maxYd ≠ 0 → a.vlen = false → a.yd ≤ a.maxYd := by
    intro h1 h2
    rcases ha.myd with h | h | ⟨h, _⟩
    · exact absurd h h1
    · exact h
    · rw [ha.nl h] at h2
      cases h2
  have ok1 := ha.x0
  have ok2 := ha.mxd
  have ok3 := ha.y0
  have ok4 := ha.y1
  have ok5 := ha.l0
  have ok6 := ha.mx
  unfold Dec.begin
  dsimp only
  rw [f1, f2, f3, g16, g19, o1, o2, o3, o4]
  rw [if_neg (by
    rintro (h | h | h | h | h | h | h | h | h | h | h | h | h)
    · exact h rfl
    · exact h rfl
    · exact h rfl
    · exact h rfl
    · exact h (show 0 / 16 = 0 by decide)
    · exact h rfl
    · omega
    · have : ¬(a.maxXd ≠ 0 ∧ a.xd > a.maxXd) := by omega
      exact this h
    · omega
    · have h' : a.maxYd ≠ 0 ∧ a.vlen = false ∧ a.yd > a.maxYd := h
      have := hv h'.1 h'.2.1
      omega
    · omega
    · omega
    · exact h rfl)]
  have hyd : ∃ ym, (if a.maxYd ≠ 0 ∧ a.yd > a.maxYd then a.maxYd else a.yd) = ym ∧ a.yf ≤ ym ∧ (a.nl = false → ym = a.yf) := by
    refine ⟨_, rfl, ?_⟩
    have := ha.myd
    have := ha.nl'
    split
    · constructor
      · omega
      · intro h
        have h1 := ha.nl' h
        have h2 : ¬(a.nl = true ∧ a.yf ≤ a.maxYd) := by rw [h]; exact fun h => absurd h.1 (by decide)
        omega
    · exact ⟨ok4, ha.nl'⟩
  obtain ⟨ym, e1, e2, e3⟩ := hyd
  refine ⟨_, rfl, ?_, rfl⟩
  rw [show (Dec.init a.maxXd a.maxYd).maxYd = a.maxYd from rfl, e1]
  obtain ⟨x, S, hS⟩ := List.exists_cons_of_ne_nil ha.ne
  have hin : Qm.InTable (fun _ => 0) := by
    intro cx
    show Qm.index 0 < Qm.prob.length
    decide
  have hp := ha.plan
  rw [hS] at hp
  refine start_spec (st := fun _ => 0) (x := x) (S := S) (by omega) ⟨rfl, rfl, rfl, rfl, e2, ?_, e3, rfl, Qm.start_safe hin false a.vlen, ⟨ha.x0, fun _ => rfl⟩⟩ ha.nl hp hin rfl rfl
    ⟨rfl, .inl rfl⟩
  intro h
  have h' : a.vlen = false := h
  refine e3 ?_
  cases hn : a.nl with
  | false => rfl
  | true => rw [ha.nl hn] at h'; cases h'

/-- Nothing of an earlier page matters. -/
theorem begin_any {s : Dec} (he : s.eod = 0) (b : List Nat) : Dec.begin { s with bih := b } = Dec.begin { Dec.init s.maxXd s.maxYd with bih := b } := by
  unfold Dec.begin Dec.init
  dsimp only
  rw [he]

/-- The state between calls. -/
def Before (a : Sent) (s : Dec) (V : List Nat) : Prop :=
  ((s.maxXd = a.maxXd ∧ s.maxYd = a.maxYd ∧ s.eod = 0) ∧ s.bih.length < 20 ∧ s.bih ++ V = a.bytes) ∨ Inv a.mx a.yf a.nl a.R s V

theorem inv_bih {mx yf : Nat} {nl : Bool} {R : List (List Nat)} {s : Dec} {V : List Nat} (h : Inv mx yf nl R s V) : s.bih.length = 20 ∧ s.eod = 0 := by
  rcases h with h | h | h
  · exact ⟨h.base.bih, h.base.eod⟩
  · exact ⟨h.core.base.bih, h.core.base.eod⟩
  · exact ⟨h.bih, h.eod⟩

theorem put_short {s : Dec} {data : List Nat} (hd : data ≠ []) (h1 : s.bih.length < 20) (h2 : (s.bih ++ data.take (20 - s.bih.length)).length < 20) :
    s.put data = ({ s with bih := s.bih ++ data.take (20 - s.bih.length) }, .moreData) := by
  unfold Dec.put
  rw [if_neg (fun h => hd h.1), if_neg (fun h => hd h.1)]
  simp only [if_neg hd]
  rw [if_pos h1, if_pos h2]

theorem put_header {s s' : Dec} {data : List Nat} (hd : data ≠ []) (h1 : s.bih.length < 20) (h2 : ¬(s.bih ++ data.take (20 - s.bih.length)).length < 20)
    (hb : Dec.begin { s with bih := s.bih ++ data.take (20 - s.bih.length) } = some s') :
    s.put data = s'.loop (s'.work (data.drop (20 - s.bih.length))) (data.drop (20 - s.bih.length)) := by
  unfold Dec.put
  rw [if_neg (fun h => hd h.1), if_neg (fun h => hd h.1)]
  simp only [if_neg hd]
  rw [if_pos h1, if_neg h2, hb]

theorem put_body {s : Dec} {data : List Nat} (hd : data ≠ []) (h1 : ¬s.bih.length < 20) : s.put data = s.loop (s.work data) data := by
  unfold Dec.put
  rw [if_neg (fun h => hd h.1), if_neg (fun h => hd h.1)]
  simp only [if_neg hd]
  rw [if_neg h1]

theorem put_spec {a : Sent} (ha : a.Ok) {s : Dec} {data later : List Nat} (h : Before a s (data ++ later)) (hd : data ≠ []) :
    (∃ s', s.put data = (s', .moreData) ∧ Before a s' later) ∨ (∃ s', s.put data = (s', .ok) ∧ Done a.R s' ∧ later = []) := by
  have hmx : a.mx < 256 := by have := ha.mx; omega
  have hyf : a.yf < 2 ^ 32 := by have := ha.y1; have := ha.y2; omega
  have key : ∀ s : Dec, s.eod = 0 → ∀ data, Inv a.mx a.yf a.nl a.R s (data ++ later) →
      (∃ s', s.loop (s.work data) data = (s', .moreData) ∧ Before a s' later) ∨ (∃ s', s.loop (s.work data) data = (s', .ok) ∧ Done a.R s' ∧ later = []) := by
    intro s he data hi
    rcases loop_spec hmx hyf _ hi (Nat.le_refl _) (by omega) with ⟨s', h1, h2⟩ | h
    · exact .inl ⟨s', h1, .inr h2⟩
    · exact .inr h
  rcases h with ⟨hs0, hb, hV⟩ | h
  · have hlen : (header a.xd a.yd a.l0 a.mx a.tpb a.vlen a.two).length = 20 := rfl
    by_cases hl : (s.bih ++ data.take (20 - s.bih.length)).length < 20
    · rw [put_short hd hb hl]
      refine .inl ⟨_, rfl, .inl ⟨hs0, hl, ?_⟩⟩
      have : data.take (20 - s.bih.length) = data := by
        apply List.take_of_length_le
        rw [List.length_append, List.length_take] at hl
        omega
      show s.bih ++ data.take (20 - s.bih.length) ++ later = _
      rw [this, List.append_assoc]
      exact hV
    · have h20 : (s.bih ++ data.take (20 - s.bih.length)).length = 20 := by
        rw [List.length_append, List.length_take] at hl ⊢
        omega
      have hV' : (s.bih ++ data.take (20 - s.bih.length)) ++ (data.drop (20 - s.bih.length) ++ later) = header a.xd a.yd a.l0 a.mx a.tpb a.vlen a.two ++ a.W := by
        rw [List.append_assoc, ← List.append_assoc (data.take _), List.take_append_drop]
        exact hV
      obtain ⟨e1, e2⟩ := List.append_inj hV' (by rw [h20, hlen])
      obtain ⟨s', hs, hi, he⟩ := begin_spec ha
      rw [← e2] at hi
      rw [put_header hd hb hl (by rw [begin_any hs0.2.2, hs0.1, hs0.2.1, e1]; exact hs)]
      exact key s' he _ hi
  · obtain ⟨h1, h2⟩ := inv_bih h
    rw [put_body hd (by omega)]
    exact key s h2 _ h

/-- The end of the data. -/
theorem put_end {a : Sent} (ha : a.Ok) {s : Dec} (h : Before a s []) : ∃ s', s.put [] = (s', .ok) ∧ s'.pic.rows = a.R := by
  have hmx : a.mx < 256 := by have := ha.mx; omega
  rcases h with ⟨_, hb, hV⟩ | h | h | h
  · exfalso
    rw [List.append_nil] at hV
    have : a.bytes.length ≥ 20 := by
      unfold Sent.bytes
      rw [List.length_append]
      exact Nat.le_add_right _ _
    rw [← hV] at this
    omega
  · exfalso
    obtain ⟨hb, hnv, ⟨tx, l, S, st, hp, hst, hq⟩, hno, hmarks⟩ := h
    obtain ⟨_, _, _, p', rest, hW, _⟩ := hp
    have h8 : 8 ≤ (s.mark ++ []).length := by
      rw [hW, List.length_append]
      exact Nat.le_add_right 8 _
    rw [List.append_nil] at h8
    rcases hmarks with ⟨h | h | h, _⟩ | ⟨_, h, _⟩
    · rw [h] at h8; exact absurd h8 (by decide)
    · rw [h] at h8; exact absurd h8 (by decide)
    · rw [h] at h8; exact absurd h8 (by decide)
    · omega
  · obtain ⟨hcore, hmarks⟩ := h
    rw [List.append_nil] at hcore
    -- the mark is the end of the last stripe
    have hm : s.mark = [0xFF, 0x02] ∧ ∃ l p' fin, Comes [0xFF, 0x02] fin (s.qm.more [0xFF, 0x02]) l ∧ (s.pic.upTo a.yf).run l = some p' ∧ p'.Stops ∧
        Plan a.mx a.yf a.nl a.R [] p'.sdn fin [] := by
      have hlong : 2 ≤ s.mark.length := by
        obtain ⟨l, S, p', fin, rest, hc', _⟩ := hcore.plan
        obtain ⟨B, hB⟩ := comes_reads l hc' (hcore.base.safe.more hcore.bytes)
        have : (s.qm.more s.mark).data = s.mark := by
          show s.qm.data ++ _ = _
          rw [hcore.base.data]
          rfl
        rw [this] at hB
        rw [hB, List.length_append]
        show 2 ≤ _ + (rest.length + 1 + 1)
        omega
      have hshape : ∃ c V, s.mark = 0xFF :: c :: V ∧ (c = 2 ∨ V = []) ∧ (V = [] ∨ V = [0xFF] ∨ ∃ t, V = 0xFF :: 0x05 :: t ∧ t.length < 4) := by
        rcases hmarks with ⟨h | h, _⟩ | ⟨_, ⟨m, h, _⟩ | ⟨h, _⟩ | ⟨h, _⟩ | ⟨⟨t, h⟩, h2, _⟩⟩
        · rw [h] at hlong; exact absurd hlong (by decide)
        · rw [h] at hlong; exact absurd hlong (by decide)
        · exact ⟨m, [], h, .inr rfl, .inl rfl⟩
        · exact ⟨2, [], h, .inl rfl, .inl rfl⟩
        · exact ⟨2, [0xFF], h, .inl rfl, .inr (.inl rfl)⟩
        · refine ⟨2, 0xFF :: 0x05 :: t, h, .inl rfl, .inr (.inr ⟨t, rfl, ?_⟩)⟩
          rw [h] at h2
          simp only [List.length_cons] at h2
          omega
      obtain ⟨c, V, hV, hc, hV'⟩ := hshape
      have hcore' := hcore
      rw [hV] at hcore'
      have hc0 : c ≠ 0 := by
        intro h0
        obtain ⟨l, S, p', fin, rest, hc', _⟩ := hcore.plan
        obtain ⟨B, hB⟩ := comes_reads l hc' (hcore.base.safe.more hcore.bytes)
        have : (s.qm.more s.mark).data = s.mark := by
          show s.qm.data ++ _ = _
          rw [hcore.base.data]
          rfl
        rw [this, hV, h0] at hB
        rcases hc with h | h
        · omega
        · rw [h] at hB
          have hl := congrArg List.length hB
          rw [List.length_append] at hl
          have hB0 : B = [] := by
            match B with
            | [] => rfl
            | b :: B =>
              exfalso
              have : 1 ≤ (stuff (b :: B)).length := by
                rw [stuff]
                split <;> simp only [List.length_cons] <;> omega
              simp only [List.length_cons, List.length_nil] at hl
              omega
          rw [hB0] at hB
          simp [stuff] at hB
      obtain ⟨rfl, l, S, p', fin, hcm, hr, hst, hi, hp, hfin⟩ := core_marker hcore' hc0
      have hSV : S = [] ∧ V = [] := by
        rcases plan_bytes_after hfin hp with ⟨h1, h2⟩ | ⟨h1, h2, h3⟩
        · refine ⟨h1, ?_⟩
          cases hn : a.nl with
          | false => rw [hn] at h2; exact h2
          | true =>
            rw [hn] at h2
            have hl : V.length = 8 := by rw [h2]; rfl
            rcases hV' with h | h | ⟨t, h, ht⟩
            · exact h
            · rw [h] at hl; cases hl
            · rw [h] at hl
              simp only [List.length_cons] at hl
              omega
        · exfalso
          rcases hV' with h | h | ⟨t, h, ht⟩
          · rw [h] at h2; exact absurd h2 (by decide)
          · rw [h] at h2; exact absurd h2 (by decide)
          · exact h3 t h
      obtain ⟨rfl, rfl⟩ := hSV
      exact ⟨hV, l, p', fin, hcm, hr, hst, hp⟩
    obtain ⟨hm, l, p', fin, hcm, hr, hst, hp⟩ := hm
    obtain ⟨hp1, hp2, hp3⟩ := hp
    have hnl : a.nl = false := by
      cases h : a.nl with
      | false => rfl
      | true => rw [h] at hp2; cases hp2
    have hyd := hcore.base.hnl hnl
    have hyd' : p'.yd = a.yf := (run_yd l (p := s.pic.upTo a.yf) ⟨hcore.base.pic.x, hcore.base.pic.pseudo⟩ hr).1
    unfold Dec.put
    by_cases hy : s.pic.y ≥ s.pic.yd
    · rw [if_pos ⟨rfl, hy⟩]
      refine ⟨s, rfl, ?_⟩
      match l with
      | [] =>
        have : s.pic.upTo a.yf = p' := Option.some.inj hr
        rw [← hp3, ← this]
        rfl
      | x :: l =>
        exfalso
        unfold Pic.run at hr
        rw [if_neg] at hr
        · cases hr
        · rintro ⟨_, h, _⟩
          have h' : s.pic.y < a.yf := h
          omega
    · rw [if_neg (fun h => hy h.2), if_neg (fun h => by have := hcore.base.eod; omega)]
      simp only [if_pos]
      rw [if_neg (by have := hcore.base.bih; show ¬s.bih.length < 20; omega)]
      rw [work_eq]
      have hround : Dec.round { s with eod := 1 } [] = Dec.sde { s with needed := 2, vlen := false, eod := 2, mark := [] } 2 [] [] := by
        unfold Dec.round
        simp only [if_pos]
        rw [if_neg (by show ¬s.commentLen ≠ 0; rw [hcore.base.comment]; decide), if_pos (by show s.mark ≠ []; rw [hm]; exact List.cons_ne_nil _ _)]
        show (if (s.mark ++ List.take (2 - s.mark.length) []).length < 2 then _ else _) = _
        rw [List.take_nil, List.append_nil, if_neg (by rw [hm]; decide)]
        rw [marker_two (by show s.mark.getD 1 0 = 2; rw [hm]; rfl)]
        unfold Dec.sdMark
        rw [if_pos rfl, List.drop_nil]
      rw [Dec.loop, if_neg (fun h => h.2 rfl), hround]
      unfold Dec.sde
      have hpu : p'.upTo s.pic.yd = p' := by rw [hyd, ← hyd']; rfl
      have hfs := finish_spec (s := { s with needed := 2, vlen := false, eod := 2, mark := [] }) (yf := a.yf) (p' := p') (rest := []) hcore.base.data hcm hcore.base.safe
        (by intro b hb; cases hb) hcore.base.pic hr hcore.base.hyf (by show (p'.upTo s.pic.yd).Stops; rw [hpu]; exact hst)
      rw [hfs]
      dsimp only
      rw [if_pos (by show s.pic.yd ≤ p'.y; rw [hyd]; exact hp1)]
      exact ⟨_, rfl, hp3⟩
  · exfalso
    have := h.bytes
    rw [List.append_nil] at this
    rcases h.marks.1 with h | h <;> rw [h] at this <;> cases this

theorem put_done {R : List (List Nat)} {s : Dec} (h : Done R s) : s.put [] = (s, .ok) := by
  unfold Dec.put
  rw [if_pos ⟨rfl, h.y⟩]

/-- The data in pieces, and what each call says. -/
def Dec.puts (s : Dec) : List (List Nat) → Dec × List Status
  | [] => (s, [])
  | c :: t => (((s.put c).1.puts t).1, (s.put c).2 :: ((s.put c).1.puts t).2)

theorem puts_spec {a : Sent} (ha : a.Ok) (cs : List (List Nat)) {s : Dec} (hne : ∀ c ∈ cs, c ≠ []) (h : Before a s cs.flatten) :
    (∀ r ∈ (s.puts cs).2.dropLast, r = .moreData) ∧ (∀ r ∈ (s.puts cs).2, r = .moreData ∨ r = .ok) ∧
    ((s.puts cs).1.put []).2 = .ok ∧ ((s.puts cs).1.put []).1.pic.rows = a.R := by
  induction cs generalizing s with
  | nil =>
    obtain ⟨s', h1, h2⟩ := put_end ha h
    rw [Dec.puts]
    dsimp only
    rw [h1]
    exact ⟨(by intro r hr; cases hr), (by intro r hr; cases hr), rfl, h2⟩
  | cons c t ih =>
    rw [List.flatten_cons] at h
    have ht : ∀ c ∈ t, c ≠ [] := fun c hc => hne c (List.mem_cons_of_mem _ hc)
    rw [Dec.puts]
    dsimp only
    rcases put_spec ha h (hne c List.mem_cons_self) with ⟨s', e, h'⟩ | ⟨s', e, h', hl⟩
    · rw [e]
      dsimp only
      obtain ⟨i1, i2, i3, i4⟩ := ih ht h'
      refine ⟨?_, ?_, i3, i4⟩
      · intro r hr
        match hq : (s'.puts t).2, i1, hr with
        | [], _, hr => cases hr
        | q :: Q, i1, hr =>
          rw [List.dropLast_cons_of_ne_nil (List.cons_ne_nil _ _)] at hr
          rcases List.mem_cons.1 hr with rfl | hr
          · rfl
          · exact i1 r hr
      · intro r hr
        rcases List.mem_cons.1 hr with rfl | hr
        · exact .inl rfl
        · exact i2 r hr
    · have htn : t = [] := by
        match t, hl, ht with
        | [], _, _ => rfl
        | c :: t, hl, ht =>
          exfalso
          rw [List.flatten_cons] at hl
          exact ht c List.mem_cons_self (List.append_eq_nil_iff.1 hl).1
      rw [e, htn]
      rw [Dec.puts]
      dsimp only
      rw [put_done h']
      refine ⟨?_, ?_, rfl, h'.rows⟩
      · intro r hr
        cases hr
      · intro r hr
        rcases List.mem_cons.1 hr with rfl | hr
        · exact .inr rfl
        · cases hr

end T85
