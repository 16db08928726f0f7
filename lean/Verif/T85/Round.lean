import Verif.T85.Put

/-!
# The rounds of the T.85 decoder
-/

namespace T85

open Qm (u32 sub32 Cx St stuff Ret Comes InTable)

attribute [local irreducible] Qm.u32 Qm.sub32 Qm.decode Qm.decision Qm.renormd Qm.encodeAll Qm.flush Pic.ask Pic.feed Dec.finish Dec.pscd

variable {mx yf : Nat} {nl : Bool} {R : List (List Nat)} {s : Dec} {data later : List Nat} {w : Nat}

theorem work_eq (s : Dec) (data : List Nat) : s.work data = 8 * data.length + 4 * s.mark.length + (8 - s.needed) + 2 := rfl

theorem work_mk {s : Dec} {data : List Nat} {m n : Nat} (h1 : s.mark.length = m) (h2 : s.needed = n) : s.work data = 8 * data.length + 4 * m + (8 - n) + 2 := by
  rw [work_eq, h1, h2]

theorem work_lt {s : Dec} {data : List Nat} {w m n : Nat} (h1 : s.mark.length = m) (h2 : s.needed = n) (h : 8 * data.length + 4 * m + (8 - n) + 2 < w) : s.work data < w := by
  rw [work_mk h1 h2]
  exact h

/-- The end of a stripe, of which the marker is complete. -/
theorem sdMark_two {c : Nat} (hmx : mx < 256) (h : Core mx yf nl R s (0xFF :: c :: (data ++ later))) (hc : c ≠ 0) (hm : s.mark = [0xFF, c]) (hn : s.needed = 2)
    (hw : 8 * data.length + 16 ≤ w) : Good mx yf nl R later w (s.sdMark 0x02 data) := by
  obtain ⟨rfl, l, S, p', fin, hcm, hr, hst, hi, hp, hfin⟩ := core_marker h hc
  unfold Dec.sdMark
  by_cases hv : s.vlen = false
  · rw [if_pos hv]
    refine sde_spec hmx (h.base.set [] s.needed) (fun hnl => by rw [h.nv hnl] at hv; cases hv) hcm hr hst hi hp hfin (fun h' => ?_) rfl hn (.inl rfl) ?_
    · have : s.vlen = true := h'
      rw [hv] at this
      cases this
    · intro s' h1 h2
      rw [work_mk (congrArg List.length h2) h1]
      simp only [List.length_nil]
      omega
  · have hv' : s.vlen = true := by cases h : s.vlen with | true => rfl | false => exact absurd h hv
    rw [if_neg hv]
    dsimp only
    rw [if_pos (by rw [hm]; decide)]
    refine ⟨.inr (.inl ⟨?_, .inr ⟨hv', .inr (.inl ⟨hm, ?_⟩)⟩⟩), ?_⟩
    · show Core mx yf nl R { s with needed := max s.needed 3 } (s.mark ++ (data ++ later))
      rw [hm]
      exact h.set _ _
    · show max s.needed 3 = 3
      rw [hn]
      rfl
    · rw [work_mk (show ({ s with needed := max s.needed 3 } : Dec).mark.length = 2 from congrArg List.length hm) (show max s.needed 3 = 3 by rw [hn]; rfl)]
      omega

theorem sdMark_three {c : Nat} (hmx : mx < 256) (h : Core mx yf nl R s (0xFF :: 0x02 :: c :: (data ++ later))) (hv : s.vlen = true) (hm : s.mark = [0xFF, 0x02, c]) (hn : s.needed = 3)
    (hw : 8 * data.length + 20 ≤ w) : Good mx yf nl R later w (s.sdMark 0x02 data) := by
  obtain ⟨_, l, S, p', fin, hcm, hr, hst, hi, hp, hfin⟩ := core_marker h (by decide)
  have hp2 := plan_bytes_after hfin hp
  have h2 : s.mark.getD 2 0 = c := by rw [hm]; rfl
  have hlen : s.mark.length = 3 := by rw [hm]; rfl
  have hnm : max (max s.needed 3) 4 = 4 := by rw [hn]; rfl
  unfold Dec.sdMark
  rw [if_neg (by rw [hv]; decide)]
  dsimp only
  rw [if_neg (by omega)]
  by_cases hc : c ≠ 0xFF
  · rw [if_pos (by rw [h2]; exact hc)]
    refine sde_spec (S := S) hmx (h.base.set [] 2) h.nv hcm hr hst hi hp hfin (fun _ => ?_) (by rw [h2]; rfl) rfl (.inl rfl) ?_
    · rcases hp2 with ⟨_, h2⟩ | ⟨h2, _⟩
      · exfalso
        unfold endBytes at h2
        cases nl with
        | false => cases h2
        | true =>
          rw [if_pos rfl] at h2
          exact hc (List.cons.inj h2).1
      · exact h2
    · intro s' h1 h2
      rw [work_mk (congrArg List.length h2) h1]
      simp only [List.length_cons, List.length_nil]
      omega
  · have hc' : c = 0xFF := Decidable.byContradiction hc
    rw [if_neg (by rw [h2]; exact hc), if_pos (by omega)]
    rw [hc'] at h hm
    refine ⟨.inr (.inl ⟨?_, .inr ⟨hv, .inr (.inr (.inl ⟨hm, hnm⟩))⟩⟩), ?_⟩
    · show Core mx yf nl R { s with mark := s.mark, needed := _ } (s.mark ++ (data ++ later))
      rw [hm]
      exact h.set _ _
    · rw [work_eq]
      dsimp only
      rw [hlen, hnm]
      omega

theorem sdMark_four {c : Nat} (hmx : mx < 256) (h : Core mx yf nl R s (0xFF :: 0x02 :: 0xFF :: c :: (data ++ later))) (hv : s.vlen = true) (hm : s.mark = [0xFF, 0x02, 0xFF, c])
    (hn : s.needed = 4) (hw : 8 * data.length + 20 ≤ w) : Good mx yf nl R later w (s.sdMark 0x02 data) := by
  obtain ⟨_, l, S, p', fin, hcm, hr, hst, hi, hp, hfin⟩ := core_marker h (by decide)
  have hp2 := plan_bytes_after hfin hp
  have h2 : s.mark.getD 2 0 = 0xFF := by rw [hm]; rfl
  have h3 : s.mark.getD 3 0 = c := by rw [hm]; rfl
  have hlen : s.mark.length = 4 := by rw [hm]; rfl
  have hnm : max (max (max s.needed 3) 4) 8 = 8 := by rw [hn]; rfl
  unfold Dec.sdMark
  rw [if_neg (by rw [hv]; decide)]
  dsimp only
  rw [if_neg (by omega), if_neg (by rw [h2]; decide), if_neg (by omega)]
  by_cases hc : c ≠ 0x05
  · rw [if_pos (by rw [h3]; exact hc)]
    refine sde_spec (S := S) hmx (h.base.set s.mark 2) h.nv hcm hr hst hi hp hfin (fun _ => ?_) (by rw [h3]; rfl) rfl (.inr ⟨hv, _, rfl⟩) ?_
    · rcases hp2 with ⟨_, h2⟩ | ⟨h2, _⟩
      · exfalso
        unfold endBytes at h2
        cases nl with
        | false => cases h2
        | true =>
          rw [if_pos rfl] at h2
          exact hc (List.cons.inj (List.cons.inj h2).2).1
      · exact h2
    · intro s' h1 h2
      rw [work_mk (congrArg List.length h2) h1]
      simp only [List.length_cons, List.length_nil]
      omega
  · have hc' : c = 0x05 := Decidable.byContradiction hc
    rw [if_neg (by rw [h3]; exact hc), if_pos (by omega)]
    rw [hc'] at h hm
    refine ⟨.inr (.inl ⟨?_, .inr ⟨hv, .inr (.inr (.inr ⟨⟨[], hm⟩, (by show s.mark.length < 8; omega), hnm⟩))⟩⟩), ?_⟩
    · show Core mx yf nl R { s with mark := s.mark, needed := _ } (s.mark ++ (data ++ later))
      rw [hm]
      exact h.set _ _
    · rw [work_eq]
      dsimp only
      rw [hlen, hnm]
      omega

/-- The new length. -/
theorem sdMark_eight {t : List Nat} (hmx : mx < 256) (hyf : yf < 2 ^ 32) (h : Core mx yf nl R s (0xFF :: 0x02 :: 0xFF :: 0x05 :: (t ++ (data ++ later)))) (hv : s.vlen = true)
    (hm : s.mark = 0xFF :: 0x02 :: 0xFF :: 0x05 :: t) (ht : t.length = 4) (hw : 8 * data.length + 20 ≤ w) : Good mx yf nl R later w (s.sdMark 0x02 data) := by
  obtain ⟨_, l, S, p', fin, hcm, hr, hst, hi, hp, hfin⟩ := core_marker h (by decide)
  have hrest := plan_bytes hmx S hfin hp
  have h2 : s.mark.getD 2 0 = 0xFF := by rw [hm]; rfl
  have h3 : s.mark.getD 3 0 = 0x05 := by rw [hm]; rfl
  have hlen : s.mark.length = 8 := by rw [hm, List.length_cons, List.length_cons, List.length_cons, List.length_cons, ht]
  have hdrop : s.mark.drop 4 = t := by rw [hm]; rfl
  have hp2 := plan_bytes_after hfin hp
  have hp3 : S = [] ∧ 0xFF :: 0x05 :: (t ++ (data ++ later)) = endBytes nl yf := by
    rcases hp2 with h | ⟨_, _, hV⟩
    · exact h
    · exact absurd rfl (hV _)
  obtain ⟨hS, hV⟩ := hp3
  have hnl : nl = true := by
    cases nl with
    | false => cases hV
    | true => rfl
  rw [hnl] at hV
  have hV' : t ++ (data ++ later) = net32 yf ++ [0xFF, 0x02] := by
    have := (List.cons.inj (List.cons.inj hV).2).2
    exact this
  obtain ⟨ht', hdl⟩ := List.append_inj hV' (by rw [ht]; rfl)
  have hy : get32 (s.mark.drop 4) = yf := by
    rw [hdrop, ht']
    have := get32_net32 hyf []
    rw [List.append_nil] at this
    exact this
  have hyd : p'.yd = yf := (run_yd l (p := s.pic.upTo yf) ⟨h.base.pic.x, h.base.pic.pseudo⟩ hr).1
  unfold Dec.sdMark
  rw [if_neg (by rw [hv]; decide)]
  dsimp only
  rw [if_neg (by omega), if_neg (by rw [h2]; decide), if_neg (by omega), if_neg (by rw [h3]; decide), if_neg (by omega), hy,
    if_neg (Nat.not_lt.2 h.base.hyf)]
  have hpu : (p'.upTo yf) = p' := by rw [← hyd]; rfl
  have hfs := finish_spec (s := { s with needed := 2, mark := [], vlen := false, pic := { s.pic with yd := yf } }) (yf := yf) (p' := p') h.base.data hcm h.base.safe
    hrest ⟨h.base.pic.x, h.base.pic.pseudo⟩ hr (Nat.le_refl _) (by show (p'.upTo yf).Stops; rw [hpu]; exact hst)
  rw [hfs]
  rw [hS] at hp
  refine ⟨.inr (.inr ⟨h.base.bih, h.base.eod, h.base.comment, rfl, ?_, hp.2.2, hdl, .inl rfl, rfl⟩), ?_⟩
  · show yf ≤ p'.y
    exact hp.1
  · rw [work_mk (m := 0) (n := 2) rfl rfl]
    omega

/-! ## A round -/

theorem round_ff (he : s.eod = 0) (hc : s.commentLen = 0) (hm : s.mark = []) : s.round (0xFF :: data) = .again { s with mark := [0xFF] } data := by
  unfold Dec.round
  simp only [if_neg (show ¬s.eod = 1 by omega)]
  rw [if_neg (by rw [hc]; decide), if_neg (by rw [hm]; exact fun h => h rfl)]
  rfl

theorem round_mark (he : s.eod = 0) (hc : s.commentLen = 0) (hm : s.mark ≠ []) :
    s.round data =
      if (s.mark ++ data.take (s.needed - s.mark.length)).length < s.needed then
        .again { s with mark := s.mark ++ data.take (s.needed - s.mark.length) } (data.drop (s.needed - s.mark.length))
      else Dec.marker { s with mark := s.mark ++ data.take (s.needed - s.mark.length) } (data.drop (s.needed - s.mark.length)) := by
  unfold Dec.round
  simp only [if_neg (show ¬s.eod = 1 by omega)]
  rw [if_neg (by rw [hc]; decide), if_pos hm]

theorem round_data {q : Pic} {d : Qm.Dec} {rest : List Nat} {b : Nat} (he : s.eod = 0) (hc : s.commentLen = 0) (hm : s.mark = []) (hb : b ≠ 0xFF)
    (hp : s.pscd (b :: data) = ({ s with pic := q, qm := d }, rest)) (hr : rest = [] ∨ ∃ t, rest = 0xFF :: t) :
    s.round (b :: data) = .again { s with pic := q, qm := d } rest := by
  unfold Dec.round
  simp only [if_neg (show ¬s.eod = 1 by omega)]
  rw [if_neg (by rw [hc]; decide), if_neg (by rw [hm]; exact fun h => h rfl), if_neg (by rw [List.head?_cons]; exact fun h => hb (Option.some.inj h)), hp]
  dsimp only
  rw [if_neg]
  rintro ⟨h1, h2⟩
  rcases hr with h | ⟨t, h⟩
  · exact h1 h
  · rw [h] at h2
    exact h2 rfl

theorem marker_two (hm : s.mark.getD 1 0 = 0x02) : s.marker data = s.sdMark 0x02 data := by
  unfold Dec.marker
  dsimp only
  rw [hm, if_neg (by decide), if_neg (by decide), if_neg (by decide), if_neg (by decide), if_neg (by decide), if_pos (by decide)]

theorem marker_six (hm : s.mark.getD 1 0 = 0x06) : s.marker data = s.atMark data := by
  unfold Dec.marker
  dsimp only
  rw [hm, if_neg (by decide), if_neg (by decide), if_neg (by decide), if_pos (by decide)]

/-- Two bytes are there, of which the first one is 0xFF. -/
theorem body_two {c : Nat} (hmx : mx < 256) (h : Core mx yf nl R s (0xFF :: c :: (data ++ later))) (hm : s.mark = [0xFF, c]) (hn : s.needed = 2)
    (hw : 8 * data.length + 16 ≤ w) : Good mx yf nl R later w (s.marker data) := by
  by_cases hc : c = 0
  · rw [hc] at h hm
    obtain ⟨q, d, rest, e1, e2, ⟨B, e3⟩, e4⟩ := pscd_core (X := [0xFF, 0x00]) (Y := data ++ later) h (fun t ht => by simp at ht)
    have hrest : rest = [] := by
      match hB : B with
      | [] =>
        exfalso
        have : rest = [0xFF, 0x00] := e3.symm
        rw [this] at e4
        rcases e4 with h | h | ⟨t, h⟩
        · cases h
        · cases h
        · simp at h
      | b :: B' =>
        rw [stuff] at e3
        split at e3
        · simp only [List.cons_append, List.cons.injEq] at e3
          have := e3.2.2
          exact (List.append_eq_nil_iff.1 this.symm).2
        · rename_i hb
          simp only [List.cons_append, List.cons.injEq] at e3
          exact absurd e3.1.symm hb
    have hmk : s.marker data = .again { s with pic := q, qm := d, mark := [] } data := by
      unfold Dec.marker
      dsimp only
      rw [if_pos (by rw [hm]; rfl), show s.mark.take 2 = [0xFF, 0x00] by rw [hm]; rfl, e1]
    rw [hmk]
    rw [hrest] at e2
    refine ⟨.inr (.inl ⟨e2.set [] s.needed, .inl ⟨.inl rfl, hn⟩⟩), ?_⟩
    exact work_lt (m := 0) (n := 2) rfl hn (by omega)
  · obtain ⟨rfl, _⟩ := core_marker h hc
    rw [marker_two (by rw [hm]; rfl)]
    exact sdMark_two hmx h hc hm hn hw

theorem round_body (hmx : mx < 256) (hyf : yf < 2 ^ 32) (h : Body mx yf nl R s (data ++ later)) (hd : data ≠ []) : Good mx yf nl R later (s.work data) (s.round data) := by
  obtain ⟨hcore, hmarks⟩ := h
  have he := hcore.base.eod
  have hcm := hcore.base.comment
  obtain ⟨b, t, rfl⟩ := List.exists_cons_of_ne_nil hd
  rcases hmarks with ⟨hm | hm, hn⟩ | ⟨hv, ⟨m, hm, hn⟩ | ⟨hm, hn⟩ | ⟨hm, hn⟩ | ⟨⟨u, hm⟩, hlen, hn⟩⟩
  · rw [work_mk (m := 0) (by rw [hm]; rfl) hn]
    by_cases hb : b = 0xFF
    · rw [hb, round_ff he hcm hm]
      rw [hm, hb] at hcore
      refine ⟨.inr (.inl ⟨hcore.set [0xFF] s.needed, .inl ⟨.inr rfl, hn⟩⟩), ?_⟩
      exact work_lt (m := 1) (n := 2) rfl hn (by rw [List.length_cons]; omega)
    · rw [hm] at hcore
      obtain ⟨q, d, rest, e1, e2, ⟨B, e3⟩, e4⟩ := pscd_core (X := b :: t) (Y := later) hcore (fun t' ht => hb (List.cons.inj ht).1)
      have hr : rest = [] ∨ ∃ t, rest = 0xFF :: t := by
        rcases e4 with h | h | ⟨t', h⟩
        · exact .inl h
        · exact .inr ⟨[], h⟩
        · match rest with
          | [] => exact .inl rfl
          | c :: r => exact .inr ⟨r, by rw [(List.cons.inj h).1]⟩
      rw [round_data he hcm hm hb e1 hr]
      have hlt : rest.length < (b :: t).length := by
        match hB : B with
        | [] =>
          exfalso
          have hbt : b :: t = rest := e3
          rcases hr with h | ⟨t', h⟩
          · rw [h] at hbt; cases hbt
          · rw [h] at hbt; exact hb (List.cons.inj hbt).1
        | b' :: B' =>
          rw [e3, List.length_append, stuff]
          split <;> simp only [List.length_cons] <;> omega
      refine ⟨.inr (.inl ⟨?_, .inl ⟨.inl hm, hn⟩⟩), ?_⟩
      · show Core mx yf nl R { s with pic := q, qm := d } (s.mark ++ (rest ++ later))
        rw [hm]
        exact e2.set [] s.needed
      · exact work_lt (m := 0) (n := 2) (congrArg List.length hm) hn (by omega)
  · rw [work_mk (m := 1) (by rw [hm]; rfl) hn, round_mark he hcm (by rw [hm]; exact List.cons_ne_nil _ _)]
    rw [hm] at hcore
    rw [if_neg (by rw [hm, hn]; exact Nat.lt_irrefl 2)]
    rw [show s.needed - s.mark.length = 1 by rw [hn, hm]; rfl, List.take_succ_cons, List.take_zero, hm, List.drop_succ_cons, List.drop_zero]
    exact body_two hmx (hcore.set _ _) rfl hn (by rw [List.length_cons]; omega)
  · rw [work_mk (m := 2) (by rw [hm]; rfl) hn, round_mark he hcm (by rw [hm]; exact List.cons_ne_nil _ _)]
    rw [hm] at hcore
    rw [show s.needed - s.mark.length = 0 by rw [hn, hm]; rfl, List.take_zero, List.append_nil, List.drop_zero, if_neg (by rw [hm, hn]; exact Nat.lt_irrefl 2)]
    exact body_two hmx (hcore.set _ _) hm hn (by omega)
  · rw [work_mk (m := 2) (by rw [hm]; rfl) hn, round_mark he hcm (by rw [hm]; exact List.cons_ne_nil _ _)]
    rw [hm] at hcore
    rw [if_neg (by rw [hm, hn]; exact Nat.lt_irrefl 3)]
    rw [show s.needed - s.mark.length = 1 by rw [hn, hm]; rfl, List.take_succ_cons, List.take_zero, hm, List.drop_succ_cons, List.drop_zero, marker_two rfl]
    exact sdMark_three hmx (hcore.set _ _) hv rfl hn (by rw [List.length_cons]; omega)
  · rw [work_mk (m := 3) (by rw [hm]; rfl) hn, round_mark he hcm (by rw [hm]; exact List.cons_ne_nil _ _)]
    rw [hm] at hcore
    rw [if_neg (by rw [hm, hn]; exact Nat.lt_irrefl 4)]
    rw [show s.needed - s.mark.length = 1 by rw [hn, hm]; rfl, List.take_succ_cons, List.take_zero, hm, List.drop_succ_cons, List.drop_zero, marker_two rfl]
    exact sdMark_four hmx (hcore.set _ _) hv rfl hn (by rw [List.length_cons]; omega)
  · have hlm : s.mark.length = u.length + 4 := by rw [hm]; rfl
    have hl : 4 ≤ s.mark.length ∧ s.mark.length < 8 := by omega
    rw [round_mark he hcm (by rw [hm]; exact List.cons_ne_nil _ _), work_eq, hn]
    generalize hk : 8 - s.mark.length = k
    have hcore' : Core mx yf nl R s ((s.mark ++ (b :: t).take k) ++ ((b :: t).drop k ++ later)) := by
      rw [List.append_assoc, ← List.append_assoc ((b :: t).take k), List.take_append_drop]
      exact hcore
    generalize hdata : b :: t = data at hcore' hd
    have hlt : (s.mark ++ data.take k).length = s.mark.length + min k data.length := by rw [List.length_append, List.length_take]
    have hdl : data.length ≠ 0 := fun h => hd (List.length_eq_zero_iff.1 h)
    split
    · rename_i hlen'
      refine ⟨.inr (.inl ⟨hcore'.set _ _, .inr ⟨hv, .inr (.inr (.inr ⟨⟨u ++ data.take k, ?_⟩, hlen', rfl⟩))⟩⟩), ?_⟩
      · show s.mark ++ data.take k = _
        rw [hm]
        rfl
      · exact work_lt (m := (s.mark ++ data.take k).length) (n := 8) rfl rfl (by rw [hlt, List.length_drop]; omega)
    · rename_i hlen'
      have hm2 : s.mark ++ data.take k = 0xFF :: 0x02 :: 0xFF :: 0x05 :: (u ++ data.take k) := by rw [hm]; rfl
      rw [marker_two (by show (s.mark ++ data.take k).getD 1 0 = _; rw [hm2]; rfl)]
      refine sdMark_eight hmx hyf (t := u ++ data.take k) ?_ hv hm2 ?_ ?_
      · have := hcore'.set (s.mark ++ data.take k) 8
        rw [hm2] at this ⊢
        exact this
      · rw [List.length_append, List.length_take]
        omega
      · rw [List.length_drop]
        omega

/-! ## In front of the new offset of the adaptive pixel -/

theorem prefix_second {X V : List Nat} {b c : Nat} {tx : Nat} (h : b :: c :: V = atBytes (some tx) ++ X) : b = 0xFF ∧ c = 0x06 := by
  simp only [atBytes, List.cons_append, List.cons.injEq] at h
  exact ⟨h.1, h.2.1⟩

theorem prefix_first {X V : List Nat} {b : Nat} {tx : Nat} (h : b :: V = atBytes (some tx) ++ X) : b = 0xFF := by
  simp only [atBytes, List.cons_append, List.cons.injEq] at h
  exact h.1

theorem prefix_eight {X M V : List Nat} {tx : Nat} (h : M ++ V = atBytes (some tx) ++ X) (hM : M.length = 8) : M = atBytes (some tx) ∧ V = X :=
  List.append_inj h (by rw [hM]; rfl)

theorem prefix_two {X M V : List Nat} {tx : Nat} (h : M ++ V = atBytes (some tx) ++ X) (hM : 2 ≤ M.length) : M.getD 1 0 = 0x06 := by
  match M with
  | [] => simp at hM
  | [_] => simp at hM
  | b :: c :: M => exact (prefix_second h).2

theorem at_bytes (tx : Nat) : (get32 ((atBytes (some tx)).drop 2), (atBytes (some tx)).getD 6 0) = (0, tx) := by
  simp only [atBytes, get32, List.drop_succ_cons, List.drop_zero, List.getD_cons_zero, List.getD_cons_succ, Nat.zero_mul, Nat.add_zero]

/-- The marker is complete. -/
theorem lead_eight {tx : Nat} {l : List (Cx × Bool)} {S : List (Option Nat × List (Cx × Bool))} {st : Cx → St} (hmx : mx < 256) (hb : Base mx yf nl s)
    (hnv : nl = true → s.vlen = true) (hp : Plan mx yf nl R ((some tx, l) :: S) (s.pic.upTo yf) st (s.mark ++ (data ++ later))) (hst : InTable st)
    (hq : s.qm = Qm.decodeRestart st true s.vlen []) (hno : s.pic.at' = none) (hm : s.mark.length = 8) (hw : 8 * data.length + 8 < w) :
    Good mx yf nl R later w (s.marker data) := by
  have hbytes := plan_bytes hmx _ hst hp
  obtain ⟨hl, hy, hat, p', rest, hW, hr, hstop, hi, hp'⟩ := hp
  obtain ⟨e1, e2⟩ := prefix_eight hW hm
  obtain ⟨t1, t2⟩ := hat tx rfl
  rw [marker_six (by rw [e1]; rfl)]
  unfold Dec.atMark
  dsimp only
  rw [if_neg (by omega), if_neg (by rw [hno]; decide)]
  rw [if_neg (by
    rw [e1, hb.hmx]
    show ¬(tx > mx ∨ (tx > 0 ∧ tx < lowTx s.pic.two) ∨ 0 ≠ 0)
    have t2' : tx = 0 ∨ lowTx s.pic.two ≤ tx := t2
    omega)]
  refine ⟨.inr (.inl ⟨core_start hmx ⟨hb.bih, hb.eod, hb.comment, hb.hmx, hb.hyf, hb.vlen, hb.hnl, hb.data, hb.safe, ⟨hb.pic.x, hb.pic.pseudo⟩⟩ hnv hl ?_ ?_ hstop hi hp' hst hq ?_, .inl ⟨.inl rfl, rfl⟩⟩), ?_⟩
  · show [] ++ (data ++ later) = _
    rw [List.nil_append, e2]
  · rw [← hr]
    show Pic.run { s.pic.upTo yf with at' := some (get32 (s.mark.drop 2), s.mark.getD 6 0) } l = _
    rw [e1, at_bytes tx]
    rfl
  · intro b hbm
    exact hbytes b (List.mem_append_right _ hbm)
  · exact work_lt (m := 0) (n := 2) rfl rfl (by omega)

/-- Two or more bytes are there. -/
theorem lead_two {tx : Nat} {l : List (Cx × Bool)} {S : List (Option Nat × List (Cx × Bool))} {st : Cx → St} (hb : Base mx yf nl s)
    (hnv : nl = true → s.vlen = true) (hp : Plan mx yf nl R ((some tx, l) :: S) (s.pic.upTo yf) st (s.mark ++ (data ++ later))) (hst : InTable st)
    (hq : s.qm = Qm.decodeRestart st true s.vlen []) (hno : s.pic.at' = none) (hm : s.mark.length = 2) (hw : 8 * data.length + 16 ≤ w) :
    Good mx yf nl R later w (s.marker data) := by
  have hW : ∃ X, s.mark ++ (data ++ later) = atBytes (some tx) ++ X := by
    obtain ⟨_, _, _, p', rest, hW, _⟩ := hp
    exact ⟨_, hW⟩
  obtain ⟨X, hW⟩ := hW
  rw [marker_six (prefix_two hW (by omega))]
  unfold Dec.atMark
  dsimp only
  rw [if_pos (by omega)]
  refine ⟨.inl ⟨hb.set s.mark 8, hnv, ⟨tx, l, S, st, hp, hst, hq⟩, hno, .inr ⟨?_, ?_, rfl⟩⟩, ?_⟩
  · show 2 ≤ s.mark.length
    omega
  · show s.mark.length < 8
    omega
  · exact work_lt (m := 2) (n := 8) hm rfl (by omega)

theorem round_lead (hmx : mx < 256) (h : Lead mx yf nl R s (data ++ later)) (hd : data ≠ []) : Good mx yf nl R later (s.work data) (s.round data) := by
  obtain ⟨hb, hnv, ⟨tx, l, S, st, hp, hst, hq⟩, hno, hmarks⟩ := h
  have he := hb.eod
  have hcm := hb.comment
  have hW : ∃ X, s.mark ++ (data ++ later) = atBytes (some tx) ++ X := by
    obtain ⟨_, _, _, p', rest, hW, _⟩ := hp
    exact ⟨_, hW⟩
  obtain ⟨X, hW⟩ := hW
  obtain ⟨b, t, rfl⟩ := List.exists_cons_of_ne_nil hd
  rcases hmarks with ⟨hm | hm | hm, hn⟩ | ⟨hl1, hl2, hn⟩
  · rw [work_mk (m := 0) (by rw [hm]; rfl) hn]
    rw [hm] at hW hp
    have hbf : b = 0xFF := prefix_first hW
    rw [hbf] at hp
    rw [hbf, round_ff he hcm hm]
    exact ⟨.inl ⟨hb.set [0xFF] s.needed, hnv, ⟨tx, l, S, st, hp, hst, hq⟩, hno, .inl ⟨.inr (.inl rfl), hn⟩⟩,
      work_lt (m := 1) (n := 2) rfl hn (by rw [List.length_cons]; omega)⟩
  · rw [work_mk (m := 1) (by rw [hm]; rfl) hn, round_mark he hcm (by rw [hm]; exact List.cons_ne_nil _ _)]
    rw [hm] at hp
    rw [if_neg (by rw [hm, hn]; exact Nat.lt_irrefl 2)]
    rw [show s.needed - s.mark.length = 1 by rw [hn, hm]; rfl, List.take_succ_cons, List.take_zero, hm, List.drop_succ_cons, List.drop_zero]
    exact lead_two (hb.set _ _) hnv hp hst hq hno rfl (by rw [List.length_cons]; omega)
  · rw [work_mk (m := 2) (by rw [hm]; rfl) hn, round_mark he hcm (by rw [hm]; exact List.cons_ne_nil _ _)]
    rw [show s.needed - s.mark.length = 0 by rw [hn, hm]; rfl, List.take_zero, List.append_nil, List.drop_zero, if_neg (by rw [hm, hn]; exact Nat.lt_irrefl 2)]
    exact lead_two hb hnv hp hst hq hno (by rw [hm]; rfl) (by omega)
  · have hne : s.mark ≠ [] := fun h => by rw [h] at hl1; exact absurd hl1 (by decide)
    rw [round_mark he hcm hne, work_eq, hn]
    generalize hk : 8 - s.mark.length = k
    have hp' : Plan mx yf nl R ((some tx, l) :: S) (s.pic.upTo yf) st ((s.mark ++ (b :: t).take k) ++ ((b :: t).drop k ++ later)) := by
      rw [List.append_assoc, ← List.append_assoc ((b :: t).take k), List.take_append_drop]
      exact hp
    generalize hdata : b :: t = data at hp' hd
    have hlt : (s.mark ++ data.take k).length = s.mark.length + min k data.length := by rw [List.length_append, List.length_take]
    have hdl : data.length ≠ 0 := fun h => hd (List.length_eq_zero_iff.1 h)
    split
    · rename_i hlen'
      refine ⟨.inl ⟨hb.set _ _, hnv, ⟨tx, l, S, st, hp', hst, hq⟩, hno, .inr ⟨?_, hlen', rfl⟩⟩, ?_⟩
      · show 2 ≤ (s.mark ++ data.take k).length
        omega
      · exact work_lt (m := (s.mark ++ data.take k).length) (n := 8) rfl rfl (by rw [hlt, List.length_drop]; omega)
    · rename_i hlen'
      exact lead_eight hmx (hb.set _ _) hnv hp' hst hq hno (by show (s.mark ++ data.take k).length = 8; omega) (by rw [List.length_drop]; omega)

/-! ## Behind the new length -/

theorem finish_done (hd : s.pic.yd ≤ s.pic.y) : (s.finish 0x02).pic = s.pic.sdn := by
  have hl : ∀ n d, pscdLoop n s.pic d = (s.pic, d) := by
    intro n d
    match n with
    | 0 => rfl
    | n + 1 =>
      rw [pscdLoop, if_neg]
      intro h
      exact absurd h.2 (by omega)
  unfold Dec.finish Dec.pscd
  dsimp only
  rw [hl]
  rfl

theorem round_tail (h : Tail yf R s (data ++ later)) (hd : data ≠ []) : Good mx yf nl R later (s.work data) (s.round data) := by
  obtain ⟨b, t, rfl⟩ := List.exists_cons_of_ne_nil hd
  rcases h.marks with ⟨hm | hm, hn⟩
  · have hb := h.bytes
    rw [hm] at hb
    have hbf : b = 0xFF := (List.cons.inj hb).1
    rw [hbf] at hb
    rw [work_mk (m := 0) (by rw [hm]; rfl) hn, hbf, round_ff h.eod h.comment hm]
    exact ⟨.inr (.inr ⟨h.bih, h.eod, h.comment, h.vlen, h.y, h.rows, hb, .inr rfl, hn⟩), work_lt (m := 1) (n := 2) rfl hn (by rw [List.length_cons]; omega)⟩
  · have hb := h.bytes
    rw [hm] at hb
    have hb2 := (List.cons.inj hb).2
    have hbf : b = 0x02 := (List.cons.inj hb2).1
    have hnil : t ++ later = [] := (List.cons.inj hb2).2
    rw [round_mark h.eod h.comment (by rw [hm]; exact List.cons_ne_nil _ _)]
    rw [if_neg (by rw [hm, hn]; exact Nat.lt_irrefl 2)]
    rw [show s.needed - s.mark.length = 1 by rw [hn, hm]; rfl, List.take_succ_cons, List.take_zero, List.drop_succ_cons, List.drop_zero]
    rw [marker_two (by show (s.mark ++ [b]).getD 1 0 = 2; rw [hm, hbf]; rfl)]
    unfold Dec.sdMark
    rw [if_pos h.vlen]
    unfold Dec.sde
    dsimp only
    have hf := finish_done (s := { s with mark := [] }) h.y
    rw [hf]
    rw [if_pos (show s.pic.sdn.y ≥ s.pic.sdn.yd from h.y)]
    refine ⟨rfl, ⟨?_, ?_⟩, (List.append_eq_nil_iff.1 hnil).2⟩
    · rw [hf]
      exact h.y
    · rw [hf]
      exact h.rows

theorem round_spec (hmx : mx < 256) (hyf : yf < 2 ^ 32) (h : Inv mx yf nl R s (data ++ later)) (hd : data ≠ []) : Good mx yf nl R later (s.work data) (s.round data) := by
  rcases h with h | h | h
  · exact round_lead hmx h hd
  · exact round_body hmx hyf h hd
  · exact round_tail h hd

theorem loop_spec (hmx : mx < 256) (hyf : yf < 2 ^ 32) (n : Nat) (h : Inv mx yf nl R s (data ++ later)) (hn : s.work data ≤ n) (he : s.eod ≠ 1) :
    (∃ s', s.loop n data = (s', .moreData) ∧ Inv mx yf nl R s' later) ∨ (∃ s', s.loop n data = (s', .ok) ∧ Done R s' ∧ later = []) := by
  induction n generalizing s data with
  | zero =>
    rw [work_eq] at hn
    omega
  | succ n ih =>
    rw [Dec.loop]
    by_cases hd : data = []
    · rw [if_pos ⟨hd, he⟩]
      rw [hd] at h
      exact .inl ⟨s, rfl, h⟩
    · rw [if_neg (fun h => hd h.1)]
      have hg := round_spec hmx hyf h hd
      match hr : s.round data with
      | .again s' data' =>
        rw [hr] at hg
        have he' : s'.eod ≠ 1 := by
          rcases hg.1 with h | h | h
          · rw [h.base.eod]; decide
          · rw [h.core.base.eod]; decide
          · rw [h.eod]; decide
        exact ih hg.1 (by have := hg.2; omega) he'
      | .stop s' r =>
        rw [hr] at hg
        obtain ⟨rfl, h2, h3⟩ := hg
        exact .inr ⟨s', rfl, h2, h3⟩

end T85
