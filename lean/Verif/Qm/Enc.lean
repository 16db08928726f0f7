import Verif.Qm.Basic

/-!
# The encoder narrows the interval
-/

namespace Qm

theorem putStuffed_out (s : Enc) (b : Nat) {l : List Nat} (h : s.out = stuff l) : (s.putStuffed b).out = stuff (l ++ [b]) := by
  rw [stuff_append]
  unfold Enc.putStuffed
  by_cases hb : b = 0xFF
  · rw [if_pos hb]
    simp [Enc.put, stuff, hb, h]
  · rw [if_neg hb]
    simp [Enc.put, stuff, hb, h]

theorem putStuffed_rest (s : Enc) (b : Nat) : s.putStuffed b = { s with out := (s.putStuffed b).out } := by
  unfold Enc.putStuffed
  split <;> rfl

theorem out_trans {s q r : Enc} (h1 : q = { s with out := q.out }) (h2 : r = { q with out := r.out }) : r = { s with out := r.out } := by
  cases s; cases q; cases r
  simp only [Enc.mk.injEq, and_true] at h1 h2 ⊢
  obtain ⟨rfl, rfl, rfl, rfl, rfl, rfl⟩ := h1
  exact h2

theorem repeat_rest (s : Enc) (b n : Nat) : Nat.repeat (Enc.putStuffed · b) n s = { s with out := (Nat.repeat (Enc.putStuffed · b) n s).out } := by
  induction n with
  | zero => rfl
  | succ n ih =>
    exact out_trans ih (putStuffed_rest (Nat.repeat (Enc.putStuffed · b) n s) b)

theorem repeat_out (s : Enc) (b n : Nat) {l : List Nat} (h : s.out = stuff l) : (Nat.repeat (Enc.putStuffed · b) n s).out = stuff (l ++ List.replicate n b) := by
  induction n with
  | zero => show s.out = _; simpa using h
  | succ n ih =>
    show (Enc.putStuffed (Nat.repeat (Enc.putStuffed · b) n s) b).out = _
    rw [putStuffed_out _ _ ih, List.replicate_succ', List.append_assoc]

theorem putPending_eq (s : Enc) (b : Nat) : s.putPending b = { s with sc := 0, out := (s.putPending b).out } := by
  unfold Enc.putPending
  conv => lhs; rw [repeat_rest]

theorem putPending_out (s : Enc) (b : Nat) {l : List Nat} (h : s.out = stuff l) : (s.putPending b).out = stuff (l ++ List.replicate s.sc b) :=
  repeat_out s b s.sc h

theorem putBuffer_eq (s : Enc) (k : Nat) : s.putBuffer k = { s with out := (s.putBuffer k).out } := by
  unfold Enc.putBuffer
  split
  · exact putStuffed_rest _ _
  · rfl

theorem putBuffer_out (s : Enc) (k : Nat) {l : List Nat} (h : s.out = stuff l) : (s.putBuffer k).out = stuff (l ++ (s.buffer.map (· + k)).toList) := by
  unfold Enc.putBuffer
  cases hb : s.buffer with
  | none => simpa using h
  | some b => exact putStuffed_out _ _ h

/-- The bytes which have been decided but for a carry. -/
def Enc.pend (s : Enc) (done : List Nat) : List Nat := done ++ s.buffer.toList ++ List.replicate s.sc 0xFF

/-- The registers of the encoder and the interval. -/
structure EncR (s : Enc) (i : Iv) (done : List Nat) : Prop where
  out : s.out = stuff done
  bytes : ∀ b ∈ done, b < 256
  buf : ∀ b, s.buffer = some b → b < 0xFF
  nobuf : s.buffer = none → done = []
  a : s.a = i.a
  st : s.st = i.st
  pos : 1 ≤ i.a
  le : i.a ≤ 0x10000
  ct1 : 1 ≤ s.ct
  ct2 : s.ct ≤ 11
  low : i.low = val (s.pend done) * 2 ^ (27 - s.ct) + s.c
  t : i.t = 27 - s.ct + 8 * (s.pend done).length
  top : s.c + s.a ≤ 9 * 2 ^ (24 - s.ct)
  fit : i.low + i.a ≤ 2 ^ i.t

theorem pow_bound {n k : Nat} (h : n ≤ k) : 2 ^ n ≤ 2 ^ k := Nat.pow_le_pow_right (by decide) h

theorem EncR.c_lt {s : Enc} {i : Iv} {done : List Nat} (h : EncR s i done) : s.c + s.a ≤ 9 * 2 ^ 23 := by
  have h1 := h.top
  have h2 := h.ct1
  have := pow_bound (show 24 - s.ct ≤ 23 by omega)
  omega

theorem u32_eq {x : Nat} (h : x < 2 ^ 32) : u32 x = x := Nat.mod_eq_of_lt h

theorem sub32_eq {x y : Nat} (h : y ≤ x) (h2 : x < 2 ^ 32) : sub32 x y = x - y := by
  unfold sub32
  rw [show x + 2 ^ 32 - y = x - y + 2 ^ 32 by omega, Nat.add_mod_right, Nat.mod_eq_of_lt (by omega)]

/-- The carry goes through the pending bytes. -/
theorem val_carry (done : List Nat) (b n : Nat) :
    val (done ++ [b + 1] ++ List.replicate n 0) = val (done ++ [b] ++ List.replicate n 0xFF) + 1 := by
  rw [val_append, val_append (done ++ [b]), val_append_one, val_append_one, val_zeros, List.length_replicate, List.length_replicate, ← Nat.add_assoc,
    Nat.add_mul _ 1]
  have := val_ones n
  omega

theorem mem_bytes {done : List Nat} (h : ∀ b ∈ done, b < 256) {l : List Nat} (h' : ∀ b ∈ l, b < 256) : ∀ b ∈ done ++ l, b < 256 := by
  intro b hb
  rcases List.mem_append.1 hb with hb | hb
  · exact h b hb
  · exact h' b hb

theorem fit_finer {i : Iv} (h : i.low + i.a ≤ 2 ^ i.t) : (i.finer 1).low + (i.finer 1).a ≤ 2 ^ (i.finer 1).t := by
  simp only [Iv.finer]
  rw [Nat.pow_add]
  omega

/-- A byte goes out. -/
theorem byteout_spec {s : Enc} {done : List Nat} (h1 : s.out = stuff done) (h2 : ∀ b ∈ done, b < 256) (h3 : ∀ b, s.buffer = some b → b < 0xFF)
    (h4 : s.buffer = none → done = []) (h5 : s.c < 9 * 2 ^ 24) (h6 : val (s.pend done) * 2 ^ 27 + s.c < 2 ^ 27 * 256 ^ (s.pend done).length) :
    ∃ done', (byteout s).out = stuff done' ∧ (∀ b ∈ done', b < 256) ∧ (∀ b, (byteout s).buffer = some b → b < 0xFF) ∧
      ((byteout s).buffer = none → done' = []) ∧ ((byteout s).pend done').length = (s.pend done).length + 1 ∧
      val ((byteout s).pend done') = 256 * val (s.pend done) + s.c / 2 ^ 19 ∧
      byteout s = { s with c := s.c % 2 ^ 19, ct := 8, out := (byteout s).out, buffer := (byteout s).buffer, sc := (byteout s).sc } := by
  unfold byteout
  dsimp only
  have htemp : s.c / 2 ^ 19 < 288 := by omega
  generalize htm : s.c / 2 ^ 19 = temp at htemp
  by_cases g1 : temp > 0xFF
  · simp only [if_pos g1]
    cases hb : s.buffer with
    | none =>
      exfalso
      have hd := h4 hb
      have hp : s.pend done = List.replicate s.sc 0xFF := by simp [Enc.pend, hb, hd]
      rw [hp, List.length_replicate] at h6
      have := val_ones s.sc
      rw [Nat.mul_comm (2 ^ 27), ← this] at h6
      omega
    | some b =>
      have hb' := h3 b hb
      have o1 := putBuffer_out s 1 h1
      rw [hb] at o1
      have e1 := putBuffer_eq s 1
      have o2 := putPending_out (s.putBuffer 1) 0 o1
      have e2 := putPending_eq (s.putBuffer 1) 0
      have esc : (s.putBuffer 1).sc = s.sc := by rw [e1]
      rw [esc] at o2
      refine ⟨done ++ [b + 1] ++ List.replicate s.sc 0, o2, ?_, ?_, ?_, ?_, ?_, ?_⟩
      · refine mem_bytes (mem_bytes h2 ?_) ?_
        · intro x hx; rw [List.mem_singleton.1 hx]; omega
        · intro x hx; rw [List.eq_of_mem_replicate hx]; omega
      · intro x hx
        cases hx
        omega
      · intro hx; cases hx
      · simp only [Enc.pend]
        rw [e2]
        simp [hb]
        omega
      · have hp : ({ (s.putBuffer 1).putPending 0 with buffer := some (temp % 256), c := ((s.putBuffer 1).putPending 0).c % 2 ^ 19, ct := 8 } : Enc).pend
            (done ++ [b + 1] ++ List.replicate s.sc 0) = done ++ [b + 1] ++ List.replicate s.sc 0 ++ [temp % 256] := by
          simp only [Enc.pend]
          rw [e2]
          simp
        rw [hp, val_append_one, val_carry]
        simp only [Enc.pend, hb, Option.toList_some]
        omega
      · rw [e2, e1]
  · simp only [if_neg g1]
    by_cases g2 : temp = 0xFF
    · simp only [if_pos g2]
      refine ⟨done, h1, h2, h3, h4, ?_, ?_, by first | rfl | trivial⟩
      · simp [Enc.pend, Nat.add_assoc]
      · show val (done ++ s.buffer.toList ++ List.replicate (s.sc + 1) 0xFF) = _
        rw [List.replicate_succ', ← List.append_assoc, val_append_one, g2]
        rfl
    · simp only [if_neg g2]
      have o1 := putBuffer_out s 0 h1
      have e1 := putBuffer_eq s 0
      have o2 := putPending_out (s.putBuffer 0) 0xFF o1
      have e2 := putPending_eq (s.putBuffer 0) 0xFF
      have esc : (s.putBuffer 0).sc = s.sc := by rw [e1]
      have hmap : (s.buffer.map (· + 0)).toList = s.buffer.toList := by cases s.buffer <;> rfl
      rw [esc, hmap] at o2
      refine ⟨done ++ s.buffer.toList ++ List.replicate s.sc 0xFF, o2, ?_, ?_, ?_, ?_, ?_, ?_⟩
      · refine mem_bytes (mem_bytes h2 ?_) ?_
        · intro x hx
          cases hb : s.buffer with
          | none => rw [hb] at hx; cases hx
          | some b =>
            rw [hb] at hx
            rw [List.mem_singleton.1 hx]
            have := h3 b hb
            omega
        · intro x hx; rw [List.eq_of_mem_replicate hx]; omega
      · intro x hx
        cases hx
        omega
      · intro hx; cases hx
      · simp only [Enc.pend]
        rw [e2]
        simp [Nat.add_assoc]
      · have hp : ({ (s.putBuffer 0).putPending 0xFF with buffer := some temp, c := ((s.putBuffer 0).putPending 0xFF).c % 2 ^ 19, ct := 8 } : Enc).pend
            (done ++ s.buffer.toList ++ List.replicate s.sc 0xFF) = done ++ s.buffer.toList ++ List.replicate s.sc 0xFF ++ [temp] := by
          simp only [Enc.pend]
          rw [e2]
          simp
        rw [hp, val_append_one]
        rfl
      · rw [e2, e1]

/-- One doubling. -/
theorem renormeStep_spec {s : Enc} {i : Iv} {done : List Nat} (h : EncR s i done) (ha : i.a < 0x8000) : ∃ done', EncR (renormeStep s) (i.finer 1) done' := by
  have hc := h.c_lt
  have hc1 := h.ct1
  have hc2 := h.ct2
  have hpos := h.pos
  have hfit := fit_finer h.fit
  have ea := h.a
  have hu1 : u32 (2 * s.a) = 2 * s.a := u32_eq (by omega)
  have hu2 : u32 (2 * s.c) = 2 * s.c := u32_eq (by omega)
  unfold renormeStep
  dsimp only
  rw [hu1, hu2]
  by_cases h1 : s.ct - 1 = 0
  · rw [if_pos h1]
    have hct : s.ct = 1 := by omega
    have hlow := h.low
    have ht := h.t
    have hft := h.fit
    rw [hct] at hlow ht
    have h6 : val (s.pend done) * 2 ^ 27 + 2 * s.c < 2 ^ 27 * 256 ^ (s.pend done).length := by
      rw [ht, Nat.pow_add, Nat.pow_mul] at hft
      simp only [show (2 : Nat) ^ 8 = 256 by decide, show 27 - 1 = 26 by decide] at hft hlow
      omega
    obtain ⟨done', o1, o2, o3, o4, o5, o6, o7⟩ := byteout_spec (s := { s with a := 2 * s.a, c := 2 * s.c, ct := s.ct - 1 }) (done := done) h.out h.bytes h.buf
      h.nobuf (by dsimp only; omega) h6
    rw [show ({ s with a := 2 * s.a, c := 2 * s.c, ct := s.ct - 1 } : Enc).pend done = s.pend done from rfl] at o5 o6
    generalize hq : byteout { s with a := 2 * s.a, c := 2 * s.c, ct := s.ct - 1 } = q at o1 o2 o3 o4 o5 o6 o7
    have qa : q.a = 2 * s.a := by rw [o7]
    have qc : q.c = 2 * s.c % 2 ^ 19 := by rw [o7]
    have qct : q.ct = 8 := by rw [o7]
    have qst : q.st = s.st := by rw [o7]
    refine ⟨done', o1, o2, o3, o4, ?_, qst.trans h.st, ?_, ?_, by omega, by omega, ?_, ?_, ?_, hfit⟩
    · rw [qa, ea]; simp only [Iv.finer]; omega
    · simp only [Iv.finer]; omega
    · simp only [Iv.finer]; omega
    · rw [o6, qct, qc]
      simp only [Iv.finer]
      rw [hlow]
      simp only [show 27 - 1 = 26 by decide, show 27 - 8 = 19 by decide]
      omega
    · rw [o5, qct]
      simp only [Iv.finer]
      omega
    · rw [qct, qc, qa]
      simp only [show 24 - 8 = 16 by decide]
      omega
  · rw [if_neg h1]
    have e27 : 27 - (s.ct - 1) = (27 - s.ct) + 1 := by omega
    have e24 : 24 - (s.ct - 1) = (24 - s.ct) + 1 := by omega
    have hlow := h.low
    have htop := h.top
    have ht := h.t
    refine ⟨done, h.out, h.bytes, h.buf, h.nobuf, ?_, h.st, ?_, ?_, by dsimp only; omega, by dsimp only; omega, ?_, ?_, ?_, hfit⟩
    · simp only [Iv.finer]; omega
    · simp only [Iv.finer]; omega
    · simp only [Iv.finer]; omega
    · simp only [Iv.finer]
      rw [e27, Nat.pow_succ 2 (27 - s.ct), ← Nat.mul_assoc]
      rw [hlow]
      show (val (s.pend done) * 2 ^ (27 - s.ct) + s.c) * 2 ^ 1 = val (s.pend done) * 2 ^ (27 - s.ct) * 2 + 2 * s.c
      omega
    · simp only [Iv.finer]
      rw [e27, ht]
      show 27 - s.ct + 8 * (s.pend done).length + 1 = 27 - s.ct + 1 + 8 * (s.pend done).length
      omega
    · dsimp only
      rw [e24, Nat.pow_succ]
      omega

theorem renorme_spec (n : Nat) {s : Enc} {i : Iv} {done : List Nat} (h : EncR s i done) (ha : i.a < 0x8000) :
    ∃ done', EncR (renorme (n + 1) s) (i.renorm (n + 1)) done' := by
  induction n generalizing s i done with
  | zero =>
    obtain ⟨done', h'⟩ := renormeStep_spec h ha
    refine ⟨done', ?_⟩
    unfold renorme Iv.renorm
    rw [if_pos ha]
    dsimp only
    have e1 : renorme 0 (renormeStep s) = renormeStep s := rfl
    have e2 : (i.finer 1).renorm 0 = i.finer 1 := rfl
    rw [e1, e2, ite_self]
    exact h'
  | succ n ih =>
    obtain ⟨done', h'⟩ := renormeStep_spec h ha
    unfold renorme
    rw [Iv.renorm, if_pos ha]
    dsimp only
    by_cases hlt : (renormeStep s).a < 0x8000
    · rw [if_pos hlt]
      exact ih h' (by rw [← h'.a]; exact hlt)
    · rw [if_neg hlt]
      refine ⟨done', ?_⟩
      rw [Iv.renorm, if_neg (by rw [← h'.a]; exact hlt)]
      exact h'

/-- The selection of a part. -/
theorem EncR.part {s : Enc} {i : Iv} {done : List Nat} (h : EncR s i done) (off a : Nat) (st : Cx → St) (h1 : 1 ≤ a) (h2 : off + a ≤ i.a) :
    EncR { s with a := a, c := s.c + off, st := st } { i with low := i.low + off, a := a, st := st } done := by
  have ea := h.a
  have htop := h.top
  have hfit := h.fit
  have hle := h.le
  have hlow := h.low
  exact ⟨h.out, h.bytes, h.buf, h.nobuf, rfl, rfl, h1, by dsimp only; omega, h.ct1, h.ct2, by
    show i.low + off = val (s.pend done) * 2 ^ (27 - s.ct) + (s.c + off)
    omega, h.t, by dsimp only; omega, by dsimp only; omega⟩

theorem encode_spec {s : Enc} {i : Iv} {done : List Nat} (h : EncR s i done) (hok : i.Ok) (cx : Cx) (pix : Bool) :
    ∃ done', EncR (encode s cx pix) (i.step cx pix) done' := by
  obtain ⟨l1, l2⟩ := (hok.good cx).lsz
  have hlo := hok.lo
  have hhi := hok.hi
  have hc := h.c_lt
  have ea := h.a
  have est : s.st cx = i.st cx := by rw [h.st]
  unfold encode
  rw [est]
  dsimp only
  generalize hq : lsz (i.st cx) = q at l1 l2
  have hsub : sub32 s.a q = i.a - q := by rw [ea]; exact sub32_eq (by omega) (by omega)
  rw [hsub]
  unfold Iv.step Iv.narrow
  dsimp only
  by_cases hp : pix = mps (i.st cx)
  · rw [if_neg (fun hh => hh hp)]
    by_cases hge : i.a - q < 0x8000
    · rw [if_pos hge]
      by_cases hx : i.a - q < q
      · have hpart : Qm.part i.a (i.st cx) pix = (i.a - q, q, afterMps (i.st cx)) := by
          unfold Qm.part
          dsimp only
          rw [hq, if_pos hp, if_neg (by omega), if_pos hx]
        rw [hpart, if_pos hx]
        dsimp only
        rw [u32_eq (by omega), h.st]
        exact renorme_spec 15 (h.part (i.a - q) q _ l1 (by omega)) l2
      · have hpart : Qm.part i.a (i.st cx) pix = (0, i.a - q, afterMps (i.st cx)) := by
          unfold Qm.part
          dsimp only
          rw [hq, if_pos hp, if_neg (by omega), if_neg hx]
        rw [hpart, if_neg hx]
        dsimp only
        rw [h.st]
        exact renorme_spec 15 (h.part 0 (i.a - q) _ (by omega) (by omega)) hge
    · rw [if_neg hge]
      have hpart : Qm.part i.a (i.st cx) pix = (0, i.a - q, i.st cx) := by
        unfold Qm.part
        dsimp only
        rw [hq, if_pos hp, if_pos (by omega)]
      rw [hpart]
      dsimp only
      refine ⟨done, ?_⟩
      have hset : setSt i.st cx (i.st cx) = i.st := by
        funext cy
        unfold setSt
        split
        · rename_i hh; rw [hh]
        · rfl
      rw [hset, Iv.renorm, if_neg (by dsimp only; omega)]
      have := h.part 0 (i.a - q) s.st (by omega) (by omega)
      rw [h.st] at this
      have e : ({ s with a := i.a - q } : Enc) = { s with a := i.a - q, c := s.c + 0, st := i.st } := by rw [← h.st, Nat.add_zero]
      rw [e]
      exact this
  · rw [if_pos hp]
    by_cases hx : i.a - q < q
    · have hpart : Qm.part i.a (i.st cx) pix = (0, i.a - q, afterLps (i.st cx)) := by
        unfold Qm.part
        dsimp only
        rw [hq, if_neg hp, if_pos hx]
      rw [hpart, if_neg (by omega)]
      dsimp only
      rw [h.st]
      exact renorme_spec 15 (h.part 0 (i.a - q) _ (by omega) (by omega)) (by dsimp only; omega)
    · have hpart : Qm.part i.a (i.st cx) pix = (i.a - q, q, afterLps (i.st cx)) := by
        unfold Qm.part
        dsimp only
        rw [hq, if_neg hp, if_neg hx]
      rw [hpart, if_pos (by omega)]
      dsimp only
      rw [u32_eq (by omega), h.st]
      exact renorme_spec 15 (h.part (i.a - q) q _ l1 (by omega)) l2

theorem encodeAll_spec (l : List (Cx × Bool)) {s : Enc} {i : Iv} {done : List Nat} (h : EncR s i done) (hok : i.Ok) :
    ∃ done', EncR (encodeAll s l) (i.steps l) done' := by
  induction l generalizing s i done with
  | nil => exact ⟨done, h⟩
  | cons x l ih =>
    obtain ⟨done', h'⟩ := encode_spec h hok x.1 x.2
    exact ih h' (i.step_ok hok x.1 x.2)

theorem encR_start (st : Cx → St) (reuse : Bool) : EncR (encodeRestart st reuse) (Iv.start (if reuse then st else fun _ => 0)) [] := by
  refine ⟨rfl, by simp, fun b hb => ?_, fun _ => rfl, rfl, rfl, ?_, ?_, ?_, ?_, ?_, ?_, ?_, ?_⟩
  · simp [encodeRestart] at hb
  all_goals simp [encodeRestart, Iv.start, Enc.pend, val]

end Qm
