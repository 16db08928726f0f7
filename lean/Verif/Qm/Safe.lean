import Verif.Qm.Dec

/-!
# The decoder on any data
-/

namespace Qm

attribute [local irreducible] u32 sub32

/-- The registers of a decoder are in range, and the states of its contexts are in the table. -/
structure Dec.Safe (d : Dec) : Prop where
  enough : Enough 17 d.startup d.a
  good : ∀ cx, Good (d.st cx)
  c : d.c < d.a * 2 ^ 16
  ct1 : -1 ≤ d.ct
  ct2 : d.ct ≤ 16
  low : 0 ≤ d.ct → d.c % 2 ^ (16 - d.ct).toNat = 0
  bytes : ∀ b ∈ d.data, b < 256

/-- What a call does to the data: it reads stuffed bytes. It stops in front of a marker, or of what may become a marker. -/
def Reads (data data' : List Nat) (np : Bool) {α : Type} : Ret α → Prop
  | .ok _ => ∃ B, data = stuff B ++ data'
  | .moreData => ∃ B, data = stuff B ++ data' ∧ (data' = [] ∨ data' = [0xFF])
  | .marker => (∃ B, data = stuff B ++ data' ∧ ∃ m rest, data' = 0xFF :: m :: rest ∧ m ≠ 0) ∧ np = true

theorem Reads.more {b : Nat} {l data data' : List Nat} {np : Bool} {α : Type} {r : Ret α} (e : l = stuff [b] ++ data) (h : Reads data data' np r) :
    Reads l data' np r := by
  cases r with
  | ok x => obtain ⟨B, hB⟩ := h; exact ⟨b :: B, by rw [e, hB, ← List.append_assoc, ← stuff_append]; rfl⟩
  | moreData => obtain ⟨B, hB, h⟩ := h; exact ⟨b :: B, by rw [e, hB, ← List.append_assoc, ← stuff_append]; rfl, h⟩
  | marker => obtain ⟨⟨B, hB, h⟩, hn⟩ := h; exact ⟨⟨b :: B, by rw [e, hB, ← List.append_assoc, ← stuff_append]; rfl, h⟩, hn⟩

theorem Reads.trans {data mid data' : List Nat} {np np' : Bool} {α : Type} {r : Ret α} (h1 : ∃ B, data = stuff B ++ mid) (hn : np' = true → np = true)
    (h : Reads mid data' np' r) : Reads data data' np r := by
  obtain ⟨A, e⟩ := h1
  cases r with
  | ok x => obtain ⟨B, hB⟩ := h; exact ⟨A ++ B, by rw [e, hB, ← List.append_assoc, ← stuff_append]⟩
  | moreData => obtain ⟨B, hB, h⟩ := h; exact ⟨A ++ B, by rw [e, hB, ← List.append_assoc, ← stuff_append], h⟩
  | marker => obtain ⟨⟨B, hB, h⟩, hp⟩ := h; exact ⟨⟨A ++ B, by rw [e, hB, ← List.append_assoc, ← stuff_append], h⟩, hn hp⟩

/-- A byte goes into the register, and the bits in the register are not touched. -/
theorem Dec.Safe.byte {d : Dec} (h : d.Safe) (h1 : d.ct ≤ 8) (h2 : d.ct ≥ 0) {b : Nat} (hb : b < 256) {t : List Nat} (ht : ∀ b ∈ t, b < 256) :
    Dec.Safe ⟨d.a, u32 (d.c ||| b * 2 ^ (8 - d.ct).toNat), d.st, d.ct + 8, t, d.startup, d.nopadding⟩ := by
  have hle := h.enough.le
  have hc := h.c
  have hlow := h.low h2
  obtain ⟨ct, hct⟩ := Int.eq_ofNat_of_zero_le h2
  have e8 : (8 - d.ct).toNat = 8 - ct := by omega
  have e16 : (16 - d.ct).toNat = 16 - ct := by omega
  rw [e16] at hlow
  rw [e8]
  have p16 : (2 : Nat) ^ (16 - ct) = 256 * 2 ^ (8 - ct) := by
    rw [show 16 - ct = 8 + (8 - ct) by omega, Nat.pow_add]
  have hx : b * 2 ^ (8 - ct) < 2 ^ (16 - ct) := by
    rw [p16]; exact Nat.mul_lt_mul_of_pos_right hb (Nat.two_pow_pos _)
  rw [or_add hlow hx]
  have hbound : d.c + b * 2 ^ (8 - ct) < d.a * 2 ^ 16 := by
    have e : d.a * 2 ^ 16 = d.a * 2 ^ ct * 2 ^ (16 - ct) := by rw [Nat.mul_assoc, ← Nat.pow_add]; congr 2; omega
    have ec : d.c = d.c / 2 ^ (16 - ct) * 2 ^ (16 - ct) := (Nat.div_mul_cancel (Nat.dvd_of_mod_eq_zero hlow)).symm
    rw [e] at hc ⊢
    have : d.c / 2 ^ (16 - ct) + 1 ≤ d.a * 2 ^ ct := by
      rw [ec] at hc
      exact Nat.lt_of_mul_lt_mul_right hc
    have := Nat.mul_le_mul_right (2 ^ (16 - ct)) this
    rw [Nat.add_mul, ← ec] at this
    omega
  rw [u32_eq (by omega)]
  refine ⟨h.enough, h.good, hbound, by dsimp only; omega, by dsimp only; omega, ?_, ht⟩
  intro _
  dsimp only
  rw [show (16 - (d.ct + 8)).toNat = 8 - ct by omega]
  rw [Nat.add_mod, Nat.mul_mod_left]
  have : d.c % 2 ^ (8 - ct) = 0 := by
    refine Nat.mod_eq_zero_of_dvd (Nat.dvd_trans ⟨256, ?_⟩ (Nat.dvd_of_mod_eq_zero hlow))
    rw [p16, Nat.mul_comm]
  rw [this]
  rfl

theorem fill_safe (n : Nat) {d : Dec} (hn : d.data.length ≤ n) (h : d.Safe) :
    (fill d.a d.c d.st d.ct d.startup d.nopadding d.data).1.Safe ∧
    Reads d.data (fill d.a d.c d.st d.ct d.startup d.nopadding d.data).1.data d.nopadding (fill d.a d.c d.st d.ct d.startup d.nopadding d.data).2 ∧
    (fill d.a d.c d.st d.ct d.startup d.nopadding d.data).1.a = d.a ∧ (fill d.a d.c d.st d.ct d.startup d.nopadding d.data).1.st = d.st ∧
    (fill d.a d.c d.st d.ct d.startup d.nopadding d.data).1.startup = d.startup ∧
    ((fill d.a d.c d.st d.ct d.startup d.nopadding d.data).2 = .ok () → (fill d.a d.c d.st d.ct d.startup d.nopadding d.data).1.ct = -1 ∨
      8 < (fill d.a d.c d.st d.ct d.startup d.nopadding d.data).1.ct) ∧
    ((fill d.a d.c d.st d.ct d.startup d.nopadding d.data).1.nopadding = true → d.nopadding = true) := by
  induction n generalizing d with
  | zero =>
    have hd : d.data = [] := List.length_eq_zero_iff.1 (by omega)
    have h1 := h.ct1
    rw [fill.eq_def, hd]
    by_cases hl : d.ct ≤ 8 ∧ d.ct ≥ 0
    · rw [if_pos hl]
      exact ⟨⟨h.enough, h.good, h.c, h.ct1, h.ct2, h.low, by simp⟩, ⟨[], rfl, .inl rfl⟩, rfl, rfl, rfl, fun h => by (cases h), id⟩
    · rw [if_neg hl]
      exact ⟨⟨h.enough, h.good, h.c, h.ct1, h.ct2, h.low, by simp⟩, ⟨[], rfl⟩, rfl, rfl, rfl, fun _ => by dsimp only; omega, id⟩
  | succ n ih =>
    have h1 := h.ct1
    by_cases hl : d.ct ≤ 8 ∧ d.ct ≥ 0
    · have hbytes := h.bytes
      rw [fill.eq_def, if_pos hl]
      match hd : d.data with
      | [] => exact ⟨⟨h.enough, h.good, h.c, h.ct1, h.ct2, h.low, by simp⟩, ⟨[], rfl, .inl rfl⟩, rfl, rfl, rfl, fun h => by (cases h), id⟩
      | b :: t =>
        rw [hd] at hbytes hn
        dsimp only
        by_cases hff : b = 0xFF
        · rw [if_pos hff]
          match t with
          | [] =>
            subst hff
            exact ⟨⟨h.enough, h.good, h.c, h.ct1, h.ct2, h.low, by simp⟩, ⟨[], rfl, .inr rfl⟩, rfl, rfl, rfl, fun h => by (cases h), id⟩
          | b' :: t' =>
            subst hff
            dsimp only
            by_cases hz : b' = 0x00
            · rw [if_pos hz]
              subst hz
              have hs := h.byte hl.1 hl.2 (b := 0xFF) (by decide) (t := t') (fun b hb => hbytes b (by simp [hb]))
              obtain ⟨g1, g2, g3, g4, g5, g6, g7⟩ := ih (by simp only [List.length_cons] at hn; dsimp only; omega) hs
              exact ⟨g1, Reads.more (b := 0xFF) rfl g2, g3, g4, g5, g6, g7⟩
            · rw [if_neg hz]
              have low' : (0 : Int) ≤ -1 → d.c % 2 ^ (16 - (-1 : Int)).toNat = 0 := fun h => by omega
              cases hnp : d.nopadding with
              | true =>
                rw [if_pos rfl]
                exact ⟨⟨h.enough, h.good, h.c, by dsimp only; omega, by dsimp only; omega, low', hbytes⟩, ⟨⟨[], rfl, b', t', rfl, hz⟩, rfl⟩, rfl, rfl, rfl,
                  fun h => by (cases h), fun h => by (cases h)⟩
              | false =>
                rw [if_neg (by decide)]
                exact ⟨⟨h.enough, h.good, h.c, by dsimp only; omega, by dsimp only; omega, low', hbytes⟩, ⟨[], rfl⟩, rfl, rfl, rfl,
                  fun _ => .inl rfl, id⟩
        · rw [if_neg hff]
          have hs := h.byte hl.1 hl.2 (b := b) (hbytes b (by simp)) (t := t) (fun b hb => hbytes b (by simp [hb]))
          obtain ⟨g1, g2, g3, g4, g5, g6, g7⟩ := ih (by simp only [List.length_cons] at hn; dsimp only; omega) hs
          exact ⟨g1, Reads.more (b := b) (by simp [stuff, hff]) g2, g3, g4, g5, g6, g7⟩
    · rw [fill.eq_def, if_neg hl]
      refine ⟨h, ?_, rfl, rfl, rfl, fun _ => by dsimp only; omega, id⟩
      exact ⟨[], rfl⟩

theorem Dec.Safe.shift {d : Dec} (h : d.Safe) (hl : d.a < 0x8000 ∨ d.startup = true) :
    Dec.Safe ⟨u32 (2 * d.a), u32 (2 * d.c), d.st, if d.ct ≥ 0 then d.ct - 1 else d.ct, d.data, if u32 (2 * d.a) = 0x10000 then false else d.startup, d.nopadding⟩ := by
  have hnx := h.enough.next hl
  have hle := hnx.le
  have hc := h.c
  have h1 := h.ct1
  have h2 := h.ct2
  have e1 : u32 (2 * d.a) = 2 * d.a := u32_eq (by omega)
  have e2 : u32 (2 * d.c) = 2 * d.c := u32_eq (by omega)
  rw [e1, e2]
  refine ⟨hnx.more _ (by omega), h.good, by dsimp only; omega, ?_, ?_, ?_, h.bytes⟩
  · dsimp only; split <;> omega
  · dsimp only; split <;> omega
  · dsimp only
    intro h0
    split at h0
    · rename_i hg
      rw [if_pos hg]
      have hlow := h.low (by omega)
      rw [show (16 - (d.ct - 1)).toNat = (16 - d.ct).toNat + 1 by omega, Nat.pow_succ, Nat.mul_comm _ 2, Nat.mul_mod_mul_left, hlow]
    · omega

/-- The renormalisation ends, with its registers in range. -/
theorem renormd_safe (n : Nat) {d : Dec} (h : d.Safe) (hn : Enough n d.startup d.a) :
    (renormd n d).1.Safe ∧ Reads d.data (renormd n d).1.data d.nopadding (renormd n d).2 ∧ (renormd n d).1.st = d.st ∧
    ((renormd n d).2 = .ok () → (renormd n d).1.startup = false ∧ 0x8000 ≤ (renormd n d).1.a ∧ ((renormd n d).1.ct = -1 ∨ 0 ≤ (renormd n d).1.ct)) ∧
    ((renormd n d).1.nopadding = true → d.nopadding = true) := by
  induction n generalizing d with
  | zero =>
    obtain ⟨z1, z2⟩ := hn.zero
    have := h.ct1
    exact ⟨h, ⟨[], rfl⟩, rfl, fun _ => ⟨z1, z2, by show d.ct = -1 ∨ 0 ≤ d.ct; omega⟩, id⟩
  | succ n ih =>
    rw [renormd]
    by_cases hl : d.a < 0x8000 ∨ d.startup = true
    · rw [if_pos hl]
      obtain ⟨f1, f2, f3, f4, f5, f6, f7⟩ := fill_safe _ (Nat.le_refl _) h
      generalize fill d.a d.c d.st d.ct d.startup d.nopadding d.data = r at *
      obtain ⟨q, r⟩ := r
      dsimp only at *
      cases r with
      | ok x =>
        have hs := f1.shift (by rw [f3, f5]; exact hl)
        have he : Enough n (if u32 (2 * q.a) = 0x10000 then false else q.startup) (u32 (2 * q.a)) := by
          have := h.enough.next hl
          have hle := this.le
          rw [f3, f5, u32_eq (by omega)]
          exact hn.next hl
        obtain ⟨g1, g2, g3, g4, g5⟩ := ih hs he
        exact ⟨g1, g2.trans f2 f7, by rw [g3]; exact f4, g4, fun h => f7 (g5 h)⟩
      | moreData => exact ⟨f1, f2, f4, fun h => (by cases h), f7⟩
      | marker => exact ⟨f1, f2, f4, fun h => (by cases h), f7⟩
    · rw [if_neg hl]
      have := h.ct1
      refine ⟨h, ⟨[], rfl⟩, rfl, fun _ => ⟨?_, by dsimp only; omega, by show d.ct = -1 ∨ 0 ≤ d.ct; omega⟩, id⟩
      cases hs : d.startup with
      | true => exact absurd (.inr hs) hl
      | false => rfl

theorem decision_safe {d : Dec} (h : d.Safe) (h1 : d.startup = false) (h2 : 0x8000 ≤ d.a) (cx : Cx) :
    (decision d cx).1.Safe ∧ (decision d cx).1.data = d.data ∧ (decision d cx).1.nopadding = d.nopadding := by
  have hle := h.enough.le
  have hc := h.c
  have hlow := h.low
  obtain ⟨l1, l2⟩ := (h.good cx).lsz
  have esub : sub32 d.a (lsz (d.st cx)) = d.a - lsz (d.st cx) := sub32_eq (by omega) (by omega)
  have gl := (h.good cx).afterLps
  have gm := (h.good cx).afterMps
  unfold decision
  simp only [esub]
  have hdiv : d.c / 2 ^ 16 ≥ d.a - lsz (d.st cx) ↔ (d.a - lsz (d.st cx)) * 2 ^ 16 ≤ d.c := Nat.le_div_iff_mul_le (by decide)
  generalize lsz (d.st cx) = q at *
  generalize hm : d.a - q = m at *
  have en : ∀ a, 1 ≤ a → a ≤ 0x10000 → Enough 17 d.startup a := fun a ha hb => ⟨ha, by rw [h1, if_neg (by decide)]; omega⟩
  by_cases hup : m * 2 ^ 16 ≤ d.c
  · rw [if_pos (hdiv.2 hup), u32_eq (x := m * 2 ^ 16) (by omega), sub32_eq hup (by omega)]
    have hlow' : 0 ≤ d.ct → (d.c - m * 2 ^ 16) % 2 ^ (16 - d.ct).toNat = 0 := by
      intro h0
      have h16 : (2 : Nat) ^ 16 = 2 ^ d.ct.toNat * 2 ^ (16 - d.ct).toNat := by
        rw [← Nat.pow_add]; congr 1; have := h.ct2; omega
      have d1 := Nat.dvd_of_mod_eq_zero (hlow h0)
      exact Nat.mod_eq_zero_of_dvd (Nat.dvd_sub d1 ⟨m * 2 ^ d.ct.toNat, by rw [h16, ← Nat.mul_assoc, Nat.mul_comm]⟩)
    split
    · exact ⟨⟨en q l1 (by omega), setSt_good h.good cx gm, by dsimp only; omega, h.ct1, h.ct2, hlow', h.bytes⟩, rfl, rfl⟩
    · exact ⟨⟨en q l1 (by omega), setSt_good h.good cx gl, by dsimp only; omega, h.ct1, h.ct2, hlow', h.bytes⟩, rfl, rfl⟩
  · rw [if_neg (fun hh => hup (hdiv.1 hh))]
    split
    · split
      · exact ⟨⟨en m (by omega) (by omega), setSt_good h.good cx gl, Nat.lt_of_not_le hup, h.ct1, h.ct2, h.low, h.bytes⟩, rfl, rfl⟩
      · exact ⟨⟨en m (by omega) (by omega), setSt_good h.good cx gm, Nat.lt_of_not_le hup, h.ct1, h.ct2, h.low, h.bytes⟩, rfl, rfl⟩
    · exact ⟨⟨en m (by omega) (by omega), h.good, Nat.lt_of_not_le hup, h.ct1, h.ct2, h.low, h.bytes⟩, rfl, rfl⟩

theorem decode_ok {d q : Dec} (h : renormd 17 d = (q, .ok ())) (cx : Cx) : decode d cx = ((decision q cx).1, .ok (decision q cx).2) := by
  unfold decode
  rw [h]

theorem decode_moreData {d q : Dec} (h : renormd 17 d = (q, .moreData)) (cx : Cx) : decode d cx = (q, .moreData) := by
  unfold decode
  rw [h]

theorem decode_marker {d q : Dec} (h : renormd 17 d = (q, .marker)) (cx : Cx) : decode d cx = (q, .marker) := by
  unfold decode
  rw [h]

theorem pair_eq {α β : Type} (p : α × β) : ∃ q r, p = (q, r) := ⟨p.1, p.2, rfl⟩

theorem decode_safe {d : Dec} (h : d.Safe) (cx : Cx) :
    (decode d cx).1.Safe ∧ Reads d.data (decode d cx).1.data d.nopadding (decode d cx).2 ∧ ((decode d cx).1.nopadding = true → d.nopadding = true) := by
  have hs := renormd_safe 17 h h.enough
  obtain ⟨q, r, e⟩ := pair_eq (renormd 17 d)
  rw [e] at hs
  obtain ⟨r1, r2, r3, r4, r5⟩ := hs
  cases r with
  | ok x =>
    rw [decode_ok e]
    obtain ⟨z1, z2, _⟩ := r4 rfl
    obtain ⟨s1, s2, s3⟩ := decision_safe r1 z1 z2 cx
    generalize decision q cx = p at *
    obtain ⟨d2, pix⟩ := p
    dsimp only at s1 s2 s3 ⊢
    rw [s2, s3]
    exact ⟨s1, r2, r5⟩
  | moreData => rw [decode_moreData e]; exact ⟨r1, r2, r5⟩
  | marker => rw [decode_marker e]; exact ⟨r1, r2, r5⟩

/-! ## The data in pieces -/

theorem fill_append (n : Nat) (a c : Nat) (st : Cx → St) (ct : Int) (su np : Bool) (x y : List Nat) (hn : x.length ≤ n) :
    ((fill a c st ct su np x).2 ≠ .moreData → fill a c st ct su np (x ++ y) = ((fill a c st ct su np x).1.more y, (fill a c st ct su np x).2)) ∧
    ((fill a c st ct su np x).2 = .moreData → fill a c st ct su np (x ++ y) =
      fill a (fill a c st ct su np x).1.c st (fill a c st ct su np x).1.ct su np ((fill a c st ct su np x).1.data ++ y)) := by
  induction n generalizing c ct x with
  | zero =>
    rw [List.length_eq_zero_iff.1 (show x.length = 0 by omega)]
    rw [fill.eq_def (data := [])]
    by_cases hl : ct ≤ 8 ∧ ct ≥ 0
    · rw [if_pos hl]
      exact ⟨fun h => absurd rfl h, fun _ => rfl⟩
    · rw [if_neg hl, fill.eq_def, if_neg hl]
      exact ⟨fun _ => rfl, fun h => by cases h⟩
  | succ n ih =>
    by_cases hl : ct ≤ 8 ∧ ct ≥ 0
    · rw [fill.eq_def (data := x), if_pos hl]
      match x with
      | [] => exact ⟨fun h => absurd rfl h, fun _ => rfl⟩
      | b :: t =>
        dsimp only
        by_cases hff : b = 0xFF
        · rw [if_pos hff]
          match t with
          | [] => exact ⟨fun h => absurd rfl h, fun _ => rfl⟩
          | b' :: t' =>
            dsimp only
            rw [fill.eq_def (data := b :: b' :: t' ++ y), if_pos hl]
            simp only [List.cons_append]
            rw [if_pos hff]
            by_cases hz : b' = 0
            · rw [if_pos hz, if_pos hz]
              exact ih _ _ t' (by simp only [List.length_cons] at hn; omega)
            · rw [if_neg hz, if_neg hz]
              cases np with
              | true => exact ⟨fun _ => rfl, fun h => by cases h⟩
              | false => exact ⟨fun _ => rfl, fun h => by cases h⟩
        · rw [if_neg hff, fill.eq_def (data := b :: t ++ y), if_pos hl]
          simp only [List.cons_append]
          rw [if_neg hff]
          exact ih _ _ t (by simp only [List.length_cons] at hn; omega)
    · rw [fill.eq_def (data := x), fill.eq_def (data := x ++ y), if_neg hl, if_neg hl]
      exact ⟨fun _ => rfl, fun h => by cases h⟩

theorem fill_moreData (n : Nat) (a c : Nat) (st : Cx → St) (ct : Int) (su np : Bool) (x : List Nat) (hn : x.length ≤ n) (h : (fill a c st ct su np x).2 = .moreData) :
    (fill a c st ct su np x).1.a = a ∧ (fill a c st ct su np x).1.st = st ∧ (fill a c st ct su np x).1.startup = su ∧ (fill a c st ct su np x).1.nopadding = np := by
  induction n generalizing c ct x with
  | zero =>
    rw [List.length_eq_zero_iff.1 (show x.length = 0 by omega)] at h ⊢
    rw [fill.eq_def] at h ⊢
    by_cases hl : ct ≤ 8 ∧ ct ≥ 0
    · rw [if_pos hl]; exact ⟨rfl, rfl, rfl, rfl⟩
    · rw [if_neg hl] at h; cases h
  | succ n ih =>
    rw [fill.eq_def] at h ⊢
    by_cases hl : ct ≤ 8 ∧ ct ≥ 0
    · rw [if_pos hl] at h ⊢
      match x with
      | [] => exact ⟨rfl, rfl, rfl, rfl⟩
      | b :: t =>
        dsimp only at h ⊢
        by_cases hff : b = 0xFF
        · rw [if_pos hff] at h ⊢
          match t with
          | [] => exact ⟨rfl, rfl, rfl, rfl⟩
          | b' :: t' =>
            dsimp only at h ⊢
            by_cases hz : b' = 0
            · rw [if_pos hz] at h ⊢
              exact ih _ _ t' (by simp only [List.length_cons] at hn; omega) h
            · rw [if_neg hz] at h
              cases np <;> cases h
        · rw [if_neg hff] at h ⊢
          exact ih _ _ t (by simp only [List.length_cons] at hn; omega) h
    · rw [if_neg hl] at h; cases h

/-- More rounds make no difference. -/
theorem renormd_more (n : Nat) {d : Dec} (h : d.Safe) (hn : Enough n d.startup d.a) (m : Nat) (hm : n ≤ m) : renormd m d = renormd n d := by
  induction n generalizing d m with
  | zero =>
    obtain ⟨h1, h2⟩ := hn.zero
    cases m with
    | zero => rfl
    | succ m =>
      rw [renormd, renormd, h1]
      simp only [Bool.false_eq_true, or_false]
      rw [if_neg (by omega)]
  | succ n ih =>
    cases m with
    | zero => omega
    | succ m =>
      rw [renormd, renormd]
      by_cases hl : d.a < 0x8000 ∨ d.startup = true
      · rw [if_pos hl, if_pos hl]
        obtain ⟨f1, f2, f3, f4, f5, f6, f7⟩ := fill_safe _ (Nat.le_refl _) h
        generalize fill d.a d.c d.st d.ct d.startup d.nopadding d.data = r at *
        obtain ⟨q, r⟩ := r
        dsimp only at *
        cases r with
        | ok x =>
          have hs := f1.shift (by rw [f3, f5]; exact hl)
          have he : Enough n (if u32 (2 * q.a) = 0x10000 then false else q.startup) (u32 (2 * q.a)) := by
            have := h.enough.next hl
            have hle := this.le
            rw [f3, f5, u32_eq (by omega)]
            exact hn.next hl
          exact ih hs he m (by omega)
        | moreData => rfl
        | marker => rfl
      · rw [if_neg hl, if_neg hl]

theorem Dec.Safe.more {d : Dec} (h : d.Safe) {y : List Nat} (hy : ∀ b ∈ y, b < 256) : (d.more y).Safe :=
  ⟨h.enough, h.good, h.c, h.ct1, h.ct2, h.low, fun b hb => by
    rcases List.mem_append.1 hb with hb | hb
    · exact h.bytes b hb
    · exact hy b hb⟩

/-- The shift of the registers at the end of a round. -/
def Dec.shifted (s : Dec) : Dec :=
  ⟨u32 (2 * s.a), u32 (2 * s.c), s.st, if s.ct ≥ 0 then s.ct - 1 else s.ct, s.data, if u32 (2 * s.a) = 0x10000 then false else s.startup, s.nopadding⟩

theorem renormd_round {n : Nat} {d q : Dec} (hl : d.a < 0x8000 ∨ d.startup = true) {x : Unit}
    (h : fill d.a d.c d.st d.ct d.startup d.nopadding d.data = (q, .ok x)) : renormd (n + 1) d = renormd n q.shifted := by
  rw [renormd, if_pos hl, h]
  rfl

theorem renormd_stop {n : Nat} {d q : Dec} (hl : d.a < 0x8000 ∨ d.startup = true) {r : Ret Unit} (hr : r ≠ .ok ())
    (h : fill d.a d.c d.st d.ct d.startup d.nopadding d.data = (q, r)) : renormd (n + 1) d = (q, r) := by
  rw [renormd, if_pos hl, h]
  cases r with
  | ok x => exact absurd rfl hr
  | moreData => rfl
  | marker => rfl

theorem renormd_done {n : Nat} {d : Dec} (hl : ¬(d.a < 0x8000 ∨ d.startup = true)) : renormd (n + 1) d = (d, .ok ()) := by
  rw [renormd, if_neg hl]

theorem Enough.shifted {n : Nat} {d q : Dec} (h : Enough (n + 1) d.startup d.a) (hl : d.a < 0x8000 ∨ d.startup = true) (h1 : q.a = d.a)
    (h2 : q.startup = d.startup) : Enough n q.shifted.startup q.shifted.a := by
  have hle := (h.next hl).le
  unfold Dec.shifted
  dsimp only
  rw [h1, h2, u32_eq (by omega)]
  exact h.next hl

theorem renormd_enough (n : Nat) {d : Dec} (h : d.Safe) (hn : Enough n d.startup d.a) (hr : (renormd n d).2 = .moreData) :
    Enough n (renormd n d).1.startup (renormd n d).1.a := by
  induction n generalizing d with
  | zero => cases hr
  | succ n ih =>
    by_cases hl : d.a < 0x8000 ∨ d.startup = true
    · obtain ⟨f1, f2, f3, f4, f5, f6, f7⟩ := fill_safe _ (Nat.le_refl _) h
      obtain ⟨q, r, e⟩ := pair_eq (fill d.a d.c d.st d.ct d.startup d.nopadding d.data)
      rw [e] at f1 f2 f3 f4 f5 f6 f7
      cases r with
      | ok x =>
        rw [renormd_round hl e] at hr ⊢
        exact (ih (f1.shift (by rw [f3, f5]; exact hl)) (hn.shifted hl f3 f5) hr).more _ (by omega)
      | moreData =>
        rw [renormd_stop hl (fun h => by cases h) e]
        show Enough (n + 1) q.startup q.a
        rw [f3, f5]
        exact hn
      | marker =>
        rw [renormd_stop hl (fun h => by cases h) e] at hr
        cases hr
    · rw [renormd_done hl] at hr
      cases hr

theorem renormd_append (n : Nat) {d : Dec} (h : d.Safe) (hn : Enough n d.startup d.a) {y : List Nat} (hy : ∀ b ∈ y, b < 256) :
    ((renormd n d).2 ≠ .moreData → renormd n (d.more y) = ((renormd n d).1.more y, (renormd n d).2)) ∧
    ((renormd n d).2 = .moreData → renormd n (d.more y) = renormd n ((renormd n d).1.more y)) := by
  induction n generalizing d with
  | zero => exact ⟨fun _ => rfl, fun _ => rfl⟩
  | succ n ih =>
    by_cases hl : d.a < 0x8000 ∨ d.startup = true
    · have hl' : (d.more y).a < 0x8000 ∨ (d.more y).startup = true := hl
      obtain ⟨f1, f2, f3, f4, f5, f6, f7⟩ := fill_safe _ (Nat.le_refl _) h
      obtain ⟨a1, a2⟩ := fill_append _ d.a d.c d.st d.ct d.startup d.nopadding d.data y (Nat.le_refl _)
      have a3 := fill_moreData _ d.a d.c d.st d.ct d.startup d.nopadding d.data (Nat.le_refl _)
      obtain ⟨q, r, e⟩ := pair_eq (fill d.a d.c d.st d.ct d.startup d.nopadding d.data)
      rw [e] at f1 f2 f3 f4 f5 f6 f7 a1 a2 a3
      cases r with
      | ok x =>
        have hs : q.shifted.Safe := f1.shift (by rw [f3, f5]; exact hl)
        have he := hn.shifted hl f3 f5
        rw [renormd_round hl e, renormd_round (d := d.more y) hl' (a1 (fun h => by cases h))]
        obtain ⟨i1, i2⟩ := ih hs he
        refine ⟨i1, fun hx => ?_⟩
        refine (i2 hx).trans ?_
        exact (renormd_more n ((renormd_safe n hs he).1.more hy) (renormd_enough n hs he hx) (n + 1) (by omega)).symm
      | moreData =>
        rw [renormd_stop hl (fun h => by cases h) e]
        refine ⟨fun h => absurd rfl h, fun _ => ?_⟩
        obtain ⟨b1, b2, b3, b4⟩ := a3 rfl
        dsimp only at b1 b2 b3 b4 a2 ⊢
        have a2' := a2 rfl
        have hq : (q.more y).a < 0x8000 ∨ (q.more y).startup = true := by
          show q.a < 0x8000 ∨ q.startup = true
          rw [b1, b3]; exact hl
        obtain ⟨q', r', e'⟩ := pair_eq (fill d.a d.c d.st d.ct d.startup d.nopadding (d.data ++ y))
        have e2 : fill (q.more y).a (q.more y).c (q.more y).st (q.more y).ct (q.more y).startup (q.more y).nopadding (q.more y).data = (q', r') := by
          rw [← e', a2']
          show fill q.a q.c q.st q.ct q.startup q.nopadding (q.data ++ y) = _
          rw [b1, b2, b3, b4]
        cases r' with
        | ok x => rw [renormd_round (d := d.more y) hl' e', renormd_round hq e2]
        | moreData => rw [renormd_stop (d := d.more y) hl' (fun h => by cases h) e', renormd_stop hq (fun h => by cases h) e2]
        | marker => rw [renormd_stop (d := d.more y) hl' (fun h => by cases h) e', renormd_stop hq (fun h => by cases h) e2]
      | marker =>
        rw [renormd_stop hl (fun h => by cases h) e, renormd_stop (d := d.more y) hl' (fun h => by cases h) (a1 (fun h => by cases h))]
        exact ⟨fun _ => rfl, fun h => by cases h⟩
    · rw [renormd_done hl, renormd_done (d := d.more y) hl]
      exact ⟨fun _ => rfl, fun h => by cases h⟩

theorem decision_frame (d : Dec) (cx : Cx) : ∃ a c st pix, ∀ data, decision { d with data := data } cx = ({ d with a := a, c := c, st := st, data := data }, pix) := by
  generalize hs : sub32 d.a (lsz (d.st cx)) = m
  generalize hu : sub32 d.c (u32 (m * 2 ^ 16)) = w
  by_cases h1 : d.c / 2 ^ 16 ≥ m
  · by_cases h2 : m < lsz (d.st cx)
    · refine ⟨lsz (d.st cx), w, setSt d.st cx (afterMps (d.st cx)), mps (d.st cx), fun data => ?_⟩
      unfold decision
      simp only [hs, hu, if_pos h1, if_pos h2]
    · refine ⟨lsz (d.st cx), w, setSt d.st cx (afterLps (d.st cx)), !mps (d.st cx), fun data => ?_⟩
      unfold decision
      simp only [hs, hu, if_pos h1, if_neg h2]
  · by_cases h3 : m < 0x8000
    · by_cases h2 : m < lsz (d.st cx)
      · refine ⟨m, d.c, setSt d.st cx (afterLps (d.st cx)), !mps (d.st cx), fun data => ?_⟩
        unfold decision
        simp only [hs, if_neg h1, if_pos h3, if_pos h2]
      · refine ⟨m, d.c, setSt d.st cx (afterMps (d.st cx)), mps (d.st cx), fun data => ?_⟩
        unfold decision
        simp only [hs, if_neg h1, if_pos h3, if_neg h2]
    · refine ⟨m, d.c, d.st, mps (d.st cx), fun data => ?_⟩
      unfold decision
      simp only [hs, if_neg h1, if_neg h3]

theorem decision_append (d : Dec) (y : List Nat) (cx : Cx) : decision (d.more y) cx = ((decision d cx).1.more y, (decision d cx).2) := by
  obtain ⟨a, c, st, pix, h⟩ := decision_frame d cx
  have h1 := h d.data
  have h2 := h (d.data ++ y)
  rw [show decision d cx = _ from h1]
  exact h2

theorem decode_congr {d q : Dec} (h : renormd 17 d = renormd 17 q) (cx : Cx) : decode d cx = decode q cx := by
  rw [decode.eq_def, decode.eq_def q, h]

attribute [local irreducible] decode decision renormd

theorem decode_append {d : Dec} (h : d.Safe) (cx : Cx) {y : List Nat} (hy : ∀ b ∈ y, b < 256) :
    (∀ d' r, decode d cx = (d', r) → r ≠ .moreData → decode (d.more y) cx = (d'.more y, r)) ∧
    (∀ d', decode d cx = (d', .moreData) → decode (d.more y) cx = decode (d'.more y) cx) := by
  obtain ⟨a1, a2⟩ := renormd_append 17 h h.enough hy
  obtain ⟨q, r, e⟩ := pair_eq (renormd 17 d)
  rw [e] at a1 a2
  cases r with
  | ok x =>
    have e' := a1 (fun h => by cases h)
    rw [decode_ok e, decode_ok e', decision_append]
    obtain ⟨d2, pix, e3⟩ := pair_eq (decision q cx)
    rw [e3]
    dsimp only
    constructor
    · intro d' r hd hr
      obtain ⟨rfl, rfl⟩ := Prod.mk.inj hd
      rfl
    · intro d' hd
      cases (Prod.mk.inj hd).2
  | moreData =>
    rw [decode_moreData e]
    constructor
    · intro d' r hd hr
      exact absurd (Prod.mk.inj hd).2.symm hr
    · intro d' hd
      obtain ⟨rfl, _⟩ := Prod.mk.inj hd
      exact decode_congr (a2 rfl) cx
  | marker =>
    have e' := a1 (fun h => by cases h)
    rw [decode_marker e, decode_marker e']
    constructor
    · intro d' r hd hr
      obtain ⟨rfl, rfl⟩ := Prod.mk.inj hd
      rfl
    · intro d' hd
      cases (Prod.mk.inj hd).2

end Qm
