import Verif.Sprt.Read

/-!
# One direction of a reliable channel
-/

namespace Sprt

set_option linter.unusedSimpArgs false
set_option linter.unusedVariables false

/-- The receiver has what was given to the channel as number `a`, when it has delivered `R`. -/
def Received (r : RxChan) (R a : Nat) : Prop := a < R ∨ (a < R + r.window ∧ (r.buf (a % r.window)).isSome)

/-- The sender's channel when `L` was given to it and everything before `O` is acknowledged. -/
structure Snd (s : TxChan) (L : List (List Nat)) (O : Nat) : Prop where
  w : 2 ≤ s.window ∧ s.window ≤ 96
  seq : s.queueSeq = L.length % 16384
  inp : s.inPtr = L.length % s.window
  outp : s.outPtr = O % s.window
  le : O ≤ L.length
  room : L.length + 1 ≤ O + s.window
  slot : ∀ a, O ≤ a → a < L.length → ∀ p, s.buf (a % s.window) = some p → L[a]? = some p
  free : ∀ i p, s.buf i = some p → ∃ a, O ≤ a ∧ a < L.length ∧ a % s.window = i
  front : O < L.length → (s.buf (O % s.window)).isSome

/-- The receiver's channel when it has delivered `R` of `L`. -/
structure Rcv (r : RxChan) (L : List (List Nat)) (R : Nat) : Prop where
  w : 2 ≤ r.window ∧ r.window ≤ 96
  le : R ≤ L.length
  seq : r.baseSeq = R % 16384
  inp : r.inPtr = R % r.window
  slot : ∀ d, d < r.window → ∀ p, r.buf ((R + d) % r.window) = some p → L[R + d]? = some p

/-- The two sides of a channel. -/
structure Dir (s : TxChan) (r : RxChan) (L : List (List Nat)) (G : List (Nat × List Nat)) : Prop where
  got : G = (List.range G.length).map fun i => (i % 16384, L[i]?.getD [])
  rcv : Rcv r L G.length
  snd : ∃ O, Snd s L O ∧ ∀ a, a < L.length → (a < O ∨ s.buf (a % s.window) = none) → Received r G.length a

/-- Numbers less than a window apart, in the same slot, are the same. -/
theorem mod_inj {a b w : Nat} (h : a % w = b % w) (h1 : a < b + w) (h2 : b < a + w) : a = b := by
  have ha := Nat.div_add_mod a w
  have hb := Nat.div_add_mod b w
  rw [h] at ha
  rcases Nat.lt_trichotomy (a / w) (b / w) with hlt | heq | hgt
  · have : w * (a / w + 1) ≤ w * (b / w) := Nat.mul_le_mul_left _ hlt
    rw [Nat.mul_add] at this; omega
  · rw [heq] at ha; omega
  · have : w * (b / w + 1) ≤ w * (a / w) := Nat.mul_le_mul_left _ hgt
    rw [Nat.mul_add] at this; omega

/-- The slot after that of `a`. -/
theorem succ_mod {a w : Nat} (hw : 0 < w) : (if a % w + 1 ≥ w then 0 else a % w + 1) = (a + 1) % w := by
  have := Nat.mod_lt a hw
  by_cases h : a % w + 1 ≥ w
  · rw [if_pos h]
    have : a % w + 1 = w := by omega
    rw [Nat.add_mod]
    rcases Nat.lt_or_ge 1 w with h1 | h1
    · rw [Nat.mod_eq_of_lt h1, this, Nat.mod_self]
    · have : w = 1 := by omega
      subst this; simp [Nat.mod_one]
  · rw [if_neg h, Nat.add_mod]
    rcases Nat.lt_or_ge 1 w with h1 | h1
    · rw [Nat.mod_eq_of_lt h1, Nat.mod_eq_of_lt (show a % w + 1 < w by omega)]
    · omega

/-- The slot `d` before that of `q`. -/
theorem sub_mod {q d w : Nat} (hd : d < w) (hq : d ≤ q) :
    (if q % w < d then q % w + w - d else q % w - d) = (q - d) % w := by
  have hm := Nat.mod_lt q (show 0 < w by omega)
  have hdm := Nat.div_add_mod q w
  by_cases h : q % w < d
  · rw [if_pos h]
    have h1 : 1 ≤ q / w := by
      rcases Nat.eq_zero_or_pos (q / w) with h0 | h0
      · rw [h0] at hdm; omega
      · exact h0
    have hmul : w * (q / w) = w * (q / w - 1) + w := by
      have : q / w = (q / w - 1) + 1 := by omega
      calc w * (q / w) = w * ((q / w - 1) + 1) := by rw [← this]
        _ = _ := by rw [Nat.mul_add, Nat.mul_one]
    have : q - d = w * (q / w - 1) + (q % w + w - d) := by omega
    rw [this, Nat.mul_add_mod, Nat.mod_eq_of_lt (show q % w + w - d < w by omega)]
  · rw [if_neg h]
    have : q - d = w * (q / w) + (q % w - d) := by omega
    rw [this, Nat.mul_add_mod, Nat.mod_eq_of_lt (show q % w - d < w by omega)]

/-- The slot `d` after that of `q`. -/
theorem add_mod' {q d w : Nat} (hd : d < w) :
    (if q % w + d ≥ w then q % w + d - w else q % w + d) = (q + d) % w := by
  have hm := Nat.mod_lt q (show 0 < w by omega)
  rw [Nat.add_mod, Nat.mod_eq_of_lt hd]
  by_cases h : q % w + d ≥ w
  · rw [if_pos h, Nat.mod_eq_sub_mod h, Nat.mod_eq_of_lt (show q % w + d - w < w by omega)]
  · rw [if_neg h, Nat.mod_eq_of_lt (show q % w + d < w by omega)]

/-- What has been received was given. -/
theorem Rcv.lt {r : RxChan} {L : List (List Nat)} {R a : Nat} (h : Rcv r L R) (ha : Received r R a) : a < L.length := by
  rcases ha with ha | ⟨h1, h2⟩
  · have := h.le; omega
  · rcases Nat.lt_or_ge a R with h3 | h3
    · have := h.le; omega
    · obtain ⟨p, hp⟩ := Option.isSome_iff_exists.mp h2
      have := h.slot (a - R) (by omega) p (by rw [show R + (a - R) = a by omega]; exact hp)
      rw [show R + (a - R) = a by omega] at this
      exact (List.getElem?_eq_some_iff.mp this).1

/-- What has been received is not beyond the window. -/
theorem Received.lt {r : RxChan} {R a : Nat} (hw : r.window ≤ 96) (ha : Received r R a) : a < R + 96 := by
  rcases ha with h | h <;> omega

/-- The sender is never more than two windows ahead. -/
theorem Dir.ahead {s : TxChan} {r : RxChan} {L : List (List Nat)} {G : List (Nat × List Nat)} (h : Dir s r L G) :
    L.length ≤ G.length + 191 := by
  obtain ⟨O, hs, hr⟩ := h.snd
  have hw := hs.w
  have hle := hs.le
  have hroom := hs.room
  rcases Nat.eq_zero_or_pos O with h0 | h0
  · omega
  · have := (hr (O - 1) (by omega) (Or.inl (by omega))).lt h.rcv.w.2
    omega

/-- A payload is taken. -/
theorem Dir.accept {s : TxChan} {r : RxChan} {L : List (List Nat)} {G : List (Nat × List Nat)} (h : Dir s r L G) (p : List Nat)
    (hroom : 1 ≤ if s.outPtr < s.inPtr + 1 then s.outPtr + s.window - (s.inPtr + 1) else s.outPtr - (s.inPtr + 1))
    (s' : TxChan) (hw : s'.window = s.window) (hb : s'.buf = upd s.buf s.inPtr (some p))
    (hq : s'.queueSeq = (s.queueSeq + 1) % 16384) (hi : s'.inPtr = if s.inPtr + 1 ≥ s.window then 0 else s.inPtr + 1)
    (ho : s'.outPtr = s.outPtr) : Dir s' r (L ++ [p]) G := by
  obtain ⟨O, hs, hr⟩ := h.snd
  have hw2 := hs.w
  have hroom1 := hs.room
  have hle := hs.le
  have hroom' : L.length + 2 ≤ O + s.window := by
    apply Classical.byContradiction
    intro hc
    have he : L.length + 1 = O + s.window := by omega
    have : (if s.outPtr < s.inPtr + 1 then s.outPtr + s.window - (s.inPtr + 1) else s.outPtr - (s.inPtr + 1)) = 0 := by
      have h1 : s.outPtr = (if s.inPtr + 1 ≥ s.window then 0 else s.inPtr + 1) := by
        rw [hs.inp, succ_mod (by omega), he, Nat.add_mod_right, hs.outp]
      have := Nat.mod_lt L.length (show 0 < s.window by omega)
      rw [← hs.inp] at this
      split at h1 <;> (rw [h1]; split <;> omega)
    omega
  have hfree : ∀ a, O ≤ a → a < L.length → a % s.window ≠ L.length % s.window := by
    intro a h1 h2 h3
    have := mod_inj h3 (by omega) (by omega)
    omega
  refine ⟨?_, ⟨h.rcv.w, ?_, h.rcv.seq, h.rcv.inp, ?_⟩, O, ⟨?_, ?_, ?_, ?_, ?_, ?_, ?_, ?_, ?_⟩, ?_⟩
  · have := h.got
    have hl := h.rcv.le
    calc G = (List.range G.length).map fun i => (i % 16384, L[i]?.getD []) := this
      _ = _ := by
        apply List.map_congr_left
        intro i hi
        have := List.mem_range.mp hi
        rw [List.getElem?_append_left (by omega)]
  · have := h.rcv.le; simp; omega
  · intro d hd q hq'
    have := h.rcv.slot d hd q hq'
    rw [List.getElem?_append_left (List.getElem?_eq_some_iff.mp this).1]; exact this
  · rw [hw]; exact hs.w
  · rw [hq, hs.seq]; simp [Nat.add_mod]
  · rw [hi, hw, hs.inp, succ_mod (by omega)]; simp
  · rw [ho, hw]; exact hs.outp
  · simp; omega
  · rw [hw]; simp; omega
  · intro a h1 h2 q hq'
    rw [hb, hw] at hq'
    unfold upd at hq'
    rw [hs.inp] at hq'
    simp at h2
    rcases Nat.lt_or_ge a L.length with h3 | h3
    · rw [if_neg (hfree a h1 h3)] at hq'
      rw [List.getElem?_append_left h3]; exact hs.slot a h1 h3 q hq'
    · have : a = L.length := by omega
      subst this
      rw [if_pos rfl] at hq'
      simpa using hq'
  · intro i q hq'
    rw [hb] at hq'
    unfold upd at hq'
    split at hq'
    · next heq => exact ⟨L.length, hle, by simp, by rw [hw, heq, hs.inp]⟩
    · obtain ⟨a, h1, h2, h3⟩ := hs.free i q hq'
      exact ⟨a, h1, by simp; omega, by rw [hw]; exact h3⟩
  · intro _
    rw [hb, hw]
    unfold upd
    split
    · rfl
    · next hne =>
      rcases Nat.lt_or_ge O L.length with h3 | h3
      · exact hs.front h3
      · have : O = L.length := by omega
        rw [this, hs.inp] at hne; exact absurd rfl hne
  · intro a ha hc
    simp at ha
    rcases Nat.lt_or_ge a L.length with h3 | h3
    · apply hr a h3
      rcases hc with hc | hc
      · exact Or.inl hc
      · rcases Nat.lt_or_ge a O with h4 | h4
        · exact Or.inl h4
        · rw [hb, hw] at hc
          unfold upd at hc
          rw [hs.inp, if_neg (hfree a h4 h3)] at hc
          exact Or.inr hc
    · have : a = L.length := by omega
      subst this
      rcases hc with hc | hc
      · omega
      · rw [hb, hw] at hc
        unfold upd at hc
        rw [hs.inp, if_pos rfl] at hc
        cases hc

/-- The moving over what is acknowledged stops at the first that is not. -/
theorem advance_spec (ch : TxChan) (q : Nat) (hw : 2 ≤ ch.window) (hi : ch.inPtr = q % ch.window) :
    ∀ n a, a < q → q < a + ch.window → q ≤ a + n → ∃ b, a < b ∧ b ≤ q ∧ advance ch n (a % ch.window) = b % ch.window
      ∧ (∀ d, a < d → d < b → ch.buf (d % ch.window) = none) ∧ (b < q → (ch.buf (b % ch.window)).isSome) := by
  intro n
  induction n with
  | zero => intro a h1 h2 h3; omega
  | succ n ih =>
    intro a h1 h2 h3
    unfold advance
    simp only
    rw [succ_mod (by omega)]
    by_cases hc : (a + 1) % ch.window ≠ ch.inPtr ∧ (ch.buf ((a + 1) % ch.window)).isNone
    · rw [if_pos hc]
      have hne : a + 1 ≠ q := by
        intro he
        exact hc.1 (by rw [he, hi])
      obtain ⟨b, k1, k2, k3, k4, k5⟩ := ih (a + 1) (by omega) (by omega) (by omega)
      refine ⟨b, by omega, k2, k3, ?_, k5⟩
      intro d hd1 hd2
      rcases Nat.lt_or_ge (a + 1) d with h | h
      · exact k4 d h hd2
      · have : d = a + 1 := by omega
        rw [this]; exact Option.isNone_iff_eq_none.mp hc.2
    · rw [if_neg hc]
      refine ⟨a + 1, by omega, by omega, rfl, by intro d _ _; omega, ?_⟩
      intro hlt
      rcases hb : ch.buf ((a + 1) % ch.window) with _ | p
      · exfalso
        apply hc
        refine ⟨?_, by simp [hb]⟩
        rw [hi]
        intro he
        have := mod_inj he (by omega) (by omega)
        omega
      · rfl

/-- An acknowledgement of something that was received. -/
theorem Dir.ack {s : TxChan} {r : RxChan} {L : List (List Nat)} {G : List (Nat × List Nat)} (h : Dir s r L G) {a : Nat}
    (ha : Received r G.length a) (hwin : L.length < a + s.window) (hsome : (s.buf (a % s.window)).isSome)
    (s' : TxChan) (hw : s'.window = s.window) (hb : s'.buf = upd s.buf (a % s.window) none) (hq : s'.queueSeq = s.queueSeq)
    (hi : s'.inPtr = s.inPtr)
    (ho : s'.outPtr = if a % s.window = s.outPtr then advance s' s.window (a % s.window) else s.outPtr) : Dir s' r L G := by
  obtain ⟨O, hs, hr⟩ := h.snd
  have hal := h.rcv.lt ha
  have hw2 := hs.w
  have hroom := hs.room
  obtain ⟨p, hp⟩ := Option.isSome_iff_exists.mp hsome
  have haO : O ≤ a := by
    obtain ⟨b, h1, h2, h3⟩ := hs.free _ p hp
    have := mod_inj h3 (by omega) (by omega)
    omega
  have hother : ∀ b, O ≤ b → b < L.length → b ≠ a → s'.buf (b % s.window) = s.buf (b % s.window) := by
    intro b h1 h2 h3
    rw [hb]; unfold upd
    rw [if_neg (fun he => h3 (mod_inj he (by omega) (by omega)))]
  have hself : s'.buf (a % s.window) = none := by rw [hb]; unfold upd; rw [if_pos rfl]
  have hsub : ∀ i q, s'.buf i = some q → s.buf i = some q := by
    intro i q hq'
    rw [hb] at hq'; unfold upd at hq'
    split at hq'
    · cases hq'
    · exact hq'
  have hnone : ∀ b, b < L.length → O ≤ b → s'.buf (b % s.window) = none → Received r G.length b := by
    intro b h1 h2 h3
    by_cases hba : b = a
    · rw [hba]; exact ha
    · rw [hother b h2 h1 hba] at h3
      exact hr b h1 (Or.inr h3)
  have key : ∃ O', O ≤ O' ∧ O' ≤ L.length ∧ s'.outPtr = O' % s.window
      ∧ (∀ b, O ≤ b → b < O' → s'.buf (b % s.window) = none) ∧ (O' < L.length → (s'.buf (O' % s.window)).isSome) := by
    by_cases hao : a = O
    · subst hao
      rw [if_pos hs.outp.symm] at ho
      obtain ⟨b, k1, k2, k3, k4, k5⟩ := advance_spec s' L.length (by omega) (by rw [hi, hw]; exact hs.inp) s.window a hal
        (by omega) (by omega)
      rw [hw] at k3 k4 k5
      refine ⟨b, by omega, k2, by rw [ho, k3], ?_, k5⟩
      intro d h1 h2
      rcases Nat.lt_or_ge a d with h3 | h3
      · exact k4 d h3 h2
      · have : d = a := by omega
        rw [this]; exact hself
    · have hne : a % s.window ≠ s.outPtr := by
        rw [hs.outp]
        intro he
        exact hao (mod_inj he (by omega) (by omega))
      rw [if_neg hne] at ho
      refine ⟨O, Nat.le_refl _, hs.le, by rw [ho]; exact hs.outp, by intro b _ _; omega, ?_⟩
      intro hlt
      rw [hother O (Nat.le_refl _) hlt (fun he => hao he.symm)]
      exact hs.front hlt
  obtain ⟨O', k1, k2, k3, k4, k5⟩ := key
  refine ⟨h.got, h.rcv, O', ⟨?_, ?_, ?_, ?_, k2, ?_, ?_, ?_, ?_⟩, ?_⟩
  · rw [hw]; exact hs.w
  · rw [hq]; exact hs.seq
  · rw [hi, hw]; exact hs.inp
  · rw [hw]; exact k3
  · rw [hw]; omega
  · intro b h1 h2 q hq'
    rw [hw] at hq'
    exact hs.slot b (by omega) h2 q (hsub _ _ hq')
  · intro i q hq'
    obtain ⟨b, h1, h2, h3⟩ := hs.free i q (hsub _ _ hq')
    refine ⟨b, ?_, h2, by rw [hw]; exact h3⟩
    rcases Nat.lt_or_ge b O' with h4 | h4
    · rw [← h3, k4 b h1 h4] at hq'
      cases hq'
    · exact h4
  · rw [hw]; exact k5
  · intro b hbl hc
    rw [hw] at hc
    rcases Nat.lt_or_ge b O with h1 | h1
    · exact hr b hbl (Or.inl h1)
    · rcases hc with hc | hc
      · exact hnone b hbl h1 (k4 b h1 hc)
      · exact hnone b hbl h1 hc

/-- A payload is stored: nothing that was received is lost. -/
theorem received_store {r r' : RxChan} {R a b : Nat} {p : List Nat} (hw : r'.window = r.window)
    (hb : r'.buf = upd r.buf (a % r.window) (some p)) (h : Received r R b) : Received r' R b := by
  rcases h with h | ⟨h1, h2⟩
  · exact Or.inl h
  · refine Or.inr ⟨by rw [hw]; exact h1, ?_⟩
    rw [hb, hw]; unfold upd
    split
    · rfl
    · exact h2

/-- The payload which is stored is received. -/
theorem received_stored {r r' : RxChan} {R a : Nat} {p : List Nat} (hw : r'.window = r.window)
    (hb : r'.buf = upd r.buf (a % r.window) (some p)) (ha : a < R + r.window) : Received r' R a := by
  refine Or.inr ⟨by rw [hw]; exact ha, ?_⟩
  rw [hb, hw]; unfold upd; rw [if_pos rfl]; rfl

/-- Nothing else is. -/
theorem received_store_inv {r r' : RxChan} {R a b : Nat} {p : List Nat} (hw0 : 0 < r.window) (hw : r'.window = r.window)
    (hb : r'.buf = upd r.buf (a % r.window) (some p)) (hR : R ≤ a) (ha : a < R + r.window) (h : Received r' R b) :
    Received r R b ∨ b = a := by
  rcases h with h | ⟨h1, h2⟩
  · exact Or.inl (Or.inl h)
  · rw [hw] at h1
    rcases Nat.lt_or_ge b R with h3 | h3
    · exact Or.inl (Or.inl h3)
    · rw [hb, hw] at h2; unfold upd at h2
      split at h2
      · next he => exact Or.inr (mod_inj he (by omega) (by omega))
      · exact Or.inl (Or.inr ⟨h1, h2⟩)

/-- A payload is stored. -/
theorem Dir.store {s : TxChan} {r : RxChan} {L : List (List Nat)} {G : List (Nat × List Nat)} (h : Dir s r L G) {a : Nat}
    {p : List Nat} (hR : G.length ≤ a) (ha : a < G.length + r.window) (hp : L[a]? = some p)
    (r' : RxChan) (hw : r'.window = r.window) (hb : r'.buf = upd r.buf (a % r.window) (some p)) (hq : r'.baseSeq = r.baseSeq)
    (hi : r'.inPtr = r.inPtr) : Dir s r' L G := by
  obtain ⟨O, hs, hr⟩ := h.snd
  refine ⟨h.got, ⟨by rw [hw]; exact h.rcv.w, h.rcv.le, by rw [hq]; exact h.rcv.seq, by rw [hi, hw]; exact h.rcv.inp, ?_⟩, O, hs, ?_⟩
  · intro d hd q hq'
    rw [hw] at hd
    rw [hb, hw] at hq'; unfold upd at hq'
    split at hq'
    · next he =>
      have := mod_inj he (by omega) (by omega)
      rw [this, hp]; exact hq'
    · exact h.rcv.slot d hd q hq'
  · intro b h1 h2
    exact received_store hw hb (hr b h1 h2)

/-- The next payload is delivered: what was received stays the same, apart from it. -/
theorem received_deliver {r r' : RxChan} {R b : Nat} (hw0 : 0 < r.window) (hw : r'.window = r.window)
    (hb : r'.buf = upd r.buf (R % r.window) none) : Received r' (R + 1) b ↔ (Received r R b ∨ b = R) := by
  constructor
  · rintro (h | ⟨h1, h2⟩)
    · rcases Nat.lt_or_ge b R with h3 | h3
      · exact Or.inl (Or.inl h3)
      · exact Or.inr (by omega)
    · rw [hw] at h1
      rw [hb, hw] at h2; unfold upd at h2
      split at h2
      · cases h2
      · next hne =>
        rcases Nat.lt_or_ge b (R + r.window) with h3 | h3
        · exact Or.inl (Or.inr ⟨h3, h2⟩)
        · exfalso
          apply hne
          have : b = R + r.window := by omega
          rw [this, Nat.add_mod_right]
  · rintro ((h | ⟨h1, h2⟩) | h)
    · exact Or.inl (by omega)
    · rcases Nat.lt_or_ge b (R + 1) with h3 | h3
      · exact Or.inl h3
      · refine Or.inr ⟨by rw [hw]; omega, ?_⟩
        rw [hb, hw]; unfold upd
        rw [if_neg ?_]
        · exact h2
        · intro he
          have := mod_inj he (by omega) (by omega)
          omega
    · exact Or.inl (by omega)

/-- The next payload is delivered. -/
theorem Dir.deliver {s : TxChan} {r : RxChan} {L : List (List Nat)} {G : List (Nat × List Nat)} (h : Dir s r L G) {p : List Nat}
    (hp : L[G.length]? = some p) (r' : RxChan) (hw : r'.window = r.window) (hb : r'.buf = upd r.buf r.inPtr none)
    (hq : r'.baseSeq = (r.baseSeq + 1) % 16384) (hi : r'.inPtr = if r.inPtr + 1 ≥ r.window then 0 else r.inPtr + 1) :
    Dir s r' L (G ++ [(r.baseSeq, p)]) := by
  obtain ⟨O, hs, hr⟩ := h.snd
  have hw2 := h.rcv.w
  have hlen : G.length < L.length := (List.getElem?_eq_some_iff.mp hp).1
  rw [h.rcv.inp] at hb
  have hG : (G ++ [(r.baseSeq, p)]).length = G.length + 1 := by simp
  refine ⟨?_, ⟨by rw [hw]; exact hw2, by rw [hG]; omega, ?_, ?_, ?_⟩, O, hs, ?_⟩
  · rw [hG, List.range_succ, List.map_append, ← h.got]
    simp [h.rcv.seq, hp]
  · rw [hG, hq, h.rcv.seq]; simp [Nat.add_mod]
  · rw [hi, h.rcv.inp, succ_mod (by omega), hw, hG]
  · intro d hd q hq'
    rw [hw] at hd
    rw [hG, hb, hw] at hq'; unfold upd at hq'
    split at hq'
    · cases hq'
    · next hne =>
      rcases Nat.lt_or_ge (d + 1) r.window with h1 | h1
      · have := h.rcv.slot (d + 1) h1 q (by rw [show G.length + (d + 1) = G.length + 1 + d by omega]; exact hq')
        rw [hG, show G.length + 1 + d = G.length + (d + 1) by omega]; exact this
      · exfalso
        apply hne
        rw [show G.length + 1 + d = G.length + r.window by omega, Nat.add_mod_right]
  · intro b h1 h2
    rw [hG]
    exact (received_deliver (by omega) hw hb).mpr (Or.inl (hr b h1 h2))

end Sprt
