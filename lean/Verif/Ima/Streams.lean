import Verif.Ima.Lemmas
import Verif.Ima.Spec

namespace Ima
open Spec

/-- The coding of a sample, with the state of the decoder after it. -/
theorem lockstep (s t : State) (x : Int) (hv : Valid s) (_hx : Sample x) (hl : t.last = s.last) (hi : t.stepIndex = s.stepIndex) :
    ∃ l i c, encode s x = some ({ s with last := l, stepIndex := i }, c) ∧ c < 16 ∧ Valid { s with last := l, stepIndex := i } ∧
      decode t c = some ({ t with last := l, stepIndex := i }, l) := by
  obtain ⟨ss, hss, h7, h8⟩ := step_at hv.1 hv.2.1
  obtain ⟨c, j, hc, hj, h0, h1, he, _⟩ := encode_eq s x ss hss hv h7 h8
  obtain ⟨j', hj', _, _, hd⟩ := decode_eq t c ss (by rw [hi]; exact hss) (by unfold Valid; rw [hl, hi]; exact hv) h7 h8
  have hr := clamp_range (s.last + delta ss c)
  refine ⟨_, _, _, he, hc, ⟨h0, h1, hr.1, hr.2⟩, ?_⟩
  rw [hd, hl]
  rw [hi, hj] at hj'
  cases hj'; rfl

theorem encode_frame (w : BitVec 16) (b : Int) (s s' : State) (x : Int) (c : Nat) (h : encode s x = some (s', c)) :
    encode { s with imaByte := w, bits := b } x = some ({ s' with imaByte := w, bits := b }, c) := by
  unfold encode at h ⊢
  simp only [Option.bind_eq_bind, Option.bind_eq_some_iff] at h
  obtain ⟨ss, h1, l, h2, i, h3, h4⟩ := h
  simp only [h1, Option.bind_eq_bind, Option.bind_some]
  simp only [Option.pure_def, Option.some.injEq, Prod.mk.injEq] at h4
  obtain ⟨rfl, rfl⟩ := h4
  rw [h2]
  simp only [Option.bind_some]
  rw [h3]
  rfl

theorem estimates_frame (w : BitVec 16) (b : Int) (xs : List Int) : ∀ (s s' : State) (es : List (Nat × Int)), estimates s xs = some (s', es) →
    estimates { s with imaByte := w, bits := b } xs = some ({ s' with imaByte := w, bits := b }, es) := by
  induction xs with
  | nil => intro s s' es h; simp only [estimates, Option.some.injEq, Prod.mk.injEq] at h ⊢; obtain ⟨rfl, rfl⟩ := h; exact ⟨rfl, rfl⟩
  | cons x xs ih =>
    intro s s' es h
    simp only [estimates, Option.bind_eq_bind, Option.bind_eq_some_iff] at h
    obtain ⟨⟨s1, c⟩, h1, ⟨s2, es2⟩, h2, h3⟩ := h
    simp only [Option.pure_def, Option.some.injEq, Prod.mk.injEq] at h3
    obtain ⟨rfl, rfl⟩ := h3
    simp [estimates, encode_frame w b s s1 x c h1, ih s1 s2 es2 h2]

theorem estimates_ok (xs : List Int) : ∀ (s : State), Valid s → (∀ x ∈ xs, Sample x) →
    ∃ l i es, estimates s xs = some ({ s with last := l, stepIndex := i }, es) ∧ Valid { s with last := l, stepIndex := i } ∧
      es.length = xs.length ∧ (∀ e ∈ es, e.1 < 16 ∧ Sample e.2) ∧
      ∀ t : State, t.last = s.last → t.stepIndex = s.stepIndex →
        runDecode t (es.map (·.1)) = some ({ t with last := l, stepIndex := i }, es.map (·.2)) := by
  induction xs with
  | nil =>
    intro s hv _
    refine ⟨s.last, s.stepIndex, [], rfl, hv, rfl, by simp, ?_⟩
    intro t hl hi
    simp only [List.map_nil, runDecode, ← hl, ← hi]
  | cons x xs ih =>
    intro s hv hx
    obtain ⟨l, i, c, he, hc, hv', _⟩ := lockstep s s x hv (hx x (by simp)) rfl rfl
    obtain ⟨l', i', es, hes, hv'', hlen, hall, hdec⟩ := ih _ hv' (fun y hy => hx y (by simp [hy]))
    refine ⟨l', i', (c, l) :: es, ?_, hv'', by simp [hlen], ?_, ?_⟩
    · simp [estimates, he, hes]
    · intro e h
      rcases List.mem_cons.1 h with rfl | h
      · exact ⟨hc, hv'.2.2⟩
      · exact hall e h
    · intro t hl hi
      obtain ⟨l2, i2, c2, he2, _, _, hd2⟩ := lockstep s t x hv (hx x (by simp)) hl hi
      rw [he] at he2
      simp only [Option.some.injEq, Prod.mk.injEq, State.mk.injEq, true_and, and_true] at he2
      obtain ⟨⟨rfl, rfl⟩, rfl⟩ := he2
      simp [runDecode, hd2, hdec { t with last := l, stepIndex := i } rfl rfl]

theorem estimates_append (a b : List Int) : ∀ (s : State), estimates s (a ++ b) = (do
    let (s', e) ← estimates s a
    let (s'', e') ← estimates s' b
    return (s'', e ++ e')) := by
  induction a with
  | nil => intro s; simp only [List.nil_append, estimates, Option.bind_eq_bind, Option.bind_some]; cases estimates s b <;> simp
  | cons x a ih =>
    intro s
    simp only [List.cons_append, estimates, Option.bind_eq_bind]
    cases he : encode s x with
    | none => simp
    | some v =>
      obtain ⟨s1, c⟩ := v
      simp only [Option.bind_some]
      rw [ih]
      cases h1 : estimates s1 a with
      | none => simp
      | some v =>
        obtain ⟨s2, e⟩ := v
        simp only [Option.bind_eq_bind, Option.bind_some, Option.pure_def]
        cases estimates s2 b <;> simp

theorem runDecode_append (a b : List Nat) : ∀ (s : State), runDecode s (a ++ b) = (do
    let (s', e) ← runDecode s a
    let (s'', e') ← runDecode s' b
    return (s'', e ++ e')) := by
  induction a with
  | nil => intro s; simp only [List.nil_append, runDecode, Option.bind_eq_bind, Option.bind_some]; cases runDecode s b <;> simp
  | cons x a ih =>
    intro s
    simp only [List.cons_append, runDecode, Option.bind_eq_bind]
    cases he : decode s x with
    | none => simp
    | some v =>
      obtain ⟨s1, c⟩ := v
      simp only [Option.bind_some]
      rw [ih]
      cases h1 : runDecode s1 a with
      | none => simp
      | some v =>
        obtain ⟨s2, e⟩ := v
        simp only [Option.bind_eq_bind, Option.bind_some, Option.pure_def]
        cases runDecode s2 b <;> simp

/-- Two codes in an octet. -/
def nib (lowFirst : Bool) (a b : Nat) : Byte := if lowFirst then BitVec.ofNat 8 (16 * b + a) else BitVec.ofNat 8 (16 * a + b)

/-- Codes in octets; one left over is not sent. -/
def pack (lowFirst : Bool) : List Nat → List Byte
  | a :: b :: cs => nib lowFirst a b :: pack lowFirst cs
  | _ => []

theorem nib_lo_first : ∀ a < 16, ∀ b < 16, nib true a b = BitVec.ofNat 8 (16 * b + a) ∧ (nib true a b).toNat % 16 = a ∧ (nib true a b).toNat / 16 = b ∧
    (nib false a b).toNat % 16 = b ∧ (nib false a b).toNat / 16 = a := by decide +kernel

theorem decode_pack (lf : Bool) (cs : List Nat) (h : ∀ c ∈ cs, c < 16) : ∀ (t : State),
    decodeNibbles lf t (pack lf cs) = runDecode t (cs.take (2 * (cs.length / 2))) := by
  match cs with
  | [] => intro t; simp [pack, decodeNibbles, runDecode]
  | [a] => intro t; simp [pack, decodeNibbles, runDecode]
  | a :: b :: cs =>
    intro t
    have ih := decode_pack lf cs (fun c hc => h c (by simp [hc]))
    have hl : 2 * ((a :: b :: cs).length / 2) = 2 * (cs.length / 2) + 1 + 1 := by simp only [List.length_cons]; omega
    rw [hl, List.take_succ_cons, List.take_succ_cons]
    obtain ⟨_, h1, h2, h3, h4⟩ := nib_lo_first a (h a (by simp)) b (h b (by simp))
    have e1 : (if lf = true then (nib lf a b).toNat % 16 else (nib lf a b).toNat / 16) = a := by cases lf <;> simp only [if_true, Bool.false_eq_true, if_false, h1, h4]
    have e2 : (if lf = true then (nib lf a b).toNat / 16 else (nib lf a b).toNat % 16) = b := by cases lf <;> simp only [if_true, Bool.false_eq_true, if_false, h2, h3]
    simp only [pack, decodeNibbles, runDecode, e1, e2, Option.bind_eq_bind]
    cases decode t a with
    | none => simp
    | some v =>
      simp only [Option.bind_some]
      cases decode v.1 b with
      | none => simp
      | some w =>
        simp only [Option.bind_some]
        rw [ih]
        cases runDecode w.1 (cs.take (2 * (cs.length / 2))) <;> simp

/-- The octet being filled. -/
def fill (lf : Bool) (w : BitVec 16) (c : Nat) : Byte :=
  if lf then ((w >>> 4) ||| ((BitVec.ofNat 8 c).setWidth 16 <<< 4)).setWidth 8 else ((w <<< 4) ||| (BitVec.ofNat 8 c).setWidth 16).setWidth 8

theorem fill_fill (lf : Bool) (w : BitVec 16) (a b : Nat) (ha : a < 16) (hb : b < 16) (hw : w.toNat < 256) :
    fill lf ((fill lf w a).setWidth 16) b = nib lf a b := by
  have : ∀ w : BitVec 8, ∀ a : Fin 16, fill true ((fill true (w.setWidth 16) a.val).setWidth 16) 0 = BitVec.ofNat 8 a.val ∧
     (fill false ((fill false (w.setWidth 16) a.val).setWidth 16) 0) = BitVec.ofNat 8 (16 * a.val) := by decide +kernel
  have h2 : ∀ x : BitVec 8, ∀ b : Fin 16, fill true (x.setWidth 16) b.val = fill true (x.setWidth 16) 0 ||| BitVec.ofNat 8 (16 * b.val) ∧
     fill false (x.setWidth 16) b.val = fill false (x.setWidth 16) 0 ||| BitVec.ofNat 8 b.val := by decide +kernel
  have h3 : ∀ a b : Fin 16, BitVec.ofNat 8 a.val ||| BitVec.ofNat 8 (16 * b.val) = nib true a.val b.val ∧
     BitVec.ofNat 8 (16 * a.val) ||| BitVec.ofNat 8 b.val = nib false a.val b.val := by decide +kernel
  have hw8 : (w.setWidth 8).setWidth 16 = w := by
    apply BitVec.eq_of_toNat_eq; simp only [BitVec.toNat_setWidth]; omega
  have h1 := this (w.setWidth 8) ⟨a, ha⟩
  rw [hw8] at h1
  have h4 := h2 (fill lf w a) ⟨b, hb⟩
  have h5 := h3 ⟨a, ha⟩ ⟨b, hb⟩
  cases lf
  · rw [h4.2, h1.2, h5.2]
  · rw [h4.1, h1.1, h5.1]

theorem fill_lt (lf : Bool) (w : BitVec 16) (c : Nat) : ((fill lf w c).setWidth 16).toNat < 256 := by
  have := (fill lf w c).isLt
  simp only [BitVec.toNat_setWidth]
  omega

theorem encodeNibbles_cons (lf : Bool) (s s1 : State) (x : Int) (xs : List Int) (c : Nat) (h : encode s x = some (s1, c))
    (hb : s1.bits ≠ 2147483647) : encodeNibbles lf s (x :: xs) = (do
      let (s', bs) ← encodeNibbles lf { s1 with imaByte := (fill lf s1.imaByte c).setWidth 16, bits := s1.bits + 1 } xs
      return (s', if s1.bits % 2 = 1 then fill lf s1.imaByte c :: bs else bs)) := by
  simp only [encodeNibbles, h, Option.bind_eq_bind, Option.bind_some]
  rw [if_neg hb]
  rfl

theorem encodeNibbles_pack (lf : Bool) (xs : List Int) : ∀ (s : State), Valid s → (∀ x ∈ xs, Sample x) → s.imaByte.toNat < 256 →
    s.bits % 2 = 0 → s.bits + xs.length ≤ 2147483647 →
    ∃ s' es w, estimates s xs = some (s', es) ∧ encodeNibbles lf s xs = some ({ s' with imaByte := w, bits := s.bits + xs.length }, pack lf (es.map (·.1))) ∧
      w.toNat < 256 := by
  match xs with
  | [] => intro s _ _ hw _ _; refine ⟨s, [], s.imaByte, rfl, ?_, hw⟩; simp [encodeNibbles, pack]
  | [x] =>
    intro s hv hx hw hb hl
    obtain ⟨l, i, c, he, hc, hv', _⟩ := lockstep s s x hv (hx x (by simp)) rfl rfl
    simp only [List.length_cons, List.length_nil] at hl
    refine ⟨_, [(c, l)], _, by simp [estimates, he]; rfl, ?_, fill_lt lf s.imaByte c⟩
    rw [encodeNibbles_cons lf s _ x [] c he (by simp only; omega)]
    simp [encodeNibbles, pack, hb]
  | x :: y :: xs =>
    intro s hv hx hw hb hl
    simp only [List.length_cons] at hl
    obtain ⟨l, i, c, he, hc, hv', _⟩ := lockstep s s x hv (hx x (by simp)) rfl rfl
    have hv1 : Valid { s with last := l, stepIndex := i, imaByte := (fill lf s.imaByte c).setWidth 16, bits := s.bits + 1 } := hv'
    obtain ⟨l2, i2, c2, he2, hc2, hv2, _⟩ := lockstep _ _ y hv' (hx y (by simp)) rfl rfl
    have he2' := encode_frame ((fill lf s.imaByte c).setWidth 16) (s.bits + 1) _ _ _ _ he2
    have hv4 : Valid { s with last := l2, stepIndex := i2, imaByte := (fill lf ((fill lf s.imaByte c).setWidth 16) c2).setWidth 16, bits := s.bits + 1 + 1 } := hv2
    obtain ⟨s', es, w, hes, hen, hw'⟩ := encodeNibbles_pack lf xs _ hv4 (fun z hz => hx z (by simp [hz])) (fill_lt _ _ _) (by simp only; omega) (by simp only; omega)
    have hes' := estimates_frame s.imaByte s.bits xs _ _ _ hes
    refine ⟨{ s' with imaByte := s.imaByte, bits := s.bits }, (c, l) :: (c2, l2) :: es, w, ?_, ?_, hw'⟩
    rotate_left
    · rw [encodeNibbles_cons lf s _ x _ c he (by simp only; omega)]
      rw [encodeNibbles_cons lf _ _ y _ c2 he2' (by simp only; omega)]
      simp only [hen, Option.bind_eq_bind, Option.bind_some, Option.pure_def]
      rw [if_neg (by omega : ¬ s.bits % 2 = 1), if_pos (by omega : (s.bits + 1) % 2 = 1), fill_fill lf _ _ _ hc hc2 hw]
      simp only [List.map_cons, pack, List.length_cons]
      congr 3
      push_cast; omega
    · simp only [estimates, he, he2, Option.bind_eq_bind, Option.bind_some, Option.pure_def]
      rw [hes']
      rfl

end Ima
