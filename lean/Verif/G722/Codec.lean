import Verif.G722.Safe

/-!
# Encoding and decoding as sequences of codes
-/

namespace G722

/-- The bits of a configuration which can be. -/
def Cfg.Valid (g : Cfg) : Prop := g.bits = 6 ∨ g.bits = 7 ∨ g.bits = 8

theorem cfg_valid (rate : Int) (e p : Bool) : (cfg rate e p).Valid := by
  unfold cfg Cfg.Valid
  simp only
  split
  · exact Or.inl rfl
  · split
    · exact Or.inr (Or.inl rfl)
    · exact Or.inr (Or.inr rfl)

/-- The four bits for the lower band, and the two for the upper. -/
def low4 (bits code : Nat) : Nat :=
  if bits = 7 then code % 32 / 2 else if bits = 6 then code % 16 else code % 64 / 4
def high2 (bits code : Nat) : Nat :=
  if bits = 7 then code/32 % 4 else if bits = 6 then code/16 % 4 else code/64 % 4

theorem low4_lt (bits code : Nat) : low4 bits code < 16 := by
  unfold low4; split
  · omega
  · split <;> omega

theorem high2_lt (bits code : Nat) : high2 bits code < 4 := by
  unfold high2; split
  · omega
  · split <;> omega

theorem split_eq (g : Cfg) (hg : g.Valid) (code : Nat) :
    ∃ v, split g.bits code = some (low4 g.bits code, v, high2 g.bits code) := by
  rcases hg with h | h | h <;> rw [h] <;> unfold split low4 high2 <;> simp only
  · have : code % 16 < qm4.length := by show _ < 16; omega
    rw [List.getElem?_eq_getElem this]; exact ⟨_, rfl⟩
  · have : code % 32 < qm5.length := by show _ < 32; omega
    rw [List.getElem?_eq_getElem this]; exact ⟨_, rfl⟩
  · have : code % 64 < qm6.length := by show _ < 64; omega
    rw [List.getElem?_eq_getElem this]; exact ⟨_, rfl⟩

/-- What a code does to the bands. -/
def lowNext (s : Band) (c : Nat) : Option Band := adapt s (lowQ c) (lowW c) 18432 8
def highNext (s : Band) (c : Nat) : Option Band := adapt s (highQ c) (highW c) 22528 10

theorem lowNext_ok (s : Band) (c : Nat) (hc : c < 16) (h : Ok 18432 s) :
    ∃ s', lowNext s c = some s' ∧ Ok 18432 s' :=
  adapt_ok s _ _ _ _ h (Or.inl ⟨rfl, rfl⟩) (low_tables ⟨c, hc⟩).2.2.1

theorem highNext_ok (s : Band) (c : Nat) (hc : c < 4) (h : Ok 22528 s) :
    ∃ s', highNext s c = some s' ∧ Ok 22528 s' :=
  adapt_ok s _ _ _ _ h (Or.inr ⟨rfl, rfl⟩) (high_tables ⟨c, hc⟩).2.2.1

theorem qmf_sums : absSum qmfFwd ≤ 6482 ∧ absSum qmfRev ≤ 6482 := by decide

/-- One code is decoded. -/
theorem decodeCode_ok (g : Cfg) (hg : g.Valid) (s : Codec) (code : Nat) (h : Good s) :
    ∃ s' a, decodeCode g s code = some (s', a) ∧ Good s' ∧ (∀ x ∈ a, Fits x) ∧
      a.length = (if g.eightK then 1 else 2) ∧ s'.buf = s.buf ∧ s'.nbits = s.nbits ∧
      lowNext s.low (low4 g.bits code) = some s'.low ∧
      (g.eightK = true → s'.high = s.high) ∧
      (g.eightK = false → highNext s.high (high2 g.bits code) = some s'.high) := by
  obtain ⟨v, hv⟩ := split_eq g hg code
  obtain ⟨low, el, hl⟩ := lowNext_ok s.low (low4 g.bits code) (low4_lt _ _) h.low
  unfold decodeCode
  rw [hv, Option.bind_some]
  simp only
  rw [decLow_eq _ _ _ (low4_lt _ _) h.low]
  have el' := el
  unfold lowNext at el'
  rw [el', Option.map_some, Option.bind_some]
  simp only
  have r1 := sat15_range (s.low.s + s.low.det*v/32768)
  generalize sat15 (s.low.s + s.low.det*v/32768) = rl at r1
  cases hk : g.eightK with
  | true =>
    rw [if_pos rfl, chk16_some (by unfold Fits; omega)]
    refine ⟨_, _, rfl, ⟨hl, h.high, h.x, h.y, h.ptr⟩, ?_, rfl, rfl, rfl, el, fun _ => rfl, by simp⟩
    intro x hx
    rw [List.mem_singleton] at hx
    subst hx
    unfold Fits; omega
  | false =>
    obtain ⟨high, eh, hh⟩ := highNext_ok s.high (high2 g.bits code) (high2_lt _ _) h.high
    have eh' := eh
    unfold highNext at eh'
    rw [if_neg (by simp), decHigh_eq _ _ (high2_lt _ _) h.high, eh', Option.map_some, Option.bind_some]
    simp only
    have r2 := sat15_range (s.high.det*highQ (high2 g.bits code)/32768 + s.high.s)
    generalize sat15 (s.high.det*highQ (high2 g.bits code)/32768 + s.high.s) = rh at r2
    have f1 : Fits (rl + rh) := by unfold Fits; omega
    have f2 : Fits (rl - rh) := by unfold Fits; omega
    rw [chk16_some f1, Option.bind_some, chk16_some f2, Option.bind_some]
    have fx := set_fits s.x s.ptr _ h.x.2 f1
    have fy := set_fits s.y s.ptr _ h.y.2 f2
    obtain ⟨z1, e1, -⟩ := circDot_ok (s.y.set s.ptr (rl - rh)) qmfRev (advance s.ptr) fy qmf_sums.2
    obtain ⟨z2, e2, -⟩ := circDot_ok (s.x.set s.ptr (rl + rh)) qmfFwd (advance s.ptr) fx qmf_sums.1
    rw [e1, Option.bind_some, e2]
    refine ⟨_, _, rfl, ⟨hl, hh, ⟨by simp [h.x.1], fx⟩, ⟨by simp [h.y.1], fy⟩, advance_lt _⟩, ?_, rfl, rfl, rfl, el,
      by simp, fun _ => eh⟩
    intro x hx
    simp only [List.mem_cons, List.not_mem_nil, or_false] at hx
    rcases hx with rfl | rfl <;> exact sat16_fits _

/-- The whole code of eight bits, before those which are not sent are cut off. -/
theorem full_code (bits full : Nat) (hb : bits = 6 ∨ bits = 7 ∨ bits = 8) (hf : full < 256) :
    low4 bits (full >>> (8 - bits)) = full % 64 / 4 ∧ high2 bits (full >>> (8 - bits)) = full/64 ∧
    full >>> (8 - bits) < 2^bits := by
  rcases hb with rfl | rfl | rfl <;> simp only [low4, high2, Nat.shiftRight_eq_div_pow] <;> norm_num <;> omega

/-- One code is made from one sample at 8000 a second. -/
theorem encode8_ok (g : Cfg) (s : Codec) (a : Int) (h : Good s) :
    ∃ s' full, encode8 g s a = some (s', full >>> (8 - g.bits)) ∧ full < 256 ∧ Good s' ∧
      s'.buf = s.buf ∧ s'.nbits = s.nbits ∧ lowNext s.low (full % 64 / 4) = some s'.low := by
  obtain ⟨c, hc4, hc, ec⟩ := encLow_eq s.low (a/2) h.low
  obtain ⟨low, el, hl⟩ := lowNext_ok s.low (c/4) (by omega) h.low
  have el' := el
  unfold lowNext at el'
  unfold encode8
  rw [ec, el']
  have e : (0xC0 ||| c) = 192 + c := by
    have : ∀ c : Fin 64, (0xC0 ||| c.val) = 192 + c.val := by decide
    exact this ⟨c, hc⟩
  refine ⟨{ s with low := low }, 192 + c, by simp only [Option.map_some, e], by omega, ⟨hl, h.high, h.x, h.y, h.ptr⟩, rfl, rfl, ?_⟩
  rw [show (192 + c) % 64 / 4 = c/4 by omega]
  exact el

/-- One code is made from two samples at 16000 a second. -/
theorem encode16_ok (g : Cfg) (s : Codec) (a b : Int) (h : Good s) (ha : Fits a) (hb : Fits b) :
    ∃ s' full, encode16 g s a b = some (s', full >>> (8 - g.bits)) ∧ full < 256 ∧ Good s' ∧
      s'.buf = s.buf ∧ s'.nbits = s.nbits ∧ lowNext s.low (full % 64 / 4) = some s'.low ∧
      highNext s.high (full/64) = some s'.high := by
  have fx := set_fits s.x s.ptr _ h.x.2 ha
  have fy := set_fits s.y s.ptr _ h.y.2 hb
  obtain ⟨z1, e1, g1⟩ := circDot_ok (s.y.set s.ptr b) qmfRev (advance s.ptr) fy qmf_sums.2
  obtain ⟨z2, e2, g2⟩ := circDot_ok (s.x.set s.ptr a) qmfFwd (advance s.ptr) fx qmf_sums.1
  unfold encode16
  simp only
  rw [e2, Option.bind_some, e1, Option.bind_some, chk32_some (by omega), Option.bind_some, chk32_some (by omega),
    Option.bind_some, chk16_some (by unfold Fits; omega), Option.bind_some, chk16_some (by unfold Fits; omega),
    Option.bind_some]
  obtain ⟨c, hc4, hc, ec⟩ := encLow_eq s.low ((z1 + z2)/16384) h.low
  obtain ⟨low, el, hl⟩ := lowNext_ok s.low (c/4) (by omega) h.low
  obtain ⟨k, hk, ek⟩ := encHigh_eq s.high ((z1 - z2)/16384) h.high
  obtain ⟨high, eh, hh⟩ := highNext_ok s.high k hk h.high
  have el' := el
  have eh' := eh
  unfold lowNext at el'
  unfold highNext at eh'
  rw [ec, el', Option.map_some, Option.bind_some]
  simp only
  rw [ek, eh']
  have e : ((k <<< 6) ||| c) = 64*k + c := by
    have : ∀ (k : Fin 4) (c : Fin 64), ((k.val <<< 6) ||| c.val) = 64*k.val + c.val := by decide +kernel
    exact this ⟨k, hk⟩ ⟨c, hc⟩
  refine ⟨{ s with low := low, high := high, x := s.x.set s.ptr a, y := s.y.set s.ptr b, ptr := advance s.ptr },
    64*k + c, by simp only [Option.map_some, e], by omega,
    ⟨hl, hh, ⟨by simp [h.x.1], fx⟩, ⟨by simp [h.y.1], fy⟩, advance_lt _⟩, rfl, rfl, ?_, ?_⟩
  · rw [show (64*k + c) % 64 / 4 = c/4 by omega]; exact el
  · rw [show (64*k + c)/64 = k by omega]; exact eh

end G722
