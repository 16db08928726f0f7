import Verif.G722.Props

/-!
# How near the decoded signal is
-/

namespace G722

def q6at (i : Nat) : Int := (q6[i]?).getD 0

theorem quantl_spec (det wd : Int) (ht : wd < 2919*det/4096) : ∀ (n i : Nat), 1 ≤ i → i + n = 30 →
    q6at (i - 1)*det/4096 ≤ wd →
    ∃ j, quantl det wd i n = some j ∧ 1 ≤ j ∧ j < 30 ∧ q6at (j - 1)*det/4096 ≤ wd ∧ wd < q6at j*det/4096 := by
  intro n
  induction n with
  | zero =>
    intro i h1 h2 h3
    have : i = 30 := by omega
    subst this
    have : q6at (30 - 1) = 2919 := by decide
    rw [this] at h3
    omega
  | succ n ih =>
    intro i h1 h2 h3
    unfold quantl
    have hi : i < q6.length := by show i < 32; omega
    rw [List.getElem?_eq_getElem hi, Option.bind_some]
    have hq : q6[i] = q6at i := by unfold q6at; rw [List.getElem?_eq_getElem hi]; rfl
    rw [hq]
    by_cases h : wd < q6at i*det/4096
    · rw [if_pos h]; exact ⟨i, rfl, h1, by omega, h3, h⟩
    · rw [if_neg h]
      exact ih (i + 1) (by omega) (by omega) (by rw [Nat.add_sub_cancel]; omega)

theorem encLow_code (s s' : Band) (x : Int) (c : Nat) (h : encLow s x = some (s', c)) :
    ∃ j, quantl s.det (if sat16 (x - s.s) ≥ 0 then sat16 (x - s.s) else -sat16 (x - s.s) - 1) 1 29 = some j ∧
      (if sat16 (x - s.s) < 0 then iln else ilp)[j]? = some c := by
  unfold encLow at h
  simp only [Option.bind_eq_some_iff, Option.map_eq_some_iff] at h
  obtain ⟨j, h1, c', h2, _, _, _, _, _, _, _, _, _, _, _, _, _, _, h3⟩ := h
  simp only [Prod.mk.injEq] at h3
  exact ⟨j, h1, by rw [h2, h3.2]⟩

theorem levels : ∀ j : Fin 30, 1 ≤ j.val →
    (∃ c : Fin 64, ilp[j.val]? = some c.val ∧ 8*q6at (j.val - 1) ≤ (qm6[c.val]?).getD 0 ∧
      (qm6[c.val]?).getD 0 ≤ 8*q6at j.val) ∧
    (∃ c : Fin 64, iln[j.val]? = some c.val ∧ -(8*q6at j.val) ≤ (qm6[c.val]?).getD 0 ∧
      (qm6[c.val]?).getD 0 ≤ -(8*q6at (j.val - 1))) ∧
    0 ≤ q6at (j.val - 1) ∧ q6at (j.val - 1) ≤ q6at j.val ∧ q6at j.val ≤ q6at (j.val - 1) + 362 := by decide +kernel

/-- The value for the code is within a step of the difference which was coded. -/
theorem step_close (s s' : Band) (x : Int) (c : Nat) (hd : 0 < s.det) (h : encLow s x = some (s', c))
    (hf : Fits (x - s.s)) (h1 : x - s.s < 2919*s.det/4096) (h2 : -(2919*s.det/4096) ≤ x - s.s) :
    c < 64 ∧ ∃ v, qm6[c]? = some v ∧ -(362*s.det/4096 + 2) ≤ s.det*v/32768 - (x - s.s) ∧
      s.det*v/32768 - (x - s.s) ≤ 362*s.det/4096 + 2 := by
  obtain ⟨j, hj, hc⟩ := encLow_code s s' x c h
  have e : sat16 (x - s.s) = x - s.s := by unfold sat16; unfold Fits at hf; omega
  rw [e] at hj hc
  generalize x - s.s = el at *
  obtain ⟨j', g1, g2, g3, g4, g5⟩ := quantl_spec s.det (if el ≥ 0 then el else -el - 1)
    (by split <;> omega) 29 1 (by omega) (by omega)
    (by have : q6at (1 - 1) = 0 := by decide
        rw [this]; split <;> omega)
  rw [hj] at g1
  cases g1
  obtain ⟨⟨cp, p1, p2, p3⟩, ⟨cn, n1, n2, n3⟩, m0, m1, m2⟩ := levels ⟨j, g3⟩ g2
  simp only at p1 p2 p3 n1 n2 n3 m0 m1 m2
  have k1 : 0 ≤ s.det*q6at (j - 1) := Int.mul_nonneg (by omega) m0
  have k2 : s.det*q6at j ≤ s.det*q6at (j - 1) + 362*s.det := by nlinarith
  have k3 : s.det*q6at (j - 1) ≤ s.det*q6at j := by nlinarith
  rw [Int.mul_comm] at g4 g5
  by_cases hn : el < 0
  · rw [if_pos hn] at hc
    rw [n1, Option.some.injEq] at hc
    subst hc
    refine ⟨cn.isLt, _, getq cn, ?_⟩
    generalize (qm6[cn.val]?).getD 0 = v at n2 n3
    have l1 : -(8*(s.det*q6at j)) ≤ s.det*v := by nlinarith
    have l2 : s.det*v ≤ -(8*(s.det*q6at (j - 1))) := by nlinarith
    rw [if_neg (by omega)] at g4 g5
    generalize s.det*v = dv at *
    generalize s.det*q6at j = a at *
    generalize s.det*q6at (j - 1) = b at *
    generalize s.det = d at *
    omega
  · rw [if_neg hn] at hc
    rw [p1, Option.some.injEq] at hc
    subst hc
    refine ⟨cp.isLt, _, getq cp, ?_⟩
    generalize (qm6[cp.val]?).getD 0 = v at p2 p3
    have l1 : 8*(s.det*q6at (j - 1)) ≤ s.det*v := by nlinarith
    have l2 : s.det*v ≤ 8*(s.det*q6at j) := by nlinarith
    rw [if_pos (by omega)] at g4 g5
    generalize s.det*v = dv at *
    generalize s.det*q6at j = a at *
    generalize s.det*q6at (j - 1) = b at *
    generalize s.det = d at *
    omega
where
  getq (c : Fin 64) : qm6[c.val]? = some ((qm6[c.val]?).getD 0) := by
    have : ∀ c : Fin 64, qm6[c.val]? = some ((qm6[c.val]?).getD 0) := by decide +kernel
    exact this c

/-- The decoded signal follows the one encoded: at 64000 bits and 8000 samples a second, after any samples,
the next sample is decoded to within about a sixth of the scale in use (362/4096, twice), unless it is
further than about 1.4 times the scale (2919/4096, twice) from the value predicted. -/
theorem follows_signal (l : List Int) (hl : Pcm l) (a : Int) (ha : -32768 ≤ a ∧ a ≤ 32767) :
    ∃ e bytes d out, encode (cfg 64000 true false) init l = some (e, bytes) ∧
      decode (cfg 64000 true false) init bytes = some (d, out) ∧
      (-(2919*e.low.det/4096) ≤ a/2 - e.low.s → a/2 - e.low.s < 2919*e.low.det/4096 →
        ∃ e' o d' a', encode (cfg 64000 true false) e [a] = some (e', [o]) ∧
          decode (cfg 64000 true false) d [o] = some (d', [a']) ∧
          a' - a ≤ 2*(362*e.low.det/4096) + 5 ∧ a - a' ≤ 2*(362*e.low.det/4096) + 5) := by
  obtain ⟨e, bytes, d, out, h1, h2, h3, -⟩ := lockstep 64000 64000 true true l hl (by simp [perCode, cfg, Nat.mod_one])
    (Nat.le_refl _)
  have hm : bytes.map (cut ((cfg 64000 true false).bits - (cfg 64000 true false).bits)) = bytes := by
    rw [Nat.sub_self]
    have : cut 0 = id := by funext o; simp [cut]
    rw [this, List.map_id]
  rw [hm] at h2
  refine ⟨e, bytes, d, out, h1, h2, ?_⟩
  intro hlo hhi
  have hg : (cfg 64000 true false).Valid := cfg_valid _ _ _
  obtain ⟨e', bytes', fulls, ee, he⟩ := encode_ok (cfg 64000 true false) hg _ l init rfl init_good hl
    (by simp [width, cfg, Nat.mod_one])
  rw [h1, Option.some.injEq, Prod.mk.injEq] at ee
  have hgood : Good e := by rw [ee.1]; exact he.good
  obtain ⟨d0, out0, codes, ed, hd, hr⟩ := decode_ready (cfg 64000 true false) hg init init_ready bytes
  rw [h2, Option.some.injEq, Prod.mk.injEq] at ed
  have hgd : Ready d := by rw [ed.1]; exact hr
  have hdet := hgood.low.det
  have hs := hgood.low.sp
  unfold Fits at hs
  obtain ⟨c, hc4, hc, ec⟩ := encLow_eq e.low (a/2) hgood.low
  obtain ⟨low, el, hlw⟩ := lowNext_ok e.low (c/4) (by omega) hgood.low
  unfold lowNext at el
  rw [el, Option.map_some] at ec
  obtain ⟨-, v, hv, b1, b2⟩ := step_close e.low low (a/2) c hdet.1 ec (by unfold Fits; omega) hhi hlo
  have e8 : encode8 (cfg 64000 true false) e a = some ({ e with low := low }, 192 + c) := by
    unfold encode8
    rw [ec]
    have : ∀ c : Fin 64, (0xC0 ||| c.val) >>> (8 - 8) = 192 + c.val := by decide
    simp only [Option.map_some]
    exact congrArg (fun x => some (({ e with low := low } : Codec), x)) (this ⟨c, hc⟩)
  have en : encode (cfg 64000 true false) e [a] = some ({ e with low := low }, [BitVec.ofNat 8 (192 + c)]) := by
    rw [encode_cons8 _ rfl, e8, Option.bind_some]
    simp [emit, encode, cfg]
  have hn : (BitVec.ofNat 8 (192 + c)).toNat = 192 + c := by
    rw [BitVec.toNat_ofNat]; omega
  have sp : split 8 (192 + c) = some (c/4, v, 3) := by
    unfold split
    simp only
    rw [show (192 + c) % 64 = c by omega, hv, show (192 + c)/64 % 4 = 3 by omega]
    rfl
  have r1 := sat15_range (e.low.s + e.low.det*v/32768)
  have dc : decodeCode (cfg 64000 true false) d (192 + c) =
      some ({ d with low := low }, [sat15 (e.low.s + e.low.det*v/32768)*2]) := by
    unfold decodeCode
    rw [show (cfg 64000 true false).bits = 8 by rfl, sp, Option.bind_some]
    simp only
    rw [h3, decLow_eq _ _ _ (by omega) hgood.low, el, Option.map_some, Option.bind_some]
    simp only
    rw [if_pos (show (cfg 64000 true false).eightK = true from rfl), chk16_some (by unfold Fits; omega)]
    rfl
  refine ⟨_, _, { d with low := low }, sat15 (e.low.s + e.low.det*v/32768)*2, en, ?_, ?_, ?_⟩
  · unfold decode
    simp only [List.length_cons, List.length_nil]
    rw [show 8*(0 + 1) + d.nbits = (7 + d.nbits) + 1 by omega]
    unfold decodeLoop
    have ep : pull (cfg 64000 true false) d (BitVec.ofNat 8 (192 + c)) [] = (192 + c, d, []) := by
      unfold pull; rw [hn]; rfl
    rw [ep]
    simp only
    rw [dc, Option.bind_some]
    simp only
    have : decodeLoop (cfg 64000 true false) (7 + d.nbits) { d with low := low } [] = some ({ d with low := low }, []) := by
      unfold decodeLoop; rfl
    rw [this]; rfl
  · unfold sat15; split
    · omega
    · split <;> omega
  · unfold sat15; split
    · omega
    · split <;> omega

example : (encode (cfg 64000 true false) init [0, 10, 20]).map
    (fun e => decide (-(2919*e.1.low.det/4096) ≤ 30/2 - e.1.low.s ∧ 30/2 - e.1.low.s < 2919*e.1.low.det/4096)) =
    some true := by decide +kernel

/-! ## What does not hold -/

/-- The last code of packed data stays in the decoder, even if all of its bits are there: four codes of six
bits are three bytes, of which only three codes are decoded.  The rest comes with the next call, if there is
one. -/
theorem packed_lags : ∃ bytes e d out, encode (cfg 48000 true true) init [100, 200, 300, 400] = some (e, bytes) ∧
    e.nbits = 0 ∧ decode (cfg 48000 true true) init bytes = some (d, out) ∧ out.length = 3 ∧ d.nbits = 6 := by
  have h : (encode (cfg 48000 true true) init [100, 200, 300, 400]).bind (fun e =>
      (decode (cfg 48000 true true) init e.2).map fun d => (e.1.nbits, d.2.length, d.1.nbits)) = some (0, 3, 6) := by
    decide +kernel
  rw [Option.bind_eq_some_iff] at h
  obtain ⟨⟨e, bytes⟩, h1, h⟩ := h
  rw [Option.map_eq_some_iff] at h
  obtain ⟨⟨d, out⟩, h2, h⟩ := h
  simp only [Prod.mk.injEq] at h
  exact ⟨bytes, e, d, out, h1, h.1, h2, h.2.1, h.2.2⟩

/-- An odd number of samples at 16000 a second makes the encoder read beyond them. -/
theorem odd_overreads (rate : Int) (packed : Bool) (s : Codec) (a : Int) :
    encode (cfg rate false packed) s [a] = none := by
  unfold encode
  rw [if_neg (by simp [cfg])]

end G722
