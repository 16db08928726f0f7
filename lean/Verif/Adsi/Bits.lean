import Verif.Adsi.Spec
import Verif.Crc.Props

/-!
# Bits
-/

namespace Adsi

set_option linter.unusedSimpArgs false
set_option linter.unusedVariables false

/-- The bits of an octet on the line. -/
def frame (stop : Nat) (o : Byte) : List Bool := [false] ++ Crc.Spec.octetBits o ++ [true] ++ List.replicate (stop - 1) true

/-- The alternating bits from number `i`. -/
def alt (i : Nat) : Nat → List Bool
  | 0 => []
  | n + 1 => (i % 2 == 1) :: alt (i + 1) n

theorem putBits_append : ∀ (a b : List Bool) (s : Rx), putBits s (a ++ b) = (putBits s a).bind fun s => putBits s b
  | [], _, _ => rfl
  | x :: a, b, s => by
    simp only [List.cons_append, putBits]
    cases putBit s x with
    | none => rfl
    | some s => exact putBits_append a b s

/-! ## Transmitter -/

/-- What `drain` gives when a number of bits come before the rest. -/
theorem drain_cons {n : Nat} {s s' : Tx} {b : Bool} {q : List Bool × Tx} (h : getBit s = some (s', some b)) (k : drain n s' = some q) :
    drain (n + 1) s = some (b :: q.1, q.2) := by
  rw [drain, h]
  simp only [Option.bind_some]
  rw [k]; rfl

theorem drain_end {s : Tx} {n : Nat} (h : s.pre + s.ones + s.post < s.bitNo) :
    drain (n + 1) s = some ([], if s.on then { s with on := false, msgLen := 0 } else s) := by
  rw [drain]
  unfold getBit
  rw [if_neg (by omega), if_neg (by omega), if_neg (by omega), if_neg (by omega)]
  rfl

theorem drain_post : ∀ (k : Nat) {s : Tx} {n : Nat} , s.pre + s.ones < s.bitNo → s.bitNo + k = s.pre + s.ones + s.post + 1 →
    drain (n + k + 1) s = some (List.replicate k true, { (if s.on then { s with on := false, msgLen := 0 } else s) with bitNo := s.bitNo + k })
  | 0, s, n, h1, h2 => by
    rw [drain_end (by omega)]
    cases s.on <;> rfl
  | k + 1, s, n, h1, h2 => by
    have hb : getBit s = some ({ s with bitNo := s.bitNo + 1 }, some true) := by
      unfold getBit
      rw [if_neg (by omega), if_neg (by omega), if_neg (by omega), if_pos (by omega)]
    have := drain_post k (s := { s with bitNo := s.bitNo + 1 }) (n := n) (by simp only; omega) (by simp only; omega)
    rw [show n + (k + 1) + 1 = n + k + 1 + 1 by omega, drain_cons hb this]
    simp only [List.replicate_succ]
    cases hs : s.on <;> simp [hs, Nat.add_assoc, Nat.add_comm 1 k]

/-- The stop bits. -/
theorem drain_stop {s : Tx} (h1 : s.bitNo = s.pre + s.ones) : ∀ (k : Nat) {n : Nat} {p : Nat} {q : List Bool × Tx}, 9 ≤ p → p + k = max 9 (8 + s.stop) →
    drain n { s with bitPos := 0, byteNo := s.byteNo + 1, bitNo := if s.byteNo + 1 ≥ s.msgLen then s.bitNo + 1 else s.bitNo } = some q →
    drain (n + k + 1) { s with bitPos := p } = some (List.replicate (k + 1) true ++ q.1, q.2)
  | 0, n, p, q, h2, h3, hq => by
    have hb : getBit { s with bitPos := p } = some ({ s with bitPos := 0, byteNo := s.byteNo + 1, bitNo := if s.byteNo + 1 ≥ s.msgLen then s.bitNo + 1 else s.bitNo }, some true) := by
      unfold getBit
      simp only
      rw [if_neg (by omega), if_neg (by omega), if_pos (by omega), if_neg (by omega), if_neg (by omega), if_neg (by omega)]
    rw [Nat.add_zero, drain_cons hb hq]; rfl
  | k + 1, n, p, q, h2, h3, hq => by
    have hb : getBit { s with bitPos := p } = some ({ s with bitPos := p + 1 }, some true) := by
      unfold getBit
      simp only
      rw [if_neg (by omega), if_neg (by omega), if_pos (by omega), if_neg (by omega), if_neg (by omega), if_pos (by omega)]
    have := drain_stop h1 k (p := p + 1) (by omega) (by omega) hq
    rw [show n + (k + 1) + 1 = (n + k + 1) + 1 by omega, drain_cons hb this]; rfl

theorem drain_octet {s : Tx} (h1 : s.bitNo = s.pre + s.ones) (h2 : s.bitPos = 0) {o : Byte} (ho : s.msg[s.byteNo]? = some o) {n : Nat} {q : List Bool × Tx}
    (hq : drain n { s with bitPos := 0, byteNo := s.byteNo + 1, bitNo := if s.byteNo + 1 ≥ s.msgLen then s.bitNo + 1 else s.bitNo } = some q) :
    drain (n + (9 + max 1 s.stop)) s = some (frame s.stop o ++ q.1, q.2) := by
  have hd : ∀ i, i < 8 → getBit { s with bitPos := i + 1 } = some ({ s with bitPos := i + 2 }, some (o.getLsbD i)) := by
    intro i hi
    unfold getBit
    simp only
    rw [if_neg (by omega), if_neg (by omega), if_pos (by omega), if_neg (by omega), if_pos (by omega), ho]
    rfl
  have hs : getBit s = some ({ s with bitPos := 0 + 1 }, some false) := by
    unfold getBit
    rw [if_neg (by omega), if_neg (by omega), if_pos (by omega), if_pos h2, h2]
  have hst := drain_stop h1 (max 1 s.stop - 1) (p := 9) (by omega) (by omega) hq
  have hf : frame s.stop o = false :: o.getLsbD 0 :: o.getLsbD 1 :: o.getLsbD 2 :: o.getLsbD 3 :: o.getLsbD 4 :: o.getLsbD 5 :: o.getLsbD 6 :: o.getLsbD 7 :: List.replicate (max 1 s.stop - 1 + 1) true := by
    unfold frame
    rw [show max 1 s.stop - 1 + 1 = 1 + (s.stop - 1) by omega, ← List.replicate_append_replicate]
    simp [Crc.Spec.octetBits, List.range_succ]
  rw [hf, show n + (9 + max 1 s.stop) = (n + (max 1 s.stop - 1) + 1) + 1 + 1 + 1 + 1 + 1 + 1 + 1 + 1 + 1 by omega]
  exact drain_cons hs (drain_cons (hd 0 (by omega)) (drain_cons (hd 1 (by omega)) (drain_cons (hd 2 (by omega)) (drain_cons (hd 3 (by omega))
    (drain_cons (hd 4 (by omega)) (drain_cons (hd 5 (by omega)) (drain_cons (hd 6 (by omega)) (drain_cons (hd 7 (by omega)) hst))))))))

theorem drain_octets : ∀ (m : List Byte) {s : Tx}, s.bitNo = s.pre + s.ones → s.bitPos = 0 → m ≠ [] → s.byteNo + m.length = s.msgLen →
    (∀ i, i < m.length → s.msg[s.byteNo + i]? = m[i]?) → ∀ (n : Nat), ∃ s',
    drain (n + m.length * (9 + max 1 s.stop) + s.post + 1) s = some (m.flatMap (frame s.stop) ++ List.replicate s.post true, s')
      ∧ s' = { (if s.on then { s with on := false, msgLen := 0 } else s) with bitPos := 0, byteNo := s.msgLen, bitNo := s.pre + s.ones + s.post + 1 }
  | [], s, _, _, h, _, _, _ => absurd rfl h
  | [o], s, h1, h2, _, h4, h5, n => by
    have ho : s.msg[s.byteNo]? = some o := by simpa using h5 0 (by simp)
    have hl : s.byteNo + 1 = s.msgLen := by simpa using h4
    have hp := drain_post s.post (s := { s with bitPos := 0, byteNo := s.byteNo + 1, bitNo := if s.byteNo + 1 ≥ s.msgLen then s.bitNo + 1 else s.bitNo }) (n := n)
      (by simp only; rw [if_pos (by omega)]; omega) (by simp only; rw [if_pos (by omega)]; omega)
    have := drain_octet h1 h2 ho hp
    refine ⟨_, ?_, rfl⟩
    rw [show n + [o].length * (9 + max 1 s.stop) + s.post + 1 = n + s.post + 1 + (9 + max 1 s.stop) by simp; omega, this]
    simp only [List.flatMap_cons, List.flatMap_nil, List.append_nil]
    have hif : (if s.byteNo + 1 ≥ s.msgLen then s.bitNo + 1 else s.bitNo) = s.bitNo + 1 := if_pos (by omega)
    rw [hif]
    cases hs : s.on <;> simp [hs, hl, h1] <;> omega
  | o :: o2 :: m, s, h1, h2, _, h4, h5, n => by
    have ho : s.msg[s.byteNo]? = some o := by simpa using h5 0 (by simp)
    have hl : ¬ s.byteNo + 1 ≥ s.msgLen := by simp at h4; omega
    obtain ⟨s', k1, k2⟩ := drain_octets (o2 :: m) (s := { s with bitPos := 0, byteNo := s.byteNo + 1 }) h1 rfl (by simp) (by simp at h4 ⊢; omega)
      (by
        intro i hi
        have := h5 (i + 1) (by simp at hi ⊢; omega)
        simp only
        rw [show s.byteNo + 1 + i = s.byteNo + (i + 1) by omega, this]; rfl) n
    have := drain_octet h1 h2 ho (n := n + (o2 :: m).length * (9 + max 1 s.stop) + s.post + 1) (q := ((o2 :: m).flatMap (frame s.stop) ++ List.replicate s.post true, s'))
      (by rw [if_neg hl]; exact k1)
    refine ⟨s', ?_, ?_⟩
    · rw [show n + (o :: o2 :: m).length * (9 + max 1 s.stop) + s.post + 1 = n + (o2 :: m).length * (9 + max 1 s.stop) + s.post + 1 + (9 + max 1 s.stop) by
        simp only [List.length_cons, Nat.add_mul]; omega, this]
      simp [List.append_assoc]
    · rw [k2]
      cases hs : s.on <;> simp [hs]

theorem drain_ones : ∀ (k : Nat) {s : Tx} {n : Nat} {q : List Bool × Tx}, s.pre ≤ s.bitNo → s.bitNo + k = s.pre + s.ones →
    drain n { s with bitNo := s.bitNo + k } = some q → drain (n + k) s = some (List.replicate k true ++ q.1, q.2)
  | 0, s, n, q, _, _, h => h
  | k + 1, s, n, q, h1, h2, h => by
    have hb : getBit s = some ({ s with bitNo := s.bitNo + 1 }, some true) := by
      unfold getBit
      rw [if_neg (by omega), if_pos (by omega)]
    have := drain_ones k (s := { s with bitNo := s.bitNo + 1 }) (by simp only; omega) (by simp only; omega) (by rw [← h]; simp only; rw [show s.bitNo + 1 + k = s.bitNo + (k + 1) by omega])
    rw [show n + (k + 1) = n + k + 1 by omega, drain_cons hb this]; rfl

theorem drain_alt : ∀ (k : Nat) {s : Tx} {n : Nat} {q : List Bool × Tx}, s.bitNo + k = s.pre →
    drain n { s with bitNo := s.bitNo + k } = some q → drain (n + k) s = some (alt s.bitNo k ++ q.1, q.2)
  | 0, s, n, q, _, h => h
  | k + 1, s, n, q, h2, h => by
    have hb : getBit s = some ({ s with bitNo := s.bitNo + 1 }, some (s.bitNo % 2 == 1)) := by
      unfold getBit
      rw [if_pos (by omega)]
    have := drain_alt k (s := { s with bitNo := s.bitNo + 1 }) (by simp only; omega) (by rw [← h]; simp only; rw [show s.bitNo + 1 + k = s.bitNo + (k + 1) by omega])
    rw [show n + (k + 1) = n + k + 1 by omega, drain_cons hb this]; rfl

/-- The bits of a message which is in the buffer. -/
def line (s : Tx) (m : List Byte) : List Bool :=
  alt 0 s.pre ++ (List.replicate s.ones true ++ (m.flatMap (frame s.stop) ++ List.replicate s.post true))

theorem drain_line {s : Tx} {m : List Byte} (h1 : s.bitNo = 0) (h2 : s.bitPos = 0) (h3 : s.byteNo = 0) (hm : m ≠ []) (h4 : m.length = s.msgLen)
    (h5 : m.length ≤ 256) (h6 : ∃ r, s.msg = m ++ r) :
    ∃ s', drain (enough s) s = some (line s m, s')
      ∧ s' = { (if s.on then { s with on := false, msgLen := 0 } else s) with bitPos := 0, byteNo := s.msgLen, bitNo := s.pre + s.ones + s.post + 1 } := by
  have hfuel : m.length * (9 + max 1 s.stop) ≤ 256 * (s.stop + 10) := Nat.mul_le_mul h5 (by omega)
  obtain ⟨r, hr⟩ := h6
  obtain ⟨s', k1, k2⟩ := drain_octets m (s := { s with bitNo := s.pre + s.ones }) rfl h2 hm (by simp only; omega)
    (by intro i hi; simp only; rw [h3, Nat.zero_add, hr, List.getElem?_append_left hi]) (256 * (s.stop + 10) - m.length * (9 + max 1 s.stop))
  have e1 := drain_ones s.ones (s := { s with bitNo := s.pre }) (by simp) rfl (by exact k1)
  have e2 := drain_alt s.pre (s := s) (by rw [h1]; omega) (by rw [h1, Nat.zero_add]; exact e1)
  refine ⟨s', ?_, ?_⟩
  · rw [show enough s = 256 * (s.stop + 10) - m.length * (9 + max 1 s.stop) + m.length * (9 + max 1 s.stop) + s.post + 1 + s.ones + s.pre by
      unfold enough; omega]
    rw [h1] at e2
    exact e2
  · rw [k2]
    cases hs : s.on <;> simp [hs]

end Adsi
