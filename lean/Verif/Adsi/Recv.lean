import Verif.Adsi.Bits
import Mathlib.Tactic.IntervalCases

/-!
# The receiver
-/

namespace Adsi

set_option linter.unusedSimpArgs false
set_option linter.unusedVariables false

/-- Eight bits go through the register. -/
theorem shift_in (p o : Byte) :
    (((((((((p >>> 1 ||| (if o.getLsbD 0 then (0x80 : Byte) else 0)) >>> 1 ||| (if o.getLsbD 1 then (0x80 : Byte) else 0)) >>> 1 ||| (if o.getLsbD 2 then (0x80 : Byte) else 0)) >>> 1
      ||| (if o.getLsbD 3 then (0x80 : Byte) else 0)) >>> 1 ||| (if o.getLsbD 4 then (0x80 : Byte) else 0)) >>> 1 ||| (if o.getLsbD 5 then (0x80 : Byte) else 0)) >>> 1
      ||| (if o.getLsbD 6 then (0x80 : Byte) else 0)) >>> 1 ||| (if o.getLsbD 7 then (0x80 : Byte) else 0))) = o := by
  have hk : ∀ (b : Bool) (i : Nat), (if b then (0x80 : Byte) else 0).getLsbD i = (b && decide (i = 7)) := by
    intro b i
    cases b
    · simp
    · simp only [if_true, Bool.true_and]
      by_cases hi : i < 8
      · interval_cases i <;> decide
      · rw [BitVec.getLsbD_of_ge _ _ (by omega)]
        symm; rw [decide_eq_false_iff_not]; omega
  apply BitVec.eq_of_getLsbD_eq
  intro i hi
  simp only [BitVec.getLsbD_or, BitVec.getLsbD_ushiftRight, hk]
  interval_cases i <;> simp

/-- Eight bits and a stop bit. -/
theorem putBits_data (s : Rx) (o : Byte) (h : s.bitPos = 1) :
    putBits s (Crc.Spec.octetBits o ++ [true]) = (octet { s with bitPos := 9, prog := o } o).bind fun s => some { s with bitPos := 0, prog := 0 } := by
  have hstep : ∀ (s : Rx) (k : Nat) (b : Bool) (l : List Bool), s.bitPos = k + 1 → k < 8 →
      putBits s (b :: l) = putBits { s with prog := (s.prog >>> 1) ||| (if b then 0x80 else 0), bitPos := k + 2 } l := by
    intro s k b l hs hk
    rw [putBits]
    unfold putBit
    rw [if_neg (by omega), if_pos (by omega), hs]
    rfl
  have hlist : Crc.Spec.octetBits o ++ [true] = [o.getLsbD 0, o.getLsbD 1, o.getLsbD 2, o.getLsbD 3, o.getLsbD 4, o.getLsbD 5, o.getLsbD 6, o.getLsbD 7, true] := by
    simp [Crc.Spec.octetBits, List.range_succ]
  rw [hlist, hstep _ 0 _ _ h (by omega), hstep _ 1 _ _ rfl (by omega), hstep _ 2 _ _ rfl (by omega), hstep _ 3 _ _ rfl (by omega),
    hstep _ 4 _ _ rfl (by omega), hstep _ 5 _ _ rfl (by omega), hstep _ 6 _ _ rfl (by omega), hstep _ 7 _ _ rfl (by omega)]
  simp only [shift_in]
  rw [putBits]
  unfold putBit
  simp only [if_true]
  rw [if_neg (by decide), if_neg (by decide)]
  cases octet { s with prog := o, bitPos := 7 + 2 } o with
  | none => rfl
  | some s => rfl

/-- Ones on an idle line. -/
theorem putBits_idle : ∀ (n : Nat) {s : Rx}, s.bitPos = 0 → putBits s (List.replicate n true) = some { s with ones := s.ones + n }
  | 0, s, _ => rfl
  | n + 1, s, h => by
    rw [List.replicate_succ, putBits]
    have hb : putBit s true = some { s with ones := s.ones + 1 } := by
      unfold putBit
      rw [if_pos h, if_pos rfl]
    rw [hb, Option.bind_some, putBits_idle n (by exact h)]
    simp only [Nat.add_assoc, Nat.add_comm 1 n]

/-- The octets do not depend on what the receiver of bits keeps, and leave it alone. -/
theorem octet_frame {s : Rx} {o : Byte} (a b : Nat) (c : Byte) {s' : Rx} (h : octet s o = some s') :
    octet { s with ones := a, bitPos := b, prog := c } o = some { s' with ones := a, bitPos := b, prog := c } := by
  have hst : ∀ {s s' : Rx}, s.store o = some s' → Rx.store { s with ones := a, bitPos := b, prog := c } o = some { s' with ones := a, bitPos := b, prog := c } := by
    intro s s' h
    unfold Rx.store at h ⊢
    split at h
    · next hl => rw [if_pos hl]; cases h; rfl
    · cases h
  unfold octet at h ⊢
  simp only
  split at h
  · next hl =>
    rw [if_pos hl]
    split at h
    · next hj =>
      rw [if_pos hj]
      unfold jclipOctet at h ⊢
      generalize hz : (if s.msg.length = 0 then if o = 144 then s.store o else some s else s.store o) = z at h
      rcases z with _ | s1
      · cases h
      · have hz' : (if s.msg.length = 0 then if o = 144 then Rx.store { s with ones := a, bitPos := b, prog := c } o else some { s with ones := a, bitPos := b, prog := c }
            else Rx.store { s with ones := a, bitPos := b, prog := c } o) = some { s1 with ones := a, bitPos := b, prog := c } := by
          split at hz
          · next h0 =>
            rw [if_pos h0]
            split at hz
            · next h1 => rw [if_pos h1]; exact hst hz
            · next h1 => rw [if_neg h1]; cases hz; rfl
          · next h0 => rw [if_neg h0]; exact hst hz
        simp only [hz', Option.bind_some] at h ⊢
        split at h
        · next h11 =>
          rw [if_pos h11]
          rcases h6 : s1.msg[6]? with _ | n
          · rw [h6] at h; cases h
          · rw [h6] at h
            simp only [Option.bind_some] at h ⊢
            split at h
            · next hn =>
              rw [if_pos hn]
              rcases hc : Crc.itu16Calc (s1.msg.drop 2) (s1.msg.length - 2) 0 with _ | crc
              · rw [hc] at h; cases h
              · rw [hc] at h
                simp only [Option.bind_some] at h ⊢
                cases h
                split <;> rfl
            · next hn => rw [if_neg hn]; cases h; rfl
        · next h11 => rw [if_neg h11]; cases h; rfl
    · next hj =>
      rw [if_neg hj]
      unfold sumOctet at h ⊢
      rcases hz : s.store o with _ | s1
      · rw [hz] at h; cases h
      · rw [hz] at h
        rw [hst hz]
        simp only [Option.bind_some] at h ⊢
        split at h
        · next h11 =>
          rw [if_pos h11]
          rcases h6 : s1.msg[1]? with _ | n
          · rw [h6] at h; cases h
          · rw [h6] at h
            simp only [Option.bind_some] at h ⊢
            split at h
            · next hn =>
              rw [if_pos hn]
              rcases hc : s1.msg[s1.msg.length - 1]? with _ | crc
              · rw [hc] at h; cases h
              · rw [hc] at h
                simp only [Option.bind_some] at h ⊢
                cases h
                split <;> rfl
            · next hn => rw [if_neg hn]; cases h; rfl
        · next h11 => rw [if_neg h11]; cases h; rfl
  · next hl => rw [if_neg hl]; cases h; rfl

/-- A frame. -/
theorem putBits_frame {s s' : Rx} {stop : Nat} {o : Byte} (h : s.bitPos = 0) (ho : octet { s with msg := if s.ones > 10 then [] else s.msg } o = some s') :
    putBits s (frame stop o) = some { s' with ones := stop - 1, bitPos := 0, prog := 0 } := by
  unfold frame
  have h1 : putBits s [false] = some { s with bitPos := 1, msg := if s.ones > 10 then [] else s.msg, ones := 0 } := by
    rw [putBits]
    unfold putBit
    rw [if_pos h, if_neg (by decide)]
    rfl
  rw [List.append_assoc, List.append_assoc, putBits_append, h1, Option.bind_some, ← List.append_assoc, putBits_append, putBits_data _ _ rfl]
  have h2 := octet_frame 0 9 o ho
  simp only at h2 ⊢
  rw [h2]
  simp only [Option.bind_some]
  rw [putBits_idle _ rfl]
  simp

/-- Octets one after the other. -/
def octets : Rx → List Byte → Option Rx
  | s, [] => some s
  | s, o :: l => (octet s o).bind fun s => octets s l

/-- Frames, after the line was idle, or with nothing in the buffer, are octets from the start of a message. -/
theorem putBits_frames {stop : Nat} (hs : stop ≤ 11) : ∀ (l : List Byte) {s s' : Rx}, s.bitPos = 0 → s.prog = 0 →
    octets { s with msg := if s.ones > 10 then [] else s.msg } l = some s' →
    ∃ n, putBits s (l.flatMap (frame stop)) = some { (if l = [] then s else s') with ones := n, bitPos := 0, prog := 0 } ∧ (l = [] ∨ n ≤ 10)
  | [], s, s', h, hp, _ => ⟨s.ones, by simp only [List.flatMap_nil, putBits, if_true, ← h, ← hp], Or.inl rfl⟩
  | o :: l, s, s', h, hp, ho => by
    rw [octets] at ho
    rcases h1 : octet { s with msg := if s.ones > 10 then [] else s.msg } o with _ | s1
    · rw [h1] at ho; cases ho
    · rw [h1] at ho
      simp only [Option.bind_some] at ho
      have hf := putBits_frame (stop := stop) h h1
      rw [List.flatMap_cons, putBits_append, hf, Option.bind_some, if_neg (by simp)]
      have hcong : ∀ (l : List Byte) {s s' : Rx} (a b : Nat) (c : Byte), octets s l = some s' →
          octets { s with ones := a, bitPos := b, prog := c } l = some { s' with ones := a, bitPos := b, prog := c } := by
        intro l
        induction l with
        | nil => intro s s' a b c h; cases h; rfl
        | cons o l ih =>
          intro s s' a b c h
          rw [octets] at h ⊢
          rcases h1 : octet s o with _ | s1
          · rw [h1] at h; cases h
          · rw [h1] at h
            rw [octet_frame a b c h1]
            exact ih a b c h
      rcases hl : l with _ | ⟨o2, l2⟩
      · rw [hl] at ho
        cases ho
        exact ⟨stop - 1, rfl, Or.inr (by omega)⟩
      · have hb : ¬ (stop - 1 > 10) := by omega
        obtain ⟨n, k1, k2⟩ := putBits_frames hs l (s := { s1 with ones := stop - 1, bitPos := 0, prog := 0 }) (s' := { s' with ones := stop - 1, bitPos := 0, prog := 0 }) rfl rfl
          (by simp only [if_neg hb]; exact hcong l _ _ _ ho)
        rw [hl] at k1 k2
        refine ⟨n, ?_, k2.elim (by simp) Or.inr⟩
        rw [k1, if_neg (by simp)]

end Adsi
