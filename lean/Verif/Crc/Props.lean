import Verif.Crc.Model
import Verif.Crc.Spec

/-! # C04, C05, C06: the CRCs -/

namespace Crc
open Spec

theorem itu32Table_length : itu32Table.length = 256 := by decide +kernel
theorem itu16Table_length : itu16Table.length = 256 := by decide +kernel

/-! ## The serial register -/

section Generic
variable {w : Nat} (poly : BitVec w)

theorem bit_xor (c d : BitVec w) (a b : Bool) :
    bit poly (c ^^^ d) (a ^^ b) = bit poly c a ^^^ bit poly d b := by
  apply BitVec.eq_of_getLsbD_eq
  intro i hi
  unfold bit
  rw [BitVec.getLsbD_xor (x := c) (y := d)]
  cases a <;> cases b <;> cases c.getLsbD 0 <;> cases d.getLsbD 0 <;>
    simp [BitVec.getLsbD_xor, BitVec.getLsbD_ushiftRight] <;>
    cases c.getLsbD (1 + i) <;> cases d.getLsbD (1 + i) <;> cases poly.getLsbD i <;> rfl

/-- The register is linear in its starting value and the message. -/
theorem serial_xor (as bs : List Bool) (h : as.length = bs.length) (c d : BitVec w) :
    serial poly (c ^^^ d) (List.zipWith xor as bs) = serial poly c as ^^^ serial poly d bs := by
  induction as generalizing bs c d with
  | nil => cases bs with
    | nil => rfl
    | cons _ _ => simp at h
  | cons a as ih => cases bs with
    | nil => simp at h
    | cons b bs =>
      simp only [serial, List.zipWith_cons_cons, List.foldl_cons] at *
      rw [bit_xor]
      exact ih bs (by simpa using h) _ _

theorem serial_append (c : BitVec w) (as bs : List Bool) :
    serial poly c (as ++ bs) = serial poly (serial poly c as) bs := by
  simp [serial]

/-- Bits as a number, least significant first. -/
def val : List Bool → Nat
  | [] => 0
  | b :: bs => b.toNat + 2 * val bs

theorem val_lt (bs : List Bool) : val bs < 2 ^ bs.length := by
  induction bs with
  | nil => simp [val]
  | cons b bs ih =>
    simp only [val, List.length_cons, Nat.pow_succ]
    have : b.toNat ≤ 1 := by cases b <;> simp
    omega

/-- If `bs` takes the register to 0 and is no longer than it, the register held `bs`. -/
theorem serial_zero (htop : 2 ^ (w - 1) ≤ poly.toNat) (hw : 0 < w) (bs : List Bool) (hl : bs.length ≤ w)
    (d : BitVec w) (h : serial poly d bs = 0) : d.toNat = val bs := by
  induction bs generalizing d with
  | nil => simp only [serial, List.foldl_nil] at h; subst h; simp [val]
  | cons b bs ih =>
    have h1 := ih (by simp at hl; omega) (bit poly d b) h
    have h2 := val_lt bs
    have h3 : val bs < 2 ^ (w - 1) :=
      Nat.lt_of_lt_of_le h2 (Nat.pow_le_pow_right (by omega) (by simp at hl; omega))
    unfold bit at h1
    split at h1
    · exfalso
      have hb : ((d >>> 1) ^^^ poly).getLsbD (w - 1) = true := by
        rw [BitVec.getLsbD_xor, BitVec.getLsbD_ushiftRight, BitVec.getLsbD_of_ge d _ (by omega)]
        have : poly.getLsbD (w - 1) = true := by
          have hlt := poly.isLt
          rw [BitVec.getLsbD, Nat.testBit_eq_decide_div_mod_eq]
          have : poly.toNat / 2 ^ (w - 1) = 1 := by
            rw [Nat.div_eq_iff (Nat.two_pow_pos _)]
            have : 2 ^ w = 2 * 2 ^ (w - 1) := by
              rw [← Nat.pow_succ']; congr 1; omega
            omega
          simp [this]
        simp [this]
      have hge : 2 ^ (w - 1) ≤ ((d >>> 1) ^^^ poly).toNat := by
        apply Nat.ge_two_pow_of_testBit
        exact hb
      omega
    · rename_i hb
      have e : d.toNat % 2 = b.toNat := by
        have : d.getLsbD 0 = b := by cases b <;> cases hd : d.getLsbD 0 <;> simp [hd] at hb ⊢
        rw [← this, BitVec.getLsbD, Nat.testBit_zero]
        rcases Nat.mod_two_eq_zero_or_one d.toNat with h | h <;> simp [h]
      rw [BitVec.toNat_ushiftRight, Nat.shiftRight_eq_div_pow] at h1
      simp only [val]
      omega

theorem val_zero (bs : List Bool) (h : val bs = 0) : ∀ b ∈ bs, b = false := by
  induction bs with
  | nil => simp
  | cons b bs ih =>
    simp only [val] at h
    intro x hx
    rcases List.mem_cons.mp hx with rfl | hx
    · cases x <;> simp_all
    · exact ih (by omega) x hx

theorem serial_false (n : Nat) : serial poly 0 (List.replicate n false) = 0 := by
  induction n with
  | zero => rfl
  | succ n ih =>
    simp only [serial, List.replicate_succ, List.foldl_cons] at *
    have : bit poly 0 false = 0 := by simp [bit]
    rw [this]; exact ih

theorem val_false (n : Nat) : val (List.replicate n false) = 0 := by
  induction n with
  | zero => rfl
  | succ n ih => simp [List.replicate_succ, val, ih]

/-- Clocking in zeros never loses a set register. -/
theorem serial_zeros_ne (htop : 2 ^ (w - 1) ≤ poly.toNat) (hw : 0 < w) (n : Nat) (d : BitVec w)
    (h : serial poly d (List.replicate n false) = 0) : d = 0 := by
  induction n generalizing d with
  | zero => exact h
  | succ n ih =>
    have h1 := ih (bit poly d false) (by simpa [serial, List.replicate_succ] using h)
    have := serial_zero poly htop hw [false] hw d (by simpa [serial] using h1)
    simp [val] at this
    apply BitVec.eq_of_toNat_eq
    simpa using this

/-- A difference confined to a window of the register's size never ends as 0. -/
theorem burst_ne (htop : 2 ^ (w - 1) ≤ poly.toNat) (hw : 0 < w) (e : List Bool) (p : Nat)
    (hwin : ∀ i, e[i]? = some true → p ≤ i ∧ i < p + w) (h : serial poly 0 e = 0) :
    ∀ b ∈ e, b = false := by
  have e1 : e = e.take p ++ ((e.drop p).take w ++ (e.drop p).drop w) := by
    rw [List.take_append_drop, List.take_append_drop]
  have a1 : e.take p = List.replicate (e.take p).length false := by
    apply List.eq_replicate_of_mem
    intro b hb
    cases b with
    | false => rfl
    | true =>
      obtain ⟨i, hi, hb⟩ := List.getElem_of_mem hb
      have := hwin i (by rw [List.getElem_take] at hb; rw [← hb]; exact List.getElem?_eq_getElem _)
      simp at hi; omega
  have a3 : (e.drop p).drop w = List.replicate ((e.drop p).drop w).length false := by
    apply List.eq_replicate_of_mem
    intro b hb
    cases b with
    | false => rfl
    | true =>
      obtain ⟨i, hi, hb⟩ := List.getElem_of_mem hb
      have := hwin (p + (w + i)) (by
        rw [List.getElem_drop, List.getElem_drop] at hb; rw [← hb]; exact List.getElem?_eq_getElem _)
      omega
  rw [e1, serial_append, serial_append, a1, serial_false, a3] at h
  have h2 := serial_zeros_ne poly htop hw _ _ h
  have h3 := serial_zero poly htop hw _ (by simp; omega) _ h2
  have h4 := val_zero _ (by simpa using h3.symm)
  intro b hb
  rw [e1] at hb
  simp only [List.mem_append] at hb
  rcases hb with hb | hb | hb
  · rw [a1] at hb; exact List.eq_of_mem_replicate hb
  · exact h4 b hb
  · rw [a3] at hb; exact List.eq_of_mem_replicate hb

/-- `n` zero bits shift out a register whose low `n` bits are clear. -/
theorem serial_shift (n : Nat) (c : BitVec w) (h : ∀ i, i < n → c.getLsbD i = false) :
    serial poly c (List.replicate n false) = c >>> n := by
  induction n generalizing c with
  | zero => simp [serial]
  | succ n ih =>
    have h0 : bit poly c false = c >>> 1 := by simp [bit, h 0 (by omega)]
    simp only [serial, List.replicate_succ, List.foldl_cons] at *
    rw [h0, ih]
    · rw [← BitVec.shiftRight_add, Nat.add_comm]
    · intro i hi
      rw [BitVec.getLsbD_ushiftRight]
      exact h _ (by omega)

/-- The converse of `serial_zero`: clocking in what the register holds empties it. -/
theorem serial_self (bs : List Bool) (d : BitVec w) (h : d.toNat = val bs) : serial poly d bs = 0 := by
  induction bs generalizing d with
  | nil => apply BitVec.eq_of_toNat_eq; simpa [val, serial] using h
  | cons b bs ih =>
    simp only [val] at h
    have hb : d.getLsbD 0 = b := by
      rw [BitVec.getLsbD, Nat.testBit_zero]
      cases b <;> simp at h ⊢ <;> omega
    have h0 : bit poly d b = d >>> 1 := by
      unfold bit; rw [hb]; simp
    show serial poly (bit poly d b) bs = 0
    apply ih
    rw [h0, BitVec.toNat_ushiftRight, Nat.shiftRight_eq_div_pow, h]
    have : b.toNat ≤ 1 := by cases b <;> simp
    omega

theorem val_octet : ∀ b : BitVec 8, val (octetBits b) = b.toNat := by decide +kernel

theorem octet_serial (b : BitVec 8) (hw : 8 ≤ w) (c : BitVec w) :
    serial poly c (octetBits b) = serial poly (c ^^^ b.setWidth w) (List.replicate 8 false) := by
  have h1 := serial_xor poly (List.replicate 8 false) (octetBits b) (by simp [octetBits])
    (c ^^^ b.setWidth w) (b.setWidth w)
  have h2 : List.zipWith xor (List.replicate 8 false) (octetBits b) = octetBits b := by
    simp [octetBits, List.range, List.range.loop, List.replicate]
  have h3 : serial poly (b.setWidth w) (octetBits b) = 0 := by
    apply serial_self
    rw [val_octet, BitVec.toNat_setWidth]
    apply Nat.mod_eq_of_lt
    exact Nat.lt_of_lt_of_le b.isLt (Nat.pow_le_pow_right (by omega) hw)
  rw [h2, h3, BitVec.xor_assoc, BitVec.xor_self, BitVec.xor_zero] at h1
  simpa using h1

/-- An octet step splits into a shift and a table lookup. -/
theorem octet_split (b : BitVec 8) (hw : 8 ≤ w) (c : BitVec w) :
    serial poly c (octetBits b) =
      (c >>> 8) ^^^ serial poly (((c.setWidth 8 ^^^ b)).setWidth w) (List.replicate 8 false) := by
  rw [octet_serial poly b hw]
  have e : c ^^^ b.setWidth w = ((c >>> 8) <<< 8) ^^^ (c.setWidth 8 ^^^ b).setWidth w := by
    apply BitVec.eq_of_getLsbD_eq
    intro i hi
    simp only [BitVec.getLsbD_xor, BitVec.getLsbD_setWidth, BitVec.getLsbD_shiftLeft,
      BitVec.getLsbD_ushiftRight]
    by_cases h8 : i < 8
    · simp [hi, h8]
    · have : 8 + (i - 8) = i := by omega
      simp [hi, h8, this, BitVec.getLsbD_of_ge b i (by omega)]
  have h1 := serial_xor poly (List.replicate 8 false) (List.replicate 8 false) rfl
    ((c >>> 8) <<< 8) ((c.setWidth 8 ^^^ b).setWidth w)
  have h2 : List.zipWith xor (List.replicate 8 false) (List.replicate 8 false) = List.replicate 8 false := rfl
  rw [e, ← h2, h1]
  congr 1
  rw [serial_shift]
  · apply BitVec.eq_of_getLsbD_eq
    intro i hi
    simp only [BitVec.getLsbD_ushiftRight, BitVec.getLsbD_shiftLeft]
    by_cases h8 : 8 + i < w
    · simp [h8]
    · simp [h8]
      rw [BitVec.getLsbD_of_ge]; omega
  · intro i hi
    simp [BitVec.getLsbD_shiftLeft, hi]

end Generic

/-! ## The tables -/

theorem itu16Table_correct : ∀ u : BitVec 8,
    itu16Table.getD u.toNat 0 = serial poly16 (u.setWidth 16) (List.replicate 8 false) := by
  decide +kernel

theorem itu32Table_correct : ∀ u : BitVec 8,
    itu32Table.getD u.toNat 0 = serial poly32 (u.setWidth 32) (List.replicate 8 false) := by
  decide +kernel

theorem low8 {w : Nat} (hw : 8 ≤ w) (c : BitVec w) (b : BitVec 8) :
    ((c ^^^ b.setWidth w) &&& (0xFF#8).setWidth w).toNat = (c.setWidth 8 ^^^ b).toNat := by
  have : ((c ^^^ b.setWidth w) &&& (0xFF#8).setWidth w) = (c.setWidth 8 ^^^ b).setWidth w := by
    apply BitVec.eq_of_getLsbD_eq
    intro i hi
    have hff : (0xFF#8).getLsbD i = decide (i < 8) := by
      rw [show (0xFF#8) = BitVec.allOnes 8 from rfl]; exact BitVec.getLsbD_allOnes
    simp only [BitVec.getLsbD_and, BitVec.getLsbD_xor, BitVec.getLsbD_setWidth, hff]
    by_cases h8 : i < 8
    · simp [hi, h8]
    · simp [hi, h8, BitVec.getLsbD_of_ge b i (by omega)]
  rw [this, BitVec.toNat_setWidth]
  apply Nat.mod_eq_of_lt
  exact Nat.lt_of_lt_of_le (BitVec.isLt _) (Nat.pow_le_pow_right (by omega) hw)

theorem itu16Byte_serial (c : BitVec 16) (b : BitVec 8) :
    itu16Byte c b = serial poly16 c (octetBits b) := by
  rw [octet_split poly16 b (by omega), ← itu16Table_correct]
  unfold itu16Byte
  rw [← low8 (by omega)]
  rfl

theorem itu32Byte_serial (c : BitVec 32) (b : BitVec 8) :
    itu32Byte c b = serial poly32 c (octetBits b) := by
  rw [octet_split poly32 b (by omega), ← itu32Table_correct]
  unfold itu32Byte
  rw [← low8 (by omega)]
  have : (c >>> 8) &&& 0x00FFFFFF#32 = c >>> 8 := by
    apply BitVec.eq_of_toNat_eq
    rw [BitVec.toNat_and, show (0x00FFFFFF#32).toNat = 2 ^ 24 - 1 from rfl,
      Nat.and_two_pow_sub_one_eq_mod, BitVec.toNat_ushiftRight, Nat.shiftRight_eq_div_pow]
    have := c.isLt
    omega
  rw [this]
  rfl

theorem fold16 (m : List Byte) (c : BitVec 16) : m.foldl itu16Byte c = serial poly16 c (bits m) := by
  induction m generalizing c with
  | nil => rfl
  | cons b m ih =>
    rw [List.foldl_cons, ih, itu16Byte_serial, ← serial_append]; rfl

theorem fold32 (m : List Byte) (c : BitVec 32) : m.foldl itu32Byte c = serial poly32 c (bits m) := by
  induction m generalizing c with
  | nil => rfl
  | cons b m ih =>
    rw [List.foldl_cons, ih, itu32Byte_serial, ← serial_append]; rfl

/-! ## C06 -/

/-- The table driven CRCs are the bit-serial ones, from any starting value. -/
theorem crc_calc_is_bit_serial (m : List Byte) (c16 : BitVec 16) (c32 : BitVec 32) :
    itu16Calc m m.length c16 = some (serial poly16 c16 (bits m)) ∧
    itu32Calc m m.length c32 = some (serial poly32 c32 (bits m)) := by
  simp [itu16Calc, itu32Calc, fold16, fold32]

/-- Computing in two pieces is computing at once. -/
theorem crc_calc_is_incremental (m n : List Byte) (c16 : BitVec 16) (c32 : BitVec 32) :
    ((itu16Calc m m.length c16).bind fun c => itu16Calc n n.length c) =
      itu16Calc (m ++ n) (m ++ n).length c16 ∧
    ((itu32Calc m m.length c32).bind fun c => itu32Calc n n.length c) =
      itu32Calc (m ++ n) (m ++ n).length c32 := by
  simp only [itu16Calc, itu32Calc, Nat.le_refl, if_true, List.take_length, Option.bind_some,
    List.foldl_append, and_self]

/-- Only the first `len` bytes matter, and no byte past them is read. -/
theorem crc_calc_reads_len (m rest : List Byte) (c16 : BitVec 16) (c32 : BitVec 32) :
    itu16Calc (m ++ rest) m.length c16 = itu16Calc m m.length c16 ∧
    itu32Calc (m ++ rest) m.length c32 = itu32Calc m m.length c32 := by
  simp [itu16Calc, itu32Calc]

/-- `crc_itu16_bits` feeds the first `n` bits of the octet (zeros if `n` is over 8). -/
theorem crc_itu16_bits_is_bit_serial (b : Byte) (n : Nat) (c : BitVec 16) :
    itu16Bits b n c = serial poly16 c ((List.range n).map b.getLsbD) := by
  induction n generalizing b c with
  | zero => rfl
  | succ n ih =>
    rw [itu16Bits, ih, List.range_succ_eq_map]
    simp only [serial, List.map_cons, List.foldl_cons, List.map_map]
    congr 1
    · unfold bit
      have : ((b.setWidth 16 ^^^ c) &&& 1#16 ≠ 0) ↔ ((b.getLsbD 0 ^^ c.getLsbD 0) = true) := by
        have e : ∀ x : BitVec 16, x &&& 1#16 ≠ 0 ↔ x.getLsbD 0 = true := by
          intro x
          rw [BitVec.getLsbD, Nat.testBit_zero, ne_eq, ← BitVec.toNat_inj, BitVec.toNat_and]
          simp [Nat.and_one_is_mod]
        rw [e, BitVec.getLsbD_xor]
        simp
      simp only [this]
      rfl
    · apply List.map_congr_left
      intro i _
      simp [Nat.add_comm]

example : itu16Calc [0x31, 0x32, 0x33] 3 0xFFFF = some 0x634B ∧ itu16Bits 0x31 5 0xFFFF = 0x7478 := by
  decide +kernel

/-! ## C04 -/

theorem val_append (a b : List Bool) : val (a ++ b) = val a + 2 ^ a.length * val b := by
  induction a with
  | nil => simp [val]
  | cons x a ih =>
    simp only [List.cons_append, val, ih, List.length_cons, Nat.pow_succ]
    rw [Nat.mul_comm (2 ^ a.length) 2, Nat.mul_assoc]
    omega

theorem octetBits_length (b : BitVec 8) : (octetBits b).length = 8 := by simp [octetBits]

theorem bits_length (m : List (BitVec 8)) : (bits m).length = 8 * m.length := by
  induction m with
  | nil => rfl
  | cons b m ih =>
    have : bits (b :: m) = octetBits b ++ bits m := rfl
    rw [this, List.length_append, octetBits_length, ih, List.length_cons]; omega

theorem bits_append (m n : List (BitVec 8)) : bits (m ++ n) = bits m ++ bits n := by
  simp [bits]

/-- The complement of the register, clocked in, always leaves the same residue. -/
theorem serial_complement {w : Nat} (poly c : BitVec w) (bs : List Bool)
    (h : val bs = (c ^^^ BitVec.allOnes w).toNat) :
    serial poly c bs = serial poly (BitVec.allOnes w) (List.replicate bs.length false) := by
  have h1 := serial_xor poly bs (List.replicate bs.length false) (by simp)
    (c ^^^ BitVec.allOnes w) (BitVec.allOnes w)
  rw [serial_self poly bs _ h.symm, BitVec.xor_assoc, BitVec.xor_self, BitVec.xor_zero] at h1
  have h2 : List.zipWith xor bs (List.replicate bs.length false) = bs := by
    apply List.ext_getElem
    · simp
    · intro i h1 h2; simp
  rw [h2] at h1
  simpa using h1

theorem val_trailer16 (c : BitVec 16) :
    val (bits [c.setWidth 8, (c >>> 8).setWidth 8]) = c.toNat := by
  have : bits [c.setWidth 8, (c >>> 8).setWidth 8] =
    octetBits (c.setWidth 8) ++ octetBits ((c >>> 8).setWidth 8) := by simp [bits]
  rw [this, val_append, val_octet, val_octet, octetBits_length]
  simp only [BitVec.toNat_setWidth, BitVec.toNat_ushiftRight, Nat.shiftRight_eq_div_pow]
  have := c.isLt
  omega

theorem val_trailer32 (c : BitVec 32) :
    val (bits [c.setWidth 8, (c >>> 8).setWidth 8, (c >>> 16).setWidth 8, (c >>> 24).setWidth 8]) =
      c.toNat := by
  have : bits [c.setWidth 8, (c >>> 8).setWidth 8, (c >>> 16).setWidth 8, (c >>> 24).setWidth 8] =
    octetBits (c.setWidth 8) ++ (octetBits ((c >>> 8).setWidth 8) ++
      (octetBits ((c >>> 16).setWidth 8) ++ octetBits ((c >>> 24).setWidth 8))) := by simp [bits]
  rw [this]
  simp only [val_append, val_octet, octetBits_length,
    BitVec.toNat_setWidth, BitVec.toNat_ushiftRight, Nat.shiftRight_eq_div_pow]
  have := c.isLt
  omega

theorem residue16 : serial poly16 (BitVec.allOnes 16) (List.replicate 16 false) = 0xF0B8#16 := by
  decide +kernel

theorem residue32 : serial poly32 (BitVec.allOnes 32) (List.replicate 32 false) = 0xDEBB20E3#32 := by
  decide +kernel

theorem put_at (a : List Byte) (b x : Byte) (r : List Byte) (i : Nat) (hi : i = a.length) :
    put (a ++ b :: r) i x = some (a ++ x :: r) := by
  subst hi; simp [put]

/-- For a message `m` at the start of a buffer with room for the CRC, append writes the CRC
after it (and nothing else), and check accepts the result. -/
theorem crc_itu16_append_check (m tail : List Byte) (a b : Byte) :
    ∃ x y, itu16Append (m ++ a :: b :: tail) m.length = some (m ++ x :: y :: tail, m.length + 2) ∧
      itu16Check (m ++ x :: y :: tail) (m.length + 2) = some true := by
  let c := serial poly16 0xFFFF#16 (bits m)
  have hc : itu16Calc (m ++ a :: b :: tail) m.length 0xFFFF#16 = some c := by
    rw [(crc_calc_reads_len m _ _ 0).1, (crc_calc_is_bit_serial m _ 0).1]
  let v := c ^^^ 0xFFFF#16
  refine ⟨v.setWidth 8, (v >>> 8).setWidth 8, ?_, ?_⟩
  · unfold itu16Append
    rw [hc]
    simp only [Option.bind_eq_bind, Option.bind_some]
    rw [put_at _ _ _ _ _ rfl]
    simp only [Option.bind_some]
    rw [show ∀ x, m ++ x :: b :: tail = (m ++ [x]) ++ b :: tail by simp, put_at _ _ _ _ _ (by simp)]
    simp only [Option.bind_some, List.append_assoc, List.cons_append, List.nil_append]
    rfl
  · unfold itu16Check
    have h1 := (crc_calc_reads_len (m ++ [v.setWidth 8, (v >>> 8).setWidth 8]) tail 0xFFFF#16 0).1
    rw [(crc_calc_is_bit_serial _ _ 0).1, bits_append, serial_append,
      serial_complement poly16 _ _ (val_trailer16 v)] at h1
    simp only [List.length_append, List.length_cons, List.length_nil, List.append_assoc,
      List.cons_append, List.nil_append] at h1
    rw [h1, bits_length]
    simp only [List.length_cons, List.length_nil]
    rw [residue16]
    rfl

theorem crc_itu32_append_check (m tail : List Byte) (a b a' b' : Byte) :
    ∃ x y z w, itu32Append (m ++ a :: b :: a' :: b' :: tail) m.length =
        some (m ++ x :: y :: z :: w :: tail, m.length + 4) ∧
      itu32Check (m ++ x :: y :: z :: w :: tail) (m.length + 4) = some true := by
  let c := serial poly32 0xFFFFFFFF#32 (bits m)
  have hc : itu32Calc (m ++ a :: b :: a' :: b' :: tail) m.length 0xFFFFFFFF#32 = some c := by
    rw [(crc_calc_reads_len m _ 0 _).2, (crc_calc_is_bit_serial m 0 _).2]
  let v := c ^^^ 0xFFFFFFFF#32
  refine ⟨v.setWidth 8, (v >>> 8).setWidth 8, (v >>> 16).setWidth 8, (v >>> 24).setWidth 8, ?_, ?_⟩
  · unfold itu32Append
    rw [hc]
    simp only [Option.bind_eq_bind, Option.bind_some]
    rw [put_at _ _ _ _ _ rfl]
    simp only [Option.bind_some]
    rw [show ∀ x, m ++ x :: b :: a' :: b' :: tail = (m ++ [x]) ++ b :: a' :: b' :: tail by simp,
      put_at _ _ _ _ _ (by simp)]
    simp only [Option.bind_some]
    rw [show ∀ x y, (m ++ [x]) ++ y :: a' :: b' :: tail = (m ++ [x, y]) ++ a' :: b' :: tail by simp,
      put_at _ _ _ _ _ (by simp)]
    simp only [Option.bind_some]
    rw [show ∀ x y z, (m ++ [x, y]) ++ z :: b' :: tail = (m ++ [x, y, z]) ++ b' :: tail by simp,
      put_at _ _ _ _ _ (by simp)]
    simp only [Option.bind_some, List.append_assoc, List.cons_append, List.nil_append]
    rfl
  · unfold itu32Check
    have h1 := (crc_calc_reads_len (m ++ [v.setWidth 8, (v >>> 8).setWidth 8, (v >>> 16).setWidth 8,
      (v >>> 24).setWidth 8]) tail 0 0xFFFFFFFF#32).2
    rw [(crc_calc_is_bit_serial _ 0 _).2, bits_append, serial_append,
      serial_complement poly32 _ _ (val_trailer32 v)] at h1
    simp only [List.length_append, List.length_cons, List.length_nil, List.append_assoc,
      List.cons_append, List.nil_append] at h1
    rw [h1, bits_length]
    simp only [List.length_cons, List.length_nil]
    rw [residue32]
    rfl

/-- Append needs the room: with less, it writes outside the buffer. -/
theorem crc_append_needs_room :
    itu16Append [1, 2, 3] 2 = none ∧ itu32Append [1, 2, 3, 4, 5] 2 = none := by decide +kernel

example : itu16Append [0x31, 0x32, 0x33, 0, 0, 0x55] 3 = some ([0x31, 0x32, 0x33, 0xB4, 0x9C, 0x55], 5) := by
  decide +kernel

/-! ## C05 -/

theorem octetBits_inj : ∀ a b : BitVec 8, octetBits a = octetBits b → a = b := by
  intro a b h
  have := congrArg val h
  rw [val_octet, val_octet] at this
  exact BitVec.eq_of_toNat_eq this

theorem bits_inj (m n : List (BitVec 8)) (hl : m.length = n.length) (h : bits m = bits n) : m = n := by
  induction m generalizing n with
  | nil => cases n with
    | nil => rfl
    | cons _ _ => simp at hl
  | cons a m ih => cases n with
    | nil => simp at hl
    | cons b n =>
      have h' : octetBits a ++ bits m = octetBits b ++ bits n := h
      have := List.append_inj h' (by rw [octetBits_length, octetBits_length])
      rw [octetBits_inj a b this.1, ih n (by simpa using hl) this.2]

/-- Two messages a burst apart never leave the register with the same value. -/
theorem burst_detected {w : Nat} (poly c : BitVec w) (htop : 2 ^ (w - 1) ≤ poly.toNat) (hw : 0 < w)
    (m m' : List (BitVec 8)) (hb : Burst w m m') :
    serial poly c (bits m) ≠ serial poly c (bits m') := by
  obtain ⟨hl, hne, p, hp⟩ := hb
  intro h
  have hlb : (bits m).length = (bits m').length := by rw [bits_length, bits_length, hl]
  have hx := serial_xor poly (bits m) (bits m') hlb c c
  rw [h, BitVec.xor_self, BitVec.xor_self] at hx
  have hz := burst_ne poly htop hw _ p (fun i hi => by
    apply hp
    intro he
    rw [List.getElem?_zipWith, he] at hi
    cases h2 : (bits m')[i]? with
    | none => simp [h2] at hi
    | some b => simp [h2] at hi) hx
  apply hne
  apply bits_inj _ _ hl
  apply List.ext_getElem hlb
  intro i h1 h2
  have h3 : i < (List.zipWith xor (bits m) (bits m')).length := by simp; omega
  have h4 := hz _ (List.getElem_mem h3)
  rw [List.getElem_zipWith] at h4
  generalize (bits m)[i] = u at *
  generalize (bits m')[i] = v at *
  cases u <;> cases v <;> simp_all

theorem crc_itu16_detects_bursts (m m' : List Byte) (h : itu16Check m m.length = some true)
    (hb : Burst 16 m m') : itu16Check m' m'.length = some false := by
  have hd := burst_detected poly16 0xFFFF#16 (by decide) (by decide) m m' hb
  unfold itu16Check at *
  rw [(crc_calc_is_bit_serial _ _ 0).1] at *
  have e : ∀ x : BitVec 16, x &&& 0xFFFF#16 = x := by
    intro x; rw [show 0xFFFF#16 = BitVec.allOnes 16 from rfl, BitVec.and_allOnes]
  simp [e] at h ⊢
  rw [h] at hd
  exact fun h2 => hd h2.symm

theorem crc_itu32_detects_bursts (m m' : List Byte) (h : itu32Check m m.length = some true)
    (hb : Burst 32 m m') : itu32Check m' m'.length = some false := by
  have hd := burst_detected poly32 0xFFFFFFFF#32 (by decide) (by decide) m m' hb
  unfold itu32Check at *
  rw [(crc_calc_is_bit_serial _ 0 _).2] at *
  simp at h ⊢
  rw [h] at hd
  exact fun h2 => hd h2.symm

/-- The hypotheses of the burst theorems are met: a valid message, and a 16 bit burst in it
which starts in the middle of an octet. -/
example : itu16Check [0x31, 0x32, 0x33, 0xB4, 0x9C] 5 = some true ∧
    Burst 16 [0x31, 0x32, 0x33, 0xB4, 0x9C] [0x31, 0x22, 0x98, 0xBD, 0x9C] := by
  refine ⟨by decide +kernel, by decide, by decide, 12, ?_⟩
  intro i hi
  have h40 : i < 40 := by
    rcases Nat.lt_or_ge i 40 with h | h
    · exact h
    · rw [List.getElem?_eq_none (by rw [bits_length]; simpa using h),
        List.getElem?_eq_none (by rw [bits_length]; simpa using h)] at hi
      exact absurd rfl hi
  have key : ∀ i, i < 40 → (bits [0x31, 0x32, 0x33, 0xB4, 0x9C])[i]? ≠
      (bits [0x31, 0x22, 0x98, 0xBD, 0x9C])[i]? → 12 ≤ i ∧ i < 12 + 16 := by decide +kernel
  exact key i h40 hi

end Crc
