import Verif.Adsi.Msg

/-!
# Messages arrive
-/

set_option linter.unusedSimpArgs false

namespace Adsi

/-- What is in the buffer for a message. -/
def wire (std : Std) (m : List Byte) : Option (List Byte) :=
  match std with
  | .jclip => if m.length > 119 then none else jclipMsg m
  | .dtmf => none
  | .tdd => none
  | _ => if m.length > 255 then none else some (sumMsg m)

/-- A transmitter with a message in its buffer. -/
def loaded (t : Tx) (b : List Byte) : Tx :=
  { (if t.on then t else startTx t) with msg := b ++ t.msg.drop b.length, msgLen := b.length, byteNo := 0, bitPos := 0, bitNo := 0 }

theorem startTx_std (t : Tx) : (if t.on then t else startTx t).std = t.std := by split <;> rfl
theorem startTx_msg (t : Tx) : (if t.on then t else startTx t).msg = t.msg := by split <;> rfl

theorem put_eq {t : Tx} (hq : t.msgLen = 0) {m b : List Byte} (hw : wire t.std m = some b) (hb : b.length ≤ 256) :
    putMessage t m = some (loaded t b, (m.length : Int)) := by
  unfold putMessage
  rw [if_neg (by omega)]
  simp only
  have h1 := startTx_std t
  have h2 := startTx_msg t
  unfold loaded
  generalize (if t.on = true then t else startTx t) = u at *
  rw [← h1] at hw
  unfold wire at hw
  cases hu : u.std <;> simp only [hu] at hw ⊢
  all_goals try cases hw
  all_goals
    split at hw
    · cases hw
    · rename_i hl
      rw [if_neg hl]
      first
        | cases hw
          simp only [Option.bind_some, load, if_pos hb]
          rw [h2, hu]
        | rw [hw]
          simp only [Option.bind_some, load, if_pos hb]
          rw [h2, hu]

/-- The same settings. -/
structure Like (t t' : Tx) : Prop where
  std : t'.std = t.std
  pre : t'.pre = t.pre
  ones : t'.ones = t.ones
  post : t'.post = t.post
  stop : t'.stop = t.stop

theorem loaded_on (t : Tx) (b : List Byte) : (loaded t b).on = true := by
  unfold loaded
  by_cases h : t.on = true
  · simp [h]
  · simp [h, startTx]

theorem loaded_line (t : Tx) (b c : List Byte) : line (loaded t b) c = line t c := by
  unfold line loaded
  by_cases h : t.on = true
  · simp [h]
  · simp [h, startTx]

theorem loaded_like (t : Tx) (b : List Byte) : Like t (loaded t b) := by
  unfold loaded
  by_cases h : t.on = true
  · simp only [h, if_true]; exact ⟨rfl, rfl, rfl, rfl, rfl⟩
  · simp only [h]; exact ⟨rfl, rfl, rfl, rfl, rfl⟩

theorem drain_loaded {t : Tx} (hq : Quiet t) {b c : List Byte} (hne : b ≠ []) (hb : b.length ≤ 256) (hc : c.length = b.length) :
    ∃ t', drain (enough (loaded t b)) { loaded t b with msg := c ++ (loaded t b).msg.drop b.length } = some (line t c, t') ∧ Quiet t' ∧ Like t t' := by
  have hd : (loaded t b).msg.drop b.length = t.msg.drop b.length := by unfold loaded; simp
  have hm : (loaded t b).msgLen = b.length := rfl
  obtain ⟨t', h1, h2⟩ := drain_line (s := { loaded t b with msg := c ++ (loaded t b).msg.drop b.length }) (m := c) rfl rfl rfl
    (by intro h; rw [h] at hc; exact hne (List.length_eq_zero_iff.mp hc.symm)) (by rw [hc]; rfl) (by omega) ⟨_, rfl⟩
  refine ⟨t', ?_, ?_, ?_⟩
  · rw [show line t c = line { loaded t b with msg := c ++ (loaded t b).msg.drop b.length } c from (loaded_line t b c).symm]
    exact h1
  · rw [h2]
    have := loaded_on t b
    simp only [this, if_true]
    refine ⟨rfl, ?_⟩
    simp only [hd, List.length_append, List.length_drop, hq.buf, hc]
    omega
  · rw [h2]
    have := loaded_on t b
    have hl := loaded_like t b
    simp only [this, if_true]
    exact ⟨hl.std, hl.pre, hl.ones, hl.post, hl.stop⟩

theorem calc_drop (l : List Byte) (c : BitVec 16) :
    Crc.itu16Calc (l.drop 2) (l.length - 2) c = some (Crc.Spec.serial Crc.Spec.poly16 c (Crc.Spec.bits (l.drop 2))) := by
  rw [← List.length_drop, calc_all]

theorem wire_fits {std : Std} {m : List Byte} (h : Fits std m) : ∃ b, wire std m = some b ∧ b ≠ [] ∧ b.length ≤ 256 := by
  unfold Fits at h
  unfold wire
  cases std
  all_goals simp only at h ⊢
  case jclip =>
    rw [if_neg (by omega)]
    unfold jclipMsg
    rw [if_neg (by omega), List.getElem?_eq_getElem (by omega)]
    simp only [Option.bind_some]
    rw [calc_drop]
    refine ⟨_, rfl, by simp, ?_⟩
    simp only [List.length_append, List.length_map, List.length_cons, List.length_nil, List.length_drop]
    split <;> simp only [List.length_cons, List.length_nil] <;> omega
  all_goals
    rw [if_neg (by omega)]
    refine ⟨_, rfl, by simp [sumMsg], ?_⟩
    simp only [sumMsg, List.length_append, List.length_set, List.length_cons, List.length_nil]
    omega

theorem set_one {m : List Byte} (h : 2 ≤ m.length) (x : Byte) : m.set 1 x = m.take 1 ++ [x] ++ m.drop 2 := by
  match m, h with
  | a :: b :: l, _ => simp

theorem ofInt_len {n : Nat} (h : 2 ≤ n) : (BitVec.ofInt 8 ((n : Int) - 2) : Byte) = BitVec.ofNat 8 (n - 2) := by
  rw [show ((n : Int) - 2) = ((n - 2 : Nat) : Int) by omega, BitVec.ofInt_natCast]

theorem add_zero_sub (x : Byte) : x + (0 - x) = 0 := by
  have : ∀ x : BitVec 8, x + (0#8 - x) = 0#8 := by decide +kernel
  exact this x

/-- What becomes of octets with a good length. -/
theorem sum_octets {std : Std} (hs : std ≠ .jclip) {b : List Byte} {n : Byte} (h1 : b.length = n.toNat + 3) (hb256 : b.length ≤ 256) (hn : b[1]? = some n) :
    Carries std b (if sum8 b = 0 then [b.dropLast] else []) := by
  have hne : b ≠ [] := by intro h; rw [h] at hn; cases hn
  have hb := List.dropLast_concat_getLast hne
  have hlt := n.isLt
  refine ⟨hne, by omega, ?_⟩
  intro s hstd hm
  have hk := octets_sum (m := b.dropLast) (c := b.getLast hne) (n := n) (by rw [List.length_dropLast]; omega) (by rw [List.length_dropLast]; omega)
    (by rw [List.getElem?_dropLast, if_pos (by omega), hn]) (by rw [List.length_dropLast]; omega) b.dropLast [] (by rw [hstd]; exact hs) hm rfl
  rw [hb] at hk
  rw [hk]
  have e : sum8 b = sum8 b.dropLast + b.getLast hne := by
    conv_lhs => rw [← hb]
    rw [sum8, List.foldl_append]; rfl
  by_cases h0 : sum8 b = 0
  · rw [if_pos h0, if_pos]
    rw [e] at h0
    generalize sum8 b.dropLast = x at *
    generalize b.getLast hne = y at *
    have hz : x + y - x = 0 - x := by rw [h0]
    rw [← hz]
    rw [BitVec.add_comm, BitVec.add_sub_cancel]
  · rw [if_neg h0, if_neg, List.append_nil]
    intro hx
    apply h0
    rw [e, ← hx]
    exact add_zero_sub _

theorem sum_shape {m : List Byte} (h2 : 2 ≤ m.length) (hl : m.length ≤ 255) {std : Std} (hs : std ≠ .jclip) :
    (sumMsg m).length = (BitVec.ofNat 8 (m.length - 2)).toNat + 3 ∧ (sumMsg m)[1]? = some (BitVec.ofNat 8 (m.length - 2)) ∧ sum8 (sumMsg m) = 0
      ∧ (sumMsg m).dropLast = given std m := by
  have hg : given std m = m.set 1 (BitVec.ofInt 8 (m.length - 2)) := by
    unfold given
    rw [if_neg hs, set_one h2, ofInt_len h2]
  refine ⟨?_, ?_, ?_, ?_⟩
  · simp only [sumMsg, List.length_append, List.length_set, List.length_singleton, BitVec.toNat_ofNat]; omega
  · simp only [sumMsg]
    rw [List.getElem?_append_left (by simp; omega), ofInt_len h2, List.getElem?_set_self (by omega)]
  · simp only [sumMsg]
    generalize m.set 1 (BitVec.ofInt 8 (m.length - 2)) = x
    rw [show sum8 (x ++ [0 - sum8 x]) = sum8 x + (0 - sum8 x) by unfold sum8; rw [List.foldl_append]; rfl]
    exact add_zero_sub _
  · rw [hg]; simp only [sumMsg]; rw [List.dropLast_concat]

theorem carries_sum {std : Std} (hs : std ≠ .jclip) {m : List Byte} (h2 : 2 ≤ m.length) (hl : m.length ≤ 255) :
    Carries std (sumMsg m) [given std m] := by
  obtain ⟨h1, h3, h4, h5⟩ := sum_shape h2 hl hs
  have := sum_octets hs h1 (by rw [h1, BitVec.toNat_ofNat]; omega) h3
  rwa [if_pos h4, h5] at this

theorem parity_off : ∀ o : Byte, o.toNat < 128 → withParity o &&& 0x7F = o := by decide +kernel

theorem jclip_shape {m b : List Byte} (h : Fits .jclip m) (hw : wire .jclip m = some b) :
    b.length = m.length - 2 + 11 ∧ b[0]? = some 0x90 ∧ (∃ n, b[6]? = some n ∧ (n &&& 0x7F).toNat = m.length - 2)
      ∧ Crc.Spec.serial Crc.Spec.poly16 0 (Crc.Spec.bits (b.drop 2)) = 0 ∧ b.dropLast.dropLast.map (· &&& 0x7F) = given .jclip m := by
  obtain ⟨h1, h2, h3, h4⟩ := h
  unfold wire at hw
  simp only at hw
  rw [if_neg (by omega)] at hw
  unfold jclipMsg at hw
  rw [if_neg (by omega), List.getElem?_eq_getElem (by omega)] at hw
  simp only [Option.bind_some] at hw
  rw [calc_drop, if_neg (by omega), List.append_nil] at hw
  simp only [Option.bind_some] at hw
  have hg : given .jclip m = [DLE, 0x01, 0x07, DLE, 0x02, m[0], BitVec.ofNat 8 (m.length - 2)] ++ m.drop 2 ++ [DLE, 0x03] := by
    unfold given
    rw [if_pos rfl]
    match m, h1 with
    | a :: c :: l, _ => simp
  rw [← hg] at hw
  have hlen : (given .jclip m).length = m.length - 2 + 9 := by rw [hg]; simp
  have hsmall : ∀ o ∈ given .jclip m, o.toNat < 128 := by
    intro o ho
    rw [hg] at ho
    rw [List.mem_append, List.mem_append] at ho
    rcases ho with (ho | ho) | ho
    · simp only [List.mem_cons, List.not_mem_nil, or_false] at ho
      rcases ho with rfl | rfl | rfl | rfl | rfl | rfl | rfl
      · decide
      · decide
      · decide
      · decide
      · decide
      · exact h4 _ (List.getElem_mem _)
      · rw [BitVec.toNat_ofNat]; omega
    · exact h4 _ (List.mem_of_mem_drop ho)
    · simp only [List.mem_cons, List.not_mem_nil, or_false] at ho
      rcases ho with rfl | rfl <;> decide
  have h0 : (given .jclip m)[0]? = some DLE := by rw [hg]; rfl
  have h6 : (given .jclip m)[6]? = some (BitVec.ofNat 8 (m.length - 2)) := by rw [hg]; rfl
  generalize given .jclip m = g at *
  generalize hcrc : Crc.Spec.serial Crc.Spec.poly16 0 (Crc.Spec.bits ((g.map withParity).drop 2)) = crc at hw
  cases hw
  have hn : (BitVec.ofNat 8 (m.length - 2)).toNat = m.length - 2 := by rw [BitVec.toNat_ofNat]; omega
  refine ⟨by simp; omega, ?_, ⟨withParity (BitVec.ofNat 8 (m.length - 2)), ?_, ?_⟩, ?_, ?_⟩
  · rw [List.getElem?_append_left (by simp; omega), List.getElem?_map, h0]; rfl
  · rw [List.getElem?_append_left (by simp; omega), List.getElem?_map, h6]; rfl
  · rw [parity_off _ (by rw [hn]; omega), hn]
  · rw [List.drop_append_of_le_length (by simp; omega)]
    rw [show ∀ a b : List Byte, Crc.Spec.bits (a ++ b) = Crc.Spec.bits a ++ Crc.Spec.bits b from fun a b => by simp [Crc.Spec.bits], Crc.serial_append, hcrc]
    exact Crc.serial_self _ _ _ (Crc.val_trailer16 crc).symm
  · rw [show g.map withParity ++ [crc.setWidth 8, (crc >>> 8).setWidth 8] = g.map withParity ++ [crc.setWidth 8] ++ [(crc >>> 8).setWidth 8] by simp,
      List.dropLast_concat, List.dropLast_concat, List.map_map, List.map_congr_left (g := id)]
    · simp
    · intro o ho
      exact parity_off o (hsmall o ho)

/-- What becomes of octets of J-CLIP with a good length. -/
theorem jclip_octets {b : List Byte} {n : Byte} (h1 : b.length = (n &&& 0x7F).toNat + 11) (h0 : b[0]? = some 0x90) (h6 : b[6]? = some n) :
    Carries .jclip b (if Crc.Spec.serial Crc.Spec.poly16 0 (Crc.Spec.bits (b.drop 2)) = 0 then [b.dropLast.dropLast.map (· &&& 0x7F)] else []) := by
  have hn := low7 n
  have hne : b ≠ [] := by intro h; rw [h] at h0; cases h0
  have hb := List.dropLast_concat_getLast hne
  refine ⟨hne, by omega, ?_⟩
  intro s hstd hm
  have hk := octets_jclip (m := b.dropLast) (c := b.getLast hne) (n := n) (by rw [List.length_dropLast]; omega) (by rw [List.length_dropLast]; omega)
    (by rw [List.getElem?_dropLast, if_pos (by omega), h0]) (by rw [List.getElem?_dropLast, if_pos (by omega), h6])
    (by rw [List.length_dropLast]; omega) b.dropLast [] hstd hm rfl
  rw [hb] at hk
  rw [hk]
  split <;> simp

theorem carries_jclip {m b : List Byte} (h : Fits .jclip m) (hw : wire .jclip m = some b) : Carries .jclip b [given .jclip m] := by
  obtain ⟨h1, h2, ⟨n, h3, h4⟩, h5, h6⟩ := jclip_shape h hw
  have := jclip_octets (by omega) h2 h3
  rwa [if_pos h5, h6] at this

theorem carries {std : Std} {m b : List Byte} (h : Fits std m) (hw : wire std m = some b) : Carries std b [given std m] := by
  cases std
  case jclip => exact carries_jclip h hw
  case dtmf => exact h.elim
  case tdd => exact h.elim
  all_goals
    obtain ⟨h2, hl⟩ := h
    unfold wire at hw
    simp only at hw
    rw [if_neg (by omega)] at hw
    cases hw
    exact carries_sum (by decide) h2 hl

theorem send_any {t : Tx} (hq : Quiet t) (hs : t.stop ≤ 11) (ho : 20 ≤ t.ones) {r : Rx} (hr : Ok r) (hstd : r.std = t.std) {m : List Byte} (hf : Fits t.std m) :
    ∃ t' r' junk, send t r m = some (t', r') ∧ Quiet t' ∧ Like t t' ∧ Clean r' ∧ r'.std = r.std ∧ r'.out = r.out ++ junk ++ [given t.std m]
      ∧ (∀ x ∈ junk, Sound r.std x) ∧ (Clean r → junk = []) := by
  obtain ⟨b, h1, h2, h3⟩ := wire_fits hf
  have hc := carries hf h1
  obtain ⟨t', k1, k2, k3⟩ := drain_loaded hq (c := b) h2 h3 rfl
  have e : ({ loaded t b with msg := b ++ (loaded t b).msg.drop b.length } : Tx) = loaded t b := by
    unfold loaded; simp
  rw [e] at k1
  unfold send
  rw [put_eq hq.len h1 h3]
  simp only [Option.bind_some]
  rw [k1]
  simp only [Option.bind_some]
  by_cases hcl : Clean r
  · obtain ⟨r', m1, m2, m3, m4⟩ := line_clean hc hs ho hcl hstd
    exact ⟨t', r', [], by rw [m1]; rfl, k2, k3, m2, m3, by rw [m4]; simp, by simp, fun _ => rfl⟩
  · obtain ⟨r', j, m1, m2, m3, m4, m5⟩ := line_any hc hs ho hr hstd
    exact ⟨t', r', j, by rw [m1]; rfl, k2, k3, m2, m3, m4, m5, fun h => absurd h hcl⟩

theorem Clean.ok {r : Rx} (h : Clean r) : Ok r :=
  ⟨by rw [h.pos]; omega, fun _ => h.prog, by rw [h.msg]; simp, fun _ k => absurd h.msg k⟩

theorem sendAll_all : ∀ (l : List (List Byte)) {t : Tx}, Quiet t → t.stop ≤ 11 → 20 ≤ t.ones → ∀ {r : Rx}, Clean r → r.std = t.std → (∀ m ∈ l, Fits t.std m) →
    ∃ t' r', sendAll t r l = some (t', r') ∧ Quiet t' ∧ Like t t' ∧ Clean r' ∧ r'.std = r.std ∧ r'.out = r.out ++ l.map (given t.std)
  | [], t, hq, _, _, r, hr, _, _ => ⟨t, r, rfl, hq, ⟨rfl, rfl, rfl, rfl, rfl⟩, hr, rfl, by simp⟩
  | m :: l, t, hq, hs, ho, r, hr, hstd, hf => by
    obtain ⟨t1, r1, j, h1, h2, h3, h4, h5, h6, -, h7⟩ := send_any hq hs ho hr.ok hstd (hf m (by simp))
    rw [h7 hr, List.append_nil] at h6
    obtain ⟨t2, r2, k1, k2, k3, k4, k5, k6⟩ := sendAll_all l (t := t1) h2 (by rw [h3.stop]; exact hs) (by rw [h3.ones]; exact ho) h4
      (by rw [h5, hstd, h3.std]) (by intro x hx; rw [h3.std]; exact hf x (by simp [hx]))
    refine ⟨t2, r2, by rw [sendAll, h1]; exact k1, k2, ⟨k3.std.trans h3.std, k3.pre.trans h3.pre, k3.ones.trans h3.ones, k3.post.trans h3.post, k3.stop.trans h3.stop⟩,
      k4, k5.trans h5, ?_⟩
    rw [k6, h6, h3.std]
    simp

/-! ## Damage -/

theorem sum8_cons (x : Byte) (l : List Byte) : sum8 (x :: l) = x + sum8 l := by
  have : ∀ (l : List Byte) (a b : Byte), l.foldl (· + ·) (a + b) = a + l.foldl (· + ·) b := by
    intro l
    induction l with
    | nil => intros; rfl
    | cons y l ih => intro a b; simp only [List.foldl_cons]; rw [BitVec.add_assoc, ih]
  unfold sum8
  rw [List.foldl_cons, BitVec.add_comm 0 x, this]

theorem sum8_set : ∀ (l : List Byte) (i : Nat) (o : Byte), l.set i o ≠ l → sum8 (l.set i o) ≠ sum8 l
  | [], i, o, h => absurd rfl h
  | x :: l, 0, o, h => by
    rw [List.set_cons_zero, sum8_cons, sum8_cons]
    intro he
    apply h
    rw [List.set_cons_zero]
    have := congrArg (· - sum8 l) he
    simp only [BitVec.add_sub_cancel] at this
    rw [this]
  | x :: l, i + 1, o, h => by
    rw [List.set_cons_succ, sum8_cons, sum8_cons]
    intro he
    refine sum8_set l i o (fun k => h (by rw [List.set_cons_succ, k])) ?_
    have := congrArg (· - x) he
    simp only [BitVec.add_comm x, BitVec.add_sub_cancel] at this
    exact this

theorem carries_damaged {std : Std} {m b b' : List Byte} (h : Fits std m) (hw : wire std m = some b) (hd : Damaged std b b') : Carries std b' [] := by
  obtain ⟨hl, hd⟩ := hd
  cases std
  case dtmf => exact h.elim
  case tdd => exact h.elim
  case jclip =>
    simp only at hd
    obtain ⟨hd1, hd2, hd3⟩ := hd
    obtain ⟨h1, h2, ⟨n, h3, h4⟩, h5, -⟩ := jclip_shape h hw
    have := jclip_octets (b := b') (n := n) (by omega) (by rw [hd1]; exact h2) (by rw [hd2]; exact h3)
    rwa [if_neg] at this
    intro hx
    exact Crc.burst_detected Crc.Spec.poly16 0 (by decide) (by decide) _ _ hd3 (h5.trans hx.symm)
  all_goals
    simp only at hd
    obtain ⟨i, o, hi, rfl, hne⟩ := hd
    obtain ⟨h2, hl'⟩ := h
    unfold wire at hw
    simp only at hw
    rw [if_neg (by omega)] at hw
    cases hw
    obtain ⟨h1, h3, h4, -⟩ := sum_shape (std := .cls) h2 hl' (by decide)
    have := fun std hs => sum_octets (std := std) hs (b := (sumMsg m).set i o) (by rw [hl, h1]) (by rw [hl, h1, BitVec.toNat_ofNat]; omega)
      (by rw [List.getElem?_set_ne (Ne.symm hi)]; exact h3)
    rw [if_neg] at this
    · exact this _ (by decide)
    rw [← h4]
    exact sum8_set _ _ _ hne

theorem send_damaged {t : Tx} (hq : Quiet t) (hs : t.stop ≤ 11) (ho : 20 ≤ t.ones) {r : Rx} (hr : Clean r) (hstd : r.std = t.std) {m b' : List Byte}
    (hf : Fits t.std m) {p : Tx × Int} (hp : putMessage t m = some p) (hd : Damaged t.std (p.1.msg.take p.1.msgLen) b') :
    ∃ t' r', sendAs t r m (fun _ => b') = some (t', r') ∧ Quiet t' ∧ Clean r' ∧ r'.std = r.std ∧ r'.out = r.out := by
  obtain ⟨b, h1, h2, h3⟩ := wire_fits hf
  rw [put_eq hq.len h1 h3] at hp
  cases hp
  have hb : (loaded t b).msg.take (loaded t b).msgLen = b := by unfold loaded; simp
  simp only [hb] at hd
  have hc := carries_damaged hf h1 hd
  obtain ⟨t', k1, k2, k3⟩ := drain_loaded hq (c := b') h2 h3 hd.1
  obtain ⟨r', m1, m2, m3, m4⟩ := line_clean hc hs ho hr hstd
  refine ⟨t', r', ?_, k2, m2, m3, by rw [m4]; simp⟩
  unfold sendAs
  rw [put_eq hq.len h1 h3]
  simp only [Option.bind_some]
  refine (congrArg (fun x => Option.bind x _) k1).trans ?_
  simp only [Option.bind_some]
  rw [m1]
  rfl

end Adsi
