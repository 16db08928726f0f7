import Verif.T38.Lemmas
import Verif.T38.Spec

/-! # What is sent is what is received -/

namespace T38

/-- At `p` there are the octets `x`, as far as the data goes. -/
def At (buf : List Byte) (p : Nat) (x : List Byte) : Prop := ∀ i, i < x.length → p + i < buf.length → buf[p + i]? = x[i]?

theorem At.octet {buf x : List Byte} {p : Nat} {b : Byte} (h : At buf p (b :: x)) (hp : p < buf.length) : octet buf p = .ok b.toNat := by
  have := h 0 (by simp) hp
  simp only [Nat.add_zero, List.getElem?_cons_zero] at this
  unfold T38.octet
  rw [this]

theorem At.drop {buf x y : List Byte} {p : Nat} (h : At buf p (x ++ y)) : At buf (p + x.length) y := by
  intro i hi hb
  have := h (x.length + i) (by rw [List.length_append]; omega) (by omega)
  rw [← Nat.add_assoc] at this
  rw [this, List.getElem?_append_right (by omega)]
  congr 1; omega

theorem At.take {buf x y : List Byte} {p : Nat} (h : At buf p (x ++ y)) : At buf p x := by
  intro i hi hb
  have := h i (by rw [List.length_append]; omega) hb
  rw [this, List.getElem?_append_left hi]

theorem At.tail {buf x : List Byte} {p : Nat} {b : Byte} (h : At buf p (b :: x)) : At buf (p + 1) x := At.drop (x := [b]) h

theorem At.slice {buf x : List Byte} {p : Nat} (h : At buf p x) (hb : p + x.length ≤ buf.length) : slice buf p x.length = .ok x := by
  unfold T38.slice
  rw [if_pos hb]
  congr 1
  apply List.ext_getElem?
  intro i
  by_cases hi : i < x.length
  · rw [List.getElem?_take_of_lt hi, List.getElem?_drop, h i hi (by omega)]
  · rw [List.getElem?_eq_none (by rw [List.length_take, List.length_drop]; omega), List.getElem?_eq_none (by omega)]

theorem word16_toNat (n : Nat) (h : n < 65536) : 256 * (BitVec.ofNat 8 (n / 256)).toNat + (BitVec.ofNat 8 n).toNat = n := by
  simp only [BitVec.toNat_ofNat]; omega

theorem At.word {buf x : List Byte} {p n : Nat} (h : At buf p (word16 n ++ x)) (hn : n < 65536) (hp : p + 2 ≤ buf.length) : word buf p = .ok n := by
  have h1 : At buf p (BitVec.ofNat 8 (n / 256) :: BitVec.ofNat 8 n :: x) := h
  unfold T38.word
  rw [h1.octet (by omega), bind_ok, h1.tail.octet (by omega), map_ok, word16_toNat n hn]

/-! ## Fields -/

def body (f : Field) : List Byte := if f.octets = [] then [] else word16 (f.octets.length - 1) ++ f.octets

theorem body_length (f : Field) : (body f).length = if f.octets = [] then 0 else 2 + f.octets.length := by
  unfold body
  split
  · rfl
  · rw [List.length_append]; rfl

theorem head_v0 : ∀ (t : Fin 8) (pr : Bool), (((BitVec.ofNat 8 ((pr.toNat <<< 7) ||| (t.val <<< 4))).toNat >>> 7) &&& 1 = pr.toNat) ∧
    ((BitVec.ofNat 8 ((pr.toNat <<< 7) ||| (t.val <<< 4))).toNat >>> 4) &&& 7 = t := by decide

theorem head_v1 : ∀ (t : Fin 8) (pr : Bool), ((BitVec.ofNat 8 ((pr.toNat <<< 7) ||| (t.val <<< 3))).toNat &&& 0x40 = 0) ∧
    (((BitVec.ofNat 8 ((pr.toNat <<< 7) ||| (t.val <<< 3))).toNat >>> 7) &&& 1 = pr.toNat) ∧ ((BitVec.ofNat 8 ((pr.toNat <<< 7) ||| (t.val <<< 3))).toNat >>> 3) &&& 7 = t := by decide

theorem head_ext : ∀ (t : Fin 4) (pr : Bool), ((BitVec.ofNat 8 ((pr.toNat <<< 7) ||| 0x40 ||| (t.val >>> 2))).toNat &&& 0x40 ≠ 0) ∧
    (((BitVec.ofNat 8 ((pr.toNat <<< 7) ||| 0x40 ||| (t.val >>> 2))).toNat >>> 7) &&& 1 = pr.toNat) ∧
    extended (BitVec.ofNat 8 ((pr.toNat <<< 7) ||| 0x40 ||| (t.val >>> 2))).toNat (BitVec.ofNat 8 ((t.val <<< 6) &&& 0xC0)).toNat = t := by decide

/-- Where the receiver is after a field without octets, in version 0: still in the octet. -/
def stays (version : Nat) (f : Field) : Bool := version = 0 ∧ f.octets = []

/-- What the receiver makes of the type of a field. -/
structure HeadOf (version : Nat) (f : Field) (hd : List Byte) : Prop where
  len : 1 ≤ hd.length ∧ hd.length ≤ 2
  enc : encodeField version f = (hd ++ body f, true)
  stay : stays version f = true → hd.length = 1
  check : ∀ (buf : List Byte) (p pktLen : Nat) (ret : Int) (b : Nat), At buf p hd → octet buf p = .ok b → pktLen ≤ buf.length → p + hd.length ≤ pktLen →
    checkHead version buf pktLen ret p false b = .ok (decide (f.octets ≠ []), if stays version f then p else p + hd.length, stays version f) ∧
    takeHead version buf p false b = .ok (decide (f.octets ≠ []), f.type, if stays version f then p else p + hd.length, stays version f)
  cut : ∀ (buf : List Byte) (p : Nat) (ret : Int) (b : Nat), At buf p hd → octet buf p = .ok b → p < buf.length → buf.length < p + hd.length →
    checkHead version buf buf.length ret p false b = .error (.ret ret)

theorem present_toNat (f : Field) : (if f.octets.length > 0 then 1 else 0 : Nat) = (decide (f.octets ≠ [])).toNat := by
  cases f.octets <;> simp

theorem one_iff (x : Bool) : decide (x.toNat = 1) = x := by cases x <;> rfl

theorem encodeField_of {version : Nat} {f : Field} (h : f.octets.length ≤ 65535) {hd : List Byte}
    (e : (if version = 0 then if f.type > 7 then none else some [BitVec.ofNat 8 (((decide (f.octets ≠ [])).toNat <<< 7) ||| (f.type <<< 4))]
      else if f.type ≤ 7 then some [BitVec.ofNat 8 (((decide (f.octets ≠ [])).toNat <<< 7) ||| (f.type <<< 3))]
      else if f.type ≤ 11 then some [BitVec.ofNat 8 (((decide (f.octets ≠ [])).toNat <<< 7) ||| 0x40 ||| ((f.type - 8) >>> 2)), BitVec.ofNat 8 (((f.type - 8) <<< 6) &&& 0xC0)]
      else none) = some hd) : encodeField version f = (hd ++ body f, true) := by
  unfold encodeField
  simp only
  rw [present_toNat, e]
  simp only
  unfold body
  by_cases h0 : f.octets = []
  · rw [h0]; simp
  · rw [if_neg (by simp [h0]), if_neg (by omega), if_neg h0, List.append_assoc]

theorem headOf {version : Nat} {f : Field} (h : f.Ok version) : ∃ hd, HeadOf version f hd := by
  obtain ⟨h1, h2⟩ := h
  generalize hpr : decide (f.octets ≠ []) = pr
  by_cases hv : version = 0
  · have h7 : f.type ≤ 7 := by
      rcases h1 with h | h
      · exact h
      · exact absurd hv h.1
    obtain ⟨k1, k2⟩ := head_v0 ⟨f.type, by omega⟩ pr
    simp only at k1 k2
    refine ⟨[BitVec.ofNat 8 ((pr.toNat <<< 7) ||| (f.type <<< 4))], ⟨by simp, ?_, fun _ => rfl, ?_, ?_⟩⟩
    · refine encodeField_of h2 ?_
      rw [if_pos hv, if_neg (by omega), hpr]
    · intro buf p pktLen ret b ha hb hpk hle
      have hp : p < buf.length := by simp only [List.length_cons, List.length_nil] at hle; omega
      rw [ha.octet hp] at hb
      obtain rfl := Except.ok.inj hb
      have hst : stays version f = !pr := by rw [← hpr]; unfold stays; by_cases h0 : f.octets = [] <;> simp [hv, h0]
      rw [hst, hpr]
      clear hst hpr
      generalize (BitVec.ofNat 8 ((pr.toNat <<< 7) ||| (f.type <<< 4))).toNat = b at k1 k2
      unfold checkHead takeHead
      simp only [if_pos hv, Bool.false_eq_true, if_false]
      rw [k1, k2, stopIf_neg (by omega), bind_ok]
      cases pr <;> simp
    · intro buf p ret b ha hb h3 h4
      simp only [List.length_cons, List.length_nil] at h4; omega
  · have hst : stays version f = false := by unfold stays; simp [hv]
    by_cases h7 : f.type ≤ 7
    · obtain ⟨k0, k1, k2⟩ := head_v1 ⟨f.type, by omega⟩ pr
      simp only at k0 k1 k2
      refine ⟨[BitVec.ofNat 8 ((pr.toNat <<< 7) ||| (f.type <<< 3))], ⟨by simp, ?_, fun _ => rfl, ?_, ?_⟩⟩
      · refine encodeField_of h2 ?_
        rw [if_neg hv, if_pos h7, hpr]
      · intro buf p pktLen ret b ha hb hpk hle
        have hp : p < buf.length := by simp only [List.length_cons, List.length_nil] at hle; omega
        rw [ha.octet hp] at hb
        obtain rfl := Except.ok.inj hb
        unfold checkHead takeHead
        rw [if_neg hv, if_neg hv, k0, k1, k2, hst, hpr, one_iff]
        exact ⟨rfl, rfl⟩
      · intro buf p ret b ha hb h3 h4
        simp only [List.length_cons, List.length_nil] at h4; omega
    · have h11 : f.type ≤ 11 := by
        rcases h1 with h | h
        · omega
        · exact h.2
      obtain ⟨k0, k1, k2⟩ := head_ext ⟨f.type - 8, by omega⟩ pr
      simp only at k0 k1 k2
      refine ⟨[BitVec.ofNat 8 ((pr.toNat <<< 7) ||| 0x40 ||| ((f.type - 8) >>> 2)), BitVec.ofNat 8 (((f.type - 8) <<< 6) &&& 0xC0)], ⟨by simp, ?_, ?_, ?_, ?_⟩⟩
      · refine encodeField_of h2 ?_
        rw [if_neg hv, if_neg h7, if_pos h11, hpr]
      · intro h; rw [hst] at h; cases h
      · intro buf p pktLen ret b ha hb hpk hle
        have hle : p + 2 ≤ pktLen := hle
        rw [ha.octet (by omega)] at hb
        obtain rfl := Except.ok.inj hb
        unfold checkHead takeHead
        rw [if_neg hv, if_neg hv, if_pos k0, if_pos k0, ha.tail.octet (by omega), stopIf_neg (by omega)]
        simp only [bind_ok]
        rw [k1, k2, hst, hpr, one_iff, stopIf_neg (by omega), show 8 + (f.type - 8) = f.type by omega]
        exact ⟨rfl, rfl⟩
      · intro buf p ret b ha hb h3 h4
        have h4 : buf.length < p + 2 := h4
        rw [ha.octet h3] at hb
        obtain rfl := Except.ok.inj hb
        unfold checkHead
        rw [if_neg hv, if_pos k0, stopIf_pos (by omega)]; rfl

/-- A field is received. -/
theorem field_round {version : Nat} {f : Field} (h : f.Ok version) {buf : List Byte} {p pktLen : Nat} (ret : Int) (ha : At buf p (encodeField version f).1) (hpk : pktLen ≤ buf.length)
    (hle : p + (encodeField version f).1.length ≤ pktLen) :
    checkField version buf pktLen ret p false = .ok (if stays version f then p else p + (encodeField version f).1.length, stays version f) ∧
    takeField version buf p false = .ok (if stays version f then p else p + (encodeField version f).1.length, stays version f, f) := by
  obtain ⟨hd, hh⟩ := headOf h
  rw [hh.enc] at ha hle ⊢
  simp only at ha hle ⊢
  have hl := hh.len
  rw [List.length_append, body_length] at hle
  rw [List.length_append, body_length]
  have hoct : ∃ b, octet buf p = .ok b := by
    cases hd with
    | nil => simp at hl
    | cons b t => exact ⟨_, ha.octet (by omega)⟩
  obtain ⟨b, hb⟩ := hoct
  obtain ⟨k1, k2⟩ := hh.check buf p pktLen ret b ha.take hb hpk (by omega)
  unfold checkField takeField
  rw [stopIf_neg (by omega), hb]
  simp only [bind_ok]
  rw [k1, k2]
  simp only [bind_ok]
  by_cases h0 : f.octets = []
  · simp only [h0, ne_eq, not_true_eq_false, decide_false, if_false, if_true, bind_ok, Nat.add_zero, Bool.false_eq_true] at hle ⊢
    rw [stopIf_neg (by split <;> omega), bind_ok]
    refine ⟨rfl, ?_⟩
    rw [← h0]
  · have hst : stays version f = false := by unfold stays; simp [h0]
    have hlen := List.length_pos_iff.mpr h0
    have hw := ha.drop
    unfold body at hw
    rw [if_neg h0] at hw
    rw [if_neg h0] at hle
    simp only [h0, hst, ne_eq, not_false_eq_true, decide_true, if_true, if_false, Bool.false_eq_true]
    rw [stopIf_neg (by omega), bind_ok, hw.word (by have := h.2; omega) (by omega)]
    simp only [map_ok, bind_ok]
    rw [stopIf_neg (by omega), bind_ok, show f.octets.length - 1 + 1 = f.octets.length by omega, show p + hd.length + 2 = p + hd.length + (word16 (f.octets.length - 1)).length from rfl,
      hw.drop.slice (by show p + hd.length + 2 + _ ≤ _; omega)]
    simp only [map_ok]
    exact ⟨by congr 2; omega, by congr 2; omega⟩

/-- A field of which a part is still to come. -/
theorem field_cut {version : Nat} {f : Field} (h : f.Ok version) {buf : List Byte} {p : Nat} (ret : Int) (ha : At buf p (encodeField version f).1)
    (hlt : buf.length < p + (encodeField version f).1.length) : checkField version buf buf.length ret p false = .error (.ret ret) := by
  obtain ⟨hd, hh⟩ := headOf h
  rw [hh.enc] at ha hlt
  simp only at ha hlt
  have hl := hh.len
  rw [List.length_append, body_length] at hlt
  unfold checkField
  by_cases hp : p < buf.length
  · have hoct : ∃ b, octet buf p = .ok b := by
      cases hd with
      | nil => simp at hl
      | cons b t => exact ⟨_, ha.octet hp⟩
    obtain ⟨b, hb⟩ := hoct
    rw [stopIf_neg (by omega), hb]
    simp only [bind_ok]
    by_cases hc : buf.length < p + hd.length
    · rw [hh.cut buf p ret b ha.take hb hp hc]; rfl
    · obtain ⟨k1, _⟩ := hh.check buf p buf.length ret b ha.take hb (Nat.le_refl _) (by omega)
      rw [k1]
      simp only [bind_ok]
      by_cases h0 : f.octets = []
      · rw [if_pos h0] at hlt; omega
      · have hst : stays version f = false := by unfold stays; simp [h0]
        rw [if_neg h0] at hlt
        have hw := ha.drop
        unfold body at hw
        rw [if_neg h0] at hw
        have hlen := List.length_pos_iff.mpr h0
        simp only [h0, hst, ne_eq, not_false_eq_true, decide_true, if_true, if_false, Bool.false_eq_true]
        by_cases h2 : p + hd.length + 2 > buf.length
        · rw [stopIf_pos h2]; rfl
        · rw [stopIf_neg h2, bind_ok, hw.word (by have := h.2; omega) (by omega), map_ok, bind_ok, stopIf_pos (by omega)]; rfl
  · rw [stopIf_pos (by omega)]; rfl

theorem encodeField_ok {version : Nat} {f : Field} (h : f.Ok version) : (encodeField version f).2 = true ∧ 1 ≤ (encodeField version f).1.length ∧
    (stays version f = true → (encodeField version f).1.length = 1) := by
  obtain ⟨hd, hh⟩ := headOf h
  rw [hh.enc]
  simp only [List.length_append, body_length]
  refine ⟨trivial, by have := hh.len; omega, fun hs => ?_⟩
  have := hh.stay hs
  have h0 : f.octets = [] := by
    unfold stays at hs
    simp only [decide_eq_true_eq] at hs
    exact hs.2
  rw [if_pos h0, this]

theorem FieldsOk.tail {version : Nat} {f : Field} {t : List Field} (h : FieldsOk version (f :: t)) : FieldsOk version t := by
  refine ⟨fun g hg => h.1 g (List.mem_cons_of_mem _ hg), fun hv g hg => h.2 hv g ?_⟩
  cases t with
  | nil => simp at hg
  | cons a t => rw [List.dropLast_cons_cons]; exact List.mem_cons_of_mem _ hg

theorem encodeFields_cons {version : Nat} {f : Field} (t : List Field) (h : f.Ok version) : encodeFields version (f :: t) =
    ((encodeField version f).1 ++ (encodeFields version t).1, (encodeFields version t).2) := by
  have := (encodeField_ok h).1
  rw [encodeFields]
  split
  · rename_i e; rw [e] at this; cases this
  · rename_i e; rw [e]

/-- If the receiver is in the middle of an octet after the fields. -/
def ends (version : Nat) (fs : List Field) : Bool := match fs.getLast? with | some f => stays version f | none => false

theorem fields_round {version : Nat} {buf : List Byte} {pktLen : Nat} (ret : Int) (hpk : pktLen ≤ buf.length) : ∀ (fs : List Field) (p : Nat), FieldsOk version fs →
    At buf p (encodeFields version fs).1 → p + (encodeFields version fs).1.length ≤ pktLen →
    (encodeFields version fs).2 = true ∧ ∃ q, checkFields version buf pktLen ret fs.length p false = .ok (q, ends version fs) ∧
      takeFields version buf fs.length p false = .ok (q, ends version fs, fs) ∧ q + (ends version fs).toNat = p + (encodeFields version fs).1.length := by
  intro fs
  induction fs with
  | nil => intro p _ _ _; exact ⟨rfl, p, rfl, rfl, by simp [ends, encodeFields]⟩
  | cons f t ih =>
    intro p hok ha hle
    have hf := hok.1 f (by simp)
    obtain ⟨_, hl1, hl2⟩ := encodeField_ok hf
    rw [encodeFields_cons t hf] at ha hle ⊢
    simp only [List.length_append] at ha hle ⊢
    obtain ⟨k1, k2⟩ := field_round hf ret ha.take hpk (by omega)
    by_cases ht : t = []
    · subst ht
      simp only [encodeFields, List.length_nil, Nat.add_zero]
      refine ⟨trivial, if stays version f then p else p + (encodeField version f).1.length, ?_, ?_, ?_⟩
      · show (checkField _ _ _ _ _ _).bind _ = _
        rw [k1]; rfl
      · show (takeField _ _ _ _).bind _ = _
        rw [k2]; rfl
      · show _ + (stays version f).toNat = _
        cases hs : stays version f
        · simp
        · simp only [if_true, Bool.toNat_true]; rw [hl2 hs]
    · have hst : stays version f = false := by
        unfold stays
        by_cases hv : version = 0
        · have := hok.2 hv f (by
            cases t with
            | nil => exact absurd rfl ht
            | cons a t => simp)
          simp [this]
        · simp [hv]
      rw [hst] at k1 k2
      simp only [Bool.false_eq_true, if_false] at k1 k2
      obtain ⟨i1, q, i2, i3, i4⟩ := ih (p + (encodeField version f).1.length) hok.tail ha.drop (by omega)
      have he : ends version (f :: t) = ends version t := by
        unfold ends
        cases t with
        | nil => exact absurd rfl ht
        | cons a t => rw [List.getLast?_cons_cons]
      rw [he]
      refine ⟨i1, q, ?_, ?_, by omega⟩
      · rw [List.length_cons, checkFields, k1, bind_ok, i2]
      · rw [List.length_cons, takeFields, k2, bind_ok, i3]; rfl

theorem fields_cut {version : Nat} {buf : List Byte} (ret : Int) : ∀ (fs : List Field) (p : Nat), FieldsOk version fs → At buf p (encodeFields version fs).1 →
    p ≤ buf.length → buf.length < p + (encodeFields version fs).1.length → checkFields version buf buf.length ret fs.length p false = .error (.ret ret) := by
  intro fs
  induction fs with
  | nil => intro p _ _ h1 h2; simp [encodeFields] at h2; omega
  | cons f t ih =>
    intro p hok ha hp hlt
    have hf := hok.1 f (by simp)
    obtain ⟨_, hl1, hl2⟩ := encodeField_ok hf
    rw [encodeFields_cons t hf] at ha hlt
    simp only [List.length_append] at ha hlt
    rw [List.length_cons, checkFields]
    by_cases hc : buf.length < p + (encodeField version f).1.length
    · rw [field_cut hf ret ha.take hc]; rfl
    · obtain ⟨k1, _⟩ := field_round hf ret ha.take (Nat.le_refl _) (by omega)
      have hst : stays version f = false := by
        unfold stays
        by_cases hv : version = 0
        · have := hok.2 hv f (by
            cases t with
            | nil => simp only [encodeFields, List.length_nil] at hlt; omega
            | cons a t => simp)
          simp [this]
        · simp [hv]
      rw [hst] at k1
      simp only [Bool.false_eq_true, if_false] at k1
      rw [k1, bind_ok, ih _ hok.tail ha.drop (by omega) (by omega)]

end T38
