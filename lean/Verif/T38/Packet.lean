import Verif.T38.Round

/-! # Whole packets -/

namespace T38

/-- The octets of a message, but for the TPKT header. -/
def payload (version : Nat) : Msg → List Byte
  | .indicator i => if i ≤ 15 then [BitVec.ofNat 8 (i <<< 1)] else word16 (0x2000 ||| ((i - 16) <<< 6))
  | .data t fs =>
    (if t ≤ 8 then [BitVec.ofNat 8 ((if fs.length > 0 then 0x80 else 0) ||| 0x40 ||| (t <<< 1))]
      else word16 (((if fs.length > 0 then 0x80 else 0) <<< 8) ||| 0x6000 ||| ((t - 9) <<< 6))) ++
    if fs = [] then [] else [BitVec.ofNat 8 fs.length] ++ (encodeFields version fs).1

theorem encodeIndicator_ok {s : Core} {i : Nat} (h : (Msg.indicator i).Ok s.version) : encodeIndicator s i = some (withHeader s (payload s.version (.indicator i))) := by
  unfold encodeIndicator
  rw [payload]
  by_cases h1 : i ≤ 15
  · rw [if_pos h1, if_pos h1]
  · have : s.version ≠ 0 ∧ i ≤ 22 := h.resolve_left h1
    rw [if_neg h1, if_neg h1, if_pos this]

theorem fields_ok {version : Nat} {fs : List Field} (h : FieldsOk version fs) : (encodeFields version fs).2 = true :=
  (fields_round (buf := (encodeFields version fs).1) 0 (Nat.le_refl _) fs 0 h (fun i _ _ => by rw [Nat.zero_add]) (by omega)).1

theorem encodeData_ok {s : Core} {t : Nat} {fs : List Field} (h : (Msg.data t fs).Ok s.version) : encodeData s t fs = (withHeader s (payload s.version (.data t fs)), true) := by
  obtain ⟨h1, h2, h3⟩ := h
  have hf := fields_ok h3
  unfold encodeData
  rw [payload]
  simp only
  by_cases h8 : t ≤ 8
  · rw [if_pos h8, if_pos h8]
    simp only
    by_cases h0 : fs = []
    · subst h0; simp
    · have := List.length_pos_iff.mpr h0
      rw [if_neg (by omega), if_pos (by omega), if_neg h0, hf, List.append_assoc]
  · rw [if_neg h8, if_neg h8, if_pos (h1.resolve_left h8)]
    simp only
    by_cases h0 : fs = []
    · subst h0; simp
    · have := List.length_pos_iff.mpr h0
      rw [if_neg (by omega), if_pos (by omega), if_neg h0, hf, List.append_assoc]

theorem ind_short : ∀ i : Fin 16, (BitVec.ofNat 8 (i.val <<< 1)).toNat &&& 0x20 = 0 ∧ ((BitVec.ofNat 8 (i.val <<< 1)).toNat >>> 6) &&& 1 = 0 ∧
    (BitVec.ofNat 8 (i.val <<< 1)).toNat &&& 0x80 = 0 ∧ ((BitVec.ofNat 8 (i.val <<< 1)).toNat >>> 1) &&& 0xF = i := by decide

theorem ind_ext : ∀ d : Fin 7, (BitVec.ofNat 8 ((0x2000 ||| (d.val <<< 6)) / 256)).toNat &&& 0x20 ≠ 0 ∧ ((BitVec.ofNat 8 ((0x2000 ||| (d.val <<< 6)) / 256)).toNat >>> 6) &&& 1 = 0 ∧
    (BitVec.ofNat 8 ((0x2000 ||| (d.val <<< 6)) / 256)).toNat &&& 0x80 = 0 ∧
    extended (BitVec.ofNat 8 ((0x2000 ||| (d.val <<< 6)) / 256)).toNat (BitVec.ofNat 8 (0x2000 ||| (d.val <<< 6))).toNat = d := by decide

theorem data_short : ∀ (t : Fin 9) (pr : Bool), (BitVec.ofNat 8 ((if pr then 0x80 else 0) ||| 0x40 ||| (t.val <<< 1))).toNat &&& 0x20 = 0 ∧
    ((BitVec.ofNat 8 ((if pr then 0x80 else 0) ||| 0x40 ||| (t.val <<< 1))).toNat >>> 6) &&& 1 = 1 ∧
    ((BitVec.ofNat 8 ((if pr then 0x80 else 0) ||| 0x40 ||| (t.val <<< 1))).toNat &&& 0x80 ≠ 0 ↔ pr = true) ∧
    ((BitVec.ofNat 8 ((if pr then 0x80 else 0) ||| 0x40 ||| (t.val <<< 1))).toNat >>> 1) &&& 0xF = t := by decide

theorem data_ext : ∀ (d : Fin 6) (pr : Bool), (BitVec.ofNat 8 ((((if pr then 0x80 else 0) <<< 8) ||| 0x6000 ||| (d.val <<< 6)) / 256)).toNat &&& 0x20 ≠ 0 ∧
    ((BitVec.ofNat 8 ((((if pr then 0x80 else 0) <<< 8) ||| 0x6000 ||| (d.val <<< 6)) / 256)).toNat >>> 6) &&& 1 = 1 ∧
    ((BitVec.ofNat 8 ((((if pr then 0x80 else 0) <<< 8) ||| 0x6000 ||| (d.val <<< 6)) / 256)).toNat &&& 0x80 ≠ 0 ↔ pr = true) ∧
    extended (BitVec.ofNat 8 ((((if pr then 0x80 else 0) <<< 8) ||| 0x6000 ||| (d.val <<< 6)) / 256)).toNat
      (BitVec.ofNat 8 (((if pr then 0x80 else 0) <<< 8) ||| 0x6000 ||| (d.val <<< 6))).toNat = d := by decide

theorem payload_pos (version : Nat) (m : Msg) : 0 < (payload version m).length := by
  cases m with
  | indicator i =>
    rw [payload]
    split
    · simp
    · simp [word16]
  | data t fs =>
    rw [payload, List.length_append]
    split
    · simp only [List.length_cons, List.length_nil]; omega
    · simp only [word16, List.length_cons, List.length_nil]; omega

section
variable {buf : List Byte} {p pktLen : Nat} {ret : Int}

/-- The receiver on an indicator. -/
theorem indicator_round {version i : Nat} (h : (Msg.indicator i).Ok version) (ha : At buf p (payload version (.indicator i))) (hp : p < buf.length) : ∃ b, octet buf p = .ok b ∧
    (b >>> 6) &&& 1 = 0 ∧ b &&& 0x80 = 0 ∧
    (pktLen ≤ buf.length → p + (payload version (.indicator i)).length ≤ pktLen →
      rxIndicatorType buf p pktLen ret b = .ok (p + (payload version (.indicator i)).length, i)) ∧
    (buf.length < p + (payload version (.indicator i)).length → rxIndicatorType buf p buf.length ret b = .error (.ret ret)) := by
  rw [payload] at *
  by_cases h1 : i ≤ 15
  · rw [if_pos h1] at ha ⊢
    obtain ⟨k1, k2, k3, k4⟩ := ind_short ⟨i, by omega⟩
    simp only at k1 k2 k3 k4
    refine ⟨_, ha.octet hp, k2, k3, ?_, ?_⟩
    · intro _ _
      unfold rxIndicatorType
      rw [if_neg (by rw [k1]; simp), k4]; rfl
    · intro hc
      simp only [List.length_cons, List.length_nil] at hc; omega
  · rw [if_neg h1] at ha ⊢
    have h22 : i ≤ 22 := by
      rcases h with h | h
      · omega
      · exact h.2
    obtain ⟨k1, k2, k3, k4⟩ := ind_ext ⟨i - 16, by omega⟩
    simp only at k1 k2 k3 k4
    have ha' : At buf p (BitVec.ofNat 8 ((0x2000 ||| ((i - 16) <<< 6)) / 256) :: [BitVec.ofNat 8 (0x2000 ||| ((i - 16) <<< 6))]) := ha
    refine ⟨_, ha'.octet hp, k2, k3, ?_, ?_⟩
    · intro hpk hle
      have hle : p + 2 ≤ pktLen := hle
      unfold rxIndicatorType
      rw [if_pos k1, stopIf_neg (by omega), bind_ok, ha'.tail.octet (by omega), bind_ok, k4, stopIf_neg (by omega), bind_ok, show 16 + (i - 16) = i by omega]; rfl
    · intro hc
      have hc : buf.length < p + 2 := hc
      unfold rxIndicatorType
      rw [if_pos k1, stopIf_pos (by omega)]; rfl

/-- The receiver on the type of a data message. -/
theorem dataType_round {t : Nat} (pr : Bool) {x : List Byte} (h : t ≤ 14)
    (ha : At buf p ((if t ≤ 8 then [BitVec.ofNat 8 ((if pr then 0x80 else 0) ||| 0x40 ||| (t <<< 1))] else word16 (((if pr then 0x80 else 0) <<< 8) ||| 0x6000 ||| ((t - 9) <<< 6))) ++ x))
    (hp : p < buf.length) : ∃ b, octet buf p = .ok b ∧ (b >>> 6) &&& 1 = 1 ∧ (b &&& 0x80 ≠ 0 ↔ pr = true) ∧
    ∃ n, n = (if t ≤ 8 then 1 else 2) ∧ At buf (p + n) x ∧ (pktLen ≤ buf.length → p + n ≤ pktLen → rxDataType buf p pktLen ret b = .ok (p + n, t)) ∧
    (buf.length < p + n → rxDataType buf p buf.length ret b = .error (.ret ret)) := by
  by_cases h1 : t ≤ 8
  · rw [if_pos h1] at ha ⊢
    obtain ⟨k1, k2, k3, k4⟩ := data_short ⟨t, by omega⟩ pr
    simp only at k1 k2 k3 k4
    refine ⟨_, At.octet ha hp, k2, k3, 1, rfl, ha.drop, ?_, ?_⟩
    · intro _ _
      unfold rxDataType
      rw [if_neg (by rw [k1]; simp), k4, stopIf_neg (by omega)]; rfl
    · intro hc
      omega
  · rw [if_neg h1] at ha ⊢
    obtain ⟨k1, k2, k3, k4⟩ := data_ext ⟨t - 9, by omega⟩ pr
    simp only at k1 k2 k3 k4
    refine ⟨_, At.octet ha hp, k2, k3, 2, rfl, ha.drop, ?_, ?_⟩
    · intro hpk hle
      have ha' := At.tail ha
      unfold rxDataType
      rw [if_pos k1, stopIf_neg (by omega), bind_ok, At.octet ha' (by omega), bind_ok, k4, stopIf_neg (by omega), bind_ok, show 9 + (t - 9) = t by omega]
    · intro hc
      unfold rxDataType
      rw [if_pos k1, stopIf_pos (by omega)]; rfl

/-- The receiver on a data message. -/
theorem data_round {version t : Nat} {fs : List Field} (h : (Msg.data t fs).Ok version) (ha : At buf p (payload version (.data t fs))) (hp : p < buf.length) : ∃ b, octet buf p = .ok b ∧
    (b >>> 6) &&& 1 = 1 ∧
    (pktLen ≤ buf.length → p + (payload version (.data t fs)).length ≤ pktLen → rxData version buf p pktLen ret b = .ok (p + (payload version (.data t fs)).length, t, fs)) ∧
    (buf.length < p + (payload version (.data t fs)).length → rxData version buf p buf.length ret b = .error (.ret ret)) := by
  obtain ⟨h1, h2, h3⟩ := h
  have ht : t ≤ 14 := by
    rcases h1 with h | h
    · omega
    · exact h.2
  have hpr : (if fs.length > 0 then 0x80 else 0 : Nat) = if decide (fs ≠ []) then 0x80 else 0 := by
    cases fs <;> simp
  rw [payload] at *
  rw [hpr] at ha ⊢
  rw [List.length_append]
  obtain ⟨b, hb, k2, k3, n, hn, hx, k4, k5⟩ := dataType_round (pktLen := pktLen) (ret := ret) _ ht ha hp
  have hn' : (if t ≤ 8 then [BitVec.ofNat 8 ((if decide (fs ≠ []) then 0x80 else 0) ||| 0x40 ||| (t <<< 1))]
      else word16 (((if decide (fs ≠ []) then 0x80 else 0) <<< 8) ||| 0x6000 ||| ((t - 9) <<< 6)) : List Byte).length = n := by
    rw [hn]; split <;> rfl
  rw [hn']
  refine ⟨b, hb, k2, ?_, ?_⟩
  · intro hpk hle
    unfold rxData
    rw [k4 hpk (by omega), bind_ok]
    by_cases h0 : fs = []
    · subst h0
      rw [if_neg (by rw [k3]; simp)]
      simp
    · rw [if_neg h0] at hx hle ⊢
      rw [if_pos (by rw [k3]; simp [h0])]
      simp only [List.length_append, List.length_cons, List.length_nil] at hle ⊢
      obtain ⟨_, q, i2, i3, i4⟩ := fields_round ret hpk fs (p + n + 1) h3 hx.drop (by omega)
      unfold rxFields
      rw [stopIf_neg (by omega), bind_ok, At.octet hx (by omega), bind_ok, show (BitVec.ofNat 8 fs.length).toNat = fs.length by rw [BitVec.toNat_ofNat]; omega, i2, bind_ok, i3]
      simp only
      cases he : ends version fs
      · rw [he] at i4
        simp only [Bool.toNat_false, Nat.add_zero] at i4
        simp only [Bool.false_eq_true, if_false]
        rw [stopIf_neg (by omega), bind_ok, map_ok, map_ok]
        have hq : q = p + (n + (0 + 1 + (encodeFields version fs).1.length)) := by omega
        simp [hq]
      · rw [he] at i4
        simp only [Bool.toNat_true] at i4
        simp only [if_true]
        rw [stopIf_neg (by omega), bind_ok, map_ok, map_ok]
        have hq : q + 1 = p + (n + (0 + 1 + (encodeFields version fs).1.length)) := by omega
        simp [hq]
  · intro hc
    have k4' := dataType_round (pktLen := buf.length) (ret := ret) _ ht ha hp
    obtain ⟨b', hb', _, _, n', hn2, _, k6, k7⟩ := k4'
    obtain rfl := Except.ok.inj (hb.symm.trans hb')
    obtain rfl : n = n' := hn.trans hn2.symm
    unfold rxData
    by_cases hnl : buf.length < p + n
    · rw [k7 hnl]; rfl
    · rw [k6 (Nat.le_refl _) (by omega), bind_ok]
      by_cases h0 : fs = []
      · subst h0; simp at hc; omega
      · rw [if_neg h0] at hx hc
        rw [if_pos (by rw [k3]; simp [h0])]
        simp only [List.length_append, List.length_cons, List.length_nil] at hc
        unfold rxFields
        by_cases hq : p + n < buf.length
        · rw [stopIf_neg (by omega), bind_ok, At.octet hx (by omega), bind_ok, show (BitVec.ofNat 8 fs.length).toNat = fs.length by rw [BitVec.toNat_ofNat]; omega,
            fields_cut ret fs (p + n + 1) h3 hx.drop (by omega) (by omega)]; rfl
        · rw [stopIf_pos (by omega)]; rfl

end

/-- The state of the receiver after a message. -/
def after (s : Core) : Msg → Core
  | .indicator i => { s with rxDataType := -1, rxFieldType := -1, rxIndicator := i }
  | .data t fs => match fs.getLast? with | some f => { s with rxDataType := t, rxFieldType := f.type } | none => s

/-- The part of the receiver after the header. -/
theorem stream_of {s : Core} {m : Msg} (hm : m.Ok s.version) {buf : List Byte} {p pktLen : Nat} {ret : Int} (hfr : frame s buf = .ok (p, pktLen, ret)) (ha : At buf p (payload s.version m))
    (hpk : pktLen ≤ buf.length) (hle : p + (payload s.version m).length ≤ pktLen) :
    rxStream s buf = some (((p + (payload s.version m).length : Nat) : Int), after s m, m.events) := by
  have hpos := payload_pos s.version m
  unfold rxStream
  rw [hfr, bind_ok]
  simp only
  rw [stopIf_neg (by omega), bind_ok]
  cases m with
  | indicator i =>
    obtain ⟨b, hb, k1, k2, k3, _⟩ := indicator_round (pktLen := pktLen) (ret := ret) hm ha (by omega)
    rw [hb, map_ok]
    simp only
    rw [if_pos k1, k2, if_neg (by simp), k3 hpk hle]
    simp only
    rw [if_neg (by omega)]; rfl
  | data t fs =>
    obtain ⟨b, hb, k1, k3, _⟩ := data_round (pktLen := pktLen) (ret := ret) hm ha (by omega)
    rw [hb, map_ok]
    simp only
    rw [if_neg (by rw [k1]; simp), k3 hpk hle]
    simp only
    rw [if_neg (by omega)]; rfl

theorem At.self (x y : List Byte) (z : List Byte) : At (x ++ y ++ z) x.length y := by
  intro i hi _
  rw [List.append_assoc, List.getElem?_append_right (by omega), List.getElem?_append_left (by omega)]
  congr 1; omega

theorem withHeader_length (s : Core) (x : List Byte) : (withHeader s x).length = x.length + if s.transport = .tpkt then 4 else 0 := by
  unfold withHeader
  cases s.transport <;> simp [word16]

/-- A packet is received. -/
theorem stream_round {s : Core} {m : Msg} (hm : m.Ok s.version) (hsz : (payload s.version m).length + 4 < 65536) (rest : List Byte) :
    rxStream s (withHeader s (payload s.version m) ++ rest) = some (((withHeader s (payload s.version m)).length : Int), after s m, m.events) := by
  rw [withHeader_length]
  have plain : s.transport ≠ .tpkt → ∀ ret, frame s (payload s.version m ++ rest) = .ok (0, (payload s.version m ++ rest).length, ret) →
      rxStream s (withHeader s (payload s.version m) ++ rest) = some ((((payload s.version m).length + if s.transport = .tpkt then 4 else 0 : Nat) : Int), after s m, m.events) := by
    intro ht ret hf
    have hw : withHeader s (payload s.version m) = payload s.version m := by unfold withHeader; cases h : s.transport <;> first | rfl | exact absurd h ht
    rw [hw, if_neg ht]
    have := stream_of hm hf (At.self [] (payload s.version m) rest) (Nat.le_refl _) (by rw [List.length_append]; omega)
    rwa [Nat.zero_add] at this
  cases ht : s.transport with
  | udptl => rw [← ht]; exact plain (by rw [ht]; decide) (-1) (by unfold frame; rw [ht])
  | rtp => rw [← ht]; exact plain (by rw [ht]; decide) (-1) (by unfold frame; rw [ht])
  | tcp => rw [← ht]; exact plain (by rw [ht]; decide) 0 (by unfold frame; rw [ht])
  | tpkt =>
    have hw : withHeader s (payload s.version m) = [3, 0] ++ word16 ((payload s.version m).length + 4) ++ payload s.version m := by unfold withHeader; rw [ht]
    have hall : At (withHeader s (payload s.version m) ++ rest) 0 (3 :: 0 :: (word16 ((payload s.version m).length + 4) ++ (payload s.version m ++ rest))) := by
      rw [hw]
      intro i _ _
      rw [Nat.zero_add]
      simp
    have hlen : (withHeader s (payload s.version m) ++ rest).length = (payload s.version m).length + 4 + rest.length := by
      rw [List.length_append, withHeader_length, if_pos ht]
    have hfr : frame s (withHeader s (payload s.version m) ++ rest) = .ok (4, (payload s.version m).length + 4, -1) := by
      unfold frame
      rw [ht]
      simp only
      rw [if_pos (by omega), hall.octet (by omega), bind_ok, stopIf_neg (by decide), bind_ok, hall.tail.octet (by omega), bind_ok, stopIf_neg (by decide), bind_ok,
        hall.tail.tail.word hsz (by omega), bind_ok, stopIf_neg (by omega), bind_ok]
    have := stream_of hm hfr (by rw [hw]; exact At.self _ _ _) (by omega) (by omega)
    rw [this, if_pos rfl, Nat.add_comm]

/-- A packet of which a part is still to come. With TPKT its header has to be there. -/
theorem stream_cut {s : Core} {m : Msg} (hm : m.Ok s.version) (hsz : (payload s.version m).length + 4 < 65536) {x y : List Byte} (hxy : x ++ y = withHeader s (payload s.version m)) (hy : y ≠ [])
    (ht : s.transport = .tcp ∨ s.transport = .tpkt ∧ 4 ≤ x.length) : ∃ s', rxStream s x = some (0, s', []) ∧
      (s' = s ∨ s' = { s with rxDataType := -1, rxFieldType := -1 }) := by
  have hypos := List.length_pos_iff.mpr hy
  have hl := congrArg List.length hxy
  rw [List.length_append, withHeader_length] at hl
  rcases ht with ht | ⟨ht, h4⟩
  · rw [if_neg (by rw [ht]; decide)] at hl
    have hw : withHeader s (payload s.version m) = payload s.version m := by unfold withHeader; rw [ht]
    rw [hw] at hxy
    have hfr : frame s x = .ok (0, x.length, 0) := by unfold frame; rw [ht]
    have ha : At x 0 (payload s.version m) := by
      intro i _ hb
      rw [Nat.zero_add] at hb ⊢
      rw [← hxy, List.getElem?_append_left hb]
    unfold rxStream
    rw [hfr, bind_ok]
    simp only
    by_cases h0 : x.length = 0
    · rw [stopIf_pos (by omega)]
      exact ⟨s, rfl, Or.inl rfl⟩
    · rw [stopIf_neg (by omega), bind_ok]
      cases m with
      | indicator i =>
        obtain ⟨b, hb, k1, k2, _, k3⟩ := indicator_round (pktLen := 0) (ret := 0) hm ha (by omega)
        rw [hb, map_ok]
        simp only
        rw [if_pos k1, k2, if_neg (by simp), k3 (by omega)]
        exact ⟨_, rfl, Or.inr rfl⟩
      | data t fs =>
        obtain ⟨b, hb, k1, _, k3⟩ := data_round (pktLen := 0) (ret := 0) hm ha (by omega)
        rw [hb, map_ok]
        simp only
        rw [if_neg (by rw [k1]; simp), k3 (by omega)]
        exact ⟨_, rfl, Or.inl rfl⟩
  · rw [if_pos ht] at hl
    have hw : withHeader s (payload s.version m) = [3, 0] ++ word16 ((payload s.version m).length + 4) ++ payload s.version m := by unfold withHeader; rw [ht]
    have hall : At x 0 (3 :: 0 :: (word16 ((payload s.version m).length + 4) ++ payload s.version m)) := by
      intro i _ hb
      rw [Nat.zero_add] at hb ⊢
      have : x[i]? = (x ++ y)[i]? := by rw [List.getElem?_append_left hb]
      rw [this, hxy, hw]; simp
    have hfr : frame s x = .error (.ret 0) := by
      unfold frame
      rw [ht]
      simp only
      rw [if_pos (by omega), hall.octet (by omega), bind_ok, stopIf_neg (by decide), bind_ok, hall.tail.octet (by omega), bind_ok, stopIf_neg (by decide), bind_ok,
        hall.tail.tail.word hsz (by omega), bind_ok, stopIf_pos (by omega)]; rfl
    refine ⟨s, ?_, Or.inl rfl⟩
    unfold rxStream
    rw [hfr]; rfl

end T38
