import Verif.Adsi.Fields2

/-!
# Caller identity: the claims
-/

namespace Adsi

/-! ## Messages arrive -/

theorem quiet_init (std : Std) : Quiet (txInit std) := by
  refine ⟨by cases std <;> rfl, by cases std <;> exact List.length_replicate⟩

theorem clean_init (std : Std) : Clean (rxInit std) := ⟨rfl, rfl, rfl⟩

/-- Messages which are sent one after the other are given to the application at the other end, each of them once and in order, whatever the
length of the preamble. -/
theorem messages_arrive_partial {t : Tx} {r : Rx} {l : List (List Byte)} (hq : Quiet t) (hr : Clean r) (hstd : r.std = t.std)
    (hones : 20 ≤ t.ones) (hstop : t.stop ≤ 11) (hf : ∀ m ∈ l, Fits t.std m) :
    ∃ t' r', sendAll t r l = some (t', r') ∧ r'.out = r.out ++ l.map (given t.std) ∧ Quiet t' ∧ Clean r' := by
  obtain ⟨t', r', h1, h2, -, h4, -, h6⟩ := sendAll_all l hq hstop hones hr hstd hf
  exact ⟨t', r', h1, h6, h2, h4⟩

example : Quiet (txInit .cls) ∧ Clean (rxInit .cls) ∧ 20 ≤ (txInit .cls).ones ∧ (txInit .cls).stop ≤ 11
    ∧ (∀ m ∈ [[0x80, 0, 1, 2, 0x41, 0x42], [0x04, 0, 0x31]], Fits .cls m)
    ∧ [[0x80, 0, 1, 2, 0x41, 0x42], [0x04, 0, 0x31]].map (given .cls) = [[0x80, 4, 1, 2, 0x41, 0x42], [0x04, 1, 0x31]] :=
  ⟨quiet_init _, clean_init _, by decide, by decide, by decide, by decide⟩

example : 20 ≤ (txInit .jclip).ones ∧ (txInit .jclip).stop ≤ 11 ∧ Fits .jclip [0x40, 0, 2, 1, 0x4F]
    ∧ given .jclip [0x40, 0, 2, 1, 0x4F] = [0x10, 0x01, 0x07, 0x10, 0x02, 0x40, 3, 2, 1, 0x4F, 0x10, 0x03] := by decide

/-- A receiver hears anything at all: it stays within its buffer, and what it gives to the application is a message of the length it says. -/
theorem anything_is_safe (std : Std) (l : List Heard) :
    ∃ r, (rxInit std).hears l = some r ∧ r.std = std ∧ ∀ m ∈ r.out, Sound std m := by
  have key : ∀ (l : List Heard) {r : Rx}, Ok r → ∃ r', r.hears l = some r' ∧ Ok r' ∧ Gives r r' := by
    intro l
    induction l with
    | nil => exact fun {r} h => ⟨r, rfl, h, Gives.refl r⟩
    | cons e l ih =>
      intro r h
      cases e with
      | bit b =>
        obtain ⟨r1, h1, h2, h3⟩ := putBit_ok h b
        obtain ⟨r2, k1, k2, k3⟩ := ih h2
        exact ⟨r2, by rw [Rx.hears, Rx.hear, h1]; exact k1, k2, h3.trans k3⟩
      | up =>
        obtain ⟨r2, k1, k2, k3⟩ := ih (r := carrierUp r) ⟨by simp [carrierUp], fun _ => rfl, by simp [carrierUp], fun _ h => absurd rfl h⟩
        exact ⟨r2, by rw [Rx.hears]; exact k1, k2, k3⟩
  obtain ⟨r, h1, -, h3, ms, h4, h5⟩ := key l (clean_init std).ok
  refine ⟨r, h1, h3, ?_⟩
  rw [h5]
  simpa [rxInit] using h4

example : ∃ r, (rxInit .cls).hears (.up :: List.replicate 9 (.bit false)) = some r ∧ r.bitPos = 9 := by decide +kernel

/-- Whatever a receiver heard before, the next message arrives. -/
theorem message_arrives_after_anything_partial {t : Tx} {r : Rx} {m : List Byte} {l : List Heard} (hl : (rxInit t.std).hears l = some r) (hq : Quiet t)
    (hones : 20 ≤ t.ones) (hstop : t.stop ≤ 11) (hf : Fits t.std m) :
    ∃ t' r' junk, send t r m = some (t', r') ∧ r'.out = r.out ++ junk ++ [given t.std m] ∧ (∀ x ∈ junk, Sound t.std x) ∧ Quiet t' ∧ Clean r' := by
  have key : ∀ (l : List Heard) {r r' : Rx}, Ok r → r.hears l = some r' → Ok r' ∧ r'.std = r.std := by
    intro l
    induction l with
    | nil => intro r r' h e; cases e; exact ⟨h, rfl⟩
    | cons e l ih =>
      intro r r' h hr
      cases e with
      | bit b =>
        obtain ⟨r1, h1, h2, h3⟩ := putBit_ok h b
        rw [Rx.hears, Rx.hear, h1] at hr
        obtain ⟨k1, k2⟩ := ih h2 hr
        exact ⟨k1, k2.trans h3.1⟩
      | up =>
        exact ih (r := carrierUp r) ⟨by simp [carrierUp], fun _ => rfl, by simp [carrierUp], fun _ h => absurd rfl h⟩ hr
  obtain ⟨hok, hstd⟩ := key l (clean_init t.std).ok hl
  have hstd : r.std = t.std := hstd
  obtain ⟨t', r', junk, h1, h2, -, h4, -, h6, h7, -⟩ := send_any hq hstop hones hok hstd hf
  exact ⟨t', r', junk, h1, h6, fun x hx => hstd ▸ h7 x hx, h2, h4⟩

/-- A message which was damaged on its way is not given to the application. -/
theorem damage_is_noticed {t : Tx} {r : Rx} {m b' : List Byte} {p : Tx × Int} (hq : Quiet t) (hr : Clean r) (hstd : r.std = t.std)
    (hones : 20 ≤ t.ones) (hstop : t.stop ≤ 11) (hf : Fits t.std m) (hp : putMessage t m = some p)
    (hd : Damaged t.std (p.1.msg.take p.1.msgLen) b') :
    ∃ t' r', sendAs t r m (fun _ => b') = some (t', r') ∧ r'.out = r.out ∧ Quiet t' ∧ Clean r' := by
  obtain ⟨t', r', h1, h2, h3, -, h5⟩ := send_damaged hq hstop hones hr hstd hf hp hd
  exact ⟨t', r', h1, h5, h2, h3⟩

example : (putMessage (txInit .clip) [0x80, 0, 0x41]).map (fun p => p.1.msg.take p.1.msgLen) = some [0x80, 1, 0x41, 0x3E] := by decide +kernel

example : Damaged .clip [0x80, 1, 0x41, 0x3E] [0x80, 1, 0x40, 0x3E] := ⟨rfl, 2, 0x40, by decide, rfl, by decide⟩

/-! ## Fields arrive -/

/-- Messages of CLASS, CLIP and A-CLIP with several fields. -/
theorem fields_arrive_partial {t : Tx} {r : Rx} {type : Byte} {fs : List (Byte × List Byte)} (hs : t.std = .cls ∨ t.std = .clip ∨ t.std = .aclip)
    (hq : Quiet t) (hr : Clean r) (hstd : r.std = t.std) (hones : 20 ≤ t.ones) (hstop : t.stop ≤ 11)
    (htype : type &&& 0x80 ≠ 0) (hf : ∀ f ∈ fs, f.1 ≠ 0 ∧ f.2.length ≠ 16) (hlen : (fs.map fun f => 2 + f.2.length).sum ≤ 253) :
    ∃ m t' r' g, build t type fs = some (t, m) ∧ send t r m = some (t', r') ∧ r'.out = r.out ++ [g] ∧ fields t.std g = some (some ((type, []) :: fs)) := by
  have hl : (fs.flatMap encField).length ≤ 253 := by
    rw [List.length_flatMap]
    refine Nat.le_trans (Nat.le_of_eq ?_) hlen
    congr 1
    apply List.map_congr_left
    intro f _
    simp only [encField, List.length_cons]
    omega
  have hfit : Fits t.std ([type, 0] ++ fs.flatMap encField) := by
    have h1 : 2 ≤ ([type, 0] ++ fs.flatMap encField).length := by simp only [List.length_append, List.length_cons, List.length_nil]; omega
    have h2 : ([type, 0] ++ fs.flatMap encField).length ≤ 255 := by simp only [List.length_append, List.length_cons, List.length_nil]; omega
    rcases hs with h | h | h <;> rw [h] <;> exact ⟨h1, h2⟩
  obtain ⟨t', r', junk, h1, -, -, -, -, h6, -, h8⟩ := send_any hq hstop hones hr.ok hstd hfit
  refine ⟨_, t', r', given t.std ([type, 0] ++ fs.flatMap encField), build_sum hs type fs hf, h1, ?_, ?_⟩
  · rw [h6, h8 hr, List.append_nil]
  · have : given t.std ([type, 0] ++ fs.flatMap encField) = [type, BitVec.ofNat 8 (([type, 0] ++ fs.flatMap encField).length - 2)] ++ fs.flatMap encField := by
      unfold given
      rw [if_neg (by rcases hs with h | h | h <;> rw [h] <;> decide)]
      rfl
    rw [this]
    exact fields_sum hs htype fs hl

example : (0x80 : Byte) &&& 0x80 ≠ 0 ∧ (∀ f ∈ [((1 : Byte), [0x30, 0x31]), (2, [0x35, 0x35, 0x35])], f.1 ≠ 0 ∧ f.2.length ≠ 16)
    ∧ ([((1 : Byte), ([0x30, 0x31] : List Byte)), (2, [0x35, 0x35, 0x35])].map fun f => 2 + f.2.length).sum ≤ 253 := by decide

/-- Messages of CLASS, CLIP and A-CLIP with a single body. -/
theorem single_field_arrives {t : Tx} {r : Rx} {type : Byte} {body : List Byte} (hs : t.std = .cls ∨ t.std = .clip ∨ t.std = .aclip)
    (hq : Quiet t) (hr : Clean r) (hstd : r.std = t.std) (hones : 20 ≤ t.ones) (hstop : t.stop ≤ 11)
    (htype : type &&& 0x80 = 0) (hne : body ≠ []) (hlen : body.length ≤ 253) :
    ∃ m t' r' g, build t type [(0, body)] = some (t, m) ∧ send t r m = some (t', r') ∧ r'.out = r.out ++ [g]
      ∧ fields t.std g = some (some [(type, []), (0, body)]) := by
  have hb : build t type [(0, body)] = some (t, [type, 0] ++ body) := by
    unfold build addField
    rcases hs with h | h | h <;> simp [h, List.foldlM_cons]
  have hfit : Fits t.std ([type, 0] ++ body) := by
    have h1 : 2 ≤ ([type, 0] ++ body).length := by simp
    have h2 : ([type, 0] ++ body).length ≤ 255 := by simp only [List.length_append, List.length_cons, List.length_nil]; omega
    rcases hs with h | h | h <;> rw [h] <;> exact ⟨h1, h2⟩
  obtain ⟨t', r', junk, h1, -, -, -, -, h6, -, h8⟩ := send_any hq hstop hones hr.ok hstd hfit
  refine ⟨_, t', r', given t.std ([type, 0] ++ body), hb, h1, ?_, ?_⟩
  · rw [h6, h8 hr, List.append_nil]
  · have : given t.std ([type, 0] ++ body) = [type, BitVec.ofNat 8 (([type, 0] ++ body).length - 2)] ++ body := by
      unfold given
      rw [if_neg (by rcases hs with h | h | h <;> rw [h] <;> decide)]
      rfl
    rw [this]
    exact fields_single hs htype hne

/-- Messages of J-CLIP. The fields have no DLE in their bodies, and their total length is not 16. -/
theorem jclip_fields_arrive_partial {t : Tx} {r : Rx} {type : Byte} {fs : List (Byte × List Byte)} (hs : t.std = .jclip)
    (hq : Quiet t) (hr : Clean r) (hstd : r.std = t.std) (hones : 20 ≤ t.ones) (hstop : t.stop ≤ 11)
    (htype : type ≠ DLE) (ht7 : type.toNat < 128) (hf : ∀ f ∈ fs, f.1.toNat < 128 ∧ f.2.length < 128 ∧ ∀ o ∈ f.2, o ≠ DLE ∧ o.toNat < 128)
    (hlen : (fs.map fun f => (if f.1 = DLE then 2 else 1) + (if f.2.length = 16 then 2 else 1) + f.2.length).sum ≤ 117)
    (h16 : (fs.map fun f => (if f.1 = DLE then 2 else 1) + (if f.2.length = 16 then 2 else 1) + f.2.length).sum ≠ 16) :
    ∃ m t' r' g, build t type fs = some (t, m) ∧ send t r m = some (t', r') ∧ r'.out = r.out ++ [g] ∧ fields .jclip g = some (some ((type, []) :: fs)) := by
  have hl : (fs.flatMap encJ).length = (fs.map fun f => (if f.1 = DLE then 2 else 1) + (if f.2.length = 16 then 2 else 1) + f.2.length).sum := by
    rw [List.length_flatMap]
    congr 1
    apply List.map_congr_left
    intro f hff
    have hlt := (hf f hff).2.1
    simp only [encJ, dup, List.length_append, List.length_cons, len16 (show f.2.length < 256 by omega)]
    split <;> split <;> simp
  rw [← hl] at hlen h16
  have hfit : Fits .jclip ([type, 0] ++ fs.flatMap encJ) := by
    refine ⟨by simp, by simp only [List.length_append, List.length_cons, List.length_nil]; omega,
      by simp only [List.length_append, List.length_cons, List.length_nil]; omega, ?_⟩
    intro o ho
    rcases List.mem_append.mp ho with ho | ho
    · simp only [List.mem_cons, List.not_mem_nil, or_false] at ho
      rcases ho with rfl | rfl
      · exact ht7
      · decide
    · obtain ⟨f, hff, ho⟩ := List.mem_flatMap.mp ho
      obtain ⟨f1, f2, f3⟩ := hf f hff
      simp only [encJ, List.mem_append] at ho
      have hdup : ∀ x : Byte, o ∈ dup x → o = x := by
        intro x hx
        unfold dup at hx
        split at hx <;> simpa using hx
      rcases ho with (ho | ho) | ho
      · rw [hdup _ ho]; exact f1
      · rw [hdup _ ho, BitVec.toNat_ofNat]; omega
      · exact (f3 o ho).2
  obtain ⟨t', r', junk, h1, -, -, -, -, h6, -, h8⟩ := send_any hq hstop hones hr.ok hstd (m := [type, 0] ++ fs.flatMap encJ) (by rw [hs]; exact hfit)
  refine ⟨_, t', r', given .jclip ([type, 0] ++ fs.flatMap encJ), build_jclip hs type fs (fun f hff => ?_), h1, ?_, ?_⟩
  · obtain ⟨-, f2, f3⟩ := hf f hff
    exact ⟨fun h => (f3 _ h).1 rfl, by omega⟩
  · rw [h6, h8 hr, List.append_nil, hs]
  · exact fields_jclip htype fs (fun f hff => by have := (hf f hff).2.1; omega) (by omega) h16

example : (0x40 : Byte) ≠ DLE ∧ (∀ f ∈ [((2 : Byte), ([0x30, 0x31, 0x32] : List Byte)), (DLE, [0x4F])], f.1.toNat < 128 ∧ f.2.length < 128 ∧ ∀ o ∈ f.2, o ≠ DLE ∧ o.toNat < 128)
    ∧ ([((2 : Byte), ([0x30, 0x31, 0x32] : List Byte)), (DLE, [0x4F])].map fun f => (if f.1 = DLE then 2 else 1) + (if f.2.length = 16 then 2 else 1) + f.2.length).sum = 9 := by
  decide

/-- Walking over the fields of any message: each step moves on, gives a part of the message, and behind the end there is no more. -/
theorem walking_moves_on (std : Std) (msg : List Byte) (pos : Nat) :
    (∀ p ty body, nextField std msg pos = some (.field p ty body) → pos < p ∧ body <:+: msg)
    ∧ (msg.length < pos → nextField std msg pos = some .done) :=
  ⟨fun _ _ _ h => nextField_moves h, nextField_end⟩

/-- The body of a field which is found ends where the walk goes on, within the message; in J-CLIP before the end mark of two octets. -/
theorem field_lies_within {std : Std} {msg : List Byte} {pos p : Nat} {ty : Byte} {body : List Byte}
    (h : nextField std msg pos = some (.field p ty body)) (hd : std ≠ .dtmf) :
    p ≤ msg.length ∧ (std = .jclip → p + 2 ≤ msg.length) := by
  have hsum : nextSum msg pos = some (.field p ty body) → p ≤ msg.length := by
    intro h
    unfold nextSum at h
    split at h
    · cases h
    · split at h
      · cases h0 : msg[0]? with
        | none => rw [h0] at h; cases h
        | some x =>
          rw [h0] at h
          simp only [Option.bind_some] at h
          split at h
          · cases h
          · cases h; omega
      · cases h0 : msg[0]? with
        | none => rw [h0] at h; cases h
        | some x =>
          rw [h0] at h
          simp only [Option.bind_some] at h
          split at h
          · cases h1 : msg[pos]? with
            | none => rw [h1] at h; cases h
            | some y =>
              cases h2 : msg[pos + 1]? with
              | none => rw [h1, h2] at h; cases h
              | some z =>
                rw [h1, h2] at h
                simp only [Option.bind_some] at h
                split at h
                · cases h
                · cases h; omega
          · cases h; omega
  cases std
  case jclip =>
    simp only [nextField, nextJclip] at h
    split at h
    · cases h
    · split at h
      · cases h1 : undouble msg 5 with
        | none => rw [h1] at h; cases h
        | some t =>
          rw [h1] at h
          simp only [Option.bind_some] at h
          cases h2 : undouble msg t.2 with
          | none => rw [h2] at h; cases h
          | some n =>
            rw [h2] at h
            simp only [Option.bind_some] at h
            split at h
            · cases h
            · cases h; exact ⟨by omega, fun _ => by omega⟩
      · cases h1 : undouble msg pos with
        | none => rw [h1] at h; cases h
        | some t =>
          rw [h1] at h
          simp only [Option.bind_some] at h
          cases h2 : undouble msg t.2 with
          | none => rw [h2] at h; cases h
          | some n =>
            rw [h2] at h
            simp only [Option.bind_some] at h
            split at h
            · cases h
            · cases h; exact ⟨by omega, fun _ => by omega⟩
  case dtmf => exact absurd rfl hd
  case tdd =>
    simp only [nextField] at h
    split at h
    · cases h
    · cases h; exact ⟨by omega, fun e => by cases e⟩
  all_goals exact ⟨hsum h, fun e => by cases e⟩

example : nextField .cls [0x80, 4, 1, 2, 0x41, 0x42] 2 = some (.field 6 1 [0x41, 0x42])
    ∧ nextField .jclip [0x10, 0x01, 0x07, 0x10, 0x02, 0x40, 3, 2, 1, 0x4F, 0x10, 0x03] 7 = some (.field 10 2 [0x4F]) := by decide

/-- Walking over the fields of any J-CLIP message which a receiver may give stays within the message, and ends. -/
theorem jclip_walk_is_safe {m : List Byte} (h : Sound .jclip m) : ∃ r, fields .jclip m = some r := by
  unfold Sound at h
  rw [if_pos rfl] at h
  exact walk_ends (std := .jclip) (msg := m) (P := fun _ => True) (fun pos _ => nextJclip_safe h.1 pos) (fun _ _ _ _ _ _ => trivial) _ 0 trivial (by omega) (by omega)

/-- Walking over the fields of any message with a single body stays within the message, and ends. -/
theorem single_walk_is_safe {std : Std} {m : List Byte} {x : Byte} (hs : std = .cls ∨ std = .clip ∨ std = .aclip)
    (h0 : m[0]? = some x) (hx : x &&& 0x80 = 0) : ∃ r, fields std m = some r := by
  refine walk_ends (P := fun _ => True) (fun pos _ => ?_) (fun _ _ _ _ _ _ => trivial) _ 0 trivial (by omega) (by omega)
  have : ∃ r, nextSum m pos = some r := by
    unfold nextSum
    split
    · exact ⟨_, rfl⟩
    · rw [h0]
      simp only [Option.bind_some]
      split
      · split <;> exact ⟨_, rfl⟩
      · rw [if_neg (by rw [hx]; simp)]; exact ⟨_, rfl⟩
  rcases hs with h | h | h <;> rw [h] <;> exact this

/-! ## Digits -/

/-- Digits are cut into messages after each `#` and `C`, however they come from the detector, if the time for them is not over. -/
theorem digits_are_cut {r : Rx} {l : List Dig} (hr : r.msg = []) (ht : Dig.time l < 80000) (h : ∀ p ∈ (cut [] (Dig.all l)).1, p.length ≤ 256)
    (h' : (cut [] (Dig.all l)).2.length ≤ 256) :
    ∃ r', r.digs l = some r' ∧ r'.out = r.out ++ (cut [] (Dig.all l)).1 := by
  obtain ⟨r', h1, -, h3, -⟩ := digs_cut l (r := r) (by rw [hr]; exact ⟨h, h'⟩) ht (Or.inl hr)
  exact ⟨r', h1, by rw [h3, hr]⟩

example : Dig.all [.samples 100, .digits [0x41, 0x35], .samples 50, .digits [0x36, 0x23, 0x41]] = [0x41, 0x35, 0x36, 0x23, 0x41]
    ∧ cut [] [0x41, 0x35, 0x36, 0x23, 0x41] = ([[0x41, 0x35, 0x36, 0x23]], [0x41]) := by decide

/-- Any digits at any time: the receiver stays within its buffer, and what it gives to the application ends with `#` or `C`. -/
theorem digits_are_safe (l : List Dig) : ∃ r, (rxInit .dtmf).digs l = some r ∧ ∀ m ∈ r.out, Ended m := by
  obtain ⟨r, h1, -, ms, h3, h4⟩ := digs_ok l (s := rxInit .dtmf) ⟨by simp [rxInit], by simp [rxInit]⟩
  refine ⟨r, h1, ?_⟩
  rw [h3]
  simpa [rxInit] using h4

theorem cut_free : ∀ (a : List Byte) {p : List Byte} {d : Byte}, (∀ x ∈ a, x ≠ 0x23 ∧ x ≠ 0x43) → (d = 0x23 ∨ d = 0x43) → cut p (a ++ [d]) = ([p ++ a ++ [d]], [])
  | [], p, d, _, hd => by rw [List.nil_append, cut, if_pos hd]; simp [cut]
  | x :: a, p, d, ha, hd => by
    have := ha x (by simp)
    rw [List.cons_append, cut, if_neg (not_or.mpr this), cut_free a (fun x h => ha x (by simp [h])) hd]
    simp

theorem dfield_free {fs : List (Byte × List Byte)} (hf : ∀ f ∈ fs, DField f) : ∀ x ∈ fs.flatMap encD, x ≠ 0x23 ∧ x ≠ 0x43 := by
  intro x hx
  obtain ⟨f, hff, hx⟩ := List.mem_flatMap.mp hx
  obtain ⟨-, -, f2, f3, f4⟩ := hf f hff
  rcases List.mem_cons.mp hx with rfl | hx
  · exact ⟨f2, f3⟩
  · have := f4 x hx
    refine ⟨?_, ?_⟩ <;> rintro rfl <;> exact absurd this (by decide)

/-- Fields which are sent in digits arrive, however the digits come from the detector, if the time for them is not over. -/
theorem digit_fields_arrive {t : Tx} {r : Rx} {type : Byte} {fs : List (Byte × List Byte)} (hs : t.std = .dtmf) (hq : t.msgLen = 0) (hr : r.msg = [])
    (htype : type = 0x23 ∨ type = 0x43) (hne : fs ≠ [])
    (hf : ∀ f ∈ fs, f.1 ≠ 0 ∧ isDigit f.1 = false ∧ f.1 ≠ 0x23 ∧ f.1 ≠ 0x43 ∧ ∀ o ∈ f.2, isDigit o = true)
    (hlen : (fs.map fun f => 1 + f.2.length).sum ≤ 126) :
    ∃ m t', build t type fs = some (t, m) ∧ putMessage t m = some (t', (m.length : Int)) ∧ t'.digits = t.digits ++ m
      ∧ ∀ l, Dig.all l = m → Dig.time l < 80000 →
        ∃ r' g, r.digs l = some r' ∧ r'.out = r.out ++ [g] ∧ fields .dtmf g = some (some ((type, []) :: fs)) := by
  have hl : (fs.flatMap encD).length ≤ 126 := by
    rw [List.length_flatMap]
    refine Nat.le_trans (Nat.le_of_eq ?_) hlen
    congr 1
    apply List.map_congr_left
    intro f _
    simp only [encD, List.length_cons]
    omega
  have hst : (if t.on then t else startTx t).std = .dtmf := (startTx_std t).trans hs
  have hdg : (if t.on then t else startTx t).digits = t.digits := by split <;> rfl
  refine ⟨_, { (if t.on then t else startTx t) with digits := t.digits ++ (fs.flatMap encD ++ [type]), byteNo := 0, bitPos := 0, bitNo := 0 },
    build_dtmf hs type fs (fun f h => (hf f h).1), ?_, ?_, ?_⟩
  · unfold putMessage
    rw [if_neg (by omega)]
    simp only
    generalize (if t.on = true then t else startTx t) = u at hst hdg ⊢
    simp only [hst, hdg]
    rw [if_neg (by simp only [List.length_append, List.length_cons, List.length_nil]; omega)]
  · rfl
  · intro l hall ht
    have hcut := cut_free (fs.flatMap encD) (p := []) (dfield_free hf) htype
    rw [List.nil_append] at hcut
    obtain ⟨r', h1, h2⟩ := digits_are_cut (r := r) (l := l) hr ht
      (by rw [hall, hcut]; intro p hp; rw [List.mem_singleton] at hp; rw [hp]; simp only [List.length_append, List.length_cons, List.length_nil]; omega)
      (by rw [hall, hcut]; simp)
    rw [hall, hcut] at h2
    exact ⟨r', _, h1, h2, fields_dtmf htype hne hf⟩

example : ∀ f ∈ [((0x41 : Byte), ([0x35, 0x35] : List Byte)), (0x44, [0x31])],
    f.1 ≠ 0 ∧ isDigit f.1 = false ∧ f.1 ≠ 0x23 ∧ f.1 ≠ 0x43 ∧ ∀ o ∈ f.2, isDigit o = true := by decide

/-- A number alone, without a type, is found as a field, too. -/
theorem plain_number_is_a_field {type : Byte} {body : List Byte} {t : Tx} (hs : t.std = .dtmf) (htype : type = 0x23 ∨ type = 0x43) (hne : body ≠ [])
    (hf : ∀ o ∈ body, isDigit o = true) :
    ∃ m, build t type [(0, body)] = some (t, m) ∧ fields .dtmf m = some (some [(type, []), (0, body)]) := by
  refine ⟨body ++ [type], ?_, fields_plain htype hne hf⟩
  unfold build addField
  simp [hs, List.foldlM_cons]

/-- Walking over the fields of any message of digits, other than one with nothing but its end, stays within the message, and ends. -/
theorem digit_walk_is_safe_partial {m : List Byte} (h : Ended m) (h2 : 2 ≤ m.length) : ∃ r, fields .dtmf m = some r := fields_ended h h2

example : Ended [0x41, 0x35, 0x23] := ⟨by decide, [0x41, 0x35], 0x23, rfl, by decide, by decide⟩

/-! ## Text -/

theorem addText_len : ∀ (text : List Byte) {sh sh' : Nat} {cs : List Byte}, addText sh text = some (sh', cs) → cs.length ≤ 2 * text.length
  | [], _, _, _, h => by cases h; simp
  | ch :: text, sh, sh', cs, h => by
    rw [addText] at h
    cases he : encodeBaudot sh ch with
    | none => rw [he] at h; cases h
    | some r =>
      rw [he, Option.bind_some] at h
      cases ha : addText r.1 text with
      | none => rw [ha] at h; cases h
      | some q =>
        rw [ha, Option.bind_some] at h
        cases h
        have := addText_len text ha
        have hr : r.2.length ≤ 2 := by
          unfold encodeBaudot at he
          cases hc : encodeTable[ch.toNat]? with
          | none => rw [hc] at he; cases he
          | some c =>
            rw [hc, Option.bind_some] at he
            simp only at he
            split at he
            · cases he; simp
            · split at he
              · cases he; simp only; split <;> simp
              · split at he <;> split at he <;> cases he <;> simp only
                all_goals first | (split <;> simp) | simp
        rw [List.length_append, List.length_cons]
        omega

/-- Text arrives as one message: letters as capitals, and without what the code has no characters for. The transmitter and the receiver agree
about the shift, or the transmitter does not know it. -/
theorem text_arrives_partial {t : Tx} {r : Rx} {text : List Byte} (hs : t.std = .tdd) (hq : Quiet t) (hr : r.msg = []) (hsh : t.shift = 2 ∨ t.shift = r.shift)
    (hrs : r.shift ≤ 1) (hascii : ∀ o ∈ text, o.toNat < 128) (hlen : text.length ≤ 127) :
    ∃ t' r', sendText t r text = some (t', r') ∧ Quiet t' ∧ t'.std = .tdd ∧ r'.msg = [] ∧ r'.shift = 0
      ∧ r'.out = r.out ++ (if text.filterMap baudot = [] then [] else [text.filterMap baudot]) := by
  obtain ⟨sh', rs', cs, h1, h2, h3, -, h5⟩ := addText_decode text (sh := t.shift) (rs := r.shift) hascii (by omega) hrs hsh
  have hcl := addText_len text h1
  obtain ⟨r1, k1, k2, -, -, k5⟩ := putChars_decode cs (s := r) (by rw [hr]; simp) h5
  have hfl : (text.filterMap baudot).length ≤ text.length := List.length_filterMap_le _ _
  obtain ⟨e1, e2⟩ := k5 (by rw [hr]; simp only [List.length_nil]; omega)
  rw [hr, List.nil_append] at e2
  have hadd : addField t [] 0 text = some ({ t with shift := sh' }, cs) := by
    unfold addField
    rw [hs]
    simp only [h1, Option.bind_some, List.nil_append]
  obtain ⟨u, hu, hu1, hu2, hu3⟩ : ∃ u : Tx, u = (if ({ t with shift := sh' } : Tx).on then { t with shift := sh' } else startTx { t with shift := sh' })
      ∧ u.std = .tdd ∧ u.on = true ∧ u.msg = t.msg := by
    by_cases ho : t.on = true
    · exact ⟨_, rfl, by simp [ho, hs], by simp [ho], by simp [ho]⟩
    · exact ⟨_, rfl, by simp [ho, startTx, hs], by simp [ho, startTx], by simp [ho, startTx]⟩
  have hput : putMessage { t with shift := sh' } cs = some ({ u with msg := cs ++ u.msg.drop cs.length, msgLen := cs.length, byteNo := 0, bitPos := 0, bitNo := 0 }, (cs.length : Int)) := by
    unfold putMessage
    rw [if_neg (by simp only; rw [hq.len]; omega)]
    simp only [← hu, hu1]
    rw [if_neg (by omega)]
    unfold load
    rw [if_pos (by omega), Option.bind_some, hu1]
  have hdr := drainChars_all 257 (t := { u with msg := cs ++ u.msg.drop cs.length, msgLen := cs.length, byteNo := 0, bitPos := 0, bitNo := 0 }) (m := cs) hu2
    (by simp) (by intro i hi; simp only [Nat.zero_add]; rw [List.getElem?_append_left hi]) (by omega)
  have hfill : putChars r1 (([] : List Byte) ++ [0x1F]) = some { r1 with shift := 0 } := by
    have hl : r1.msg.length < 256 := by rw [e2]; simp only; omega
    simp only [List.nil_append, putChars, putChar]
    rw [show decodeBaudot r1.shift (0x1F &&& 0x1F) = some (0, 0) by unfold decodeBaudot; rfl]
    simp only [Option.bind_some]
    rw [if_neg (by simp), Option.bind_some, if_neg (by simp only; omega)]
    rfl
  have happ : ∀ (a b : List Byte) (s : Rx), putChars s (a ++ b) = (putChars s a).bind (putChars · b) := by
    intro a
    induction a with
    | nil => intros; rfl
    | cons c a ih =>
      intro b s
      rw [List.cons_append, putChars, putChars]
      cases putChar s c with
      | none => rfl
      | some s1 => exact ih b s1
  refine ⟨{ u with msg := cs ++ u.msg.drop cs.length, byteNo := cs.length, bitPos := 0, bitNo := 0, on := false, msgLen := 0 },
    carrierDown { r1 with shift := 0 }, ?_, ?_, ?_, ?_, ?_, ?_⟩
  · unfold sendText
    rw [hadd, Option.bind_some, hput, Option.bind_some, hdr, Option.bind_some]
    simp only
    rw [happ, k1, Option.bind_some, show [0x1F] = ([] : List Byte) ++ [0x1F] from rfl, hfill]
    rfl
  · refine ⟨rfl, ?_⟩
    simp only [List.length_append, List.length_drop, hu3, hq.buf]
    omega
  · exact hu1
  · unfold carrierDown
    split
    · rfl
    · rename_i h
      simp only [Nat.not_lt, Nat.le_zero] at h
      exact List.length_eq_zero_iff.mp (by omega)
  · unfold carrierDown
    split <;> rfl
  · unfold carrierDown
    simp only [e2]
    by_cases hz : text.filterMap baudot = []
    · rw [if_pos hz, hz, if_neg (by simp)]
      simp [e1]
    · rw [if_neg hz, if_pos (List.length_pos_iff.mpr hz)]
      simp [Rx.give, e1]

example : (txInit .tdd).shift = 2 ∧ ([0x48, 0x69, 0x20, 0x39, 0x21] : List Byte).filterMap baudot = [0x48, 0x49, 0x20, 0x39] := by decide

/-- Any characters keep a receiver of text within its buffer and its table. -/
theorem chars_are_safe (cs : List Byte) : ∃ r, putChars (rxInit .tdd) cs = some r ∧ r.msg.length < 256 := by
  have key : ∀ (cs : List Byte) {r : Rx}, r.shift ≤ 1 → r.msg.length < 256 → ∃ r', putChars r cs = some r' ∧ r'.msg.length < 256 := by
    intro cs
    induction cs with
    | nil => exact fun {r} _ h => ⟨r, rfl, h⟩
    | cons c cs ih =>
      intro r h1 h2
      have hd : ∀ c : Byte, ∀ sh : Fin 2, (decodeBaudot sh.val (c &&& 0x1F)).any (fun x => decide (x.1 ≤ 1)) = true := by decide +kernel
      have := hd c ⟨r.shift, by omega⟩
      rw [Option.any_eq_true] at this
      obtain ⟨x, hx, hx1⟩ := this
      simp only [decide_eq_true_eq] at hx1
      simp only at hx
      obtain ⟨s1, k1, k2, k3, -⟩ := store_flat (s := { r with shift := x.1 }) h2 x.2
      obtain ⟨s2, m1, m2⟩ := ih (r := s1) (by rw [k2]; exact hx1) k3
      refine ⟨s2, ?_, m2⟩
      rw [putChars]
      unfold putChar
      rw [hx, Option.bind_some]
      simp only
      rw [k1, Option.bind_some, m1]
  exact key cs (by simp [rxInit]) (by simp [rxInit])

/-! ## What does not hold -/

/-- What an application at the other end is given of messages sent from the start, when the transmitter is set up with `f`. -/
def heard (std : Std) (f : Tx → Tx) (l : List (List Byte)) : Option (List (List Byte)) := (sendAll (f (txInit std)) (rxInit std) l).map fun p => p.2.out

/-- A field of 16 octets does not arrive as it was sent in CLASS, CLIP and A-CLIP: its length is doubled when it is added, but not when it is read. -/
theorem sixteen_octets_are_misread :
    ((build (txInit .cls) 0x80 [(1, List.replicate 16 0x41)]).bind fun b => (heard .cls id [b.2]).map fun l => l.map (nextField .cls · 2))
      = some [some (.field 20 1 (0x10 :: List.replicate 15 0x41))] := by
  decide +kernel

/-- A message of J-CLIP with 16 octets does not arrive at all: the octet with the length is doubled, and the receiver does not expect this. -/
theorem sixteen_octets_are_lost : heard .jclip id [[0x40, 0] ++ List.replicate 16 0x41] = some [] := by decide +kernel

/-- With 12 stop bits no message arrives: so many ones are taken for the start of a message. -/
theorem many_stop_bits_lose_messages : heard .clip (fun t => setPreamble t (-1) (-1) (-1) 12) [[0x80, 0, 1, 1, 0x41]] = some [] := by decide +kernel

/-- `adsi_encode_baudot` reads outside of its table for each octet from 128 on. -/
theorem baudot_reads_outside (shift : Nat) (ch : Byte) (h : 128 ≤ ch.toNat) : encodeBaudot shift ch = none := by
  unfold encodeBaudot
  rw [List.getElem?_eq_none (by exact h)]
  rfl

/-- `adsi_next_field` reads outside of messages which a receiver gives. -/
theorem walk_reads_outside :
    ((heard .cls id [[0x80, 0, 5]]).map fun l => l.map (fields .cls)) = some [none]
    ∧ (((rxInit .dtmf).digs [.digits [0x23]]).map fun r => r.out.map (fields .dtmf)) = some [none] :=
  ⟨by decide +kernel, by decide +kernel⟩

/-- Text sent again may arrive as other text: the characters between the messages change the shift of the receiver, but not what the transmitter
takes it for. "1" arrives as "Q". -/
theorem text_is_garbled :
    ((sendText (txInit .tdd) (rxInit .tdd) [0x31]).bind fun p => (sendText p.1 p.2 [0x31]).map fun q => q.2.out) = some [[0x31], [0x51]] := by
  decide +kernel

/-- A body with DLE does not arrive as it was sent in J-CLIP. -/
theorem dle_is_misread :
    ((build (txInit .jclip) 0x40 [(2, [DLE, 0x41])]).bind fun b => (heard .jclip id [b.2]).map fun l => l.map (fields .jclip))
      = some [some none] := by
  decide +kernel

end Adsi
