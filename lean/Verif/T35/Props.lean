import Verif.T35.Model

/-!
# Makers and machines are recognised

A country code is listed if the table has a name for it.  A maker is listed for a country code if it is in the list of that code,
and a machine if it is in the list of the maker.  The bytes of a machine are as many of its identity as its size says.
-/

namespace T35

/-- A code has a name. -/
def Named (c : Nat) : Prop := ∃ n m, countries[c]? = some ⟨some n, m⟩

theorem named_iff (c : Nat) : Named c ↔ (countries[c]?.bind Country.name).isSome = true := by
  unfold Named
  cases h : countries[c]? with
  | none => simp
  | some e =>
    obtain ⟨n, m⟩ := e
    cases n <;> simp

instance (c : Nat) : Decidable (Named c) := decidable_of_iff _ (named_iff c).symm

/-- The codes which are taken to be in the wrong order of bits, as the country of that code sends no faxes: Germany, the United
Kingdom, China, Korea, the United States and France, turned round. -/
def turned : List Nat := [0x20, 0x2D, 0x64, 0x86, 0xAD, 0xBC]

theorem real_table : ∀ c < 255, ∃ r : Int, real (c : Nat) = some r ∧ -1 ≤ r ∧ r < 255 ∧
    (r = -1 → ¬ Named c ∧ ¬ Named (rev c)) ∧ (0 ≤ r → Named r.toNat) ∧
    (c ∈ turned → r = rev c) ∧ (c ∉ turned → Named c → r = c) ∧ (¬ Named c → Named (rev c) → r = rev c) := by
  have h0 : ∀ c < 255, (real (c : Nat)).isSome = true ∧ -1 ≤ (real (c : Nat)).getD 0 ∧ (real (c : Nat)).getD 0 < 255 := by
    decide +kernel
  have h1 : ∀ c < 255, (real (c : Nat)).getD 0 = -1 → ¬ Named c ∧ ¬ Named (rev c) := by decide +kernel
  have h2 : ∀ c < 255, 0 ≤ (real (c : Nat)).getD 0 → Named ((real (c : Nat)).getD 0).toNat := by decide +kernel
  have h3 : ∀ c < 255, c ∈ turned → (real (c : Nat)).getD 0 = rev c := by decide +kernel
  have h4 : ∀ c < 255, c ∉ turned → Named c → (real (c : Nat)).getD 0 = c := by decide +kernel
  have h5 : ∀ c < 255, ¬ Named c → Named (rev c) → (real (c : Nat)).getD 0 = rev c := by decide +kernel
  intro c hc
  obtain ⟨a, b1, b2⟩ := h0 c hc
  have c1 := h1 c hc
  have c2 := h2 c hc
  have c3 := h3 c hc
  have c4 := h4 c hc
  have c5 := h5 c hc
  obtain ⟨r, hr⟩ := Option.isSome_iff_exists.1 a
  rw [hr] at b1 b2 c1 c2 c3 c4 c5
  exact ⟨r, hr, b1, b2, c1, c2, c3, c4, c5⟩

/-- For any number at all the country of a code is found without reading beyond the table.  The result is -1, or the code, or
the code turned round, and has a name.  It is -1 only if the number is no code or neither way round has a name. -/
theorem country (c : Int) : ∃ r, real c = some r ∧
    ((r = -1 ∧ (c < 0 ∨ 255 ≤ c ∨ (¬ Named c.toNat ∧ ¬ Named (rev c.toNat)))) ∨
      (0 ≤ c ∧ c < 255 ∧ 0 ≤ r ∧ Named r.toNat ∧
        (if c.toNat ∉ turned ∧ Named c.toNat then r = c else r = rev c.toNat))) := by
  by_cases h : 0 ≤ c ∧ c < 255
  · obtain ⟨r, h1, h2, h3, h4, h5, h6, h7, h8⟩ := real_table c.toNat (by omega)
    rw [show ((c.toNat : Nat) : Int) = c by omega] at h1 h7
    refine ⟨r, h1, ?_⟩
    by_cases hr : r = -1
    · exact Or.inl ⟨hr, Or.inr (Or.inr (h4 hr))⟩
    · refine Or.inr ⟨h.1, h.2, by omega, h5 (by omega), ?_⟩
      by_cases ht : c.toNat ∉ turned ∧ Named c.toNat
      · rw [if_pos ht]; exact h7 ht.1 ht.2
      · rw [if_neg ht]
        by_cases hm : c.toNat ∈ turned
        · exact h6 hm
        · have hn : ¬ Named c.toNat := fun q => ht ⟨hm, q⟩
          by_cases hv : Named (rev c.toNat)
          · exact h8 hn hv
          · have htab : ∀ c < 255, ¬ Named c → ¬ Named (rev c) → real (c : Nat) = some (-1) := by decide +kernel
            have := htab c.toNat (by omega) hn hv
            rw [show ((c.toNat : Nat) : Int) = c by omega, h1] at this
            exact absurd (Option.some.inj this) hr
  · refine ⟨-1, ?_, Or.inl ⟨rfl, by omega⟩⟩
    unfold real
    by_cases h' : c < 0 ∨ c > 0xFF
    · rw [if_pos h']
    · rw [if_neg h', if_pos (by omega)]

example : real 0xAD = some 0xB5 := by decide +kernel
example : real 0x26 = some 0x26 := by decide +kernel

/-- Turned round is what it says. -/
theorem rev_bits : ∀ c < 256, rev c < 256 ∧ ∀ i < 8, (rev c).testBit i = c.testBit (7 - i) := by decide +kernel

/-- The name of a code as it stands, for any number at all. -/
theorem country_as_is (c : Int) : ∃ n, name c = some n ∧
    (n = none ↔ c < 0 ∨ 255 ≤ c ∨ ¬ Named c.toNat) ∧ ∀ s, n = some s → ∃ m, countries[c.toNat]? = some ⟨some s, m⟩ := by
  have hlen : countries.length = 255 := by decide +kernel
  unfold name
  by_cases h1 : c < 0 ∨ c > 0xFF
  · rw [if_pos h1]; exact ⟨none, rfl, by simp; omega, by simp⟩
  · rw [if_neg h1]
    by_cases h2 : c = 0xFF
    · rw [if_pos h2]; exact ⟨none, rfl, by simp; omega, by simp⟩
    · rw [if_neg h2]
      have he : countries[c.toNat]? = some (countries[c.toNat]'(by omega)) := List.getElem?_eq_getElem (by omega)
      generalize countries[c.toNat]'(by omega) = e at he
      obtain ⟨n, m⟩ := e
      rw [named_iff, he]
      refine ⟨n, rfl, ?_, ?_⟩
      · cases n <;> simp; omega
      · intro s hs; subst hs; exact ⟨m, rfl⟩

example : name 0xAD = some (some "Tunisia") := by decide +kernel

theorem makers_table : ∀ e ∈ countries, ∀ v ∈ e.makers, v.len = v.id.length ∧ v.id.length ≤ 2 := by decide +kernel

theorem machines_table : ∀ e ∈ countries, ∀ v ∈ e.makers, ∀ m ∈ v.machines, m.size ≤ m.id.length := by decide +kernel

theorem same_eq (msg lit : List Nat) (n : Nat) (h1 : n ≤ msg.length) (h2 : n ≤ lit.length) :
    same msg lit n = some (decide (msg.take n = lit.take n)) := by
  unfold same
  rw [if_neg (by omega), List.take_append_of_le_length h2]

theorem search_eq (c : Nat) (rest : List Nat) (hl : 2 ≤ rest.length) : ∀ vs : List Maker,
    (∀ v ∈ vs, v.len = v.id.length ∧ v.id.length ≤ 2) →
    search (c :: rest) vs = some (vs.find? fun v => rest.take v.id.length = v.id) := by
  intro vs
  induction vs with
  | nil => intro _; rfl
  | cons v vs ih =>
    intro h
    obtain ⟨h1, h2⟩ := h v (by simp)
    have hi := ih fun w hw => h w (by simp [hw])
    unfold search
    rw [if_pos (by simp; omega), List.drop_one, List.tail_cons, same_eq _ _ _ (by omega) (by omega), h1, List.take_length]
    by_cases he : rest.take v.id.length = v.id
    · simp [he]
    · simp only [he, decide_false, Option.bind_some, Bool.false_eq_true, if_false]
      rw [hi, List.find?_cons_of_neg (by simpa using he)]

theorem machine_eq (c : Nat) (rest : List Nat) (k : Nat) (hk : k ≤ rest.length) : ∀ ms : List Machine,
    (∀ m ∈ ms, m.size ≤ m.id.length) →
    machine (c :: rest) k ms = some ((ms.find? fun m => m.id.take m.size = rest.drop k).map Machine.name) := by
  intro ms
  induction ms with
  | nil => intro _; rfl
  | cons m ms ih =>
    intro h
    have h1 := h m (by simp)
    have hi := ih fun w hw => h w (by simp [hw])
    unfold machine
    have hd : (c :: rest).drop (1 + k) = rest.drop k := by rw [Nat.add_comm]; rfl
    by_cases hl : (rest.drop k).length = m.size
    · have hl' := hl
      rw [List.length_drop] at hl'
      rw [if_pos (by simp; omega), hd, same_eq _ _ _ (by omega) h1, List.take_of_length_le (by omega)]
      by_cases he : rest.drop k = m.id.take m.size
      · simp [← he]
      · have hne : ¬ (m.id.take m.size = rest.drop k) := fun q => he q.symm
        simp only [he, decide_false, Option.bind_some, Bool.false_eq_true, if_false]
        rw [hi, List.find?_cons_of_neg (by simpa using hne)]
    · have hl' := hl
      rw [List.length_drop] at hl'
      rw [if_neg (by simp; omega)]
      have hne : ¬ (m.id.take m.size = rest.drop k) := by
        intro q; apply hl; rw [← q, List.length_take]; omega
      rw [hi, List.find?_cons_of_neg (by simpa using hne)]

/-- The name of the country which a code stands for. -/
theorem realName_table : ∀ c < 255, ∃ r n, real (c : Nat) = some r ∧ realName (c : Nat) = some n ∧
    (r < 0 → n = none) ∧ (0 ≤ r → n = countries[r.toNat]?.bind Country.name) := by
  have h : ∀ c < 255, (real (c : Nat)).isSome = true ∧ (realName (c : Nat)).isSome = true ∧
      ((real (c : Nat)).getD 0 < 0 → (realName (c : Nat)).getD none = none) ∧
      (0 ≤ (real (c : Nat)).getD 0 →
        (realName (c : Nat)).getD none = countries[((real (c : Nat)).getD 0).toNat]?.bind Country.name) := by
    decide +kernel
  intro c hc
  obtain ⟨a, b, p, q⟩ := h c hc
  obtain ⟨r, hr⟩ := Option.isSome_iff_exists.1 a
  obtain ⟨n, hn⟩ := Option.isSome_iff_exists.1 b
  rw [hr, hn] at q
  rw [hr, hn] at p
  exact ⟨r, n, hr, hn, p, q⟩

theorem known_table : ∀ c < 255, ∀ e, countries[c]? = some e → e.makers ≠ [] → ∃ r, real (c : Nat) = some r ∧ 0 ≤ r := by
  have h : ∀ c < 255, (countries[c]?.map (fun e => e.makers.isEmpty)).getD true = false →
      (real (c : Nat)).isSome = true ∧ 0 ≤ (real (c : Nat)).getD 0 := by decide +kernel
  intro c hc e he hm
  obtain ⟨a, b⟩ := h c hc (by rw [he]; simp [hm])
  obtain ⟨r, hr⟩ := Option.isSome_iff_exists.1 a
  rw [hr] at b
  exact ⟨r, hr, b⟩

/-- What a message of three bytes or more is taken for. -/
theorem decode_eq (c : Nat) (rest : List Nat) (hl : 2 ≤ rest.length) (hc : c < 255) : ∃ e n, countries[c]? = some e ∧
    realName c = some n ∧
    decode (c :: rest) = some (match e.makers.find? (fun v => rest.take v.id.length = v.id) with
      | none => ⟨false, n, none, none⟩
      | some p => ⟨true, n, p.name, (p.machines.find? fun m => m.id.take m.size = rest.drop p.id.length).map Machine.name⟩) := by
  obtain ⟨r, n, hr, hn, _, _⟩ := realName_table c hc
  have hlen : countries.length = 255 := by decide +kernel
  have he : countries[c]? = some (countries[c]'(by omega)) := List.getElem?_eq_getElem (by omega)
  have hmem : countries[c]'(by omega) ∈ countries := List.getElem_mem _
  generalize countries[c]'(by omega) = e at he hmem
  refine ⟨e, n, he, hn, ?_⟩
  have h1 : ∃ x, rest[0]? = some x := ⟨_, List.getElem?_eq_getElem (by omega)⟩
  obtain ⟨x, hx⟩ := h1
  have hfind : findMaker (c :: rest) = some (e.makers.find? fun v => rest.take v.id.length = v.id) := by
    unfold findMaker
    simp only [List.getElem?_cons_zero, List.getElem?_cons_succ, Option.bind_some, hx]
    rw [if_neg (by omega), hr, Option.bind_some]
    by_cases hneg : r < 0
    · rw [if_pos hneg]
      cases hm : e.makers with
      | nil => rfl
      | cons v vs =>
        obtain ⟨r', hr', h0⟩ := known_table c hc e he (by simp [hm])
        rw [hr] at hr'
        have := Option.some.inj hr'
        omega
    · rw [if_neg hneg, he, Option.bind_some, search_eq _ _ hl _ (makers_table e hmem)]
  unfold decode
  simp only [List.getElem?_cons_zero, List.getElem?_cons_succ, Option.bind_some, hn, hfind, hx]
  cases hp : e.makers.find? (fun v => decide (rest.take v.id.length = v.id)) with
  | none => rfl
  | some p =>
    have hpm := List.mem_of_find?_eq_some hp
    obtain ⟨q1, q2⟩ := makers_table e hmem p hpm
    simp only
    rw [q1, machine_eq _ _ _ (by omega) _ (machines_table e hmem p hpm)]
    rfl

/-- No message of three bytes or more is read beyond its end, and no table is. -/
theorem decode_safe (msg : List Nat) (hl : 3 ≤ msg.length) (hb : ∀ x ∈ msg, x < 256) : ∃ r, decode msg = some r := by
  match msg, hl with
  | c :: a :: b :: tail, _ =>
    by_cases hc : c < 255
    · obtain ⟨e, n, _, _, h⟩ := decode_eq c (a :: b :: tail) (by simp) hc
      exact ⟨_, h⟩
    · have hc' : c = 255 := by have := hb c (by simp); omega
      subst hc'
      exact ⟨⟨false, none, none, none⟩, rfl⟩

/-- Shorter ones are: one of two bytes which is compared with an identity of two bytes is read up to a third. -/
theorem short_messages_overread : decode [] = none ∧ decode [0x20] = none ∧ decode [0x20, 0x81] = none := by decide +kernel

theorem find_weaker {α : Type} (P Q : α → Bool) (v : α) : ∀ l : List α, l.find? Q = some v → (∀ x, P x = true → Q x = true) →
    P v = true → l.find? P = some v := by
  intro l
  induction l with
  | nil => intro h; cases h
  | cons x l ih =>
    intro h hPQ hv
    by_cases hq : Q x = true
    · rw [List.find?_cons_of_pos hq] at h
      cases h
      rw [List.find?_cons_of_pos hv]
    · rw [List.find?_cons_of_neg (by simpa using hq)] at h
      rw [List.find?_cons_of_neg (by intro q; exact hq (hPQ x (by simpa using q)))]
      exact ih h hPQ hv

/-- No identity of a maker begins another one of the same list. -/
theorem found_table : ∀ e ∈ countries, ∀ v ∈ e.makers,
    e.makers.find? (fun x => x.id = v.id.take x.id.length ∨ x.id.take v.id.length = v.id) = some v := by decide +kernel

theorem find_maker {e : Country} (he : e ∈ countries) {v : Maker} (hv : v ∈ e.makers) (tail : List Nat) :
    e.makers.find? (fun x => decide ((v.id ++ tail).take x.id.length = x.id)) = some v := by
  refine find_weaker _ _ v _ (found_table e he v hv) ?_ (by simp)
  intro x hx
  simp only [decide_eq_true_eq] at hx ⊢
  by_cases h : x.id.length ≤ v.id.length
  · left; rw [List.take_append_of_le_length h] at hx; exact hx.symm
  · right
    rw [← hx, List.take_take, Nat.min_eq_left (by omega), List.take_left']
    rfl

/-- A maker which is listed for a country code is recognised, whatever follows. -/
theorem maker_found (c : Nat) (e : Country) (he : countries[c]? = some e) (v : Maker) (hv : v ∈ e.makers) (tail : List Nat)
    (hl : 2 ≤ v.id.length + tail.length) :
    ∃ r, decode (c :: v.id ++ tail) = some r ∧ r.ok = true ∧ r.maker = v.name := by
  have hlen : countries.length = 255 := by decide +kernel
  have hc : c < 255 := by
    have := (List.getElem?_eq_some_iff.1 he).1; omega
  obtain ⟨e', n, he', _, h⟩ := decode_eq c (v.id ++ tail) (by simp; omega) hc
  rw [he] at he'
  cases Option.some.inj he'
  rw [find_maker (List.mem_of_getElem? he) hv] at h
  exact ⟨_, h, rfl, rfl⟩

example : (⟨[0x00, 0x55], 2, some "HylaFAX", []⟩ : Maker) ∈ ((countries[0xAD]?).map Country.makers).getD [] := by decide +kernel

/-- If a message is recognised then it starts with the code of a country and the identity of the maker, and if the machine is
then its bytes are the rest. -/
theorem maker_right (c : Nat) (rest : List Nat) (hl : 2 ≤ rest.length) (hc : c < 256) (r : Result)
    (h : decode (c :: rest) = some r) (hok : r.ok = true) :
    ∃ e v tail, countries[c]? = some e ∧ v ∈ e.makers ∧ rest = v.id ++ tail ∧ r.maker = v.name ∧
      ∀ n, r.machine = some n → ∃ m ∈ v.machines, m.name = n ∧ m.id.take m.size = tail := by
  by_cases hc' : c < 255
  · obtain ⟨e, n, he, _, hd⟩ := decode_eq c rest hl hc'
    rw [hd] at h
    cases hp : e.makers.find? (fun v => decide (rest.take v.id.length = v.id)) with
    | none => rw [hp] at h; cases Option.some.inj h; cases hok
    | some p =>
      rw [hp] at h
      cases Option.some.inj h
      have hid : rest.take p.id.length = p.id := by simpa using List.find?_some hp
      refine ⟨e, p, rest.drop p.id.length, he, List.mem_of_find?_eq_some hp, ?_, rfl, ?_⟩
      · have := (List.take_append_drop p.id.length rest).symm
        rw [hid] at this
        exact this
      · intro n hn
        simp only [Option.map_eq_some_iff] at hn
        obtain ⟨m, hm, hmn⟩ := hn
        exact ⟨m, List.mem_of_find?_eq_some hm, hmn, by simpa using List.find?_some hm⟩
  · have : c = 255 := by omega
    subst this
    match rest, hl with
    | a :: b :: tail, _ =>
      have : decode (255 :: a :: b :: tail) = some ⟨false, none, none, none⟩ := rfl
      rw [this] at h
      cases Option.some.inj h
      cases hok

/-- The name of the country is that of the code which `country` is about. -/
theorem country_name (c : Nat) (rest : List Nat) (hl : 2 ≤ rest.length) (hc : c < 255) : ∃ r k, decode (c :: rest) = some r ∧
    real c = some k ∧ r.country = if k < 0 then none else countries[k.toNat]?.bind Country.name := by
  obtain ⟨k, n, h1, h2, h3, h4⟩ := realName_table c hc
  obtain ⟨e, n', _, hn, hd⟩ := decode_eq c rest hl hc
  rw [h2] at hn
  cases Option.some.inj hn
  refine ⟨_, k, hd, h1, ?_⟩
  have : (if k < 0 then none else countries[k.toNat]?.bind Country.name) = n := by
    split
    · exact (h3 (by assumption)).symm
    · exact (h4 (by omega)).symm
  rw [this]
  split <;> rfl

/-- Partial: a machine which is listed is recognised by its bytes, all but one. -/
theorem machine_found_partial (c : Nat) (e : Country) (he : countries[c]? = some e) (v : Maker) (hv : v ∈ e.makers) (m : Machine)
    (hm : m ∈ v.machines) (hne : m.name ≠ "Fax-920") :
    ∃ r, decode (c :: v.id ++ m.id.take m.size) = some r ∧ r.ok = true ∧ r.maker = v.name ∧ r.machine = some m.name := by
  have hlen : countries.length = 255 := by decide +kernel
  have hc : c < 255 := by
    have := (List.getElem?_eq_some_iff.1 he).1; omega
  have hmem : e ∈ countries := List.mem_of_getElem? he
  have hlong : ∀ e ∈ countries, ∀ v ∈ e.makers, ∀ m ∈ v.machines, 2 ≤ v.id.length + (m.id.take m.size).length := by
    decide +kernel
  have hmach : ∀ e ∈ countries, ∀ v ∈ e.makers, ∀ m ∈ v.machines, m.name = "Fax-920" ∨
      v.machines.find? (fun x => x.id.take x.size = m.id.take m.size) = some m := by decide +kernel
  have hg := (hmach e hmem v hv m hm).resolve_left hne
  have h2 := hlong e hmem v hv m hm
  obtain ⟨e', n, he', _, h⟩ := decode_eq c (v.id ++ m.id.take m.size) (by rw [List.length_append]; exact h2) hc
  rw [he] at he'
  cases Option.some.inj he'
  rw [find_maker hmem hv] at h
  simp only [List.drop_left, hg] at h
  exact ⟨_, h, rfl, rfl, rfl⟩

example : (⟨5, [0x80, 0x00, 0x80, 0x49, 0x10], "Fax B100"⟩ : Machine) ∈ mCanon := by decide +kernel

/-- One machine is never recognised: only five of its six bytes are looked at, and another which is listed before it has the
same five. -/
theorem machine_hidden : (∃ m ∈ mHP, m.name = "Fax-920" ∧
      decode ([0xAD, 0x00, 0x36] ++ m.id.take m.size) = some ⟨true, some "United States", some "HP", some "OfficeJet 500"⟩) ∧
    ∀ tail, ∀ r, decode (0xAD :: 0x00 :: 0x36 :: tail) = some r → r.machine ≠ some "Fax-920" := by
  refine ⟨by decide +kernel, ?_⟩
  intro tail r h hn
  obtain ⟨e, n, he, _, hd⟩ := decode_eq 0xAD (0x00 :: 0x36 :: tail) (by simp) (by omega)
  have hv : (⟨[0x00, 0x36], 2, some "HP", mHP⟩ : Maker) ∈ ((countries[0xAD]?).map Country.makers).getD [] := by decide +kernel
  rw [he] at hv
  have hf := find_maker (List.mem_of_getElem? he) (v := ⟨[0x00, 0x36], 2, some "HP", mHP⟩) (by simpa using hv) tail
  have e2 : (⟨[0x00, 0x36], 2, some "HP", mHP⟩ : Maker).id ++ tail = 0x00 :: 0x36 :: tail := rfl
  rw [e2] at hf
  rw [hf] at hd
  rw [hd] at h
  cases Option.some.inj h
  simp only [Option.map_eq_some_iff] at hn
  obtain ⟨m, hm, hmn⟩ := hn
  have hkey := List.find?_some hm
  simp only [decide_eq_true_eq] at hkey
  have hin := List.mem_of_find?_eq_some hm
  have htab : ∀ m ∈ mHP, m.name = "Fax-920" →
      (mHP.find? fun x => x.id.take x.size = m.id.take m.size).map Machine.name ≠ some "Fax-920" := by decide +kernel
  have := htab m hin hmn
  rw [hkey] at this
  exact this (by rw [hm]; simp [hmn])

end T35
