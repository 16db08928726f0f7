import Verif.V18.Spec

/-!
# Text telephones
-/

namespace V18

/-! ## Baudot -/

/-- The codes for what `encode_baudot` returns. -/
def codesOf (x : Nat) : List Nat := if x &&& 0x3E0 ≠ 0 then [(x >>> 5) &&& 0x1F, x &&& 0x1F] else [x &&& 0x1F]

/-- What is told of codes, for a state of the shift. -/
def decodeAll (r : Nat) : List Nat → Option (Nat × List Nat)
  | [] => some (r, [])
  | c :: l => (decodeBaudot r c).bind fun d => (decodeAll d.2 l).map fun x => (x.1, (if d.1 ≠ 0xFF then [d.1] else []) ++ x.2)

def charCheck (rep : Bool) (s r ch : Nat) : Bool :=
  match baudotText ch with
  | none => encodeBaudot rep s ch == (0, s)
  | some c =>
    (encodeBaudot rep s ch).1 != 0 && (codesOf (encodeBaudot rep s ch).1).all (fun c => decide (c < 32)) &&
    match decodeAll r (codesOf (encodeBaudot rep s ch).1) with
    | some (r', l) => l == [c] && ((encodeBaudot rep s ch).2 == 2 || r' == (encodeBaudot rep s ch).2) && decide (r' < 2) &&
        decide ((encodeBaudot rep s ch).2 < 3)
    | none => false

theorem char_checked : ∀ rep : Bool, ∀ ch < 128,
    charCheck rep 0 0 ch = true ∧ charCheck rep 1 1 ch = true ∧ charCheck rep 2 0 ch = true ∧ charCheck rep 2 1 ch = true := by
  decide +kernel

/-- The shifts of sender and receiver agree, but for a sender which has sent none yet. -/
def Agree (s r : Nat) : Prop := r < 2 ∧ s < 3 ∧ (s = 2 ∨ r = s)

theorem char_ok (rep : Bool) (s r ch : Nat) (h : Agree s r) :
    (baudotText ch = none ∧ encodeBaudot rep s ch = (0, s)) ∨
    ∃ c x s' r', baudotText ch = some c ∧ encodeBaudot rep s ch = (x, s') ∧ x ≠ 0 ∧ (∀ d ∈ codesOf x, d < 32) ∧
      decodeAll r (codesOf x) = some (r', [c]) ∧ Agree s' r' := by
  have e1 : baudotText ch = baudotText (ch % 128) := by unfold baudotText; rw [Nat.mod_mod]
  have e2 : encodeBaudot rep s ch = encodeBaudot rep s (ch % 128) := by unfold encodeBaudot; rw [Nat.mod_mod]
  have hc : charCheck rep s r (ch % 128) = true := by
    obtain ⟨c1, c2, c3, c4⟩ := char_checked rep (ch % 128) (Nat.mod_lt _ (by decide))
    obtain ⟨h1, h2, h3⟩ := h
    have : (s = 0 ∧ r = 0) ∨ (s = 1 ∧ r = 1) ∨ (s = 2 ∧ r = 0) ∨ (s = 2 ∧ r = 1) := by omega
    rcases this with ⟨rfl, rfl⟩ | ⟨rfl, rfl⟩ | ⟨rfl, rfl⟩ | ⟨rfl, rfl⟩ <;> assumption
  rw [e1, e2]
  unfold charCheck at hc
  generalize encodeBaudot rep s (ch % 128) = E at hc
  rcases hb : baudotText (ch % 128) with _ | c
  · rw [hb] at hc
    simp only [beq_iff_eq] at hc
    exact Or.inl ⟨rfl, hc⟩
  · rw [hb] at hc
    right
    simp only [Bool.and_eq_true, bne_iff_ne, List.all_eq_true, decide_eq_true_eq] at hc
    obtain ⟨⟨k1, k2⟩, k3⟩ := hc
    rcases hd : decodeAll r (codesOf E.1) with _ | ⟨r', l⟩
    · rw [hd] at k3; simp at k3
    · rw [hd] at k3
      simp only [Bool.and_eq_true, beq_iff_eq, Bool.or_eq_true, decide_eq_true_eq] at k3
      obtain ⟨⟨⟨m1, m2⟩, m3⟩, m4⟩ := k3
      exact ⟨c, _, _, r', rfl, rfl, k1, k2, by rw [hd, m1], m3, m4, m2⟩

theorem next_ok (rep : Bool) (s r : Nat) (h : Agree s r) : ∀ q : List Nat,
    (nextChar rep s q = none ∧ q.filterMap baudotText = []) ∨
    ∃ x s' q' c r', nextChar rep s q = some (x, s', q') ∧ q.filterMap baudotText = c :: q'.filterMap baudotText ∧
      (∀ d ∈ codesOf x, d < 32) ∧ decodeAll r (codesOf x) = some (r', [c]) ∧ Agree s' r' := by
  intro q
  induction q with
  | nil => exact Or.inl ⟨rfl, rfl⟩
  | cons ch q ih =>
    rcases char_ok rep s r ch h with ⟨h1, h2⟩ | ⟨c, x, s', r', h1, h2, h3, h4, h5, h6⟩
    · rw [nextChar, h2, if_neg (by simp), List.filterMap_cons, h1]
      exact ih
    · right
      refine ⟨x, s', q, c, r', ?_, ?_, h4, h5, h6⟩
      · rw [nextChar, h2, if_pos (by simpa using h3)]
      · rw [List.filterMap_cons, h1]

theorem hear_append (a : List Nat) : ∀ (s : Station) (b : List Nat),
    hear s (a ++ b) = (hear s a).bind fun x => (hear x.1 b).map fun y => (y.1, x.2 ++ y.2) := by
  induction a with
  | nil =>
    intro s b
    show hear s b = (hear s b).map _
    cases hear s b <;> rfl
  | cons c a ih =>
    intro s b
    rw [List.cons_append, hear, hear]
    cases tddPut s c with
    | none => rfl
    | some r =>
      rw [Option.bind_some, Option.bind_some, ih]
      cases hear r.1 a with
      | none => rfl
      | some x =>
        rw [Option.bind_some, Option.map_some, Option.bind_some]
        cases hear x.1 b with
        | none => rfl
        | some y => simp [List.append_assoc]

theorem hear_decode : ∀ (l : List Nat) (s : Station), s.rxSuppress = 0 → ∀ r' t, decodeAll s.rxShift l = some (r', t) →
    hear s l = some ({ s with rxShift := r' }, t) := by
  intro l
  induction l with
  | nil =>
    intro s _ r' t h
    simp only [decodeAll, Option.some.injEq, Prod.mk.injEq] at h
    obtain ⟨rfl, rfl⟩ := h
    rfl
  | cons c l ih =>
    intro s hs r' t h
    simp only [decodeAll, Option.bind_eq_some_iff, Option.map_eq_some_iff] at h
    obtain ⟨d, h1, x, h2, h3⟩ := h
    rw [Prod.mk.injEq] at h3
    rw [hear, tddPut, if_neg (by omega), h1, Option.map_some, Option.bind_some]
    simp only
    rw [ih { s with rxShift := d.2 } hs x.1 x.2 h2, Option.map_some]
    simp only [h3.1, h3.2]

/-- The code which is kept for the next call. -/
def kept (s : Station) : List Nat := if s.next = 0xFF then [] else [s.next]

structure Sound (o : Station) (r : Run) : Prop where
  heard : ∃ e t, hear o (r.codes ++ kept r.s) = some (e, t) ∧ e.rxSuppress = 0 ∧ Agree r.s.txShift e.rxShift ∧
    t ++ r.s.queue.filterMap baudotText = r.taken.filterMap baudotText
  small : ∀ c ∈ r.codes ++ kept r.s, c < 32

theorem sound_op (o : Station) (r : Run) (h : Sound o r) (a : Op) : Sound o (r.op a) := by
  obtain ⟨⟨e, t, h1, h2, h3, h4⟩, h5⟩ := h
  cases a with
  | put l =>
    simp only [Run.op]
    unfold put
    split
    · refine ⟨⟨e, t, h1, h2, h3, ?_⟩, h5⟩
      simp only [List.filterMap_append, if_true]
      rw [← List.append_assoc, h4]
    · exact ⟨⟨e, t, h1, h2, h3, h4⟩, h5⟩
  | get =>
    simp only [Run.op]
    unfold tddGet
    split
    · rename_i hn
      have hk : kept r.s = [r.s.next] := if_neg hn
      rw [hk] at h1 h5
      refine ⟨⟨e, t, ?_, h2, h3, h4⟩, ?_⟩
      · simpa [kept] using h1
      · simpa [kept] using h5
    · rename_i hn
      have hk : kept r.s = [] := if_pos (by omega)
      rw [hk, List.append_nil] at h1 h5
      rcases next_ok r.s.repeatShifts r.s.txShift e.rxShift h3 r.s.queue with ⟨k1, k2⟩ | ⟨x, s', q', c, r', k1, k2, k3, k4, k5⟩
      · rw [k1]
        simp only
        rw [k2] at h4
        have : r.s.next = 0xFF := by omega
        split
        · exact ⟨⟨e, t, by simpa [kept, this] using h1, h2, h3, by simpa using h4⟩, by simpa [kept, this] using h5⟩
        · exact ⟨⟨e, t, by simpa [kept, this] using h1, h2, h3, by simpa using h4⟩, by simpa [kept, this] using h5⟩
      · rw [k1]
        simp only
        have hh := hear_decode (codesOf x) e h2 r' [c] k4
        have h31 : x &&& 0x1F ≠ 0xFF := by
          have := Nat.and_le_right (n := x) (m := 0x1F)
          omega
        have fin : ∀ (s1 : Station) (l : List Nat), l ++ kept s1 = codesOf x → s1.queue = q' → s1.txShift = s' →
            Sound o ⟨s1, r.codes ++ l, r.taken⟩ := by
          intro s1 l m1 m2 m3
          refine ⟨⟨{ e with rxShift := r' }, t ++ [c], ?_, h2, ?_, ?_⟩, ?_⟩
          · simp only [List.append_assoc]
            rw [m1, hear_append, h1, Option.bind_some, hh]; rfl
          · simp only [m3]; exact k5
          · simp only [m2]; rw [List.append_assoc, ← h4, k2]; rfl
          · simp only [List.append_assoc]
            rw [m1]
            intro d hd
            rcases List.mem_append.mp hd with hd | hd
            · exact h5 d hd
            · exact k3 d hd
        by_cases hx : x &&& 0x3E0 ≠ 0
        · simp only [if_pos hx]
          exact fin _ _ (by unfold codesOf kept; rw [if_pos hx, if_neg h31]; rfl) rfl rfl
        · simp only [if_neg hx]
          exact fin _ _ (by unfold codesOf kept; rw [if_neg hx, if_pos rfl]; rfl) rfl rfl

theorem sound_ops (o : Station) : ∀ (l : List Op) (r : Run), Sound o r → Sound o (r.ops l) := by
  intro l
  induction l with
  | nil => intro r h; exact h
  | cons a l ih => intro r h; rw [Run.ops, List.foldl_cons]; exact ih _ (sound_op o r h a)

/-- C96: whatever text is put into a TDD, and whenever its modem asks for codes, another TDD which is given these codes
tells the text as TDDs have it, from the beginning and in order.  When the modem is told that there is nothing to send,
all of it has been told. -/
theorem text_arrives (m m' : Mode) (hm : m ≠ .dtmf) (hm' : m' ≠ .dtmf) (l : List Op) :
    ∃ e t rest, hear (init m'.value) (Run.ops ⟨init m.value, [], []⟩ l).codes = some (e, t) ∧
      (Run.ops ⟨init m.value, [], []⟩ l).taken.filterMap baudotText = t ++ rest ∧
      ((∀ c, (tddGet (Run.ops ⟨init m.value, [], []⟩ l).s).2 ≠ .code c) → rest = []) ∧
      ∀ c ∈ (Run.ops ⟨init m.value, [], []⟩ l).codes, c < 32 := by
  have h0 : Sound (init m'.value) ⟨init m.value, [], []⟩ := by
    refine ⟨⟨init m'.value, [], ?_, ?_, ?_, ?_⟩, ?_⟩
    · cases m <;> cases m' <;> first | contradiction | rfl
    · cases m' <;> rfl
    · cases m <;> cases m' <;> first | contradiction | (unfold Agree; decide)
    · cases m <;> rfl
    · cases m <;> first | contradiction | (intro c hc; simp [kept, init, setModem, Mode.value] at hc)
  obtain ⟨⟨e, t, h1, h2, h3, h4⟩, h5⟩ := sound_ops _ l _ h0
  generalize hr : Run.ops ⟨init m.value, [], []⟩ l = r at *
  rw [hear_append, Option.bind_eq_some_iff] at h1
  obtain ⟨⟨e1, t1⟩, a1, a2⟩ := h1
  rw [Option.map_eq_some_iff] at a2
  obtain ⟨⟨e2, t2⟩, a2, a3⟩ := a2
  simp only [Prod.mk.injEq] at a3
  obtain ⟨rfl, rfl⟩ := a3
  refine ⟨e1, t1, t2 ++ r.s.queue.filterMap baudotText, a1, by rw [← h4, List.append_assoc], ?_,
    fun c hc => h5 c (List.mem_append_left _ hc)⟩
  intro hn
  unfold tddGet at hn
  split at hn
  · exact absurd rfl (hn _)
  · rename_i hx
    have hk : kept r.s = [] := if_pos (by omega)
    rw [hk] at a2
    simp only [hear, Option.some.injEq, Prod.mk.injEq] at a2
    rcases next_ok r.s.repeatShifts r.s.txShift e2.rxShift h3 r.s.queue with ⟨k1, k2⟩ | ⟨x, s', q', c, r', k1, -⟩
    · rw [k2, ← a2.2]; rfl
    · exfalso
      rw [k1] at hn
      simp only at hn
      split at hn
      · exact hn _ rfl
      · exact hn _ rfl

/-- C96: "Hi 5!" goes out with a shift to letters and one to figures. -/
example : (Run.ops ⟨init 2, [], []⟩ [.put [72, 105, 32], .get, .get, .put [53, 33], .get, .get, .get, .get, .get, .get]).codes =
      [31, 20, 6, 4, 27, 16, 13] ∧
    (hear (init 4) [31, 20, 6, 4, 27, 16, 13]).map (fun r => r.2) = some [72, 73, 32, 53, 33] := by decide +kernel

/-- C96: a station does not take its own echo for text: for 300 ms after each code it tells nothing. -/
theorem own_echo (s : Station) (c : Nat) (h : (tddGet s).2 = .code c) (n : Nat) (hn : n < 2400) (d : Nat) :
    tddPut (rxTime (tddGet s).1 n) d = some (rxTime (tddGet s).1 n, []) := by
  have h1 : (tddGet s).1.rxSuppress = 2400 := by
    revert h
    unfold tddGet
    split
    · intro _; rfl
    · rcases nextChar s.repeatShifts s.txShift s.queue with _ | ⟨x, s', q⟩
      · simp only
        split <;> (intro h; simp at h)
      · simp only
        split <;> (intro _; rfl)
  have h2 : (rxTime (tddGet s).1 n).rxSuppress = 2400 - n := by
    unfold rxTime
    simp only [h1]
    split
    · split <;> rfl
    · rfl
  unfold tddPut
  rw [if_pos (by omega)]

example : (tddGet (put (init 2) [69]).1).2 = .code 31 ∧
    tddPut (rxTime (tddGet (put (init 2) [69]).1).1 2399) 1 = some (rxTime (tddGet (put (init 2) [69]).1).1 2399, []) ∧
    (tddPut (rxTime (tddGet (put (init 2) [69]).1).1 2400) 1).map (fun r => r.2) = some [69] := by decide +kernel

/-! ## DTMF -/

theorem digits_append (a : List Char) : ∀ (m : List Char) (b : List Char),
    digits m (a ++ b) = (digits m a).bind fun x => (digits x.1 b).map fun y => (y.1, x.2 ++ y.2) := by
  induction a with
  | nil =>
    intro m b
    show digits m b = (digits m b).map _
    cases digits m b <;> rfl
  | cons c a ih =>
    intro m b
    rw [List.cons_append, digits, digits]
    cases digit m c with
    | none => rfl
    | some r =>
      rw [Option.bind_some, Option.bind_some, ih]
      cases digits r.1 a with
      | none => rfl
      | some x =>
        rw [Option.bind_some, Option.map_some, Option.bind_some]
        cases digits x.1 b with
        | none => rfl
        | some y => simp [List.append_assoc]

theorem code_ok : ∀ ch < 256, digits [] (dtmfCode ch) = some ([], (dtmfText ch).toList) := by decide +kernel

theorem table_ok : ∀ e ∈ toAscii, e.1 ≠ "##0" → digits [] e.1.toList = some ([], [e.2]) := by decide +kernel

theorem codes_ok : ∀ l : List Nat, (∀ ch ∈ l, ch < 256) → digits [] (l.flatMap dtmfCode) = some ([], l.filterMap dtmfText) := by
  intro l
  induction l with
  | nil => intro _; rfl
  | cons ch l ih =>
    intro h
    rw [List.flatMap_cons, digits_append, code_ok ch (h ch (List.mem_cons_self ..)), Option.bind_some,
      ih (fun c hc => h c (List.mem_cons_of_mem _ hc)), List.filterMap_cons]
    cases dtmfText ch <;> rfl

theorem tables_ok : ∀ l : List (String × Nat), (∀ e ∈ l, e ∈ toAscii ∧ e.1 ≠ "##0") →
    digits [] (l.flatMap fun e => e.1.toList) = some ([], l.map fun e => e.2) := by
  intro l
  induction l with
  | nil => intro _; rfl
  | cons e l ih =>
    intro h
    have he := h e (List.mem_cons_self ..)
    rw [List.flatMap_cons, digits_append, table_ok e he.1 he.2, Option.bind_some,
      ih (fun c hc => h c (List.mem_cons_of_mem _ hc))]
    rfl

theorem hearDtmf_eq : ∀ (calls : List (List Char × Nat)) (s : Station), s.rxSuppress = 0 → (∀ c ∈ calls, c.2 < 40000) →
    ∀ m t, digits s.msg (calls.flatMap fun c => c.1) = some (m, t) →
    ∃ e, hearDtmf s calls = some (e, t) ∧ e.msg = m ∧ e.rxSuppress = 0 := by
  intro calls
  induction calls with
  | nil =>
    intro s hs _ m t h
    simp only [List.flatMap_nil, digits, Option.some.injEq, Prod.mk.injEq] at h
    exact ⟨s, by rw [← h.2]; rfl, h.1, hs⟩
  | cons c calls ih =>
    intro s hs hn m t h
    rw [List.flatMap_cons, digits_append, Option.bind_eq_some_iff] at h
    obtain ⟨x, h1, h2⟩ := h
    rw [Option.map_eq_some_iff] at h2
    obtain ⟨y, h2, h3⟩ := h2
    rw [Prod.mk.injEq] at h3
    have hc := hn c (List.mem_cons_self ..)
    have ht : rxTime { s with txSuppress := 3200, msg := x.1, progress := 40000 } c.2 =
        { s with txSuppress := 3200, msg := x.1, progress := 40000 - c.2 } := by
      unfold rxTime
      simp only [hs, Nat.zero_sub]
      rw [if_pos (by decide), if_neg (by omega)]
    obtain ⟨e, e1, e2, e3⟩ := ih { s with txSuppress := 3200, msg := x.1, progress := 40000 - c.2 } hs
      (fun d hd => hn d (List.mem_cons_of_mem _ hd)) y.1 y.2 h2
    refine ⟨e, ?_, by rw [e2, h3.1], e3⟩
    have hp : dtmfPut s c.1 = some ({ s with txSuppress := 3200, msg := x.1, progress := 40000 }, x.2) := by
      unfold dtmfPut
      simp only [hs, Nat.lt_irrefl, gt_iff_lt, if_false]
      rw [h1]; rfl
    rw [hearDtmf, hp, Option.bind_some]
    simp only
    rw [ht, e1, Option.map_some, ← h3.2]

/-- C97: text which is sent as DTMF digits is told by the receiver, as such telephones have it, however the digits are
divided into calls, as long as it is not sending itself and no more than 5 s pass between calls. -/
theorem dtmf_arrives (text : List Nat) (ht : ∀ ch ∈ text, ch < 256) (s : Station) (h1 : s.rxSuppress = 0) (h2 : s.msg = [])
    (calls : List (List Char × Nat)) (hn : ∀ c ∈ calls, c.2 < 40000)
    (hc : (calls.flatMap fun c => c.1) = text.flatMap dtmfCode) :
    ∃ e, hearDtmf s calls = some (e, text.filterMap dtmfText) ∧ e.msg = [] ∧ e.rxSuppress = 0 :=
  hearDtmf_eq calls s h1 hn [] _ (by rw [h2, hc]; exact codes_ok text ht)

/-- C98: the same for digits of another make, if all codes are in the table.  Missing: other digits, for which it fails
(`Limits`). -/
theorem known_codes_partial (codes : List (String × Nat)) (hk : ∀ e ∈ codes, e ∈ toAscii ∧ e.1 ≠ "##0") (s : Station)
    (h1 : s.rxSuppress = 0) (h2 : s.msg = []) (calls : List (List Char × Nat)) (hn : ∀ c ∈ calls, c.2 < 40000)
    (hc : (calls.flatMap fun c => c.1) = codes.flatMap fun e => e.1.toList) :
    ∃ e, hearDtmf s calls = some (e, codes.map fun e => e.2) ∧ e.msg = [] ∧ e.rxSuppress = 0 :=
  hearDtmf_eq calls s h1 hn [] _ (by rw [h2, hc]; exact tables_ok codes hk)

example : (∀ e ∈ [("#*1", 230), ("*#0", 48), ("0", 32)], e ∈ toAscii ∧ e.1 ≠ "##0") ∧
    (hearDtmf (init 8) [("#".toList, 39999), ("*1*#00".toList, 0)]).map (fun r => r.2) = some [230, 48, 32] := by decide +kernel

/-- C97: what a station sends is the text which was put, in order, whenever digits are asked for. -/
theorem dtmf_in_order (l : List DtmfOp) : ∃ rest,
    (DtmfRun.ops ⟨init 8, [], []⟩ l).taken.flatMap dtmfCode = (DtmfRun.ops ⟨init 8, [], []⟩ l).digits ++ rest ∧
    ((DtmfRun.ops ⟨init 8, [], []⟩ l).s.queue = [] → rest = []) := by
  have key : ∀ (l : List DtmfOp) (r : DtmfRun), r.taken.flatMap dtmfCode = r.digits ++ r.s.queue.flatMap dtmfCode →
      (r.ops l).taken.flatMap dtmfCode = (r.ops l).digits ++ (r.ops l).s.queue.flatMap dtmfCode := by
    intro l
    induction l with
    | nil => intro r h; exact h
    | cons a l ih =>
      intro r h
      rw [DtmfRun.ops, List.foldl_cons]
      apply ih
      cases a with
      | put m =>
        simp only [DtmfRun.op]
        unfold V18.put
        split
        · simp only [if_true, List.flatMap_append]
          rw [h, List.append_assoc]
        · exact h
      | get =>
        simp only [DtmfRun.op]
        unfold dtmfGet
        split
        · simpa using h
        · split
          · simpa using h
          · rename_i ch q hq
            rw [hq, List.flatMap_cons] at h
            split
            · simp only; rw [h, List.append_assoc]
            · rename_i hl
              have : dtmfCode ch = [] := List.length_eq_zero_iff.mp (by omega)
              rw [this] at h
              simpa using h
      | time n =>
        simp only [DtmfRun.op]
        have : (txTime (rxTime r.s n) n).queue = r.s.queue := by
          unfold txTime rxTime
          simp only
          split
          · split <;> rfl
          · rfl
        rw [this]; exact h
  refine ⟨_, key l ⟨init 8, [], []⟩ rfl, fun h => by rw [h]; rfl⟩

example : (hearDtmf (init 8) [("##*1#1".toList, 100), ("**".toList, 39999), ("1".toList, 0)]).map (fun r => r.2) =
    some [65, 99, 43] ∧ [65, 99, 38].flatMap dtmfCode = "##*1#1**1".toList ∧
    [65, 99, 38].filterMap dtmfText = [65, 99, 43] := by decide +kernel

end V18
