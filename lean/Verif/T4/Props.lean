import Verif.T4.Read

/-! # T.4 and T.6 pages: what is read from the encoder makes the decoder deliver the rows -/

namespace T4

/-- The application reads from the encoder with calls of `t4_t6_encode_get`, each with its own `max_len`. -/
def reads : Enc → List Nat → Option (List (List Byte))
  | _, [] => some []
  | s, n :: t => (encodeGet s n).bind fun r => (reads r.2 t).map (r.1 :: ·)

/-- A list cut into pieces of the given lengths, as far as there is something left. -/
def cuts (l : List Byte) : List Nat → List (List Byte)
  | [] => []
  | n :: t => l.take n :: cuts (l.drop n) t

/-- What the application calls at the decoder: `t4_t6_decode_put` with some octets, or `t4_t6_decode_put_bit`. -/
inductive Call where
  | octets (first : Byte) (others : List Byte)
  | bit (b : Bool)

/-- The bits of a call, in the order in which they are on the line. -/
def Call.bits : Call → List Bool
  | .octets b t => (b :: t).flatMap octetBits
  | .bit b => [b]

def Call.give (s : Dec) : Call → Option (Dec × Bool)
  | .octets b t => decodePut s (b :: t)
  | .bit b => decodePutBit s b

/-- The calls are made until the decoder says `T4_DECODE_OK`. -/
def giveAll (s : Dec) : List Call → Option (Dec × Bool)
  | [] => some (s, false)
  | c :: t =>
    match c.give s with
    | none => none
    | some (s, true) => some (s, true)
    | some (s, false) => giveAll s t

/-- The groups of bits `put_bits` is called with. -/
def Call.groups : Call → List (List Bool)
  | .octets b t => (b :: t).map octetBits
  | .bit b => [[b]]

theorem give_feed (s : Dec) (c : Call) : c.give s = feedBits s c.groups := by
  cases c with
  | octets b t => exact decodePut_feed _ s
  | bit b => exact decodePutBit_feed s b

theorem giveAll_feed (calls : List Call) : ∀ s, giveAll s calls = feedBits s (calls.flatMap Call.groups) := by
  induction calls with
  | nil => intro s; rfl
  | cons c t ih =>
    intro s
    rw [List.flatMap_cons, feedBits_append, giveAll, give_feed]
    split <;> rename_i h <;> rw [h]
    exact ih _

theorem groups_bits (calls : List Call) : (calls.flatMap Call.groups).flatten = calls.flatMap Call.bits := by
  induction calls with
  | nil => rfl
  | cons c t ih =>
    rw [List.flatMap_cons, List.flatMap_cons, List.flatten_append, ih]
    congr 1
    cases c with
    | octets b t => simp [Call.groups, Call.bits, List.flatMap]
    | bit b => rfl

theorem reads_spec : ∀ (lens : List Nat) (s : Enc) (rem : List Byte), Rem s rem → reads s lens = some (cuts rem lens) := by
  intro lens
  induction lens with
  | nil => intro s rem _; rfl
  | cons n t ih =>
    intro s rem h
    obtain ⟨s', e1, h1⟩ := getLoop_spec (n + 1) s rem n h (by omega)
    rw [reads, encodeGet, e1]
    simp only [Option.bind_some]
    rw [ih s' _ h1]; rfl

theorem runs_white (w : Nat) : Runs (fun _ => false) w [w] :=
  ⟨by simp, by simp [prev], fun i hi => by simp only [List.length_cons, List.length_nil] at hi; omega,
    fun i hi _ _ _ => by simp only [List.length_cons, List.length_nil] at hi; obtain rfl : i = 0 := by omega
                         rfl⟩

theorem fresh_init (e : Encoding) (n : Nat) : Fresh [8 * n] (8 * n) (decInit e (8 * n)) := by
  refine ⟨rfl, ?_, ⟨rfl, rfl⟩, ⟨rfl, rfl⟩, rfl, rfl, rfl, rfl, rfl, rfl, rfl, ?_⟩
  · intro j hj
    simp only [List.length_cons, List.length_nil] at hj
    obtain rfl : j = 0 := by omega
    simp [decInit, prev]
  · simp only [decInit, List.length_replicate]; omega

/-- Octets which begin with given bits. -/
theorem octets_of (l : List Bool) : ∃ (o : List Byte) (j : Nat), j < 8 ∧ bitsOf o = l ++ List.replicate j true := by
  have key : ∀ n (l : List Bool), l.length ≤ n → ∃ (o : List Byte) (j : Nat), j < 8 ∧ bitsOf o = l ++ List.replicate j true := by
    intro n
    induction n with
    | zero =>
      intro l h
      obtain rfl : l = [] := List.length_eq_zero_iff.mp (by omega)
      exact ⟨[], 0, by omega, rfl⟩
    | succ n ih =>
      intro l h
      by_cases h0 : l = []
      · subst h0; exact ⟨[], 0, by omega, rfl⟩
      have hpos := List.length_pos_iff.mpr h0
      have oct : ∀ x : List Bool, x.length = 8 → ∃ b : Byte, octetBits b = x := by
        intro x hx
        refine ⟨BitVec.ofNat 8 (val x), ?_⟩
        rw [octetBits_ofNat]
        have : ∀ (m : Nat) (x : List Bool), x.length = m → toBits m (val x) = x := by
          intro m
          induction m with
          | zero => intro x hx; rw [List.length_eq_zero_iff.mp hx]; rfl
          | succ m ih =>
            intro x hx
            cases x with
            | nil => simp at hx
            | cons b t =>
              rw [toBits, val]
              have h1 : (b.toNat + 2 * val t) / 2 = val t := by have := Bool.toNat_le b; omega
              have h2 : ((b.toNat + 2 * val t) % 2 == 1) = b := by cases b <;> simp
              rw [h1, h2, ih t (by simpa using hx)]
        exact this 8 x hx
      by_cases h8 : l.length < 8
      · obtain ⟨b, hb⟩ := oct (l ++ List.replicate (8 - l.length) true) (by rw [List.length_append, List.length_replicate]; omega)
        exact ⟨[b], 8 - l.length, by omega, by simp [bitsOf, hb]⟩
      · obtain ⟨b, hb⟩ := oct (l.take 8) (by rw [List.length_take]; omega)
        obtain ⟨o, j, hj, ho⟩ := ih (l.drop 8) (by rw [List.length_drop]; omega)
        refine ⟨b :: o, j, hj, ?_⟩
        rw [show bitsOf (b :: o) = octetBits b ++ bitsOf o by simp [bitsOf], hb, ho, ← List.append_assoc, List.take_append_drop]
  exact key l.length l (Nat.le_refl _)

/-- C38. Every page of whole octets comes back. There is one sequence of octets for the page, which the calls of the encoder return in whatever pieces they ask for; and whatever the calls
are with which these octets, or their bits, are given to the decoder, with the call for the end of the data it has delivered exactly the rows of the page, in order, none of them bad. -/
theorem page_round_trip (e : Encoding) (n : Nat) (hn : 0 < n) (minBits maxRows : Int) (hmin : e = .t6 ∨ minBits + 13 ≤ 64 * n) (rows : List (List Byte)) (hrows : ∀ r ∈ rows, r.length = n) :
    ∃ stream : List Byte, (∀ lens, reads (encInit e (8 * n) minBits maxRows rows) lens = some (cuts stream lens)) ∧
      ∀ calls : List Call, calls.flatMap Call.bits = stream.flatMap octetBits →
        ∃ u ok v, giveAll (decInit e (8 * n)) calls = some (u, ok) ∧ decodeEnd u = some v ∧ v.rows = rows ∧ v.badRows = 0 := by
  have hw : 8 ≤ 8 * n := by omega
  have hQ := runs_white (8 * n)
  have hr : ∀ r ∈ rows, 8 * n = 8 * r.length := fun r h => by rw [hrows r h]
  have hplan : ∃ B, Plan (core (encInit e (8 * n) minBits maxRows rows)) rows B ∧ ∀ tail, tail ≠ [] → Ends ((decInit e (8 * n)).more (B ++ tail)) rows := by
    have hmore : ∀ x, (decInit e (8 * n)).more x = (decInit e (8 * n)).rs x 0 := fun x => rfl
    by_cases h6 : e = .t6
    · subst h6
      obtain ⟨B, hp, _, hd⟩ := plan_t6 hw rows (core (encInit .t6 (8 * n) minBits maxRows rows)) [8 * n] _ hr rfl rfl hQ rfl rfl (Int.le_refl 0)
      refine ⟨B, hp, fun tail ht => ?_⟩
      have := hd [] ((decInit .t6 (8 * n)).rs (B ++ tail) 0) tail ht ⟨(fresh_init _ _).rs _ _, rfl, rfl, rfl, rfl⟩ rfl rfl rfl
      rw [hmore]; exact this
    · obtain ⟨B, hp, _, hd⟩ := plan_t4 hw h6 rows (core (encInit e (8 * n) minBits maxRows rows)) true [8 * n] _ hr rfl rfl
        (fun hh => by subst hh; rfl) hQ rfl rfl (Int.le_refl 0) (fun _ => rfl)
        (by show (if e = .t6 then 0 else minBits) + 13 ≤ _; rw [if_neg h6]; have := hmin.resolve_left h6; omega)
      refine ⟨B, hp, fun tail ht => ?_⟩
      have := hd [] ((decInit e (8 * n)).rs (B ++ tail) 0) tail ht ⟨⟨(fresh_init _ _).rs _ _, if_neg h6, rfl, h6, rfl, rfl⟩, rfl, rfl⟩ rfl rfl
      rw [hmore]; exact this
  obtain ⟨B, hp, hd⟩ := hplan
  obtain ⟨stream, j, hj, hs⟩ := octets_of B
  refine ⟨stream, fun lens => ?_, fun calls hc => ?_⟩
  · refine reads_spec lens _ _ (Or.inr ⟨⟨show (0 : Nat) < 8 by decide, show (0 : Nat) < 2 ^ 0 by decide⟩, B, j, hp, hj, ?_⟩)
    rw [hs]
    simp [encInit, W.bits, bitsOf, toBits]
  · obtain ⟨t, e1, h1, h2, h3⟩ := hd (List.replicate j true ++ List.replicate 13 false) (by simp)
    have h6 : (decInit e (8 * n)).eols < 6 := by simp only [decInit]; split <;> decide
    obtain ⟨u, ok, v, f1, f2, f3, f4⟩ := decode_page (decInit e (8 * n)) (calls.flatMap Call.groups) (by simp [decInit]) h6 t h1 (by
      rw [groups_bits, hc, show stream.flatMap octetBits = bitsOf stream from rfl, hs, List.append_assoc]; exact e1)
    exact ⟨u, ok, v, by rw [giveAll_feed]; exact f1, f2, f3.trans h2, f4.trans h3⟩

/-- C38. The same, for an application which reads until it gets less than it has asked for. -/
theorem read_until_short (e : Encoding) (n : Nat) (hn : 0 < n) (minBits maxRows : Int) (hmin : e = .t6 ∨ minBits + 13 ≤ 64 * n) (rows : List (List Byte)) (hrows : ∀ r ∈ rows, r.length = n)
    (lens : List Nat) (m : Nat) (pieces : List (List Byte)) (last : List Byte) (h : reads (encInit e (8 * n) minBits maxRows rows) (lens ++ [m]) = some (pieces ++ [last]))
    (hlast : last.length < m) (calls : List Call) (hc : calls.flatMap Call.bits = (pieces ++ [last]).flatten.flatMap octetBits) :
    ∃ u ok v, giveAll (decInit e (8 * n)) calls = some (u, ok) ∧ decodeEnd u = some v ∧ v.rows = rows ∧ v.badRows = 0 := by
  obtain ⟨stream, h1, h2⟩ := page_round_trip e n hn minBits maxRows hmin rows hrows
  rw [h1] at h
  have hcut : ∀ (lens : List Nat) (s : List Byte), ∃ p, cuts s (lens ++ [m]) = p ++ [(s.drop lens.sum).take m] ∧ p.flatten = s.take lens.sum := by
    intro lens
    induction lens with
    | nil => intro s; exact ⟨[], by simp [cuts], by simp⟩
    | cons k t ih =>
      intro s
      obtain ⟨p, e1, e2⟩ := ih (s.drop k)
      refine ⟨s.take k :: p, ?_, ?_⟩
      · rw [List.cons_append, cuts, e1, List.sum_cons, List.drop_drop]; rfl
      · rw [List.flatten_cons, e2, List.sum_cons, List.take_add]
  obtain ⟨p, e1, e2⟩ := hcut lens stream
  have e3 := Option.some.inj h
  rw [e1] at e3
  obtain ⟨rfl, e4⟩ := List.append_inj' e3 rfl
  have e5 := (List.cons.inj e4).1
  have : (p ++ [last]).flatten = stream := by
    rw [List.flatten_append, e2, ← e5]
    have hl : (stream.drop lens.sum).length ≤ m := by
      rw [← e5, List.length_take] at hlast
      omega
    simp only [List.flatten_cons, List.flatten_nil, List.append_nil]
    rw [List.take_of_length_le hl, List.take_append_drop]
  exact h2 calls (by rw [hc, this])

/-- C40. Whatever the page and the reads, no read makes the encoder write beyond its buffer: each of them returns. -/
theorem encoder_in_buffer (e : Encoding) (n : Nat) (hn : 0 < n) (minBits maxRows : Int) (hmin : e = .t6 ∨ minBits + 13 ≤ 64 * n) (rows : List (List Byte))
    (hrows : ∀ r ∈ rows, r.length = n) (lens : List Nat) : reads (encInit e (8 * n) minBits maxRows rows) lens ≠ none := by
  obtain ⟨stream, h, _⟩ := page_round_trip e n hn minBits maxRows hmin rows hrows
  rw [h lens]; exact fun h => by cases h

/-- C40. With a greater number of bits for the shortest row the encoder writes beyond its buffer, also for a page of one row. -/
theorem encoder_overrun : encodeGet (encInit .t4_1d 8 200 0 [[0]]) 1000 = none := by
  have h : (encodeGet (encInit .t4_1d 8 200 0 [[0]]) 1000).isNone = true := by decide +kernel
  simpa using h

/-! ## What the decoder does with other data -/

/-- The call with data from the line ends in an access outside of an array, or in an undefined shift. -/
def Faults (s : Dec) (l : List Byte) : Prop := decodePut s l = none

/-- C39. Runs of no pixels, in one row, make the decoder write beyond its array of runs. -/
theorem zero_runs_fault : ∃ l : List Byte, l.length = 17 ∧ Faults (decInit .t4_1d 8) l :=
  ⟨[0, 200, 10, 59, 43, 236, 172, 176, 179, 194, 206, 10, 59, 43, 236, 172, 176], rfl, by
    have h : (decodePut (decInit .t4_1d 8) [0, 200, 10, 59, 43, 236, 172, 176, 179, 194, 206, 10, 59, 43, 236, 172, 176]).isNone = true := by decide +kernel
    simpa [Faults] using h⟩

/-- C39. Pass codes make the decoder read beyond its array of the runs of the row before. -/
theorem pass_codes_fault : ∃ l : List Byte, l.length = 5 ∧ Faults (decInit .t6 8) l :=
  ⟨List.replicate 5 136, rfl, by
    have h : (decodePut (decInit .t6 8) (List.replicate 5 136)).isNone = true := by decide +kernel
    simpa [Faults] using h⟩

theorem any_ex {α : Type} {o : Option α} {p : α → Bool} (h : o.any p = true) : ∃ a, o = some a ∧ p a = true := by
  cases o with
  | none => cases h
  | some a => exact ⟨a, rfl, h⟩

/-- C39. Data after the end of the page, which the decoder has announced each time, makes it shift a 32 bit number by more than 31. -/
theorem after_the_end_fault : ∃ s1 s2 s3 : Dec, decodePut (decInit .t6 8) [0, 8, 128, 255] = some (s1, true) ∧ decodePut s1 [0] = some (s2, true) ∧ decodePut s2 [0] = some (s3, true) ∧
    Faults s3 [0] := by
  have h : (decodePut (decInit .t6 8) [0, 8, 128, 255]).any (fun r => r.2 && (decodePut r.1 [0]).any fun r => r.2 && (decodePut r.1 [0]).any fun r => r.2 && (decodePut r.1 [0]).isNone) = true := by
    decide +kernel
  obtain ⟨⟨s1, b1⟩, e1, h⟩ := any_ex h
  simp only [Bool.and_eq_true] at h
  obtain ⟨rfl, h⟩ := h
  obtain ⟨⟨s2, b2⟩, e2, h⟩ := any_ex h
  simp only [Bool.and_eq_true] at h
  obtain ⟨rfl, h⟩ := h
  obtain ⟨⟨s3, b3⟩, e3, h⟩ := any_ex h
  simp only [Bool.and_eq_true] at h
  obtain ⟨rfl, h⟩ := h
  exact ⟨s1, s2, s3, e1, e2, e3, by simpa [Faults] using h⟩

/-- A page with a width of twelve pixels. -/
def oddPage : List (List Byte) := [[0xA0, 0xF0], [0x50, 0x50]]

/-- C38. A width which is not a multiple of eight: the rows which are delivered are others, also in their first twelve pixels, and none of them is called bad. -/
theorem odd_width_fails : ∃ (E : List Byte × Enc) (u : Dec × Bool) (v : Dec), encodeGet (encInit .t6 12 0 0 oddPage) 1000 = some E ∧ decodePut (decInit .t6 12) E.1 = some u ∧
    decodeEnd u.1 = some v ∧ v.badRows = 0 ∧ v.rows = [[0xA0, 0], [0xF5, 0x05]] ∧ black [0xF5, 0x05] 0 ≠ black [0x50, 0x50] 0 := by
  have h : (encodeGet (encInit .t6 12 0 0 oddPage) 1000).any (fun E => (decodePut (decInit .t6 12) E.1).any fun u => (decodeEnd u.1).any fun v =>
      decide (v.badRows = 0) && decide (v.rows = [[0xA0, 0], [0xF5, 0x05]])) = true := by decide +kernel
  obtain ⟨E, e1, h⟩ := any_ex h
  obtain ⟨u, e2, h⟩ := any_ex h
  obtain ⟨v, e3, h⟩ := any_ex h
  simp only [Bool.and_eq_true, decide_eq_true_eq] at h
  exact ⟨E, u, v, e1, e2, e3, h.1, h.2, by decide +kernel⟩

/-! ## Examples -/

/-- A page which meets the hypotheses of the round trip. -/
def samplePage : List (List Byte) := [[0x12, 0x34], [0x12, 0x35], [0, 0], [0xFF, 0xFF], [0xAA, 0x55]]

example : ∀ r ∈ samplePage, r.length = 2 := by decide

/-- A number of bits for the shortest row which the round trip allows for, and for which there is fill. -/
example : (96 : Int) + 13 ≤ 64 * 2 := by decide

/-- It is sent in less octets with T.6 than with T.4, and is not a copy. -/
example : ((encodeGet (encInit .t6 16 0 2 samplePage) 1000).any fun E => E.1.length == 25) = true ∧
    ((encodeGet (encInit .t4_2d 16 0 2 samplePage) 1000).any fun E => E.1.length == 36) = true := by decide +kernel

/-- An application which reads until it gets less than it has asked for. -/
example : ((reads (encInit .t4_1d 16 96 2 samplePage) [3, 0, 7, 100]).any fun p => p.map List.length == [3, 0, 7, 59]) = true := by decide +kernel

end T4
