import Verif.Qm.Session

/-!
# Properties of the QM coder
-/

namespace Qm

attribute [local irreducible] decode decision renormd flush encode encodeAll

/-- The states of the contexts are rows of the table of probabilities. All zeros are, and so are the states left by earlier decisions. -/
def InTable (st : Cx → St) : Prop := ∀ cx, index (st cx) < prob.length

theorem inTable_start {st : Cx → St} (h : InTable st) (reuse : Bool) : InTable (if reuse then st else fun _ => 0) := by
  cases reuse with
  | true => exact h
  | false => intro cx; show index 0 < prob.length; decide

theorem iv_start_ok {st : Cx → St} (h : InTable st) (reuse : Bool) : (Iv.start (if reuse then st else fun _ => 0)).Ok := Iv.start_ok (inTable_start h reuse)

/-! ## C26: the decoder returns the decisions -/

/-- For every sequence of decisions in any contexts, from fresh contexts or from those of an earlier stripe, the encoded bytes, followed by any marker and
anything behind it, and cut into pieces in any way, are decoded into the same decisions, and the states of the contexts after that are the same as those
of the encoder. -/
theorem round_trip (st : Cx → St) (hst : InTable st) (reuse nopadding : Bool) (l : List (Cx × Bool)) (m : Nat) (hm : m ≠ 0) (hm' : m < 256)
    (rest : List Nat) (hrest : ∀ b ∈ rest, b < 256) (pieces : List (List Nat)) (hp : pieces.flatten = (flush (encodeAll (encodeRestart st reuse) l)).out ++ 0xFF :: m :: rest) :
    ∃ d, decodeFed (decodeRestart st reuse nopadding []) (l.map (·.1)) pieces = some (d, l.map (·.2)) ∧
      d.st = (encodeAll (encodeRestart st reuse) l).st := by
  obtain ⟨done, hr⟩ := encodeAll_spec l (encR_start st reuse) (iv_start_ok hst reuse)
  obtain ⟨w1, w2⟩ := Iv.steps_ok l (iv_start_ok hst reuse)
  obtain ⟨B, b1, b2, b3, _⟩ := flush_spec hr w1
  have hp' : pieces.flatten = stuff B ++ 0xFF :: m :: rest := by rw [hp, b1]
  have hbytes : ∀ y ∈ pieces, ∀ b ∈ y, b < 256 := by
    intro y hy b hb
    have hmem : b ∈ pieces.flatten := List.mem_flatten.2 ⟨y, hy, hb⟩
    rw [hp'] at hmem
    rcases List.mem_append.1 hmem with hx | hx
    · exact stuff_bytes b2 b hx
    · rcases List.mem_cons.1 hx with hx | hx
      · omega
      · rcases List.mem_cons.1 hx with rfl | hx
        · exact hm'
        · exact hrest b hx
  have hsafe := start_safe hst reuse nopadding
  have hg : (⟨0, 1, 0, if reuse then st else fun _ => 0⟩ : Iv).grow 17 (decodeRestart st reuse nopadding (stuff B ++ 0xFF :: m :: rest)).startup =
      Iv.start (if reuse then st else fun _ => 0) := Iv.grow_start _
  obtain ⟨d, e1, e2⟩ := decode_all b2 (tail := 0xFF :: m :: rest) rfl hm l (start_decR b2 m rest st reuse nopadding) start_enough hg rfl (iv_start_ok hst reuse) b3
  have e1' : decodeFed ((decodeRestart st reuse nopadding []).more pieces.flatten) (l.map (·.1)) [] = some (d, l.map (·.2)) := by
    rw [hp']
    exact e1
  obtain ⟨d2, f1, f2⟩ := fed_all _ hsafe (l.map (·.1)) pieces hbytes (Nat.le_refl _) e1'
  exact ⟨d2, f1, by rw [f2, e2, hr.st]⟩

/-- The states of the contexts stay in the table, so that the next stripe may start with them. -/
theorem encoder_in_table (st : Cx → St) (hst : InTable st) (reuse : Bool) (l : List (Cx × Bool)) : InTable (encodeAll (encodeRestart st reuse) l).st := by
  obtain ⟨done, hr⟩ := encodeAll_spec l (encR_start st reuse) (iv_start_ok hst reuse)
  obtain ⟨w1, w2⟩ := Iv.steps_ok l (iv_start_ok hst reuse)
  rw [hr.st]
  exact w1.good

/-! ## C27: no marker in the output -/

/-- Every 0xFF in the output is followed by 0x00, and all of it is bytes. -/
def NoMarker (l : List Nat) : Prop := (∀ k, l[k]? = some 0xFF → l[k + 1]? = some 0x00) ∧ ∀ b ∈ l, b < 256

/-- At any time before the end, and after it. -/
theorem no_marker (st : Cx → St) (hst : InTable st) (reuse : Bool) (l : List (Cx × Bool)) :
    NoMarker (encodeAll (encodeRestart st reuse) l).out ∧ NoMarker (flush (encodeAll (encodeRestart st reuse) l)).out := by
  obtain ⟨done, hr⟩ := encodeAll_spec l (encR_start st reuse) (iv_start_ok hst reuse)
  obtain ⟨w1, w2⟩ := Iv.steps_ok l (iv_start_ok hst reuse)
  obtain ⟨B, b1, b2, b3, _⟩ := flush_spec hr w1
  constructor
  · rw [hr.out]; exact ⟨stuff_no_marker done, stuff_bytes hr.bytes⟩
  · rw [b1]; exact ⟨stuff_no_marker B, stuff_bytes b2⟩

/-- What has been given to the handler is not changed by what follows. -/
theorem output_grows (st : Cx → St) (reuse : Bool) (l l' : List (Cx × Bool)) :
    (encodeAll (encodeRestart st reuse) l).out <+: (flush (encodeAll (encodeRestart st reuse) (l ++ l'))).out := by
  rw [encodeAll_append]
  exact (encodeAll_grows l' _).trans (flush_grows _)

/-! ## C37: the decoder on any data -/

/-- Whatever the data is, in whatever pieces it arrives, and whatever the contexts are: the states of the contexts are rows of the table, the registers do
not overflow, and the shift counts of the reading of a byte (8 - ct) are in range. -/
theorem decoder_safe (st : Cx → St) (hst : InTable st) (reuse nopadding : Bool) (data : List Nat) (hd : ∀ b ∈ data, b < 256) (l : List DecEv)
    (hl : ∀ y, DecEv.data y ∈ l → ∀ b ∈ y, b < 256) :
    InTable ((decodeRestart st reuse nopadding data).after l).st ∧ 1 ≤ ((decodeRestart st reuse nopadding data).after l).a ∧
    ((decodeRestart st reuse nopadding data).after l).a ≤ 0x10000 ∧
    ((decodeRestart st reuse nopadding data).after l).c < ((decodeRestart st reuse nopadding data).after l).a * 2 ^ 16 ∧
    -1 ≤ ((decodeRestart st reuse nopadding data).after l).ct ∧ ((decodeRestart st reuse nopadding data).after l).ct ≤ 16 := by
  have h : ((decodeRestart st reuse nopadding data).after l).Safe := after_safe l ((start_safe hst reuse nopadding).more hd) hl
  exact ⟨h.good, h.enough.1, h.enough.le, h.c, h.ct1, h.ct2⟩

/-- A call reads the data byte by byte, a 0xFF together with the 0x00 behind it. It answers -1 only when there is nothing left but a 0xFF of which the
second half is missing, and -2 only in front of a marker. It never reads a marker. -/
theorem decoder_reads (st : Cx → St) (hst : InTable st) (reuse nopadding : Bool) (data : List Nat) (hd : ∀ b ∈ data, b < 256) (l : List DecEv)
    (hl : ∀ y, DecEv.data y ∈ l → ∀ b ∈ y, b < 256) (cx : Cx) (d d' : Dec) (r : Ret Bool) (he : (decodeRestart st reuse nopadding data).after l = d)
    (hr : decode d cx = (d', r)) :
    (∃ read, d.data = stuff read ++ d'.data) ∧ (r = .moreData → d'.data = [] ∨ d'.data = [0xFF]) ∧
    (r = .marker → d.nopadding = true ∧ ∃ m rest, d'.data = 0xFF :: m :: rest ∧ m ≠ 0) := by
  have h : d.Safe := he ▸ after_safe l ((start_safe hst reuse nopadding).more hd) hl
  obtain ⟨_, s2, _⟩ := decode_safe h cx
  rw [hr] at s2
  cases r with
  | ok x => exact ⟨s2, fun h => (by cases h), fun h => (by cases h)⟩
  | moreData => obtain ⟨B, b1, b2⟩ := s2; exact ⟨⟨B, b1⟩, fun _ => b2, fun h => (by cases h)⟩
  | marker => obtain ⟨⟨B, b1, b2⟩, b3⟩ := s2; exact ⟨⟨B, b1⟩, fun h => (by cases h), fun _ => ⟨b3, b2⟩⟩

/-- For any data the pieces in which it arrives make no difference to the decisions and to the contexts. -/
theorem decoder_pieces (st : Cx → St) (hst : InTable st) (reuse nopadding : Bool) (pieces : List (List Nat)) (hp : ∀ y ∈ pieces, ∀ b ∈ y, b < 256)
    (l : List Cx) (d : Dec) (pix : List Bool) (h : decodeFed (decodeRestart st reuse nopadding pieces.flatten) l [] = some (d, pix)) :
    ∃ d', decodeFed (decodeRestart st reuse nopadding []) l pieces = some (d', pix) ∧ d'.st = d.st :=
  fed_all _ (start_safe hst reuse nopadding) l pieces hp (Nat.le_refl _) h

/-! ## The test data of T.82 section 7.1, as in tests/t81_t82_arith_coding_tests.c:77-99 -/

def bits16 (x : Nat) : List Bool := (List.range 16).map (fun k => x.testBit (15 - k))

def pix71 : List Nat := [0x05E0, 0x0000, 0x8B00, 0x01C4, 0x1700, 0x0034, 0x7FFF, 0x1A3F, 0x951B, 0x05D8, 0x1D17, 0xE770, 0x0000, 0x0000, 0x0656, 0x0E6A]

def cx71 : List Nat := [0x0FE0, 0x0000, 0x0F00, 0x00F0, 0xFF00, 0x0000, 0x0000, 0x0000, 0x0000, 0x0000, 0x0000, 0x0000, 0x0000, 0x0000, 0x0000, 0x0000]

def decisions71 : List (Cx × Bool) := ((cx71.flatMap bits16).map (fun b => if b then (1 : Cx) else 0)).zip (pix71.flatMap bits16)

def scd71 : List Nat := [0x69, 0x89, 0x99, 0x5C, 0x32, 0xEA, 0xFA, 0xA0, 0xD5, 0xFF, 0x00, 0x52, 0x7F, 0xFF, 0x00, 0xFF,
  0x00, 0xFF, 0x00, 0xC0, 0x00, 0x00, 0x00, 0x3F, 0xFF, 0x00, 0x2D, 0x20, 0x82, 0x91]

set_option maxRecDepth 10000 in
/-- The model gives the bytes which the recommendation asks for. -/
theorem encoder_71 : (flush (encodeAll (encodeRestart (fun _ => 0) false) decisions71)).out = scd71 := by decide +kernel

/-- So the conditions of `round_trip` are met by 256 decisions in two contexts, with a carry and 0xFF bytes, in three pieces. -/
example : ∃ d, decodeFed (decodeRestart (fun _ => 0) false true []) (decisions71.map (·.1)) [scd71.take 10, scd71.drop 10, [0xFF, 0x02, 0x12]] =
    some (d, decisions71.map (·.2)) ∧ d.st = (encodeAll (encodeRestart (fun _ => 0) false) decisions71).st :=
  round_trip (fun _ => 0) (fun _ => by show index 0 < prob.length; decide) false true decisions71 0x02 (by decide) (by decide) [0x12] (by decide) _
    (by rw [encoder_71]; decide)

/-- Hostile data. -/
example : InTable ((decodeRestart (fun _ => 0) false true [0xFF, 0x00, 0xAB]).after [.call 5, .data [0xFF], .call 5, .data [0xFF], .call 4095]).st :=
  (decoder_safe (fun _ => 0) (fun _ => by show index 0 < prob.length; decide) false true _ (by decide) _
    (by intro y hy; simp only [List.mem_cons, List.not_mem_nil, reduceCtorEq, DecEv.data.injEq, false_or, or_false] at hy
        rcases hy with rfl | rfl <;> decide)).1

end Qm
