import Verif.Bert.Model

/-!
# What the bit error rate tester is for

A generator and a tester are joined by a line, which may invert some of the bits.
-/

namespace Bert

/-- What a line does to what it carries: a bit is inverted or not, and the end of the data is left alone. -/
def line (e : Bool) (b : Word) : Word := if b.slt 0 then b else b ^^^ (if e then 1 else 0)

/-- A tester whose output is joined to its input sends and takes one bit. -/
def turn (s : State) (e : Bool) : State × List Report :=
  let (s, b) := getBit s
  putBit s (line e b)

/-- A tester is joined to itself, and the list says which bits are inverted on the way. The reports are in the order
they are made. -/
def loop (s : State) : List Bool → State × List Report
  | [] => (s, [])
  | e :: es =>
    let (s, r) := turn s e
    let (s, rs) := loop s es
    (s, r ++ rs)

/-- A line which inverts nothing for `n` bits. -/
def clean (n : Nat) : List Bool := List.replicate n false

/-- The settings of a tester: what `bert_init` and `bert_set_report` are given besides the pattern. -/
structure Settings where
  limit : Int
  resyncLen : Int
  resyncPercent : Int
  frequency : Int
  reporter : Bool

/-- A tester which has just been started. -/
def Settings.start (c : Settings) (p : Pattern) : State :=
  setReport (init c.limit p c.resyncLen c.resyncPercent) c.frequency c.reporter

/-- The number of bad bits in one check which makes the tester look for synchronisation again. -/
def Settings.tolerance (c : Settings) : Int := (c.resyncLen * c.resyncPercent).tdiv 100

/-- The bits a tester joined to itself takes to synchronise. -/
def syncTime : Pattern → Nat
  | .qbf => 0
  | .o151_23 => 78
  | .o151_20 => 84
  | .o151_15 => 54
  | .o152_11 => 42
  | .o153_9 => 36
  | _ => 72

/-- How many of the reports give this reason. -/
def told (reason : Nat) (rs : List Report) : Nat := rs.countP (fun r => r.1 == reason)

/-- How many bits the list inverts. -/
def errors (es : List Bool) : Nat := es.countP id

/-- How many of the whole groups of seven have an inverted bit. -/
def badGroups : List Bool → Nat
  | a :: b :: c :: d :: e :: f :: g :: es => (if a || b || c || d || e || f || g then 1 else 0) + badGroups es
  | _ => 0

/-- The generator has given so many bits. -/
def advance (s : State) : Nat → State
  | 0 => s
  | n + 1 => advance (getBit s).1 n

/-- The bit which the generator gives after so many. -/
def sent (s : State) (n : Nat) : Word := (getBit (advance s n)).2

/-- The pattern is one of the fixed ones. -/
def Pattern.Fixed (p : Pattern) : Prop := p ∈ [.zeros, .ones, .p7to1, .p3to1, .p1to1, .p1to3, .p1to7]

/-- The pattern is one of the pseudo-random ones. -/
def Pattern.Random (p : Pattern) : Prop := p ∈ [.o151_23, .o151_20, .o151_15, .o152_11, .o153_9]

/-- The bits of a fixed pattern, by their names: seven ones to a zero, and so on. -/
def fixedBit : Pattern → Nat → Bool
  | .zeros, _ => false
  | .ones, _ => true
  | .p7to1, n => n % 8 ≠ 0
  | .p3to1, n => n % 4 ≠ 0
  | .p1to1, n => n % 2 ≠ 0
  | .p1to3, n => n % 4 = 0
  | .p1to7, n => n % 8 = 0
  | _, _ => false

/-- The number of stages of a pseudo-random pattern, and the stage which is added to the last, in the Recommendations O.151,
O.152 and O.153. -/
def stages : Pattern → Nat × Nat
  | .o151_23 => (23, 18)
  | .o151_20 => (20, 17)
  | .o151_15 => (15, 14)
  | .o152_11 => (11, 9)
  | .o153_9 => (9, 5)
  | _ => (0, 0)

/-- The pattern is sent inverted, in the Recommendations O.151. -/
def inverted : Pattern → Bool
  | .o151_23 | .o151_20 | .o151_15 => true
  | _ => false

/-- The sequence of a shift register of `st.1` stages, whose last stage and stage `st.2` are added and which starts with ones. -/
structure Follows (st : Nat × Nat) (b : Nat → Bool) : Prop where
  start : ∀ n, n < st.1 → b n = true
  rest : ∀ n, b (n + st.1) = (b n ^^ b (n + st.1 - st.2))

/-- A word which is one bit. -/
def asBit (b : Bool) : Word := if b then 1 else 0

/-! ## The error rate -/

/-- Bits are put to a tester. The reports are in the order they are made. -/
def feed (s : State) : List Word → State × List Report
  | [] => (s, [])
  | w :: ws =>
    let (s, r) := putBit s w
    let (s, rs) := feed s ws
    (s, r ++ rs)

/-- The errors among the last `n` bits of the list, which has the latest bit first. -/
def recent (n : Nat) (h : List Bool) : Nat := (h.take n).countP id

/-- Decade `i` is judged every 10^(i+1) bits. -/
def judged (n i : Nat) : Bool := decide (10 ^ (i + 1) ∣ n)

/-- The verdict on the error rate after the bits `h`, of which the latest is first. It is the lowest decade judged now with more than ten
errors in its last 10^(i+1) bits, 8 if all are judged now and have none, and otherwise it is the last
verdict. -/
def verdict (last : Nat) (h : List Bool) : Nat :=
  match [2, 3, 4, 5, 6, 7].find? (fun i => judged h.length i && decide (recent (10 ^ (i + 1)) h > 10)) with
  | some i => i
  | none => if judged h.length 7 then 8 else last

/-- The changes of the verdict as bits are put to a tester. The results tell which bits are checked and which are bad. `h` is the bits
checked before, with the latest first, and `last` is the last verdict. -/
def ratings (s : State) (last : Nat) (h : List Bool) : List Word → List Nat
  | [] => []
  | w :: ws =>
    let s' := (putBit s w).1
    if (result s').totalBits = (result s).totalBits then ratings s' last h ws
    else
      let h := decide ((result s').badBits ≠ (result s).badBits) :: h
      let v := verdict last h
      (if v ≠ last then [v] else []) ++ ratings s' v h ws

/-- The reason for the report that the rate is now in this decade: `BERT_REPORT_GT_10_2` for 2, `BERT_REPORT_LT_10_2` for 3, and so on. -/
def rateReason (v : Nat) : Nat := v + 1

end Bert
