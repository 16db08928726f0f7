import Verif.NonEcm.Model

/-!
# What the buffer may do to an image

A T.4 image is rows of codes with an EOL, of eleven zeros and a one, in front of each. Any number of zeros may be added to an EOL. Two images are
the same if they differ only in such zeros, and in what comes before the first EOL.
-/

namespace NonEcm

/-- The bits of an octet in the order they are sent. -/
def bitsOf (b : Octet) : List Bool := (List.range 8).map fun i => b.getLsbD (7 - i)

/-- The bits of a number of octets. -/
def bits (l : List Octet) : List Bool := l.flatMap bitsOf

/-- What follows the first EOL. The number of zeros so far is `k`. -/
def afterEol (k : Nat) : List Bool → Option (List Bool)
  | [] => none
  | false :: t => afterEol (k + 1) t
  | true :: t => if k ≥ 11 then some t else afterEol 0 t

/-- Runs of more than eleven zeros are cut down to eleven. -/
def squeeze (k : Nat) : List Bool → List Bool
  | [] => List.replicate (min k 11) false
  | false :: t => squeeze (k + 1) t
  | true :: t => List.replicate (min k 11) false ++ true :: squeeze 0 t

/-- The image in a stream of bits. -/
def image (l : List Bool) : Option (List Bool) := (afterEol 0 l).map (squeeze 0)

/-- The lengths of the rows which are complete, each from behind an EOL to the end of the next. There were `z` zeros just before, and `n` bits since
the last EOL. -/
def rowLens (z n : Nat) : List Bool → List Nat
  | [] => []
  | false :: t => rowLens (z + 1) (n + 1) t
  | true :: t => if z ≥ 11 then (n + 1) :: rowLens 0 0 t else rowLens 0 (n + 1) t

/-- The lengths of the rows of the image in a stream of bits. -/
def rows (l : List Bool) : List Nat := ((afterEol 0 l).map (rowLens 0 0)).getD []

/-- The octets which arrive. -/
def arrived : List Op → List Octet
  | [] => []
  | .put b :: ops => b :: arrived ops
  | .get :: ops => arrived ops

/-- How many octets wait in the buffer. -/
def level (s : State) : Nat := (s.inPtr + size - s.outPtr) % size

/-- The modem keeps up: when an octet arrives there is room for it and for the octets which may be added to make a row long enough. -/
def Room (s : State) : List Op → Prop
  | [] => True
  | .put b :: ops => level s + s.minBits.toNat / 8 + 4 < size ∧ Room (inject s [b]) ops
  | .get :: ops => Room (getBit s).1 ops

/-- Octets with zero octets put in. -/
inductive Stuffed : List Octet → List Octet → Prop where
  | nil : Stuffed [] []
  | keep (b : Octet) {d z : List Octet} : Stuffed d z → Stuffed (b :: d) (b :: z)
  | fill {d z : List Octet} : Stuffed d z → Stuffed d (0 :: z)

end NonEcm
