import Verif.T31.Model

/-!
# Data with escapes, and histories
-/

namespace T31

/-- Data with escapes: DLE is doubled, and DLE ETX comes last. -/
def stuff (data : List Nat) : List Nat := (data.flatMap fun c => if c = 0x10 then [0x10, 0x10] else [c]) ++ [0x10, 3]

/-- The data in octets with escapes, up to DLE ETX.  With double escapes DLE SUB stands for two DLE.  The first argument
tells that DLE has just been seen. -/
def text (double : Bool) : Bool → List Nat → List Nat
  | _, [] => []
  | true, c :: l => if c = 3 then [] else if double && c == 0x1A then 0x10 :: 0x10 :: text double false l else c :: text double false l
  | false, c :: l => if c = 0x10 then text double true l else c :: text double false l

/-- DLE ETX has come. -/
def ended : Bool → List Nat → Bool
  | _, [] => false
  | true, c :: l => if c = 3 then true else ended false l
  | false, c :: l => if c = 0x10 then ended true l else ended false l

/-- The computer gives octets, or the modem asks for one. -/
inductive Op where
  | put (l : List Nat)
  | get

/-- A history: the modem, what the computer gave and what the line got. -/
structure Run where
  s : Tx
  given : List Nat
  got : List Out

def Run.op (r : Run) : Op → Option Run
  | .put l => (r.s.put l).map fun s => { r with s := s, given := r.given ++ l }
  | .get => some { r with s := r.s.get.1, got := r.got ++ [r.s.get.2] }

def Run.ops (r : Run) : List Op → Option Run
  | [] => some r
  | o :: l => (r.op o).bind fun r => r.ops l

/-- The computer keeps to the room it is told, less one octet with double escapes, and gives nothing after the end. -/
def Run.Fair (r : Run) : List Op → Prop
  | [] => True
  | o :: l => (match o with
      | .put x => (x.length : Int) + (if r.s.double then 1 else 0) ≤ r.s.free ∧ ended false r.given = false
      | .get => True) ∧ ∀ r', r.op o = some r' → r'.Fair l

/-- The data among what the line got. -/
def dataOf (l : List Out) : List Nat := l.filterMap fun o => match o with | .data b => some b | _ => none

/-- Eight bits make an octet, the first of them the lowest. -/
def octets : List Bool → List Nat
  | a :: b :: c :: d :: e :: f :: g :: h :: l =>
    (a.toNat + 2*b.toNat + 4*c.toNat + 8*d.toNat + 16*e.toNat + 32*f.toNat + 64*g.toNat + 128*h.toNat) :: octets l
  | _ => []

end T31
