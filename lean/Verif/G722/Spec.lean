import Verif.G722.Model

/-!
# What a user of G.722 may rely on: the words used in the theorems
-/

namespace G722

/-- Sixteen bit samples. -/
def Pcm (l : List Int) : Prop := ∀ a ∈ l, -32768 ≤ a ∧ a ≤ 32767

/-- How many samples there are to a code. -/
def perCode (g : Cfg) : Nat := if g.eightK then 1 else 2

/-- The lower `n` bits are cut off. -/
def cut (n : Nat) (o : Byte) : Byte := o >>> n

/-- Several calls of the encoder, and of the decoder, one after the other. -/
def encodeCalls (g : Cfg) (s : Codec) : List (List Int) → Option (Codec × List Byte)
  | [] => some (s, [])
  | l :: ls => (encode g s l).bind fun (s, o) => (encodeCalls g s ls).map fun (s, os) => (s, o ++ os)

def decodeCalls (g : Cfg) (s : Codec) : List (List Byte) → Option (Codec × List Int)
  | [] => some (s, [])
  | l :: ls => (decode g s l).bind fun (s, o) => (decodeCalls g s ls).map fun (s, os) => (s, o ++ os)

end G722
