import Verif.V18.Model

/-!
# What becomes of text
-/

namespace V18

/-- The character which takes the place of another one. -/
def replaced (t : List (String × Char)) (c : Char) : Option Nat := (t.find? fun p => c ∈ p.1.toList).map fun p => p.2.toNat

/-- What a TDD shows for a character, of which the top bit does not count: capital letters, digits and some signs as
they are, small letters as capitals, and something similar for some others. -/
def baudotText (ch : Nat) : Option Nat :=
  let c := Char.ofNat (ch % 128)
  if c ∈ "ABCDEFGHIJKLMNOPQRSTUVWXYZ0123456789!\"$'()+,-./:;=? \x08\n\r".toList then some c.toNat
  else if 'a' ≤ c ∧ c ≤ 'z' then some (c.toNat - 32)
  else replaced [("#", '$'), ("%\\", '/'), ("&", '+'), ("^`", '\''), ("<[{", '('), (">]}", ')'), ("*", '.'), ("|", '!'),
    ("@", 'X'), ("\x1a", '?'), ("\t\x1f_~", ' '), ("\x0b\x0c\x1c\x1d\x1e", '\n')] c

/-- What a text telephone with DTMF shows for a character: letters, digits and some signs as they are, the six national
letters, and something similar for some others. -/
def dtmfText (ch : Nat) : Option Nat :=
  if ch ≥ 128 then if ch ∈ [0xC6, 0xD8, 0xC5, 0xE6, 0xF8, 0xE5] then some ch else none
  else
    let c := Char.ofNat ch
    if ('a' ≤ c ∧ c ≤ 'z') ∨ ('A' ≤ c ∧ c ≤ 'Z') ∨ c ∈ "0123456789!%()+,-.:;=? \x08\n".toList then some ch
    else replaced [("\t\x1f_~", ' '), ("\x0b\x0c\x1c\x1d\x1e", '\n'), ("\x1a", '?'), ("&", '+'), ("*", '.'), ("<", '('),
      (">", ')'), ("@", 'X'), ("\x7f", '\x08'), ("[", 'Æ'), ("\\", 'Ø'), ("]", 'Å'), ("{", 'æ'), ("|", 'ø'), ("}", 'å')] c

/-- What a user does with a station which sends, and the modem that asks it for codes. -/
inductive Op where
  | put (l : List Nat)
  | get

/-- A history of a TDD: the station, the codes which it gave, and the text which it took. -/
structure Run where
  s : Station
  codes : List Nat
  taken : List Nat

def Run.op (r : Run) : Op → Run
  | .put l => { r with s := (put r.s l).1, taken := if (put r.s l).2 then r.taken ++ l else r.taken }
  | .get => { r with s := (tddGet r.s).1, codes := r.codes ++ (match (tddGet r.s).2 with | .code c => [c] | _ => []) }

def Run.ops (r : Run) (l : List Op) : Run := l.foldl Run.op r

/-- What a station tells of codes which it is given. -/
def hear (s : Station) : List Nat → Option (Station × List Nat)
  | [] => some (s, [])
  | c :: l => (tddPut s c).bind fun r => (hear r.1 l).map fun x => (x.1, r.2 ++ x.2)

/-- The same for DTMF: samples pass after each call. -/
def hearDtmf (s : Station) : List (List Char × Nat) → Option (Station × List Nat)
  | [] => some (s, [])
  | c :: l => (dtmfPut s c.1).bind fun r => (hearDtmf (rxTime r.1 c.2) l).map fun x => (x.1, r.2 ++ x.2)

/-- A history of a station which sends DTMF.  Samples of silence may pass, which is when it may send again. -/
inductive DtmfOp where
  | put (l : List Nat)
  | get
  | time (n : Nat)

structure DtmfRun where
  s : Station
  digits : List Char
  taken : List Nat

def DtmfRun.op (r : DtmfRun) : DtmfOp → DtmfRun
  | .put l => { r with s := (V18.put r.s l).1, taken := if (V18.put r.s l).2 then r.taken ++ l else r.taken }
  | .get => { r with s := (dtmfGet r.s).1, digits := r.digits ++ (dtmfGet r.s).2 }
  | .time n => { r with s := txTime (rxTime r.s n) n }

def DtmfRun.ops (r : DtmfRun) (l : List DtmfOp) : DtmfRun := l.foldl DtmfRun.op r

end V18
