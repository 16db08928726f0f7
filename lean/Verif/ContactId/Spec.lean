import Verif.ContactId.Model

/-!
# Contact ID: the words used in the theorems
-/

namespace ContactId

/-- The `w` hexadecimal digits of a number. -/
def digitsOf (w n : Nat) : List Nat := (List.range w).map fun i => n/16^(w - 1 - i) % 16

/-- The fifteen digits of a report. -/
def Report.digits (r : Report) : List Nat :=
  digitsOf 4 r.acct ++ digitsOf 2 r.mt ++ digitsOf 1 r.q ++ digitsOf 3 r.xyz ++ digitsOf 2 r.gg ++ digitsOf 3 r.ccc

/-- The fields have no more digits than a message has for them. -/
structure Report.Fits (r : Report) : Prop where
  acct : r.acct < 16^4
  mt : r.mt < 16^2
  q : r.q < 16^1
  xyz : r.xyz < 16^3
  gg : r.gg < 16^2
  ccc : r.ccc < 16^3

/-- A report which can be sent: Contact ID has no digit A. -/
def Report.Sendable (r : Report) : Prop := r.Fits ∧ 10 ∉ r.digits

/-- The keys of a DTMF keypad. -/
def keys : List Char := ['0', '1', '2', '3', '4', '5', '6', '7', '8', '9', '*', '#', 'A', 'B', 'C', 'D']

/-- The digits of a report as they go out: `*`, `#`, `A`, `B` and `C` for B to F, then the check digit. -/
def encoded (r : Report) : List Char := ((encodeMsg r).map (·.1)).getD []

/-- Digits come in at a receiver. -/
def Receiver.feed (s : Receiver) : List Char → Option (Receiver × List Report)
  | [] => some (s, [])
  | c :: l => (s.digit c).bind fun (s, r) => (s.feed l).map fun (s, rs) => (s, r ++ rs)

/-- A receiver is asked for samples, with room for so many each time. -/
def Receiver.calls (s : Receiver) : List Nat → Receiver × List Sig
  | [] => (s, [])
  | n :: ns => let (s, a) := s.tx n; let (s, as) := s.calls ns; (s, a ++ as)

/-- A sender is asked for samples. -/
def Sender.calls (s : Sender) : List Nat → Sender × List Sig
  | [] => (s, [])
  | n :: ns => let (s, a) := s.tx n; let (s, as) := s.calls ns; (s, a ++ as)

/-- A sender hears blocks of samples. -/
def Sender.blocks (s : Sender) : List Hit → Sender × List Event
  | [] => (s, [])
  | h :: hs => let (s, e) := s.block h; let (s, es) := s.blocks hs; (s, e ++ es)

/-- What may happen to a sender: a report to send, samples asked for, a block heard, a gap in the samples. -/
inductive Op where
  | put (r : Report)
  | tx (room : Nat)
  | hear (h : Hit)
  | gap

def Sender.op (s : Sender) : Op → Option (Sender × List Event)
  | .put r => (s.put r).map fun (s, _) => (s, [])
  | .tx n => some ((s.tx n).1, [])
  | .hear h => some (s.block h)
  | .gap => some (s.fillin, [])

/-- All that happens to a sender, and what its callback is told. -/
def Sender.run (s : Sender) : List Op → Option (Sender × List Event)
  | [] => some (s, [])
  | o :: os => (s.op o).bind fun (s, e) => (s.run os).map fun (s, es) => (s, e ++ es)

/-- The blocks heard. -/
def hits (os : List Op) : List Hit := os.filterMap fun | .hear h => some h | _ => none

/-- What a receiver sends first: 1400 Hz and 2300 Hz for 100 ms each, after 500 ms and 100 ms of silence. -/
def handshake : List Sig :=
  List.replicate 4000 .silence ++ toneFrom 1400 0 800 ++ List.replicate 800 .silence ++ toneFrom 2300 0 800

/-- What it sends for a good message: 1400 Hz for 850 ms, after 100 ms of silence. -/
def kissoff : List Sig := List.replicate 800 .silence ++ toneFrom 1400 0 6800

/-- What a sender sends for a message: 250 ms of silence and the digits. -/
def message (l : List Char) : List Sig := List.replicate 2000 .silence ++ l.flatMap fun c => digitFrom c 0 880

/-- The digits in a signal. -/
def heard (l : List Sig) : List Char := l.filterMap fun | .dtmf c 0 => some c | _ => none

/-- No two blocks in a row are without a tone. -/
def noGap : List Hit → Bool
  | a :: b :: l => !(decide (a = .none) && decide (b = .none)) && noGap (b :: l)
  | _ => true

/-- The blocks of a good kissoff: two of 1400 Hz to begin with, two without a tone in the end and not before,
and between 400 ms and 1500 ms (3200 and 12000 samples) of 55 samples each. -/
def GoodKissoff (l : List Hit) : Prop :=
  ∃ m, l = [.hz1400, .hz1400] ++ m ++ [.none, .none] ∧ noGap ([.hz1400, .hz1400] ++ m ++ [.none]) = true ∧
    3200 ≤ 55*(m.length + 2) ∧ 55*(m.length + 2) ≤ 12000

end ContactId
