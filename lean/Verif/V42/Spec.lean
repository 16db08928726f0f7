import Verif.V42.Model

/-!
# Two sides and the line between them

The line carries the frames of each side to the other in order. Each frame may be lost on its way (its FCS is wrong when it comes). That a frame is changed so that its FCS is right again is
not considered.
-/

namespace V42

/-- What may happen on one side, in any order: the HDLC transmitter asks for a frame, the running timer expires, the next frame from the other side comes, or is lost, the application says
that it is busy or not, or stops V.42. With some of these the application may be asked for data, and answers `sup`. -/
inductive Act where
  | send (sup : Supply)
  | expire (sup : Supply)
  | receive (sup : Supply)
  | lose
  | busy (b : Bool)
  | stop

/-- The effect on the side, the frames which are on their way to it, and the frames it sends. -/
def act (x : Lapm) (coming : List Frame) : Act → Option (Lapm × List Frame × List Frame)
  | .send sup => some ((underflow x sup).1, coming, (underflow x sup).2.toList)
  | .expire sup => some ((expire x sup).1, coming, (expire x sup).2.toList)
  | .receive sup =>
    match coming with
    | [] => some (x, [], [])
    | f :: t => (receive x sup f).map fun x => (x, t, [])
  | .lose => some (x, coming.tail, [])
  | .busy b => some (setLocalBusy x b, coming, [])
  | .stop => some (stop x, coming, [])

/-- Both sides, and the frames on their way from a to b and from b to a. -/
structure Link where
  a : Lapm
  b : Lapm
  ab : List Frame
  ba : List Frame

/-- Something happens on side a (`true`) or b. -/
def step (l : Link) : Bool × Act → Option Link
  | (true, e) => (act l.a l.ba e).map fun r => ⟨r.1, l.b, l.ab ++ r.2.2, r.2.1⟩
  | (false, e) => (act l.b l.ab e).map fun r => ⟨l.a, r.1, r.2.1, l.ba ++ r.2.2⟩

def run : Link → List (Bool × Act) → Option Link
  | l, [] => some l
  | l, e :: t => (step l e).bind fun l => run l t

/-- The side on which something happens. -/
def Link.side (l : Link) (a : Bool) : Lapm := if a then l.a else l.b

/-- No side gives up waiting for the answer to its SABME and sends it again. -/
def Calm : Link → List (Bool × Act) → Prop
  | _, [] => True
  | l, e :: t => ((∃ sup, e.2 = .expire sup) → (l.side e.1).state ≠ .establish) ∧ ∀ l', step l e = some l' → Calm l' t

/-- The data the application of a side was given. -/
def delivered (x : Lapm) : List (List Nat) := x.log.filterMap fun | .data d => some d | _ => none

/-- A side at the beginning of a connection: it has accepted a SABME, or waits for the answer to its own. It has sent and received nothing since. -/
structure Fresh (x : Lapm) : Prop where
  state : x.state = .data ∨ x.state = .establish
  vars : x.vs = 0 ∧ x.va = 0 ∧ x.vr = 0 ∧ x.put = 0 ∧ x.get = 0 ∧ x.acked = 0
  window : x.txK = 15
  conf : x.configuring = false
  timer : x.timer ≠ some .negotiate
  ctrl : x.ctrl = [] ∨ x.ctrl = [[x.rspAddr, 0x73]]
  taken : x.taken = []
  delivered : V42.delivered x = []

/-- Both sides at the beginning of a connection. -/
structure Start (l : Link) : Prop where
  a : Fresh l.a
  b : Fresh l.b
  line : l.ab = [] ∧ l.ba = []

end V42
