import Verif.Playout.Model

/-!
# What a playout buffer should do

The queue is a list of frames, the one to leave next first.
-/

namespace Playout.Spec

/-- The frames at the end of a queue which are all later than a new one. -/
def laterRun (f : Frame) (q : List Frame) : List Frame := (q.reverse.takeWhile fun g => f.senderStamp < g.senderStamp).reverse

/-- The rest of the queue. -/
def before (f : Frame) (q : List Frame) : List Frame := (q.reverse.dropWhile fun g => f.senderStamp < g.senderStamp).reverse

/-- Where a new frame belongs: in front of the frames at the end which are later than it. -/
def insert (f : Frame) (q : List Frame) : List Frame := before f q ++ f :: laterRun f q

/-- In the order of the sender's time stamps. -/
def Sorted (q : List Frame) : Prop := q.Pairwise fun f g => f.senderStamp ≤ g.senderStamp

/-- A call. -/
inductive Op
  /-- `playout_put`, and whether there is memory. -/
  | put (mem : Bool) (f : Frame)
  /-- `playout_get`. -/
  | get
  /-- `playout_get_unconditional`. -/
  | take

/-- What can be seen of a call. -/
inductive Event
  | put (f : Frame) (c : Code)
  | get (c : Code) (f : Option Frame)
  | take (f : Option Frame)
deriving DecidableEq

def step (s : State) : Op → M (State × Event)
  | .put mem f => do
    let (s, c) ← put s mem f
    return (s, .put f c)
  | .get => do
    let (s, c, f) ← get s
    return (s, .get c f)
  | .take => do
    let (s, f) ← getUnconditional s
    return (s, .take f)

/-- A sequence of calls. -/
def run : State → List Op → M (State × List Event)
  | s, [] => .ok (s, [])
  | s, o :: os => do
    let (s, e) ← step s o
    let (s, es) ← run s os
    return (s, e :: es)

/-- The frame accepted in an event. -/
def Event.accepted : Event → List Frame
  | .put f .ok => [f]
  | _ => []

/-- The frame handed out in an event. -/
def Event.handed : Event → List Frame
  | .get _ (some f) => [f]
  | .take (some f) => [f]
  | _ => []

end Playout.Spec

namespace Playout.Spec

/-- What a buffer holds, as it can be seen from outside: the frames which come out, one by one, if all of them are taken. -/
def Holds (s : State) (q : List Frame) : Prop :=
  ∃ s', run s (List.replicate (q.length + 1) .take) = .ok (s', q.map (fun f => .take (some f)) ++ [.take none])

/-- A state which can arise: the frames have time stamps which fit in an `int`. -/
def Reachable (s : State) : Prop :=
  ∃ mn mx s0 ops es, init mn mx = .ok s0 ∧ (∀ o ∈ ops, ∀ mem f, o = Op.put mem f → f.senderStamp ≤ 2147483647) ∧ run s0 ops = .ok (s, es)

/-- The frames of a steady stream of speech. -/
def stream (t0 len : Int) (i : Nat) : Frame := ⟨i, typeSpeech, t0 + i * len, len, 0⟩

/-- A schedule of arrivals (`true`) and of calls to get a frame (`false`), after `p` arrivals and `g` calls. Each frame
arrives before its time, which is `m` calls late. -/
def Timely (m : Nat) : Nat → Nat → List Bool → Prop
  | _, _, [] => True
  | p, g, true :: r => Timely m (p + 1) g r
  | p, g, false :: r => (m ≤ g → g - m < p) ∧ Timely m p (g + 1) r

/-- The calls of a schedule. -/
def calls (t0 len : Int) : Nat → List Bool → List Op
  | _, [] => []
  | p, true :: r => .put true (stream t0 len p) :: calls t0 len (p + 1) r
  | p, false :: r => .get :: calls t0 len p r

/-- What should be seen: `m` calls for which something has to be made up, and then each frame in its turn. -/
def played (t0 len : Int) (m : Nat) : Nat → Nat → List Bool → List Event
  | _, _, [] => []
  | p, g, true :: r => .put (stream t0 len p) .ok :: played t0 len m (p + 1) g r
  | p, g, false :: r => (if g < m then .get .fillin none else .get .ok (some (stream t0 len (g - m)))) :: played t0 len m p (g + 1) r

end Playout.Spec
