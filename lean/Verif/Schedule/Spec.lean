import Verif.Schedule.Model

/-!
# What a scheduler should do

The specification reads a log and keeps a set of pending events, without slots. Every entry must
be allowed by what is pending.
-/

namespace Schedule.Spec

/-- An event which has not run and was not deleted. -/
structure Pending where
  n : Nat
  id : Nat
  due : Nat
deriving DecidableEq

/-- A call of `span_schedule_update`: the time it set, and how many events there had been. -/
structure Call where
  call : Nat
  time : Nat
  events : Nat

structure State where
  time : Nat := 0
  pending : List Pending := []
  /-- How many events were scheduled. -/
  events : Nat := 0
  /-- All calls of `span_schedule_update`. -/
  calls : List Call := []

/-- What the time is after so many microseconds, in unbounded arithmetic. -/
def later (t : Nat) (us : Int) : Nat := ((t : Int) + us).toNat

/-- May this happen? -/
def allowed (s : State) : Entry → Prop
  /- Events are numbered in order, and the ID is not that of a pending event. -/
  | .scheduled n id _ => n = s.events ∧ ∀ p ∈ s.pending, p.id ≠ id
  | .deleted _ => True
  /- The earliest due time is reported, or all ones if there is none. -/
  | .next r => (∀ p ∈ s.pending, r ≤ p.due) ∧ ((∃ p ∈ s.pending, r = p.due) ∨ (s.pending = [] ∧ r = 2 ^ 64 - 1))
  /- Only a pending event runs, and it must be due. -/
  | .fired n => ∃ p ∈ s.pending, p.n = n ∧ p.due ≤ s.time
  | .update call _ => ∀ c ∈ s.calls, c.call ≠ call
  /- When an update returns, no event is left which was pending and due when it was called. -/
  | .returned call => ∃ c ∈ s.calls, c.call = call ∧ ∀ p ∈ s.pending, ¬ (p.n < c.events ∧ p.due ≤ c.time)

/-- How things are after an entry. -/
def after (s : State) : Entry → State
  | .scheduled n id us => { s with pending := s.pending ++ [{ n, id, due := later s.time us }], events := s.events + 1 }
  | .deleted id => { s with pending := s.pending.filter fun p => decide ((p.id : Int) ≠ id) }
  | .next _ => s
  | .fired n => { s with pending := s.pending.filter fun p => decide (p.n ≠ n) }
  | .update call us => { s with time := later s.time us, calls := s.calls ++ [{ call, time := later s.time us, events := s.events }] }
  | .returned _ => s

/-- A log all of whose entries are allowed. -/
def Legal : State → List Entry → Prop
  | _, [] => True
  | s, e :: es => allowed s e ∧ Legal (after s e) es

/-- How things are after a log. -/
def final (s : State) (l : List Entry) : State := l.foldl after s

end Schedule.Spec
