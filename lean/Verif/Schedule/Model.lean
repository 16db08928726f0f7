/-!
# Model of src/schedule.c

An event is a callback and its argument. Both are opaque to the scheduler, which only ever asks
if the callback is `NULL`. The model numbers the events in the order in which they are scheduled,
to tell them apart, and `some n` is a callback which is not `NULL`.

`none` as a result is an access outside the slot array. Memory `span_realloc` adds to the array
has unknown contents, given by `junk`. That `span_realloc` can fail, and that the slot counters
are `int`s, is not modelled.
-/

namespace Schedule

/-- `span_sched_t`, src/spandsp/private/schedule.h:30-35. -/
structure Slot where
  /-- The due time, a `uint64_t`. -/
  when : Nat
  /-- The callback and its argument. -/
  callback : Option Nat
deriving DecidableEq, Repr

/-- `span_sched_state_t`, src/spandsp/private/schedule.h:38-45, without the logging. `sched` has
`allocated` entries. -/
structure Sched where
  ticker : Nat
  allocated : Nat
  maxToDate : Nat
  sched : List Slot

/-- Adding an `int` to a `uint64_t`. -/
def addTime (t : Nat) (us : Int) : Nat := (((t : Int) + us) % 2 ^ 64).toNat

/-- The search for a free slot, src/schedule.c:52-58. -/
def findFree (s : Sched) : Nat → Nat → Option Nat
  | 0, i => some i
  | n + 1, i => do
    if i < s.maxToDate then
      let e ← s.sched[i]?
      if e.callback = none then some i else findFree s n (i + 1)
    else some i

/-- `span_schedule_event`, src/schedule.c:48-72. -/
def scheduleEvent (junk : Fin 5 → Slot) (s : Sched) (us : Int) (ev : Nat) : Option (Sched × Nat) := do
  let i ← findFree s s.maxToDate 0
  let s := if i ≥ s.allocated then { s with allocated := s.allocated + 5, sched := s.sched ++ List.ofFn junk } else s
  let s := if i ≥ s.maxToDate then { s with maxToDate := i + 1 } else s
  if i < s.sched.length then
    return ({ s with sched := s.sched.set i { when := addTime s.ticker us, callback := some ev } }, i)
  else none

/-- The loop of `span_schedule_next`, src/schedule.c:81-87. -/
def nextLoop (s : Sched) : Nat → Nat → Nat → Option Nat
  | 0, _, earliest => some earliest
  | n + 1, i, earliest => do
    let e ← s.sched[i]?
    nextLoop s n (i + 1) (if e.callback ≠ none ∧ earliest > e.when then e.when else earliest)

/-- `span_schedule_next`, src/schedule.c:75-89. -/
def next (s : Sched) : Option Nat := nextLoop s s.maxToDate 0 (2 ^ 64 - 1)

/-- One turn of the loop of `span_schedule_update`, src/schedule.c:105-117, with `i` less than
`max_to_date`. The second result is the callback which is to be called, if any. -/
def scan (s : Sched) (i : Nat) : Option (Sched × Option Nat) := do
  let e ← s.sched[i]?
  match e.callback with
  | some ev =>
    if e.when ≤ s.ticker then return ({ s with sched := s.sched.set i { e with callback := none } }, some ev)
    else return (s, none)
  | none => return (s, none)

/-- `span_schedule_del`, src/schedule.c:121-134. -/
def del (s : Sched) (i : Int) : Option Sched := do
  if i ≥ s.maxToDate ∨ i < 0 then return s
  let e ← s.sched[i.toNat]?
  if e.callback = none then return s
  return { s with sched := s.sched.set i.toNat { e with callback := none } }

/-- `span_schedule_init`, src/schedule.c:137-144. -/
def init : Sched := { ticker := 0, allocated := 0, maxToDate := 0, sched := [] }

/-! ## Programs using the scheduler

User code calls the scheduler, and the scheduler calls callbacks, which are user code and may call
the scheduler too, even `span_schedule_update`. What the user code does is not known: it is a
list of moves, any one of which may come next. -/

/-- A call of `span_schedule_update` which has not returned: where its loop is, and which call
it was. -/
structure Frame where
  i : Nat
  call : Nat

/-- What happened, as the user sees it. -/
inductive Entry
  /-- `span_schedule_event` was called with `us`, for event `n`, and the ID returned was `id`. -/
  | scheduled (n id : Nat) (us : Int)
  /-- `span_schedule_del` was called for an ID. -/
  | deleted (id : Int)
  /-- `span_schedule_next` was called, and returned `r`. -/
  | next (r : Nat)
  /-- The callback of event `n` was called. -/
  | fired (n : Nat)
  /-- `span_schedule_update` was called, which is call number `call`. -/
  | update (call : Nat) (us : Int)
  /-- Call number `call` of `span_schedule_update` returned. -/
  | returned (call : Nat)
deriving DecidableEq

/-- A running program. -/
structure Prog where
  s : Sched
  /-- The calls of `span_schedule_update` which have not returned, the latest first. -/
  frames : List Frame
  /-- Is user code running (or is it the scheduler)? -/
  user : Bool
  /-- How many events were scheduled. -/
  events : Nat
  /-- How many times `span_schedule_update` was called. -/
  calls : Nat
  /-- What happened, the first thing first. -/
  log : List Entry

/-- The moves of a program. -/
inductive Move
  | schedule (us : Int) (junk : Fin 5 → Slot)
  | del (i : Int)
  | next
  | update (us : Int)
  /-- A callback returns. -/
  | ret
  /-- The scheduler's loop makes a turn. -/
  | turn

/-- One move. A move which is not possible leaves things as they are. `span_schedule_update` is
src/schedule.c:98-118. -/
def Prog.move (p : Prog) : Move → Option Prog
  | .schedule us junk =>
    if p.user = false then some p else do
      let (s, id) ← scheduleEvent junk p.s us p.events
      return { p with s, events := p.events + 1, log := p.log ++ [.scheduled p.events id us] }
  | .del i =>
    if p.user = false then some p else do
      return { p with s := ← del p.s i, log := p.log ++ [.deleted i] }
  | .next =>
    if p.user = false then some p else do
      return { p with log := p.log ++ [.next (← next p.s)] }
  | .update us =>
    if p.user = false then some p else
      some { p with s := { p.s with ticker := addTime p.s.ticker us }, frames := { i := 0, call := p.calls } :: p.frames, user := false,
                    calls := p.calls + 1, log := p.log ++ [.update p.calls us] }
  | .ret =>
    if p.user = false ∨ p.frames = [] then some p else some { p with user := false }
  | .turn =>
    if p.user = true then some p else
      match p.frames with
      | [] => some p
      | f :: rest =>
        if f.i < p.s.maxToDate then do
          let (s, ev) ← scan p.s f.i
          match ev with
          | some n => return { p with s, frames := { f with i := f.i + 1 } :: rest, user := true, log := p.log ++ [.fired n] }
          | none => return { p with s, frames := { f with i := f.i + 1 } :: rest }
        else some { p with frames := rest, user := true, log := p.log ++ [.returned f.call] }

/-- A program which has made no moves yet. -/
def Prog.start : Prog := { s := init, frames := [], user := true, events := 0, calls := 0, log := [] }

/-- Making moves. -/
def Prog.run (p : Prog) : List Move → Option Prog
  | [] => some p
  | m :: ms => do (← p.move m).run ms

end Schedule
