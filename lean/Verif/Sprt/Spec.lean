import Verif.Sprt.Model

/-!
# What is asked of SPRT

What the two applications see, read from the log of what the endpoints did.
-/

namespace Sprt

/-- The log of two endpoints. -/
abbrev Log := List (Bool × Act)

/-- The payloads which the application at `x` has given to channel `c`, the oldest first. -/
def given (x : Bool) (c : Nat) (log : Log) : List (List Nat) :=
  log.filterMap fun r => match r with | (y, .accepted d p) => if y = x ∧ d = c then some p else none | _ => none

/-- The payloads which the application at `x` has been given from channel `c`, with their sequence numbers, the oldest first. -/
def got (x : Bool) (c : Nat) (log : Log) : List (Nat × List Nat) :=
  log.filterMap fun r => match r with | (y, .delivered d n p) => if y = x ∧ d = c then some (n, p) else none | _ => none

/-- The payloads alone. -/
def payloads (x : Bool) (c : Nat) (log : Log) : List (List Nat) := (got x c log).map Prod.snd

/-- The application at `x` has been told that a payload was sent as often as is allowed: `SPRT_STATUS_EXCESS_RETRIES`. -/
def gaveUp (x : Bool) (log : Log) : Prop := (x, .status 1) ∈ log

instance (x : Bool) (log : Log) : Decidable (gaveUp x log) := inferInstanceAs (Decidable (_ ∈ log))

/-- A walk over what an endpoint does. `b` is which channels the application has said to be busy, and `app` is what it does in each of its
callbacks for a reliable channel: `true` if it says there that this channel is busy now. A delivery to an application which is busy is
`none`. -/
def walk (b : Nat → Bool) (app : List Bool) : List Act → Option ((Nat → Bool) × List Bool)
  | [] => some (b, app)
  | .delivered c _ _ :: l =>
    if c = 1 ∨ c = 2 then (if b c then none else walk (upd b c (app.headD false)) app.tail l) else walk b app l
  | _ :: l => walk b app l

/-- An endpoint which an application has set up, and not used yet. -/
def Opened (e : Ep) : Prop :=
  ∃ sub rxType txType parms e0 sets, init sub rxType txType parms = some e0 ∧ e = List.foldl Ep.set e0 sets

/-- A call to an endpoint, with any datagram. -/
inductive Call where
  | tx (c : Nat) (p : List Nat) (now : Nat)
  | packet (pkt : List Nat) (now : Nat) (app : List Bool)
  | timer (now : Nat) (app : List Bool)
  | busy (c : Nat) (b : Bool)

/-- One call. -/
def Ep.call (e : Ep) : Call → Option Ep
  | .tx c p now => (Sprt.tx e c p now).bind fun r => some r.1
  | .packet pkt now app => (rxPacket e pkt now app).bind fun r => some r.1
  | .timer now app => timerExpired e now app
  | .busy c b => some (setBusy e c b)

/-- One call after another. -/
def Ep.calls (e : Ep) : List Call → Option Ep
  | [] => some e
  | a :: l => (e.call a).bind fun e => e.calls l

end Sprt
