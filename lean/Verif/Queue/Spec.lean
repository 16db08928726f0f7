/-!
# What a byte queue is

A bounded first-in first-out list of bytes, independent of any ring buffer. -/

namespace Queue.Spec

/-- The calls a user makes. Lengths are natural numbers; the buffer given to `write` holds
exactly the bytes to be written. -/
inductive Op
  | write (buf : List UInt8)
  | writeByte (b : UInt8)
  | read (n : Nat)
  /-- `queue_read` with a NULL buffer: drop up to `n` bytes -/
  | discard (n : Nat)
  | view (n : Nat)
  | readByte
  | flush
  | contents
  | freeSpace
  | empty
deriving Repr, DecidableEq

/-- What the user observes: the return value and the bytes delivered. -/
structure Out where
  ret : Int
  bytes : List UInt8 := []
deriving Repr, DecidableEq

/-- A FIFO of capacity `cap`; `ra`/`wa` are the all-or-nothing read/write modes. -/
structure Fifo where
  cap : Nat
  ra : Bool
  wa : Bool
  items : List UInt8
deriving Repr, DecidableEq

def bool (b : Bool) : Int := if b then 1 else 0

def step (q : Fifo) : Op → Out × Fifo
  | .write buf =>
    if q.wa ∧ q.cap - q.items.length < buf.length then (⟨-1, []⟩, q)
    else
      let accepted := buf.take (q.cap - q.items.length)
      (⟨accepted.length, []⟩, { q with items := q.items ++ accepted })
  | .writeByte b =>
    if q.items.length < q.cap then (⟨1, []⟩, { q with items := q.items ++ [b] })
    else (⟨if q.wa then -1 else 0, []⟩, q)
  | .read n =>
    if q.ra ∧ q.items.length < n then (⟨-1, []⟩, q)
    else (⟨(q.items.take n).length, q.items.take n⟩, { q with items := q.items.drop n })
  | .discard n =>
    if q.ra ∧ q.items.length < n then (⟨-1, []⟩, q)
    else (⟨(q.items.take n).length, []⟩, { q with items := q.items.drop n })
  | .view n =>
    if q.ra ∧ q.items.length < n then (⟨-1, []⟩, q)
    else (⟨(q.items.take n).length, q.items.take n⟩, q)
  | .readByte =>
    match q.items with
    | [] => (⟨-1, []⟩, q)
    | b :: rest => (⟨b.toNat, []⟩, { q with items := rest })
  | .flush => (⟨0, []⟩, { q with items := [] })
  | .contents => (⟨q.items.length, []⟩, q)
  | .freeSpace => (⟨q.cap - q.items.length, []⟩, q)
  | .empty => (⟨bool q.items.isEmpty, []⟩, q)

/-- All the observations of a sequence of calls. -/
def run : Fifo → List Op → List Out
  | _, [] => []
  | q, op :: ops => (step q op).1 :: run (step q op).2 ops

/-! ## What a message queue is -/

inductive MsgOp
  | write (msg : List UInt8)
  | read (n : Nat)
  | test
deriving Repr, DecidableEq

/-- A FIFO of whole messages in `cap` bytes of storage, where each message costs its own
length plus two. -/
def msgUsed (q : List (List UInt8)) : Nat := (q.map fun m => m.length + 2).sum

def msgStep (cap : Nat) (q : List (List UInt8)) : MsgOp → Out × List (List UInt8)
  | .write m =>
    if msgUsed q + m.length + 2 ≤ cap then (⟨m.length, []⟩, q ++ [m]) else (⟨-1, []⟩, q)
  | .read n =>
    match q with
    | [] => (⟨-1, []⟩, [])
    | m :: rest => (⟨(m.take n).length, m.take n⟩, rest)
  | .test =>
    match q with
    | [] => (⟨-1, []⟩, [])
    | m :: _ => (⟨m.length, []⟩, q)

def msgRun (cap : Nat) : List (List UInt8) → List MsgOp → List Out
  | _, [] => []
  | q, op :: ops => (msgStep cap q op).1 :: msgRun cap (msgStep cap q op).2 ops

end Queue.Spec
