import Verif.T38.Model

/-!
# What is expected of T.38

The applications on both sides are part of this: they do nothing but call the functions of the model.
-/

namespace T38

/-! ## Messages -/

/-- A field which can be sent. -/
def Field.Ok (version : Nat) (f : Field) : Prop := (f.type ≤ 7 ∨ version ≠ 0 ∧ f.type ≤ 11) ∧ f.octets.length ≤ 65535

/-- Fields which can be sent: in version 0 only the last may be without octets. -/
def FieldsOk (version : Nat) (fs : List Field) : Prop := (∀ f ∈ fs, f.Ok version) ∧ (version = 0 → ∀ f ∈ fs.dropLast, f.octets ≠ [])

/-- What the application sends. -/
inductive Msg where
  | indicator (i : Nat)
  | data (type : Nat) (fields : List Field)
deriving DecidableEq

/-- The messages there are in a version of T.38. -/
def Msg.Ok (version : Nat) : Msg → Prop
  | .indicator i => i ≤ 15 ∨ version ≠ 0 ∧ i ≤ 22
  | .data t fs => (t ≤ 8 ∨ version ≠ 0 ∧ t ≤ 14) ∧ fs.length < 128 ∧ FieldsOk version fs

/-- What the receiver shall hear of a message. -/
def Msg.events : Msg → List Ev
  | .indicator i => [.indicator i]
  | .data t fs => fs.map (.data t)

/-- A bound of the octets of a packet with this message: two for an indicator; two for a type and one for the number of fields of data, and four more for each field than it has octets. -/
def Msg.size : Msg → Nat
  | .indicator _ => 2
  | .data _ fs => 3 + (fs.map fun f => f.octets.length + 4).sum

/-- The application may send the message: there is such a message, and it fits in a packet. -/
def Msg.Good (version : Nat) (m : Msg) : Prop := m.Ok version ∧ m.size ≤ 996

/-- The messages the other side is told of. An indicator which is the same as the one before it (at the beginning this is `current`) is told once. -/
def told (current : Int) : List Msg → List Msg
  | [] => []
  | .indicator i :: t => if current = i then told current t else .indicator i :: told i t
  | m :: t => m :: told current t

/-! ## The sender -/

/-- The application sends a message; data with some category of packets. The packet handler succeeds. -/
def send (s : Core) : Msg × Nat → Option Sent
  | (.indicator i, _) => sendIndicator s true i
  | (.data t fs, category) => sendData s true t fs category

/-- It sends some messages one after the other. This gives the packets with their sequence numbers. A call which fails (a negative number is returned) is `none`. -/
def sendAll : Core → List (Msg × Nat) → Option (Core × List (Nat × List Byte))
  | s, [] => some (s, [])
  | s, m :: t => (send s m).bind fun r =>
    if r.ret < 0 then none
    else (sendAll r.core t).map fun q => (q.1, (match r.packet with | some p => [(p.1, p.2.1)] | none => []) ++ q.2)

/-! ## The receiver of packets -/

/-- The application hands over the packets it gets. A call which fails is `none`. -/
def hear : Core → List (Nat × List Byte) → Option (Core × List Ev)
  | s, [] => some (s, [])
  | s, p :: t => (rxPacket s p.2 p.1).bind fun r => if r.1 < 0 then none else (hear r.2.1 t).map fun q => (q.1, r.2.2 ++ q.2)

/-- The network delivers the packets with these numbers, in this order, when `next` is the one after the latest so far. It may lose them, repeat them and put them in another order, but
none is 2000 or more away from `next`. The first may be any. -/
def Near : Option Nat → List Nat → Prop
  | _, [] => True
  | none, x :: t => Near (some (x + 1)) t
  | some next, x :: t => x < next + 2000 ∧ next < x + 2000 ∧ Near (some (max next (x + 1))) t

/-- What is heard then: of each packet which is later than all before it, its message, and before it how many packets are missing if there are some; of all others, nothing. `first` is the
sequence number of packet 0. -/
def heard (msgs : List Msg) (first : Nat) : Option Nat → List Nat → List Ev
  | _, [] => []
  | none, x :: t => (msgs[x]?.map Msg.events).getD [] ++ heard msgs first (some (x + 1)) t
  | some next, x :: t =>
    if x < next then heard msgs first (some next) t
    else (if x = next then [] else [Ev.missing (((first + next) % 65536 : Nat) : Int) (((first + x) % 65536 : Nat) : Int)]) ++ (msgs[x]?.map Msg.events).getD [] ++
      heard msgs first (some (x + 1)) t

/-! ## The receiver of a stream -/

/-- The application hands over the octets it has, as long as it has `enough` of them and a packet is taken. The packet is removed then. `n` bounds the number of calls. A call which fails is
`none`. -/
def drain (enough : Nat) : Nat → Core → List Byte → Option (Core × List Byte × List Ev)
  | 0, s, buf => some (s, buf, [])
  | n + 1, s, buf =>
    if buf.length < enough then some (s, buf, [])
    else (rxStream s buf).bind fun r =>
      if r.1 < 0 then none
      else if r.1 = 0 then some (r.2.1, buf, r.2.2)
      else (drain enough n r.2.1 (buf.drop r.1.toNat)).map fun q => (q.1, q.2.1, r.2.2 ++ q.2.2)

/-- It gets the stream in some pieces, and keeps what is left of each. -/
def listen (enough : Nat) : Core → List Byte → List (List Byte) → Option (Core × List Byte × List Ev)
  | s, buf, [] => some (s, buf, [])
  | s, buf, x :: t => (drain enough ((buf ++ x).length + 1) s (buf ++ x)).bind fun r => (listen enough r.1 r.2.1 t).map fun q => (q.1, q.2.1, r.2.2 ++ q.2.2)

end T38
