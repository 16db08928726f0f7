import Verif.V8.Model

/-!
# What a user of V.8 may rely on: the words used in the theorems
-/

namespace V8

/-- The numbers of the modulations which can be told with one, two or three octets: V.34 and V.90; then
V.17, V.22, V.27ter, V.29 and V.32; then V.21, V.23, V.26. -/
def tellable (n : Nat) : List Nat :=
  [10, 11, 12] ++ (if 1 < n then [0, 2, 7, 8, 9] else []) ++ (if 2 < n then [1, 3, 4, 5, 6] else [])

/-- `got` is what one who knows nothing yet learns from a CM or JM about `result` and `parms`, with `n`
octets for the modulations: three bits of each value, no more. -/
structure Told (n : Nat) (result parms got : Msg) : Prop where
  call : got.call = result.call &&& 7#32
  modulations : ∀ k, got.modulations.getLsbD k = (result.modulations.getLsbD k && decide (k ∈ tellable n))
  protocols : got.protocols = parms.protocols &&& 7#32
  pstn : got.pstn = parms.pstn &&& 7#32
  pcm : got.pcm = parms.pcm &&& 7#32
  t66 : got.t66 = if 0 ≤ parms.t66.toInt then parms.t66 &&& 7#32 else BitVec.allOnes 32
  nsf : got.nsf = BitVec.allOnes 32

/-- The result of one who has been told nothing by CM or JM, whatever the call function and the
modulations. -/
def Blank (m : Msg) : Prop :=
  m.protocols = 0#32 ∧ m.pstn = 0#32 ∧ m.pcm = 0#32 ∧ m.nsf = BitVec.allOnes 32 ∧ m.t66 = BitVec.allOnes 32

/-- `l`, `k` times over. -/
def times (k : Nat) (l : List Bool) : List Bool := (List.replicate k l).flatten

/-- A status which ends a negotiation. -/
def Status.final : Status → Bool
  | .offered => false
  | _ => true

/-- How many final statuses have been reported. -/
def finals (s : V8) : Nat := (s.reports.filter Status.final).length

/-- The samples received in a run. -/
def samples : List Event → Nat
  | [] => 0
  | .rx len _ _ _ :: l => len + samples l
  | _ :: l => samples l

/-- What an octet for non-standard facilities looks like. -/
def isNsf (o : Byte) : Bool := o &&& 0x1F#8 == 0x0F#8

/-- The bits the modulator takes in a run. -/
def sent (s : V8) : List Event → List Bool
  | [] => []
  | e :: l =>
    (match e with
     | .bit => if s.sending then s.queue.take 1 else []
     | _ => []) ++
    (match step s e with
     | some s' => sent s' l
     | none => [])

/-- Four CI messages of a caller. -/
def IsCi (b : List Bool) : Prop := ∃ call, b = times 4 (message 0x00#8 [octet call 0x01#8])

/-- A whole CM of a caller with parameters `p`, with all three octets of modulations.  (The call function
may have become one the other end asked for with CI.) -/
def IsCm (p : Parms) (b : List Bool) : Prop :=
  ∃ result : Msg, result.modulations = p.cm.modulations ∧ b = cmBits result p.cm 3

/-- CI messages only; then CMs; then V.92 messages if they are wanted, and more CMs; then CJ. -/
def Ringing (b : List Bool) : Prop := ∃ l : List (List Bool), (∀ m ∈ l, IsCi m) ∧ b = l.flatten
def Early (p : Parms) (b : List Bool) : Prop :=
  ∃ b1, ∃ l : List (List Bool), Ringing b1 ∧ (∀ m ∈ l, IsCm p m) ∧ b = b1 ++ l.flatten
def Offering (p : Parms) (b : List Bool) : Prop :=
  ∃ b1, ∃ l : List (List Bool), Early p b1 ∧ l ≠ [] ∧ (∀ m ∈ l, IsCm p m) ∧
    b = b1 ++ v92Bits p.v92 ++ l.flatten
def Accepted (p : Parms) (b : List Bool) : Prop :=
  ∃ b1, (Early p b1 ∨ Offering p b1) ∧ b = b1 ++ cjBits

end V8
