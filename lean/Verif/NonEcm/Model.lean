import Verif.BitOps.Model

/-!
# Model of src/t38_non_ecm_buffer.c, the flow controlled buffer between T.38 and a modem

Not modelled: the counts which are only logged (`in_octets`, `in_rows`, `out_octets`, `out_rows`, `min_row_bits_fill_octets`,
`flow_control_fill_octets`). `row_bits` is unbounded: a row of 2^31 bits, which would overflow it in C, is not modelled.
-/

namespace NonEcm

abbrev Octet := BitVec 8

/-- `T38_NON_ECM_TX_BUF_LEN`, src/spandsp/t38_non_ecm_buffer.h:72. -/
def size : Nat := 16384

/-- The phases, src/t38_non_ecm_buffer.c:65-71. -/
inductive Phase where
  | tcfOnes
  | tcfZeros
  | waiting
  | inProgress
deriving DecidableEq

/-- `t38_non_ecm_buffer_state_s`, src/spandsp/private/t38_non_ecm_buffer.h:32-84. -/
structure State where
  minBits : Int
  data : Nat → Octet
  inPtr : Nat
  outPtr : Nat
  eolPtr : Nat
  rowBits : Int
  bitStream : BitVec 32
  fill : Octet
  phase : Phase
  finished : Bool
  octet : BitVec 32
  bitNo : Nat
  imageMode : Bool

/-- `restart_buffer`, src/t38_non_ecm_buffer.c:73-85. -/
def restart (s : State) : State :=
  { s with
    octet := 0xFF
    fill := 0xFF
    phase := if s.imageMode then .waiting else .tcfOnes
    bitStream := 0xFFFF
    outPtr := 0
    inPtr := 0
    eolPtr := 0
    finished := false }

/-- `t38_non_ecm_buffer_init`, src/t38_non_ecm_buffer.c:385-399. -/
def init (imageMode : Bool) (minBits : Int) : State :=
  restart ⟨minBits, fun _ => 0, 0, 0, 0, 0, 0, 0, .tcfOnes, false, 0, 0, imageMode⟩

/-- The sending of a bit of the current octet, src/t38_non_ecm_buffer.c:123-126. -/
def shiftOut (s : State) : State × Option Bool :=
  ({ s with bitNo := s.bitNo - 1, octet := s.octet <<< 1 }, some ((s.octet >>> 7) &&& 1 = 1))

/-- `t38_non_ecm_buffer_get_bit`, src/t38_non_ecm_buffer.c:88-127. `none` is `SIG_STATUS_END_OF_DATA`. -/
def getBit (s : State) : State × Option Bool :=
  if s.bitNo = 0 then
    if s.outPtr ≠ s.eolPtr then
      shiftOut { s with octet := (s.data s.outPtr).setWidth 32, outPtr := (s.outPtr + 1) % size, bitNo := 8 }
    else if s.finished then (restart s, none)
    else shiftOut { s with octet := s.fill.setWidth 32, bitNo := 8 }
  else shiftOut s

/-- `t38_non_ecm_buffer_push`, src/t38_non_ecm_buffer.c:130-136. -/
def push (s : State) : State := { s with eolPtr := s.inPtr, finished := true }

/-- `s->data[s->in_ptr] = b; s->in_ptr = (s->in_ptr + 1) & (T38_NON_ECM_TX_BUF_LEN - 1)`, as e.g. in src/t38_non_ecm_buffer.c:317-321. -/
def store (s : State) (b : Octet) : State :=
  { s with data := fun i => if i = s.inPtr then b else s.data i, inPtr := (s.inPtr + 1) % size }

/-- `lower`, src/t38_non_ecm_buffer.c:229 and 280. -/
def lower (b : Octet) : Int := BitOps.topBit (b.setWidth 32)

/-- The test for an EOL, src/t38_non_ecm_buffer.c:220-230 and 271-281. -/
def isEol (s : State) (b : Octet) : Bool :=
  b ≠ 0 ∧ BitOps.bottomBit (s.bitStream ||| 0x800) - lower b > 11 - 8

/-- `s->bit_stream = (s->bit_stream << 8) | buf[i]`, src/t38_non_ecm_buffer.c:249, 256 and 316. -/
def shiftIn (s : State) (b : Octet) : State := { s with bitStream := (s.bitStream <<< 8) ||| b.setWidth 32 }

/-- An octet of a TCF, the loop of src/t38_non_ecm_buffer.c:202-211. -/
def tcfOctet (s : State) (b : Octet) : State := store { s with eolPtr := s.inPtr } b

/-- The loop which drops the initial ones of a TCF, src/t38_non_ecm_buffer.c:189-199, and what it falls through to. -/
def tcfStart (s : State) : List Octet → State
  | [] => s
  | b :: buf => if b ≠ 0xFF then (b :: buf).foldl tcfOctet { s with phase := .tcfZeros, fill := 0x00 } else tcfStart s buf

/-- The first EOL, src/t38_non_ecm_buffer.c:233-251. -/
def firstEol (s : State) (b : Octet) : State :=
  shiftIn (store (store (store { s with phase := .inProgress, rowBits := lower b - 8, eolPtr := s.inPtr, fill := 0x00 } 0x00) 0x00) b) b

/-- The loop which makes a row long enough, src/t38_non_ecm_buffer.c:294-303. It runs at most as often as there are bits missing. -/
def extendRow : Nat → State → State
  | 0, s => s
  | n + 1, s => if s.rowBits < s.minBits then extendRow n (store { s with rowBits := s.rowBits + 8 } 0) else s

/-- An EOL of the image, src/t38_non_ecm_buffer.c:283-311. -/
def nextEol (s : State) (b : Octet) : State :=
  let s := { s with rowBits := s.rowBits + (8 - lower b) }
  let s :=
    if s.rowBits < 12 ∨ s.rowBits > 13 then
      let s := extendRow (s.minBits - s.rowBits).toNat s
      { s with eolPtr := s.inPtr }
    else s
  { s with rowBits := lower b - 8 }

/-- An octet of the image, the loop of src/t38_non_ecm_buffer.c:269-322. -/
def imageOctet (s : State) (b : Octet) : State :=
  let s := if isEol s b then nextEol s b else s
  let s := shiftIn s b
  store { s with rowBits := s.rowBits + 8 } b

/-- The loop which waits for the first EOL, src/t38_non_ecm_buffer.c:218-261, and what it falls through to. -/
def imageStart (s : State) : List Octet → State
  | [] => s
  | b :: buf => if isEol s b then buf.foldl imageOctet (firstEol s b) else imageStart (shiftIn s b) buf

/-- `t38_non_ecm_buffer_inject`, src/t38_non_ecm_buffer.c:139-328. -/
def inject (s : State) (buf : List Octet) : State :=
  match s.phase with
  | .tcfOnes => tcfStart s buf
  | .tcfZeros => buf.foldl tcfOctet s
  | .waiting => imageStart s buf
  | .inProgress => buf.foldl imageOctet s

/-- `t38_non_ecm_buffer_set_mode`, src/t38_non_ecm_buffer.c:367-382. -/
def setMode (s : State) (imageMode : Bool) (minBits : Int) : State :=
  let s' := { s with imageMode := imageMode, minBits := minBits }
  if imageMode ≠ s.imageMode then restart s' else s'

/-- What happens to the buffer while data flows: an octet arrives or the modem takes a bit. -/
inductive Op where
  | put (b : Octet)
  | get
deriving DecidableEq

/-- A schedule, and the bits the modem gets. -/
def run (s : State) : List Op → State × List (Option Bool)
  | [] => (s, [])
  | .put b :: ops => run (inject s [b]) ops
  | .get :: ops =>
    let (s, b) := getBit s
    let (s, bs) := run s ops
    (s, b :: bs)

end NonEcm
