import Verif.C

/-!
# Model of `src/queue.c`

`none` is undefined behaviour (a `memcpy` or index outside an object). C `int` arithmetic
is done on `Int`: the pointers stay in `0 .. len-1` (proved), so nothing overflows as long
as `len + 1` fits an `int`, which `queue_init` needs anyway.
-/

namespace Queue
open C

/-- `struct queue_state_s`, src/spandsp/private/queue.h:33-47. `data` is the flexible array
member; its length is fixed when the structure is allocated. -/
structure State where
  flags : Nat
  len   : Int
  iptr  : Int
  optr  : Int
  data  : Mem
deriving DecidableEq, Repr

/-- `s->flags & QUEUE_READ_ATOMIC`, src/spandsp/queue.h:45. -/
def State.readAtomic (s : State) : Bool := s.flags.testBit 0
/-- `s->flags & QUEUE_WRITE_ATOMIC`, src/spandsp/queue.h:48. -/
def State.writeAtomic (s : State) : Bool := s.flags.testBit 1

/-- `queue_init`, src/queue.c:405-419. The data block comes from the allocator (or the
caller) with unknown contents, `garbage`, of size `len + 1`. -/
def init (len : Int) (flags : Nat) (garbage : Mem) : State :=
  { iptr := 0, optr := 0, flags := flags, len := len + 1, data := garbage }

/-- `queue_empty`, src/queue.c:55-58. -/
def empty (s : State) : Bool := decide (s.iptr = s.optr)

/-- `queue_free_space`, src/queue.c:61-69. -/
def freeSpace (s : State) : Int :=
  let len := s.optr - s.iptr - 1
  if len < 0 then len + s.len else len

/-- `queue_contents`, src/queue.c:72-80. -/
def contents (s : State) : Int :=
  let len := s.iptr - s.optr
  if len < 0 then len + s.len else len

/-- `queue_flush`, src/queue.c:83-86. -/
def flush (s : State) : State := { s with optr := s.iptr }

/-- `queue_view`, src/queue.c:89-136. The result is the return value and the bytes stored
in the caller's buffer (`buf = false` is a NULL buffer, which receives nothing). -/
def view (s : State) (buf : Bool) (len : Int) : Option (Int × List UInt8) :=
  let iptr := s.iptr
  let optr := s.optr
  let rl0 := if iptr - optr < 0 then iptr - optr + s.len else iptr - optr
  if rl0 < len ∧ s.readAtomic then some (-1, [])
  else
    let realLen := if rl0 < len then rl0 else len
    if realLen = 0 then some (0, [])
    else
      let toEnd := s.len - optr
      if iptr < optr ∧ toEnd < realLen then
        if buf then do
          let a ← slice s.data optr toEnd
          let b ← slice s.data 0 (realLen - toEnd)
          return (realLen, a ++ b)
        else return (realLen, [])
      else
        if buf then do
          let a ← slice s.data optr realLen
          return (realLen, a)
        else return (realLen, [])

/-- `queue_read`, src/queue.c:139-194. -/
def read (s : State) (buf : Bool) (len : Int) : Option (Int × List UInt8 × State) :=
  let iptr := s.iptr
  let optr := s.optr
  let rl0 := if iptr - optr < 0 then iptr - optr + s.len else iptr - optr
  if rl0 < len ∧ s.readAtomic then some (-1, [], s)
  else
    let realLen := if rl0 < len then rl0 else len
    if realLen = 0 then some (0, [], s)
    else
      let toEnd := s.len - optr
      if iptr < optr ∧ toEnd < realLen then do
        let out ← if buf then do
            let a ← slice s.data optr toEnd
            let b ← slice s.data 0 (realLen - toEnd)
            pure (a ++ b)
          else pure []
        return (realLen, out, { s with optr := realLen - toEnd })
      else do
        let out ← if buf then slice s.data optr realLen else pure []
        let newOptr := optr + realLen
        return (realLen, out, { s with optr := if newOptr ≥ s.len then 0 else newOptr })

/-- `queue_read_byte`, src/queue.c:197-220. -/
def readByte (s : State) : Option (Int × State) :=
  let iptr := s.iptr
  let optr := s.optr
  let realLen := if iptr - optr < 0 then iptr - optr + s.len else iptr - optr
  if realLen < 1 then some (-1, s)
  else do
    let byte ← load1 s.data optr
    let optr := optr + 1
    return ((byte.toNat : Int), { s with optr := if optr ≥ s.len then 0 else optr })

/-- `queue_write`, src/queue.c:223-273. `buf` is the caller's buffer, which must hold at
least `len` bytes for the call to be defined. -/
def write (s : State) (buf : Mem) (len : Int) : Option (Int × State) :=
  let iptr := s.iptr
  let optr := s.optr
  let rl0 := if optr - iptr - 1 < 0 then optr - iptr - 1 + s.len else optr - iptr - 1
  if rl0 < len ∧ s.writeAtomic then some (-1, s)
  else
    let realLen := if rl0 < len then rl0 else len
    if realLen = 0 then some (0, s)
    else
      let toEnd := s.len - iptr
      if iptr < optr ∨ toEnd ≥ realLen then do
        let d ← store s.data iptr (← slice buf 0 realLen)
        let newIptr := iptr + realLen
        return (realLen, { s with data := d, iptr := if newIptr ≥ s.len then 0 else newIptr })
      else do
        let d ← store s.data iptr (← slice buf 0 toEnd)
        let d ← store d 0 (← slice buf toEnd (realLen - toEnd))
        return (realLen, { s with data := d, iptr := realLen - toEnd })

/-- `queue_write_byte`, src/queue.c:276-304. -/
def writeByte (s : State) (byte : UInt8) : Option (Int × State) :=
  let iptr := s.iptr
  let optr := s.optr
  let realLen := if optr - iptr - 1 < 0 then optr - iptr - 1 + s.len else optr - iptr - 1
  if realLen < 1 then
    if s.writeAtomic then some (-1, s) else some (0, s)
  else do
    let d ← store1 s.data iptr byte
    let iptr := iptr + 1
    return (1, { s with data := d, iptr := if iptr ≥ s.len then 0 else iptr })

/-- The two bytes of a `uint16_t` in memory, little-endian host (the code copies the
object representation, so both ends agree whatever the byte order). -/
def u16bytes (n : Nat) : List UInt8 := [UInt8.ofNat (n % 256), UInt8.ofNat (n / 256 % 256)]

/-- The `uint16_t` with the given object representation. -/
def u16val (l : List UInt8) : Int :=
  match l with
  | [a, b] => a.toNat + 256 * b.toNat
  | _ => 0

/-- `(uint16_t) len`. -/
def toU16 (len : Int) : Nat := (len % 65536).toNat

/-- `queue_state_test_msg`, src/queue.c:307-315. -/
def testMsg (s : State) : Option Int := do
  let (r, l) ← view s true 2
  if r ≠ 2 then return -1 else return u16val l

/-- `queue_read_msg`, src/queue.c:318-341. -/
def readMsg (s : State) (len : Int) : Option (Int × List UInt8 × State) := do
  let (r, l, s) ← read s true 2
  if r ≠ 2 then return (-1, [], s)
  else
    let lenx := u16val l
    if lenx = 0 then return (0, [], s)
    else if lenx > len then do
      let (len, out, s) ← read s true len
      let (_, _, s) ← read s false (lenx - len)
      return (len, out, s)
    else read s true lenx

/-- `queue_write_msg`, src/queue.c:344-402. -/
def writeMsg (s : State) (buf : Mem) (len : Int) : Option (Int × State) :=
  let iptr := s.iptr
  let optr := s.optr
  let rl0 := if optr - iptr - 1 < 0 then optr - iptr - 1 + s.len else optr - iptr - 1
  if rl0 < len + 2 then some (-1, s)
  else
    let realLen := len + 2
    let toEnd := s.len - iptr
    let lenx := u16bytes (toU16 len)
    if iptr < optr ∨ toEnd ≥ realLen then do
      let d ← store s.data iptr lenx
      let d ← store d (iptr + 2) (← slice buf 0 len)
      let newIptr := iptr + realLen
      return (len, { s with data := d, iptr := if newIptr ≥ s.len then 0 else newIptr })
    else if toEnd ≥ 2 then do
      let d ← store s.data iptr lenx
      let d ← store d (iptr + 2) (← slice buf 0 (toEnd - 2))
      let d ← store d 0 (← slice buf (toEnd - 2) (realLen - toEnd))
      return (len, { s with data := d, iptr := realLen - toEnd })
    else do
      let d ← store s.data iptr (← slice lenx 0 toEnd)
      let d ← store d 0 (← slice lenx toEnd (2 - toEnd))
      let d ← store d (2 - toEnd) (← slice buf 0 len)
      return (len, { s with data := d, iptr := realLen - toEnd })

end Queue
