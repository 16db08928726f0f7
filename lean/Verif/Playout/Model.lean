import Verif.C

/-!
# Model of src/playout.c

Pointers are addresses in a heap. A fault is undefined behaviour: `overflow` is a signed overflow, and
`pointer` is a dereference of a null or dangling pointer, or a second release of the same block.
-/

namespace Playout

inductive Fault | overflow | pointer
deriving DecidableEq

abbrev M (α : Type) := Except Fault α

/-- Signed 32 bit arithmetic. -/
def int (x : Int) : M Int := if -2147483648 ≤ x ∧ x ≤ 2147483647 then .ok x else .error .overflow

/-- Frame types, src/spandsp/playout.h:53-55. -/
def typeControl : Int := 0
def typeSilence : Int := 1
def typeSpeech : Int := 2

/-- The contents of a `playout_frame_t`, src/spandsp/private/playout.h:29-40. -/
structure Frame where
  data : Nat
  type : Int
  senderStamp : Int
  senderLen : Int
  receiverStamp : Int
deriving DecidableEq

/-- A `playout_frame_t`, src/spandsp/private/playout.h:29-45. -/
structure Node where
  frame : Frame
  earlier : Option Nat
  later : Option Nat
deriving DecidableEq

/-- The heap, and the pointers in `playout_state_t` (src/spandsp/private/playout.h:64-68). `fresh` is the
next address `span_alloc` will return. -/
structure Links where
  heap : Nat → Option Node
  fresh : Nat
  first : Option Nat
  last : Option Nat
  free : Option Nat

/-- The numbers in `playout_state_t`, src/spandsp/private/playout.h:53-62 and 70-101. -/
structure Nums where
  dynamic : Bool
  minLength : Int
  maxLength : Int
  dropable : Int
  start : Bool
  framesIn : Int
  framesOut : Int
  framesOos : Int
  framesLate : Int
  framesMissing : Int
  latestExpected : Int
  lastStamp : Int
  lastLen : Int
  notFirst : Bool
  sinceLastStep : Int
  justInTime : Int
  late : Int
  target : Int
  actual : Int
deriving DecidableEq

structure State where
  links : Links
  nums : Nums

/-- Read through a pointer. -/
def deref (h : Nat → Option Node) : Option Nat → M Node
  | none => .error .pointer
  | some a => match h a with
    | none => .error .pointer
    | some n => .ok n

/-- Write through a pointer. -/
def store (h : Nat → Option Node) (a : Nat) (v : Option Node) : Nat → Option Node := fun b => if b = a then v else h b

/-- Change a node through a pointer. -/
def update (h : Nat → Option Node) (p : Option Nat) (f : Node → Node) : M (Nat → Option Node) := do
  let n ← deref h p
  match p with
  | none => .error .pointer
  | some a => return store h a (some (f n))

/-- `queue_get`, src/playout.c:54-82. -/
def queueGet (l : Links) (stamp : Int) : M (Links × Option Nat) := do
  match l.first with
  | none => return (l, none)
  | some a =>
    let n ← deref l.heap (some a)
    if stamp ≥ n.frame.senderStamp then
      match n.later with
      | some b =>
        let heap ← update l.heap (some b) fun m => { m with earlier := none }
        return ({ l with heap := heap, first := some b }, some a)
      | none => return ({ l with first := none, last := none }, some a)
    else return (l, none)

/-- Put a frame on the free list, src/playout.c:104-105, 207-208, 219-220 and 238-239. -/
def release (l : Links) (a : Nat) : M Links := do
  let heap ← update l.heap (some a) fun m => { m with later := l.free }
  return { l with heap := heap, free := some a }

/-- `playout_next_due`, src/playout.c:85-88. -/
def nextDue (s : State) : M Int := int (s.nums.lastStamp + s.nums.lastLen)

/-- `playout_current_length`, src/playout.c:91-94. -/
def currentLength (s : State) : Int := s.nums.target

/-- `playout_get_unconditional`, src/playout.c:97-113. -/
def getUnconditional (s : State) : M (State × Option Frame) := do
  let (l, p) ← queueGet s.links 0x7FFFFFFF
  match p with
  | none => return ({ s with links := l }, none)
  | some a =>
    let l ← release l a
    let n ← deref l.heap (some a)
    return ({ s with links := l }, some n.frame)

/-- The first frame, src/playout.c:133-139. -/
def prime (m : Nums) (f : Frame) : M Nums :=
  if m.notFirst then .ok m else do
    let e ← int (f.receiverStamp + m.minLength)
    return { m with notFirst := true, latestExpected := e }

/-- The rates of late frames and of those just in time, src/playout.c:140-143. `>> 8` of a negative number is
taken to round down. -/
def integrate (m : Nums) (f : Frame) : M Nums := do
  let d ← int ((if f.receiverStamp > m.latestExpected then 0x10000000 else 0) - m.late)
  let late ← int (m.late + d / 256)
  let edge ← int (m.latestExpected - f.senderLen)
  let d ← int ((if f.receiverStamp > edge then 0x10000000 else 0) - m.justInTime)
  let jit ← int (m.justInTime + d / 256)
  let e ← int (m.latestExpected + f.senderLen)
  return { m with late := late, justInTime := jit, latestExpected := e }

/-- The change of the target, src/playout.c:145-194. -/
def adapt (m : Nums) (f : Frame) : M Nums :=
  if m.late > m.dropable then
    if m.sinceLastStep < 10 then do
      let edge ← int (m.maxLength - 2)
      if m.target < edge then
        let step ← int (3 * f.senderLen)
        let t ← int (m.target + step)
        let e ← int (m.latestExpected + step)
        let back ← int (3 * m.lastLen)
        let ls ← int (m.lastStamp - back)
        return { m with target := t, latestExpected := e, justInTime := m.dropable, late := 0, sinceLastStep := 0, lastStamp := ls }
      else return m
    else if m.target < m.maxLength then do
      let t ← int (m.target + f.senderLen)
      let e ← int (m.latestExpected + f.senderLen)
      let ls ← int (m.lastStamp - m.lastLen)
      return { m with target := t, latestExpected := e, justInTime := m.dropable, late := 0, sinceLastStep := 0, lastStamp := ls }
    else .ok m
  else if m.sinceLastStep > 500 ∧ m.justInTime < m.dropable then
    if m.target > m.minLength then do
      let t ← int (m.target - f.senderLen)
      let e ← int (m.latestExpected - f.senderLen)
      let ls ← int (m.lastStamp + m.lastLen)
      return { m with target := t, latestExpected := e, justInTime := m.dropable, late := 0, sinceLastStep := 0, lastStamp := ls }
    else .ok m
  else .ok m

/-- The assessment of the length of the buffer, src/playout.c:130-197. -/
def assess (m : Nums) (f : Frame) : M Nums :=
  if m.dynamic = true ∧ f.type = typeSpeech then do
    let m ← prime m f
    let m ← integrate m f
    let m ← adapt m f
    let n ← int (m.sinceLastStep + 1)
    return { m with sinceLastStep := n }
  else .ok m

/-- The return codes, src/spandsp/playout.h:42-50. -/
inductive Code | ok | error | empty | noframe | fillin | drop
deriving DecidableEq

/-- The decision about a frame which has been found, src/playout.c:130-242. -/
def judge (m : Nums) (f : Frame) : M (Nums × Code) := do
  let m ← assess m f
  if f.type ≠ typeSpeech then
    let ls ← int (m.lastStamp - m.lastLen)
    let o ← int (m.framesOut + 1)
    return ({ m with lastStamp := ls, framesOut := o }, .ok)
  else if f.senderStamp < m.lastStamp then
    let ls ← int (m.lastStamp - m.lastLen)
    let o ← int (m.framesOut + 1)
    let l ← int (m.framesLate + 1)
    let x ← int (m.framesMissing - 1)
    return ({ m with lastStamp := ls, framesOut := o, framesLate := l, framesMissing := x }, .drop)
  else
    let o ← int (m.framesOut + 1)
    return ({ m with lastLen := if f.senderLen > 0 then f.senderLen else m.lastLen, framesOut := o }, .ok)

/-- `playout_get` after the queue has been looked at, src/playout.c:122-242. The release of the frame, which is the
same in each case, is moved to the end. -/
def deliver (l : Links) (m : Nums) : Option Nat → M (State × Code × Option Frame)
  | none => do
    let x ← int (m.framesMissing + 1)
    return (⟨l, { m with framesMissing := x }⟩, .fillin, none)
  | some a => do
    let n ← deref l.heap (some a)
    let (m, c) ← judge m n.frame
    let l ← release l a
    return (⟨l, m⟩, c, some n.frame)

/-- `playout_get`, src/playout.c:116-243. -/
def get (s : State) : M (State × Code × Option Frame) := do
  let ls ← int (s.nums.lastStamp + s.nums.lastLen)
  let (l, p) ← queueGet s.links ls
  deliver l { s.nums with lastStamp := ls } p

/-- Acquire a frame, src/playout.c:255-266. `mem` says if there is memory for a new one. -/
def acquire (l : Links) (mem : Bool) : M (Links × Option Nat) :=
  match l.free with
  | some a => do
    let n ← deref l.heap (some a)
    return ({ l with free := n.later }, some a)
  | none =>
    if mem then .ok ({ l with heap := store l.heap l.fresh (some ⟨⟨0, 0, 0, 0, 0⟩, none, none⟩), fresh := l.fresh + 1 }, some l.fresh)
    else .ok (l, none)

/-- The search for a place in the queue, src/playout.c:298-301. `fuel` bounds the number of turns. -/
def search (h : Nat → Option Node) (stamp : Int) : Nat → Option Nat → M (Option Nat)
  | 0, _ => .error .pointer
  | fuel + 1, p => do
    let n ← deref h p
    if stamp < n.frame.senderStamp ∧ n.earlier.isSome then search h stamp fuel n.earlier else return p

/-- Put a frame in the queue, src/playout.c:268-321. The result says if it was out of sequence. -/
def queuePut (l : Links) (a : Nat) (f : Frame) : M (Links × Bool) := do
  let heap ← update l.heap (some a) fun n => { n with frame := f }
  match l.last with
  | none =>
    let heap ← update heap (some a) fun n => { n with later := none, earlier := none }
    return ({ l with heap := heap, first := some a, last := some a }, false)
  | some z =>
    let n ← deref heap (some z)
    if f.senderStamp ≥ n.frame.senderStamp then
      let heap ← update heap (some a) fun n => { n with later := none, earlier := some z }
      let heap ← update heap (some z) fun n => { n with later := some a }
      return ({ l with heap := heap, last := some a }, false)
    else
      let p ← search heap f.senderStamp (l.fresh + 1) (some z)
      let n ← deref heap p
      if n.earlier.isSome then
        let heap ← update heap (some a) fun m => { m with later := n.later, earlier := p }
        let heap ← update heap n.later fun m => { m with earlier := some a }
        let heap ← update heap p fun m => { m with later := some a }
        return ({ l with heap := heap }, true)
      else
        let heap ← update heap (some a) fun m => { m with later := p, earlier := none }
        let heap ← update heap p fun m => { m with earlier := some a }
        return ({ l with heap := heap, first := some a }, true)

/-- The numbers changed when a frame has been put in the queue, src/playout.c:295 and 323-329. -/
def noted (m : Nums) (oos : Bool) (f : Frame) : M Nums := do
  let o ← int (m.framesOos + if oos then 1 else 0)
  let m := { m with framesOos := o }
  if m.start = true ∧ f.type = typeSpeech then
    let d ← int (f.senderStamp - f.senderLen)
    let ls ← int (d - m.minLength)
    return { m with lastStamp := ls, lastLen := f.senderLen, start := false }
  else return m

/-- `playout_put`, src/playout.c:246-332. -/
def put (s : State) (mem : Bool) (f : Frame) : M (State × Code) := do
  let i ← int (s.nums.framesIn + 1)
  let (l, p) ← acquire s.links mem
  match p with
  | none => return (⟨l, { s.nums with framesIn := i }⟩, .error)
  | some a =>
    let (l, oos) ← queuePut l a f
    let m ← noted { s.nums with framesIn := i } oos f
    return (⟨l, m⟩, .ok)

/-- Release the blocks in a chain, src/playout.c:341-346, 381-386 and 388-393. `fuel` bounds the number of
turns. -/
def freeChain (h : Nat → Option Node) : Nat → Option Nat → M (Nat → Option Node)
  | _, none => .ok h
  | 0, some _ => .error .pointer
  | fuel + 1, some a => do
    let n ← deref h (some a)
    freeChain (store h a none) fuel n.later

/-- The numbers set by `playout_restart`, src/playout.c:348-357. -/
def restartNums (minLength maxLength : Int) : M Nums := do
  let mx := if maxLength > minLength then maxLength else minLength
  let d ← int (mx - minLength)
  return { dynamic := minLength < maxLength, minLength := minLength, maxLength := mx, dropable := 0x10000000 / 100,
           start := true, framesIn := 0, framesOut := 0, framesOos := 0, framesLate := 0, framesMissing := 0,
           latestExpected := 0, lastStamp := 0, lastLen := 0, notFirst := false, sinceLastStep := 0x7FFFFFFF,
           justInTime := 0, late := 0, target := d / 2, actual := d / 2 }

/-- `playout_restart`, src/playout.c:335-358. -/
def restart (s : State) (minLength maxLength : Int) : M State := do
  let h ← freeChain s.links.heap (s.links.fresh + 1) s.links.free
  let m ← restartNums minLength maxLength
  return ⟨{ s.links with heap := h, first := none, last := none, free := none }, m⟩

/-- `playout_init`, src/playout.c:361-371, when there is memory. The heap holds the frames only. -/
def init (minLength maxLength : Int) : M State := do
  let m ← restartNums minLength maxLength
  return ⟨⟨fun _ => none, 0, none, none, none⟩, m⟩

/-- `playout_release`, src/playout.c:374-395. The result is the heap. -/
def releaseAll (s : State) : M (Nat → Option Node) := do
  let h ← freeChain s.links.heap (s.links.fresh + 1) s.links.first
  freeChain h (s.links.fresh + 1) s.links.free

end Playout
