import Verif.V42bis.Model

/-! # Sessions -/

namespace V42bis

/-- What a user of the compressor does. -/
inductive Op where
  /-- `v42bis_compress` -/
  | data (l : List Byte)
  /-- `v42bis_compression_control` -/
  | mode (m : Mode)
  /-- `v42bis_compress_flush` -/
  | flush
deriving DecidableEq

/-- A session of the compressor. -/
def runOps (s : S) : List Op → M S
  | [] => .ok s
  | .data l :: t => do
    let s ← compress s l
    runOps s t
  | .mode m :: t => runOps (control s m) t
  | .flush :: t => do
    let s ← compressFlush s
    runOps s t

/-- The octets which go into a session. -/
def payload : List Op → List Byte
  | [] => []
  | .data l :: t => l ++ payload t
  | .mode _ :: t => payload t
  | .flush :: t => payload t

/-- There are at least `n` octets between two flushes. `k` is the number of octets since the last flush, or `n` if there was none. -/
def Spaced (n : Nat) : Nat → List Op → Prop
  | _, [] => True
  | k, .data l :: t => Spaced n (k + l.length) t
  | k, .mode _ :: t => Spaced n k t
  | k, .flush :: t => n ≤ k ∧ Spaced n 0 t

/-- `Spaced` can be decided. -/
def spacedDec (n : Nat) : ∀ (k : Nat) (ops : List Op), Decidable (Spaced n k ops)
  | _, [] => .isTrue trivial
  | k, .data l :: t => spacedDec n (k + l.length) t
  | k, .mode _ :: t => spacedDec n k t
  | k, .flush :: t =>
    have := spacedDec n 0 t
    inferInstanceAs (Decidable (n ≤ k ∧ Spaced n 0 t))

instance (n k : Nat) (ops : List Op) : Decidable (Spaced n k ops) := spacedDec n k ops

/-- The decompressor is given the octets piece by piece. -/
def feedAll (s : S) : List (List Byte) → M S
  | [] => .ok s
  | l :: t => do
    let s ← decompress s l
    feedAll s t

/-- All that a handler was given, one message after the other. -/
def S.delivered (s : S) : List Byte := s.w.o.sent.flatten

/-- No octet waits to be given to the handler. -/
def S.empty (s : S) : Prop := s.w.o.buf = []

end V42bis
