import Verif.C

/-!
# Model of the data scramblers of the modems

Each bit is an `int` holding 0 or 1, which meets a `uint32_t` register. Both are 32 bit words here.
-/

namespace Scrambler

abbrev Word := BitVec 32

/-- `scramble`, src/v17tx.c:109-118 and src/v34tx.c:334-342, and the end of `get_scrambled_bit`, src/v29tx.c:120-122, where the tap is
17. The result is the register and the bit. -/
def scramble (tap : Nat) (reg b : Word) : Word × Word :=
  let out := (b ^^^ (reg >>> tap) ^^^ (reg >>> 22)) &&& 1
  ((reg <<< 1) ||| out, out)

/-- `descramble`, src/v17rx.c:343-357. `training` says that the training stage is one of those before the
trellis starts. -/
def descramble (tap : Nat) (training : Bool) (reg b : Word) : Word × Word :=
  let b := b &&& 1
  let out := (b ^^^ (reg >>> tap) ^^^ (reg >>> 22)) &&& 1
  ((reg <<< 1) ||| (if training then out else b &&& 1), out)

/-- `descramble`, src/v29rx.c:365-376. -/
def descramble29 (reg b : Word) : Word × Word :=
  let b := b &&& 1
  let out := (b ^^^ (reg >>> 17) ^^^ (reg >>> 22)) &&& 1
  ((reg <<< 1) ||| b, out)

/-- `descramble`, src/v34rx.c:170-178. The bit is not masked. -/
def descramble34 (tap : Nat) (reg b : Word) : Word × Word :=
  let out := (b ^^^ (reg >>> tap) ^^^ (reg >>> 22)) &&& 1
  ((reg <<< 1) ||| b, out)

/-- The V.29 training scrambler of the transmitter, src/v29tx.c:174-176. -/
def training29Tx (reg : BitVec 8) : BitVec 8 × BitVec 8 :=
  let bit := reg &&& 1
  let reg := reg >>> 1
  (reg ||| (((bit ^^^ reg) &&& 1) <<< 6), bit)

/-- `scrambled_training_bit`, src/v29rx.c:350-362. -/
def training29Rx (reg : BitVec 8) : BitVec 8 × BitVec 8 :=
  let bit := reg &&& 1
  let reg := reg >>> 1
  (if bit ^^^ (reg &&& 1) ≠ 0 then reg ||| 0x40 else reg, bit)

/-- The register and the count of a scrambler which guards against patterns. -/
structure Guarded where
  reg : Word
  count : Nat
deriving DecidableEq

/-- `scramble`, src/v22bis_tx.c:413-432. -/
def scramble22 (s : Guarded) (b : Word) : Guarded × Word :=
  let (b, count) := if s.count ≥ 64 then (b ^^^ 1, 0) else (b, s.count)
  let out := (b ^^^ (s.reg >>> 13) ^^^ (s.reg >>> 16)) &&& 1
  (⟨(s.reg <<< 1) ||| out, if out = 1 then count + 1 else 0⟩, out)

/-- `descramble`, src/v22bis_rx.c:307-328. -/
def descramble22 (s : Guarded) (b : Word) : Guarded × Word :=
  let b := b &&& 1
  let out := (b ^^^ (s.reg >>> 13) ^^^ (s.reg >>> 16)) &&& 1
  let (out, count) := if s.count ≥ 64 then (out ^^^ 1, 0) else (out, s.count)
  (⟨(s.reg <<< 1) ||| b, if b ≠ 0 then count + 1 else 0⟩, out)

/-- The test of the V.27ter guard, src/v27ter_tx.c:116 and src/v27ter_rx.c:396: none of three earlier bits on the line is
the same as this one. -/
def novel27 (reg b : Word) : Bool :=
  (((reg >>> 7) ^^^ b) &&& ((reg >>> 8) ^^^ b) &&& ((reg >>> 11) ^^^ b) &&& 1) ≠ 0

/-- `scramble`, src/v27ter_tx.c:103-125. -/
def scramble27 (s : Guarded) (b : Word) : Guarded × Word :=
  let out := (b ^^^ (s.reg >>> 5) ^^^ (s.reg >>> 6)) &&& 1
  let (out, count) :=
    if s.count ≥ 33 then (out ^^^ 1, 0)
    else (out, if novel27 s.reg out then 0 else s.count + 1)
  (⟨(s.reg <<< 1) ||| out, count⟩, out)

/-- `descramble`, src/v27ter_rx.c:377-412. `training` says that the training stage is one of those before the
test ones. -/
def descramble27 (training : Bool) (s : Guarded) (b : Word) : Guarded × Word :=
  let b := b &&& 1
  let out := (b ^^^ (s.reg >>> 5) ^^^ (s.reg >>> 6)) &&& 1
  let (out, count) :=
    if s.count ≥ 33 then (out ^^^ 1, 0)
    else (out, if training then 0 else if novel27 s.reg b then 0 else s.count + 1)
  (⟨(s.reg <<< 1) ||| (if training then out else b), count⟩, out)

/-- The taps of the V.17 transmitter and receiver, src/v17tx.c:492 and src/v17rx.c:1514. -/
def tap17 : Nat := 18 - 1

/-- The taps of V.32bis and V.34, src/v32bis.c:209-218 and src/v34tx.c:3209-3218. -/
def txTap (calling : Bool) : Nat := if calling then 17 else 4

def rxTap (calling : Bool) : Nat := if calling then 4 else 17

/-- The registers at the start: V.17 (src/v17tx.c:453, src/v17rx.c:1414), V.27ter (src/v27ter_tx.c:412-413, src/v27ter_rx.c:1107-1108), V.29
(src/v29tx.c:391-392, src/v29rx.c:1045-1046), V.22bis (src/v22bis_tx.c:742-743, src/v22bis_rx.c:1016-1017) and V.34 (src/v34tx.c:3054,
src/v34rx.c:2783). -/
def start17 : Word := 0x2ECDD5
def start27 : Guarded := ⟨0x3C, 0⟩
def start29 : Word := 0
def start29Training : BitVec 8 := 0x2A
def start22 : Guarded := ⟨0, 0⟩
def start34 : Word := 0

/-- The two bits of the V.17 bridge word for a symbol, src/v17tx.c:178-181 and src/v17rx.c:912-913. -/
def bridge (n : Nat) : Word × Word := ((0x8880 : Word) >>> ((n % 8) * 2), (0x8880 : Word) >>> ((n % 8) * 2 + 1))

end Scrambler
