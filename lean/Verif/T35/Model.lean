import Verif.T35.Table

/-!
# Who made the machine at the far end

A model of the functions of `t35.c`.  A message is a list of bytes, as long as `len` says.  `none` is a read beyond a message or a
table.
-/

namespace T35

/-- `bit_reverse8`: /repo/src/spandsp/bit_operations.h:199-210.  The order of bits turned round; that the code does so is proved
in `Verif.BitOps`. -/
def rev (x : Nat) : Nat :=
  x%2*128 + x/2%2*64 + x/4%2*32 + x/8%2*16 + x/16%2*8 + x/32%2*4 + x/64%2*2 + x/128%2

/-- /repo/src/t35.c:796-850 (`t35_real_country_code`). -/
def real (c : Int) : Option Int :=
  if c < 0 ∨ c > 0xFF then some (-1)
  else if c = 0xFF then some (-1)
  else
    let c := c.toNat
    let c := if c ∈ [0x20, 0x2D, 0x64, 0x86, 0xAD, 0xBC] then rev c else c
    countries[c]?.bind fun e =>
      if e.name.isSome then some c
      else countries[rev c]?.bind fun e => if e.name.isSome then some (rev c) else some (-1)

/-- /repo/src/t35.c:853-861 (`t35_real_country_code_to_str`). -/
def realName (c : Int) : Option (Option String) :=
  (real c).bind fun r => if r ≥ 0 then countries[r.toNat]?.map Country.name else some none

/-- /repo/src/t35.c:864-878 (`t35_country_code_to_str`). -/
def name (c : Int) : Option (Option String) :=
  if c < 0 ∨ c > 0xFF then some none
  else if c = 0xFF then some none
  else countries[c.toNat]?.map Country.name

/-- `memcmp` of a message and a literal, which has a zero after it, for equality.  All `n` bytes have to be there. -/
def same (msg lit : List Nat) (n : Nat) : Option Bool :=
  if msg.length < n ∨ lit.length + 1 < n then none else some (msg.take n = (lit ++ [0]).take n)

/-- The loop of /repo/src/t35.c:900-910. -/
def search (msg : List Nat) : List Maker → Option (Option Maker)
  | [] => some none
  | p :: r =>
    if msg.length ≥ p.len then
      (same (msg.drop 1) p.id p.len).bind fun b => if b then some (some p) else search msg r
    else search msg r

/-- /repo/src/t35.c:881-912 (`find_vendor`). -/
def findMaker (msg : List Nat) : Option (Option Maker) :=
  msg[0]?.bind fun (c : Nat) =>
    if c = 0xFF then some none
    else msg[1]?.bind fun _ => (real c).bind fun r =>
      if r < 0 then some none else countries[c]?.bind fun e => search msg e.makers

/-- /repo/src/t35.c:915-923 (`t35_vendor_to_str`). -/
def makerName (msg : List Nat) : Option (Option String) := (findMaker msg).map fun p => p.bind Maker.name

/-- The loop of /repo/src/t35.c:949-960. -/
def machine (msg : List Nat) (len : Nat) : List Machine → Option (Option String)
  | [] => some none
  | m :: r =>
    if msg.length = 1 + len + m.size then
      (same (msg.drop (1 + len)) m.id m.size).bind fun b => if b then some (some m.name) else machine msg len r
    else machine msg len r

/-- What a call gives: whether it succeeds, and the three names. -/
structure Result where
  ok : Bool
  country : Option String
  maker : Option String
  machine : Option String
  deriving DecidableEq, Repr

/-- /repo/src/t35.c:926-964 (`t35_decode`), with all three names asked for. -/
def decode (msg : List Nat) : Option Result :=
  msg[0]?.bind fun (c : Nat) => msg[1]?.bind fun _ => (realName c).bind fun country =>
    (findMaker msg).bind fun
      | none => some ⟨false, country, none, none⟩
      | some p => (machine msg p.len p.machines).map fun m => ⟨true, country, p.name, m⟩

end T35
