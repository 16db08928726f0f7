import Verif.BitOps.Model

/-!
# Model of src/spandsp/g711.h and src/g711.c

Samples are integers. `none` is undefined behaviour: a signed overflow, or a table index out of
range. The optional `G711_ULAW_ZEROTRAP` code is not compiled in, and is not modelled.
-/

namespace G711

abbrev Byte := BitVec 8

/-- Does a value fit in an `int`? -/
def fits (x : Int) : Bool := -2147483648 ≤ x ∧ x ≤ 2147483647

/-- `linear_to_ulaw`, src/spandsp/g711.h:124-158. The arguments are `int`s. -/
def linearToUlaw (linear : Int) : Option Byte :=
  let p : Int × BitVec 32 := if linear ≥ 0 then (0x84 + linear, 0xFF#32) else (0x84 - linear, 0x7F#32)
  if fits p.1 = false then none else
  let l := BitVec.ofInt 32 p.1
  let seg := BitOps.topBit (l ||| 0xFF#32) - 7
  if seg ≥ 8 then some ((0x7F#32 ^^^ p.2).setWidth 8)
  else some ((((BitVec.ofInt 32 seg <<< 4) ||| ((l >>> (seg + 3).toNat) &&& 0xF#32)) ^^^ p.2).setWidth 8)

/-- `ulaw_to_linear`, src/spandsp/g711.h:165-177. -/
def ulawToLinear (ulaw : Byte) : Int :=
  let u := ~~~ ulaw
  let t : Int := (((u &&& 0x0F#8).toNat * 8 + 0x84) * 2 ^ ((u &&& 0x70#8) >>> 4).toNat : Nat)
  if u &&& 0x80#8 ≠ 0 then 0x84 - t else t - 0x84

/-- `linear_to_alaw`, src/spandsp/g711.h:202-232. -/
def linearToAlaw (linear : Int) : Option Byte :=
  let p : Int × BitVec 32 := if linear ≥ 0 then (linear, 0xD5#32) else (-linear - 1, 0x55#32)
  if linear < 0 ∧ fits (-linear) = false then none else
  let l := BitVec.ofInt 32 p.1
  let seg := BitOps.topBit (l ||| 0xFF#32) - 7
  if seg ≥ 8 then some ((0x7F#32 ^^^ p.2).setWidth 8)
  else some ((((BitVec.ofInt 32 seg <<< 4) |||
    ((l >>> (if seg ≠ 0 then (seg + 3).toNat else 4)) &&& 0x0F#32)) ^^^ p.2).setWidth 8)

/-- `alaw_to_linear`, src/spandsp/g711.h:239-252. -/
def alawToLinear (alaw : Byte) : Int :=
  let a := alaw ^^^ 0x55#8
  let i : Int := ((a &&& 0x0F#8).toNat * 16 : Nat)
  let seg := ((a &&& 0x70#8) >>> 4).toNat
  let i := if seg ≠ 0 then (i + 0x108) * 2 ^ (seg - 1) else i + 8
  if a &&& 0x80#8 ≠ 0 then i else -i

/-- `ulaw_to_alaw_table`, src/g711.c:44-62. -/
def ulawToAlawTable : List Byte :=
  [42, 43, 40, 41, 46, 47, 44, 45, 34, 35, 32, 33, 38, 39, 36, 37,
   58, 59, 56, 57, 62, 63, 60, 61, 50, 51, 48, 49, 54, 55, 52, 53,
   10, 11, 8, 9, 14, 15, 12, 13, 2, 3, 0, 1, 6, 7, 4, 26,
   27, 24, 25, 30, 31, 28, 29, 18, 19, 16, 17, 22, 23, 20, 21, 106,
   104, 105, 110, 111, 108, 109, 98, 99, 96, 97, 102, 103, 100, 101, 122, 120,
   126, 127, 124, 125, 114, 115, 112, 113, 118, 119, 116, 117, 75, 73, 79, 77,
   66, 67, 64, 65, 70, 71, 68, 69, 90, 91, 88, 89, 94, 95, 92, 93,
   82, 82, 83, 83, 80, 80, 81, 81, 86, 86, 87, 87, 84, 84, 85, 85,
   170, 171, 168, 169, 174, 175, 172, 173, 162, 163, 160, 161, 166, 167, 164, 165,
   186, 187, 184, 185, 190, 191, 188, 189, 178, 179, 176, 177, 182, 183, 180, 181,
   138, 139, 136, 137, 142, 143, 140, 141, 130, 131, 128, 129, 134, 135, 132, 154,
   155, 152, 153, 158, 159, 156, 157, 146, 147, 144, 145, 150, 151, 148, 149, 234,
   232, 233, 238, 239, 236, 237, 226, 227, 224, 225, 230, 231, 228, 229, 250, 248,
   254, 255, 252, 253, 242, 243, 240, 241, 246, 247, 244, 245, 203, 201, 207, 205,
   194, 195, 192, 193, 198, 199, 196, 197, 218, 219, 216, 217, 222, 223, 220, 221,
   210, 210, 211, 211, 208, 208, 209, 209, 214, 214, 215, 215, 212, 212, 213, 213]

/-- `alaw_to_ulaw_table`, src/g711.c:67-85. -/
def alawToUlawTable : List Byte :=
  [42, 43, 40, 41, 46, 47, 44, 45, 34, 35, 32, 33, 38, 39, 36, 37,
   57, 58, 55, 56, 61, 62, 59, 60, 49, 50, 47, 48, 53, 54, 51, 52,
   10, 11, 8, 9, 14, 15, 12, 13, 2, 3, 0, 1, 6, 7, 4, 5,
   26, 27, 24, 25, 30, 31, 28, 29, 18, 19, 16, 17, 22, 23, 20, 21,
   98, 99, 96, 97, 102, 103, 100, 101, 93, 93, 92, 92, 95, 95, 94, 94,
   116, 118, 112, 114, 124, 126, 120, 122, 106, 107, 104, 105, 110, 111, 108, 109,
   72, 73, 70, 71, 76, 77, 74, 75, 64, 65, 63, 63, 68, 69, 66, 67,
   86, 87, 84, 85, 90, 91, 88, 89, 79, 79, 78, 78, 82, 83, 80, 81,
   170, 171, 168, 169, 174, 175, 172, 173, 162, 163, 160, 161, 166, 167, 164, 165,
   185, 186, 183, 184, 189, 190, 187, 188, 177, 178, 175, 176, 181, 182, 179, 180,
   138, 139, 136, 137, 142, 143, 140, 141, 130, 131, 128, 129, 134, 135, 132, 133,
   154, 155, 152, 153, 158, 159, 156, 157, 146, 147, 144, 145, 150, 151, 148, 149,
   226, 227, 224, 225, 230, 231, 228, 229, 221, 221, 220, 220, 223, 223, 222, 222,
   244, 246, 240, 242, 252, 254, 248, 250, 234, 235, 232, 233, 238, 239, 236, 237,
   200, 201, 198, 199, 204, 205, 202, 203, 192, 193, 191, 191, 196, 197, 194, 195,
   214, 215, 212, 213, 218, 219, 216, 217, 207, 207, 206, 206, 210, 211, 208, 209]

/-- `alaw_to_ulaw`, src/g711.c:87-90. -/
def alawToUlaw (alaw : Byte) : Option Byte := alawToUlawTable[alaw.toNat]?

/-- `ulaw_to_alaw`, src/g711.c:93-96. -/
def ulawToAlaw (ulaw : Byte) : Option Byte := ulawToAlawTable[ulaw.toNat]?

/-- The mode of a G.711 state (`struct g711_state_s`, src/spandsp/private/g711.h). -/
inductive Mode
  | alaw
  | ulaw
deriving DecidableEq

/-- `g711_decode`, src/g711.c:99-120. -/
def decode (mode : Mode) (data : List Byte) : List Int :=
  match mode with
  | .alaw => data.map alawToLinear
  | .ulaw => data.map ulawToLinear

/-- `g711_encode`, src/g711.c:123-144. -/
def encode (mode : Mode) (amp : List Int) : Option (List Byte) :=
  match mode with
  | .alaw => amp.mapM linearToAlaw
  | .ulaw => amp.mapM linearToUlaw

/-- `g711_transcode`, src/g711.c:147-168. -/
def transcode (mode : Mode) (data : List Byte) : Option (List Byte) :=
  match mode with
  | .alaw => data.mapM alawToUlaw
  | .ulaw => data.mapM ulawToAlaw

end G711
