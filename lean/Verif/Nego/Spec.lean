import Verif.Nego.Model

/-!
# What the bits of the frames mean

The meaning of the bits of a DIS and a DCS, after Table 2/T.30, written down without the functions of
the model.  Bit `n` of a frame is counted from 1, from the low bit of the octet after the three octets
of address, control and kind; an octet which is not there counts as zero.
-/

namespace Nego.Spec

open Nego

def bit (frame : List Byte) (n : Nat) : Bool :=
  (frame.getD (3 + (n - 1)/8) 0#8).getLsbD ((n - 1)%8)

/-- The compressions a DIS offers.  Those beyond T.4 need error correction too. -/
def comp (d : List Byte) : Comp → Bool
  | .t4_1d => true
  | .t4_2d => bit d 16
  | .t6 => bit d 27 && bit d 31
  | .t85 => bit d 27 && bit d 78
  | .t85_l0 => bit d 27 && bit d 78 && bit d 79
  | .t42_t81 => bit d 27 && bit d 68
  | .t43 => bit d 27 && bit d 36
  | _ => false

/-- The compressions which need error correction. -/
def needsEcm : Comp → Bool
  | .t4_1d | .t4_2d => false
  | _ => true

/-- The resolutions a DIS offers for bi-level pages. -/
def bilevel (d : List Byte) : Res → Bool
  | .r8Standard => true
  | .r200_100 => bit d 44
  | .r8Fine | .r200 => bit d 15
  | .r8Superfine | .r200_400 => bit d 41
  | .r16Superfine | .r400 => bit d 43
  | .r300 => bit d 42
  | .r300_600 => bit d 107
  | .r400_800 => bit d 108
  | .r600 => bit d 105
  | .r600_1200 => bit d 109
  | .r1200 => bit d 106
  | .r100 => false

/-- The resolutions a DIS offers for grey and colour pages. -/
def colour (d : List Byte) : Res → Bool
  | .r100 => bit d 98
  | .r200 => bit d 15
  | .r300 => bit d 42 && bit d 97
  | .r400 => bit d 43 && bit d 97
  | .r600 => bit d 105 && bit d 110
  | .r1200 => bit d 106 && bit d 111
  | _ => false

/-- The page sizes a DIS offers. -/
def size (d : List Byte) : Size → Bool
  | .w215 | .a4 => true
  | .w255 => bit d 17 || bit d 18
  | .w303 => bit d 18
  | .b4 => bit d 19 || bit d 20
  | .unlimited => bit d 20
  | .letter => bit d 76
  | .legal => bit d 77

/-- The modems a DIS offers, in bits 11 to 14. -/
def modem (d : List Byte) (m : Modem) : Bool :=
  match bit d 11, bit d 12, bit d 13, bit d 14, m with
  | false, false, false, false, .v27ter => true
  | false, true, false, false, .v27ter => true
  | true, false, false, false, .v29 => true
  | true, true, false, false, .v27ter => true
  | true, true, false, false, .v29 => true
  | true, true, false, true, _ => true
  | _, _, _, _, _ => false

/-- The modem and speed a DCS chooses, in bits 11 to 14. -/
def speed (d : List Byte) : Option (Modem × Nat) :=
  match bit d 11, bit d 12, bit d 13, bit d 14 with
  | false, false, false, false => some (.v27ter, 2400)
  | false, true, false, false => some (.v27ter, 4800)
  | true, false, false, false => some (.v29, 9600)
  | true, true, false, false => some (.v29, 7200)
  | false, false, false, true => some (.v17, 14400)
  | false, true, false, true => some (.v17, 12000)
  | true, false, false, true => some (.v17, 9600)
  | true, true, false, true => some (.v17, 7200)
  | _, _, _, _ => none

/-- The bits of a DCS which ask the far end for something it must have offered: error correction, the
compressions, the resolutions, widths and lengths, flow control and T.38. -/
def asking : List Nat := [15, 16, 17, 18, 19, 20, 27, 31, 36, 41, 42, 43, 68, 76, 77, 78, 79, 97, 98,
  105, 106, 107, 108, 109, 110, 111, 121, 123]

/-- Whether the DIS offers what a bit of a DCS asks for: the same bit, or for the widths and lengths one
which includes it. -/
def offers (d : List Byte) (j : Nat) : Bool :=
  bit d j || (j == 17 && bit d 18) || (j == 19 && bit d 20)

/-- The bits of a DCS for things which need error correction. -/
def ecmBits : List Nat := [31, 36, 68, 78, 79]

/-- The widths in pixels of the three widths of paper, by resolution. -/
def widths : Res → List Nat
  | .r100 => [864, 1024, 1216]
  | .r8Standard | .r8Fine | .r8Superfine | .r200_100 | .r200 | .r200_400 => [1728, 2048, 2432]
  | .r300 | .r300_600 => [2592, 3072, 3648]
  | .r16Superfine | .r400 | .r400_800 => [3456, 4096, 4864]
  | .r600 | .r600_1200 => [5184, 6144, 7296]
  | .r1200 => [10368, 12288, 14592]

/-- Every octet but the last, from that with bit 17 on, has its extension bit set, and the last has not. -/
def wellExtended (d : List Byte) : Prop :=
  ∀ j, 5 ≤ j → j < d.length → (d.getD j 0#8).getLsbD 7 = decide (j + 1 < d.length)

/-- The milliseconds a row of standard resolution must take, by the field in bits 21 to 23. -/
def standardTime : List Nat := [20, 5, 10, 20, 40, 40, 10, 0]

/-- Whether a row of fine resolution may take half of that. -/
def fineHalves : List Bool := [false, false, false, true, false, true, true, false]

/-- The field of bits 21 to 23. -/
def scanField (d : List Byte) : Nat :=
  (if bit d 21 then 1 else 0) + (if bit d 22 then 2 else 0) + (if bit d 23 then 4 else 0)

/-- The time a row must take, in units of a quarter of a millisecond, by the number of rows to the
millimetre; in superfine, half that of fine if bit 46 says so. -/
def rowQuarters (d : List Byte) (y : YRes) : Nat :=
  let std := 4 * standardTime.getD (scanField d) 0
  let fine := if fineHalves.getD (scanField d) false then std/2 else std
  match y with
  | .standard => std
  | .fine => fine
  | .superfine => if bit d 46 then fine/2 else fine
  | .other => 0

/-- The other member of a metric and imperial pair of resolutions. -/
def twin : Res → Option Res
  | .r8Fine => some .r200
  | .r200 => some .r8Fine
  | .r8Superfine => some .r200_400
  | .r200_400 => some .r8Superfine
  | .r16Superfine => some .r400
  | .r400 => some .r16Superfine
  | _ => none

/-- A receiver which, of two resolutions which share a bit, has both or neither. -/
def pairs (b : Caps) : Prop := ∀ x y, twin x = some y → b.bilevel x = b.bilevel y

/-- A receiver whose grey and colour settings the bits can tell. -/
structure tellable (b : Caps) : Prop where
  r200 : b.bilevel .r200 = true → b.colour .r200 = true
  r300 : b.colour .r400 = true → b.bilevel .r300 = true → b.colour .r300 = true
  r400 : b.colour .r300 = true → b.bilevel .r400 = true → b.colour .r400 = true
  t43 : b.comps .t43 = true → b.comps .t42_t81 = true

end Nego.Spec
