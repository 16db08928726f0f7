/-!
# Model of the fax capability negotiation (`src/t30.c`, `src/t30_api.c`, `src/t4_tx.c`)

A fax call starts with the called terminal sending a DIS frame, which says what it can do.  The
caller keeps the part it can do itself, chooses how to send the page it has, and says so in a DCS
frame, which the called terminal takes to pieces in turn.  This file models the functions which
build and take apart these frames, the choice of an image format, the choice and the stepping down
of the modem speed, and the functions by which an application says what its terminal can do.

Words of flags (`T4_COMPRESSION_…`, `T4_RESOLUTION_…`, `T4_SUPPORT_…`, `T30_SUPPORT_…`) are modelled
as sets: functions from an enumerated type to `Bool`.  Only the flags these functions look at are
there.  The code under `SPANDSP_SUPPORT_T88`, `_T45`, `_SYCC_T81` and `_SSLFAX` is not modelled: none
of it is in a default build.  T.43 is modelled, so what is proved holds with and without it.
-/

namespace Nego

abbrev Byte := BitVec 8

/-! ## Capabilities -/

/-- Compressions and what goes with them.  /repo/src/spandsp/t4_rx.h:49-95. -/
inductive Comp
  | none | t4_1d | t4_2d | t6 | t85 | t85_l0 | t43 | t42_t81 | noSubsampling | gray | colour
  | bits12 | colourToGray | grayToBilevel | colourToBilevel | rescaling
  deriving DecidableEq, Repr

/-- Resolutions.  /repo/src/spandsp/t4_rx.h:151-184. -/
inductive Res
  | r8Standard | r8Fine | r8Superfine | r16Superfine | r100 | r200_100 | r200 | r200_400 | r300
  | r300_600 | r400 | r400_800 | r600 | r600_1200 | r1200
  deriving DecidableEq, Repr

/-- Page widths and lengths.  /repo/src/spandsp/t4_rx.h:324-335. -/
inductive Size
  | w215 | w255 | w303 | unlimited | a4 | b4 | letter | legal
  deriving DecidableEq, Repr

/-- Modems (`T30_SUPPORT_V27TER`, `_V29`, `_V17`; the V.34 and internet modems play no part in these
functions).  /repo/src/spandsp/t30.h (`T30_SUPPORT_…`). -/
inductive Modem
  | v27ter | v29 | v17
  deriving DecidableEq, Repr

/-- Optional features of T.30, and flags of the internet aware modes.  /repo/src/spandsp/t30.h
(`T30_SUPPORT_IDENTIFICATION` …, `T30_IAF_MODE_…`). -/
inductive Feature
  | identification | selectivePolling | polledSubaddressing | multipleSelectivePolling | subaddressing
  | internetSelectivePolling | internetRouting | fieldNotValid
  | iafT37 | iafT38 | iafFlowControl | iafContinuousFlow | iafNoFillBits
  deriving DecidableEq, Repr

/-- Kinds of image a TIFF file may hold (the others in /repo/src/spandsp/t4_rx.h:98-118 are never
produced by `get_tiff_directory_info`). -/
inductive Img
  | bilevel | colourBilevel | gray8 | gray12 | colour8 | colour12
  deriving DecidableEq, Repr

/-- What an application has set up: the fields of `t30_state_t` these functions read.
`minScan` is `local_min_scan_time_code`; `txFile`, `rxFile` say whether there is a file to send, and a
file to receive into. -/
structure Caps where
  modems : Modem → Bool
  comps : Comp → Bool
  bilevel : Res → Bool
  colour : Res → Bool
  sizes : Size → Bool
  ecm : Bool
  minScan : BitVec 3
  features : Feature → Bool
  txFile : Bool
  rxFile : Bool

/-- The set with exactly the members of a list. -/
def oneOf {α : Type} [DecidableEq α] (l : List α) : α → Bool := fun x => decide (x ∈ l)

/-- Union, intersection of sets. -/
def union {α : Type} (f g : α → Bool) : α → Bool := fun x => f x || g x
def inter {α : Type} (f g : α → Bool) : α → Bool := fun x => f x && g x

/-- A new terminal.  /repo/src/t30.c:7607-7625 (`t30_init`; the structure is zeroed first). -/
def capsInit : Caps where
  modems := oneOf [.v27ter, .v29, .v17]
  comps := oneOf [.t4_1d, .t4_2d]
  bilevel := oneOf [.r8Standard, .r8Fine, .r8Superfine, .r200_100, .r200, .r200_400]
  colour := oneOf []
  sizes := oneOf [.w215, .letter, .legal, .a4, .b4, .unlimited]
  ecm := false
  minScan := 7#3
  features := oneOf []
  txFile := false
  rxFile := false

/-- /repo/src/t30_api.c:786-791 (`t30_set_ecm_capability`).  This setter and those below also build the
DIS frame afresh; it is a function of the settings, so the model builds it when it is sent. -/
def setEcm (c : Caps) (on : Bool) : Caps := { c with ecm := on }

/-- /repo/src/t30_api.c:847-867 (`t30_set_minimum_scan_line_time`); `none` is the result -1. -/
def setMinScan (c : Caps) (time : Int) : Option Caps :=
  if time = 0 then some { c with minScan := 7#3 }
  else if time ≤ 5 then some { c with minScan := 1#3 }
  else if time ≤ 10 then some { c with minScan := 2#3 }
  else if time ≤ 20 then some { c with minScan := 0#3 }
  else if time ≤ 40 then some { c with minScan := 4#3 }
  else none

/-- /repo/src/t30_api.c:870-875 (`t30_set_supported_modems`). -/
def setModems (c : Caps) (m : Modem → Bool) : Caps := { c with modems := m }

/-- /repo/src/t30_api.c:878-911 (`t30_set_supported_compressions`), with T.43 as if it were compiled in. -/
def setComps (c : Caps) (m : Comp → Bool) : Caps :=
  { c with comps := inter m (oneOf [.t4_1d, .t4_2d, .t6, .t85, .t85_l0, .t42_t81, .t43, .gray, .colour,
      .bits12, .colourToGray, .grayToBilevel, .colourToBilevel, .rescaling]) }

/-- The resolutions a colour page may have.  /repo/src/t30_api.c:939-944. -/
def colourRes : List Res := [.r100, .r200, .r300, .r400, .r600, .r1200]

/-- /repo/src/t30_api.c:914-936 (`t30_set_supported_bilevel_resolutions`). -/
def setBilevel (c : Caps) (m : Res → Bool) : Caps :=
  let m := inter m (oneOf [.r8Standard, .r8Fine, .r8Superfine, .r16Superfine, .r200_100, .r200, .r200_400,
    .r300, .r300_600, .r400, .r400_800, .r600, .r600_1200, .r1200])
  { c with bilevel := union m (inter c.colour (fun r => r != .r100)) }

/-- /repo/src/t30_api.c:938-953 (`t30_set_supported_colour_resolutions`). -/
def setColour (c : Caps) (m : Res → Bool) : Caps :=
  let colour := inter m (oneOf colourRes)
  { c with colour := colour, bilevel := union c.bilevel (inter colour (fun r => r != .r100)) }

/-- /repo/src/t30_api.c:955-970 (`t30_set_supported_image_sizes`). -/
def setSizes (c : Caps) (m : Size → Bool) : Caps :=
  let m := union m (oneOf [.w215, .a4])
  let m := if m .unlimited then union m (oneOf [.b4]) else m
  let m := if m .w303 then union m (oneOf [.w255]) else m
  { c with sizes := m }

/-- /repo/src/t30_api.c:781-784 and 972-977 (`t30_set_iaf_mode`, `t30_set_supported_t30_features`). -/
def setFeatures (c : Caps) (m : Feature → Bool) : Caps := { c with features := m }

/-- /repo/src/t30_api.c (`t30_set_tx_file`, `t30_set_rx_file`): whether there are files. -/
def setFiles (c : Caps) (tx rx : Bool) : Caps := { c with txFile := tx, rxFile := rx }

/-- The settings an application can give a terminal: those of `t30_init`, changed by calls of the
functions above in any order. -/
inductive Set : Caps → Prop
  | init : Set capsInit
  | ecm {c} (on) : Set c → Set (setEcm c on)
  | minScan {c c'} (time) : Set c → setMinScan c time = some c' → Set c'
  | modems {c} (m) : Set c → Set (setModems c m)
  | comps {c} (m) : Set c → Set (setComps c m)
  | bilevel {c} (m) : Set c → Set (setBilevel c m)
  | colour {c} (m) : Set c → Set (setColour c m)
  | sizes {c} (m) : Set c → Set (setSizes c m)
  | features {c} (m) : Set c → Set (setFeatures c m)
  | files {c} (tx rx) : Set c → Set (setFiles c tx rx)

/-! ## Frames -/

/-- A DIS, DTC or DCS frame under construction, or a received one copied out: the array of
`T30_MAX_DIS_DTC_DCS_LEN` = 22 octets (/repo/src/spandsp/t30.h:142).  Every index used is a literal bit
number of /repo/src/spandsp/private/t30_dis_dtc_dcs_bits.h, at most 127, so an octet of at most
3 + 126/8 = 18, or a loop bound below 22. -/
abbrev Frame := Nat → Byte

/-- /repo/src/t30.c:461-462 (`test_ctrl_bit`). -/
def test (f : Frame) (b : Nat) : Bool := (f (3 + (b - 1)/8)).getLsbD ((b - 1)%8)

/-- An octet is written. -/
def upd (f : Frame) (i : Nat) (x : Byte) : Frame := fun j => if j = i then x else f j

/-- /repo/src/t30.c:463-464 (`set_ctrl_bit`). -/
def setBit (f : Frame) (b : Nat) : Frame :=
  upd f (3 + (b - 1)/8) (f (3 + (b - 1)/8) ||| BitVec.twoPow 8 ((b - 1)%8))

/-- `if (c) set_ctrl_bit(f, b);` -/
def setIf (c : Bool) (b : Nat) (f : Frame) : Frame := if c then setBit f b else f

/-- `if (c) set_ctrl_bit(f, b);` for each `b` of a list. -/
def setAll (c : Bool) (bs : List Nat) (f : Frame) : Frame := bs.foldl (fun f b => setIf c b f) f

/-- /repo/src/t30.c:467-468 (`clr_ctrl_bit`). -/
def clrBit (f : Frame) (b : Nat) : Frame :=
  upd f (3 + (b - 1)/8) (f (3 + (b - 1)/8) &&& ~~~ BitVec.twoPow 8 ((b - 1)%8))

/-- An octet is or'ed into (`set_ctrl_bits`, /repo/src/t30.c:465-466, and `|=`). -/
def orOctet (f : Frame) (i : Nat) (x : Byte) : Frame := upd f i (f i ||| x)

/-- The first three octets of a frame, and zeros.  /repo/src/t30.c:1377-1382, 1724-1729; address 0xFF,
control field of a final frame 0x13. -/
def blank (kind : Byte) : Frame := fun i => if i = 0 then 0xFF#8 else if i = 1 then 0x13#8
  else if i = 2 then kind else 0#8

/-- `T30_DIS` and `T30_DCS`, with the bit which says whether a DIS has been received. -/
def kindDis (received : Bool) : Byte := if received then 0x81#8 else 0x80#8
def kindDcs (received : Bool) : Byte := if received then 0x83#8 else 0x82#8

/-- /repo/src/t30.c:1368-1655 (`t30_build_dis_or_dtc`). -/
def buildDis (c : Caps) (received : Bool) : Frame :=
  let multi := c.ecm && (c.comps .colour || c.comps .gray)
  blank (kindDis received)
  |> setIf (c.features .iafT37) 1
  |> setIf (c.features .iafT38) 3
  |> setIf (c.modems .v27ter) 12
  |> setIf (c.modems .v29) 11
  |> setAll (c.modems .v17) [14, 12, 11]
  |> setIf (c.sizes .w303) 18
  |> setIf (!c.sizes .w303 && c.sizes .w255) 17
  |> setIf (c.sizes .unlimited) 20
  |> setIf (!c.sizes .unlimited && c.sizes .b4) 19
  |> setIf (c.sizes .letter) 76
  |> setIf (c.sizes .legal) 77
  |> (fun f => orOctet f 5 (c.minScan.zeroExtend 8 <<< 4))
  |> setIf (c.comps .t4_2d) 16
  |> setIf (c.comps .none) 26
  |> setIf c.ecm 27
  |> setIf (c.ecm && c.comps .t6) 31
  |> setIf (c.ecm && c.comps .t85) 78
  |> setIf (c.ecm && c.comps .t85 && c.comps .t85_l0) 79
  |> setIf (multi && c.comps .colour) 69
  |> setIf (multi && c.comps .t42_t81) 68
  |> setAll (multi && c.comps .t43) [68, 36]
  |> setIf (multi && c.comps .bits12) 71
  |> setIf (multi && c.comps .noSubsampling) 73
  |> setIf (c.features .fieldNotValid) 33
  |> setIf (c.features .multipleSelectivePolling) 34
  |> setIf (c.features .polledSubaddressing) 35
  |> setIf (c.features .selectivePolling) 47
  |> setIf (c.features .subaddressing) 49
  |> setIf (c.features .identification) 50
  |> setIf c.txFile 51
  |> setIf (c.features .internetSelectivePolling) 101
  |> setIf (c.features .internetRouting) 102
  |> setIf (c.bilevel .r1200) 106
  |> setIf (c.bilevel .r1200 && c.colour .r1200) 111
  |> setIf (c.bilevel .r600_1200) 109
  |> setIf (c.bilevel .r600) 105
  |> setIf (c.bilevel .r600 && c.colour .r600) 110
  |> setIf (c.bilevel .r400_800) 108
  |> setIf (c.bilevel .r16Superfine) 43
  |> setIf (c.bilevel .r400) 43
  |> setIf (c.bilevel .r400 && c.colour .r400) 97
  |> setIf (c.bilevel .r300_600) 107
  |> setIf (c.bilevel .r300) 42
  |> setIf (c.bilevel .r300 && c.colour .r300) 97
  |> setIf (c.bilevel .r200_400 || c.bilevel .r8Superfine) 41
  |> setIf (c.bilevel .r8Fine) 15
  |> setIf (c.bilevel .r200) 15
  |> setIf (c.bilevel .r200 && c.colour .r200) 69
  |> setIf (c.colour .r100) 98
  |> setIf (c.bilevel .r8Standard || c.bilevel .r8Fine || c.bilevel .r8Superfine ||
      c.bilevel .r16Superfine) 45
  |> setIf (c.bilevel .r200_100 || c.bilevel .r200 || c.bilevel .r200_400 || c.bilevel .r300 ||
      c.bilevel .r300_600 || c.bilevel .r400 || c.bilevel .r400_800 || c.bilevel .r600 ||
      c.bilevel .r600_1200 || c.bilevel .r1200) 44
  |> setIf (c.features .iafFlowControl) 121
  |> setIf (c.features .iafContinuousFlow) 123

/-- /repo/src/t30.c:1658-1678 (`set_dis_or_dtc`). -/
def setDis (f : Frame) (c : Caps) (received : Bool) : Frame :=
  let f := upd f 2 (kindDis received)
  let f := if c.rxFile then setBit f 10 else clrBit f 10
  if c.txFile then setBit f 9 else clrBit f 9

/-- The first loop of the pruning functions, run from octet `5 + n` down: the extension bit is stripped
from each octet, until one is found with something in it.  The frame and the index of the octet (5 if
there is none).  /repo/src/t30.c:1685-1694, 1959-1968. -/
def pruneFrom (f : Frame) : Nat → Frame × Nat
  | 0 => (f, 5)
  | n + 1 =>
    let f := upd f (6 + n) (f (6 + n) &&& 0x7F#8)
    if f (6 + n) ≠ 0#8 then (f, 6 + n) else pruneFrom f n

/-- The extension bits of octets 5 to `i` - 1 are set.  /repo/src/t30.c:1698-1699, 1972-1973. -/
def extend (f : Frame) (i : Nat) : Frame := fun j => if 5 ≤ j ∧ j < i then f j ||| 0x80#8 else f j

/-- /repo/src/t30.c:1680-1705 (`prune_dis_dtc`): the frame, and its new length. -/
def pruneDis (f : Frame) : Frame × Nat :=
  let (f, i) := pruneFrom f 16
  (extend (upd f i (f i &&& 0x7F#8)) i, i + 1)

/-- /repo/src/t30.c:1955-1978 (`prune_dcs`).  The code strips the extension bit of the last octet from
`local_dis_dtc_frame` and not from `dcs_frame`; that does nothing to the DCS, and the DIS is pruned again
before it is sent. -/
def pruneDcs (f : Frame) : Frame × Nat :=
  let (f, i) := pruneFrom f 16
  (extend f i, i + 1)

/-- The octets handed to `send_frame`. -/
def octets (f : Frame) (len : Nat) : List Byte := (List.range len).map f

/-- A received frame, copied to an array and padded with zeros.  /repo/src/t30.c:1994-2004, 2251-2261. -/
def padded (msg : List Byte) : Frame := fun i => if i < 22 then msg.getD i 0#8 else 0#8

/-- The DIS (or DTC) a terminal sends: built, edited, pruned.  /repo/src/t30.c:1285-1330
(`send_dis_or_dtc_sequence`, the last frame of the sequence). -/
def disMessage (c : Caps) (received : Bool) : List Byte :=
  let (f, len) := pruneDis (setDis (buildDis c received) c received)
  octets f len

/-! ## A received DIS -/

/-- `if (c) mutual &= ~(…);` -/
def drop {α : Type} [DecidableEq α] (c : Bool) (l : List α) (m : α → Bool) : α → Bool :=
  fun x => m x && !(c && decide (x ∈ l))

/-- What is fixed by a received DIS.  `received` is `dis_received`. -/
structure Sess where
  far : Frame
  received : Bool
  ecm : Bool
  comps : Comp → Bool
  bilevel : Res → Bool
  colour : Res → Bool
  sizes : Size → Bool
  permitted : Modem → Bool
  fallback : Nat

/-- /repo/src/t30.c:2010-2066: the compressions both ends have. -/
def mutualComps (c : Caps) (far : Frame) (ecm : Bool) : Comp → Bool :=
  if !ecm then
    inter c.comps (oneOf [.noSubsampling, .gray, .colour, .bits12, .colourToGray, .grayToBilevel,
      .colourToBilevel, .rescaling, .none, .t4_1d, .t4_2d])
    |> drop (!test far 16) [.t4_2d]
  else
    c.comps
    |> drop (!test far 16) [.t4_2d]
    |> drop (!test far 31) [.t6]
    |> drop (!test far 78) [.t85, .t85_l0]
    |> drop (!test far 79) [.t85_l0]
    |> drop (!test far 69) [.colour]
    |> drop (!test far 68) [.t42_t81]
    |> drop (!test far 36) [.t43]
    |> drop (!test far 71) [.bits12]
    |> drop (!test far 73) [.noSubsampling]

/-- /repo/src/t30.c:2068-2149: the bi-level resolutions both ends have. -/
def mutualBilevel (c : Caps) (far : Frame) : Res → Bool :=
  c.bilevel
  |> drop (!test far 106) [.r1200]
  |> drop (!test far 109) [.r600_1200]
  |> drop (!test far 105) [.r600]
  |> drop (!test far 108) [.r400_800]
  |> drop (!test far 43) [.r400, .r16Superfine]
  |> drop (!test far 107) [.r300_600]
  |> drop (!test far 42) [.r300]
  |> drop (!test far 41) [.r200_400, .r8Superfine]
  |> drop (!test far 15) [.r200, .r8Fine]
  |> drop (!test far 44) [.r200_100]

/-- /repo/src/t30.c:2069-2149: the colour resolutions both ends have. -/
def mutualColour (c : Caps) (far : Frame) : Res → Bool :=
  c.colour
  |> drop (!test far 106) [.r1200]
  |> drop (test far 106 && !test far 111) [.r1200]
  |> drop (!test far 105) [.r600]
  |> drop (test far 105 && !test far 110) [.r600]
  |> drop (!test far 43) [.r400]
  |> drop (test far 43 && !test far 97) [.r400]
  |> drop (!test far 42) [.r300]
  |> drop (test far 42 && !test far 97) [.r300]
  |> drop (!test far 15) [.r200]
  |> drop (!test far 98) [.r100]

/-- /repo/src/t30.c:2151-2176: the page sizes both ends have. -/
def mutualSizes (c : Caps) (far : Frame) : Size → Bool :=
  c.sizes
  |> drop (!test far 18) [.w303]
  |> drop (!test far 18 && !test far 17) [.w255]
  |> drop (!test far 20) [.unlimited]
  |> drop (!test far 20 && !test far 19) [.b4]
  |> drop (!test far 76) [.letter]
  |> drop (!test far 77) [.legal]

/-- /repo/src/t30.c:2178-2214: the modems to use and where in the table of speeds to start.  `none` if
the far end has no modem this end can use. -/
def chooseModem (c : Caps) (code : Byte) : Option ((Modem → Bool) × Nat) :=
  if code = 0x2C#8 ∧ c.modems .v17 = true then some (oneOf [.v17, .v29, .v27ter], 0)
  else if (code = 0x2C#8 ∨ code = 0x0C#8) ∧ c.modems .v29 = true then some (oneOf [.v29, .v27ter], 3)
  else if code = 0x2C#8 ∨ code = 0x0C#8 ∨ code = 0x08#8 then some (oneOf [.v27ter], 6)
  else if code = 0#8 then some (oneOf [.v27ter], 6 + 1)
  else if code = 0x04#8 ∧ c.modems .v29 = true then some (oneOf [.v29], 3)
  else none

/-- /repo/src/t30.c:1981-2217 (`analyze_rx_dis_dtc`); `none` is the result -1.  `was` is `dis_received`
before. -/
def analyzeDis (c : Caps) (was : Bool) (msg : List Byte) : Option Sess :=
  if msg.length < 6 then none
  else
    let far := padded msg
    let ecm := c.ecm && test far 27
    match chooseModem c (far 4 &&& 0x3C#8) with
    | none => none
    | some (permitted, fallback) =>
      some { far, received := was || msg.getD 2 0#8 == 0x80#8, ecm, comps := mutualComps c far ecm,
             bilevel := mutualBilevel c far, colour := mutualColour c far,
             sizes := mutualSizes c far, permitted, fallback }

/-! ## The choice of an image format -/

/-- A page of a TIFF file: what it holds, its width in pixels (less than 0x7FFFFFFF), and its resolution,
if it is one of those known.  /repo/src/t4_tx.c (`get_tiff_directory_info`). -/
structure Page where
  type : Img
  width : Nat
  res : Option Res
  deriving DecidableEq

/-- How a page will be sent: the `metadata` of /repo/src/t4_tx.c, and the row squashing ratio.  A
`widthCode` of `none` is the -1 of a width which fits no pattern. -/
structure Fmt where
  type : Img
  comp : Comp
  width : Nat
  widthCode : Option Size
  res : Res
  squash : Nat
  deriving DecidableEq, Repr

/-- /repo/src/spandsp/t4_rx.h (`T4_IMAGE_FORMAT_…`): why a page cannot be sent. -/
inductive FmtErr
  | incompatible | noSize | noRes
  deriving DecidableEq, Repr

/-- /repo/src/t4_tx.c:1914-1963 (`width_and_res_info`). -/
def widthTable : List (Nat × Size × Res × Option Res) :=
  [(864, .w215, .r100, none), (1024, .w255, .r100, none), (1216, .w303, .r100, none),
   (1728, .w215, .r200_100, some .r8Standard), (1728, .w215, .r200, some .r8Fine),
   (1728, .w215, .r200_400, some .r8Superfine), (1728, .w215, .r8Standard, some .r200_100),
   (1728, .w215, .r8Fine, some .r200), (1728, .w215, .r8Superfine, some .r200_400),
   (2048, .w255, .r200_100, some .r8Standard), (2048, .w255, .r200, some .r8Fine),
   (2048, .w255, .r200_400, some .r8Superfine), (2048, .w255, .r8Standard, some .r200_100),
   (2048, .w255, .r8Fine, some .r200), (2048, .w255, .r8Superfine, some .r200_400),
   (2432, .w303, .r200_100, some .r8Standard), (2432, .w303, .r200, some .r8Fine),
   (2432, .w303, .r200_400, some .r8Superfine), (2432, .w303, .r8Standard, some .r200_100),
   (2432, .w303, .r8Fine, some .r200), (2432, .w303, .r8Superfine, some .r200_400),
   (2592, .w215, .r300, none), (2592, .w215, .r300_600, none),
   (3072, .w255, .r300, none), (3072, .w255, .r300_600, none),
   (3456, .w215, .r400, some .r16Superfine), (3456, .w215, .r400_800, none),
   (3456, .w215, .r16Superfine, some .r400),
   (3648, .w303, .r300, none), (3648, .w303, .r300_600, none),
   (4096, .w255, .r400, some .r16Superfine), (4096, .w255, .r400_800, none),
   (4096, .w255, .r16Superfine, some .r400),
   (4864, .w303, .r400, some .r16Superfine), (4864, .w303, .r400_800, none),
   (4864, .w303, .r16Superfine, some .r400),
   (5184, .w215, .r600, none), (5184, .w215, .r600_1200, none),
   (6144, .w255, .r600, none), (6144, .w255, .r600_1200, none),
   (7296, .w303, .r600, none), (7296, .w303, .r600_1200, none),
   (10368, .w215, .r1200, none), (12288, .w255, .r1200, none), (14592, .w303, .r1200, none)]

/-- /repo/src/t4_tx.c:2126-2135: the search of the table, which ends where the widths get larger than
that of the page. -/
def findWidth (p : Page) : List (Nat × Size × Res × Option Res) →
    Option (Size × Res × Option Res)
  | [] => none
  | (w, size, res, alt) :: l =>
    if p.width < w then none
    else if p.width = w ∧ p.res = some res then some (size, res, alt)
    else findWidth p l

/-- /repo/src/t4_tx.c:1965-2012 (`squashable`): what a resolution may be squashed to, and by how much. -/
def squashable : Res → List (Res × Nat)
  | .r200_400 => [(.r200, 2), (.r8Fine, 2), (.r200_100, 4), (.r8Standard, 4)]
  | .r200 => [(.r200_100, 2), (.r8Standard, 2)]
  | .r8Superfine => [(.r8Fine, 2), (.r200, 2), (.r8Standard, 4), (.r200_100, 4)]
  | .r8Fine => [(.r8Standard, 2), (.r200_100, 2)]
  | _ => []

/-- All the resolutions. -/
def allRes : List Res := [.r8Standard, .r8Fine, .r8Superfine, .r16Superfine, .r100, .r200_100, .r200,
  .r200_400, .r300, .r300_600, .r400, .r400_800, .r600, .r600_1200, .r1200]

def Img.isColour : Img → Bool
  | .colourBilevel | .colour8 | .colour12 => true
  | _ => false

def Img.isGray : Img → Bool
  | .gray8 | .gray12 => true
  | _ => false

/-- /repo/src/t4_tx.c:2021-2103: the kind of image to send and its compression, if it is a grey or colour
one. -/
def chooseType (comps : Comp → Bool) (colour : Res → Bool) (p : Page) :
    Except FmtErr (Img × Option Comp) :=
  if p.type = .bilevel then .ok (.bilevel, none)
  else if allRes.any colour && (comps .t42_t81 || comps .t43) &&
      (p.type.isColour && comps .colour || p.type.isGray && comps .gray) then
    .ok (p.type,
      if p.type = .colourBilevel ∧ comps .t43 = true then some .t43
      else if comps .t42_t81 then some .t42_t81
      else some .t43)
  else if p.type.isColour && !comps .colourToBilevel then .error .incompatible
  else if p.type.isGray && !comps .grayToBilevel then .error .incompatible
  else .ok (.bilevel, none)

/-- /repo/src/t4_tx.c:2105-2120: the compression of a bi-level image. -/
def bilevelComp (comps : Comp → Bool) : Comp :=
  if comps .t85_l0 then .t85_l0
  else if comps .t85 then .t85
  else if comps .t6 then .t6
  else if comps .t4_2d then .t4_2d
  else .t4_1d

/-- /repo/src/t4_tx.c:2147-2200: the resolution of a bi-level image whose width fits a pattern: its own,
its metric or imperial counterpart, or, if the page was bi-level to start with, one it can be squashed
to. -/
def bilevelRes (bilevel : Res → Bool) (p : Page) (res : Res) (alt : Option Res) :
    Option (Res × Nat) :=
  if bilevel res then some (res, 1)
  else match alt with
    | some a => if bilevel a then some (a, 1) else squash
    | none => squash
where
  squash : Option (Res × Nat) :=
    if p.type = .bilevel then (squashable res).find? (fun x => bilevel x.1) else none

/-- /repo/src/t4_tx.c:1902-2255 (`t4_tx_set_tx_image_format`, up to the point where the choice is made;
the translation of the image and the start of the encoder after it are taken to succeed). -/
def chooseFormat (comps : Comp → Bool) (sizes : Size → Bool) (bilevel colour : Res → Bool)
    (p : Page) : Except FmtErr Fmt :=
  match chooseType comps colour p with
  | .error e => .error e
  | .ok (type, multi) =>
    let comp := multi.getD (bilevelComp comps)
    let fit := findWidth p widthTable
    match fit with
    | some (size, res, alt) =>
      if sizes size then
        if type = .bilevel then
          match bilevelRes bilevel p res alt with
          | some (r, squash) => .ok ⟨type, comp, p.width, some size, r, squash⟩
          | none =>
            if p.type = .bilevel then .error .noRes
            else if !comps .rescaling then .error .noSize
            else .error .noRes
        else if bilevel res && colour res then .ok ⟨type, comp, p.width, some size, res, 1⟩
        else .error .noRes
      else rework comp type (some size)
    | none => rework comp type none
where
  /-- /repo/src/t4_tx.c:2232-2250: the width will not do. -/
  rework (comp : Comp) (type : Img) (widthCode : Option Size) : Except FmtErr Fmt :=
    if p.type = .bilevel ∨ p.type = .colourBilevel then .error .noRes
    else if !comps .rescaling then .error .noSize
    else .ok ⟨type, comp, 1728, widthCode, .r200, 1⟩

/-! ## Speeds -/

/-- /repo/src/t30.c:413-430 (`fallback_sequence`, without its terminator): bit rate, modem, and the code
in a DCS. -/
def fallbackTable : List (Nat × Modem × Byte) :=
  [(14400, .v17, 0x20#8), (12000, .v17, 0x28#8), (9600, .v17, 0x24#8), (9600, .v29, 0x04#8),
   (7200, .v17, 0x2C#8), (7200, .v29, 0x0C#8), (4800, .v27ter, 0x08#8), (2400, .v27ter, 0#8)]

def rateOf (i : Nat) : Nat := ((fallbackTable[i]?).map (·.1)).getD 0
def modemOf (i : Nat) : Option Modem := (fallbackTable[i]?).map (·.2.1)
def codeOf (i : Nat) : Byte := ((fallbackTable[i]?).map (·.2.2)).getD 0#8

/-- The first entry at or after `i` which is permitted, in the rest `l` of the table. -/
def nextPermitted (permitted : Modem → Bool) : Nat → List (Nat × Modem × Byte) → Option Nat
  | _, [] => none
  | i, (_, m, _) :: l => if permitted m then some i else nextPermitted permitted (i + 1) l

/-- /repo/src/t30.c:603-625 (`step_fallback_entry`); `none` is the result -1. -/
def stepFallback (s : Sess) : Option Sess :=
  (nextPermitted s.permitted (s.fallback + 1) (fallbackTable.drop (s.fallback + 1))).map
    fun i => { s with fallback := i }

/-- /repo/src/t30.c:584-601 (`find_fallback_entry`), from entry `i`. -/
def findFallback (code : Byte) : Nat → List (Nat × Modem × Byte) → Option Nat
  | _, [] => none
  | i, (_, _, c) :: l => if c = code then some i else findFallback code (i + 1) l

/-! ## Minimum scan times -/

/-- /repo/src/t30.c:2925-2933 (`translate_min_scan_time`), as codes 20 ms = 0, 5 ms = 1, 10 ms = 2,
40 ms = 4, 0 ms = 7. -/
def translateNormal : List (BitVec 3) := [0#3, 1#3, 2#3, 0#3, 4#3, 4#3, 2#3, 7#3]
def translateFine : List (BitVec 3) := [0#3, 1#3, 2#3, 2#3, 4#3, 0#3, 1#3, 7#3]
def translateHalf : List (BitVec 3) := [2#3, 1#3, 1#3, 1#3, 0#3, 2#3, 1#3, 7#3]

/-- /repo/src/t30.c:2935-2938 (`min_scan_times`). -/
def minScanTimes : List Nat := [20, 5, 10, 0, 40, 0, 0, 0]

/-- The rows per metre of a resolution, as the cases of `set_min_scan_time` tell them apart: standard
(3850 or 3937), fine (7700 or 7874), superfine (15400 or 15748), or more.
/repo/src/t4_tx.c (`code_to_y_resolution`). -/
inductive YRes
  | standard | fine | superfine | other
  deriving DecidableEq, Repr

def Res.y : Res → YRes
  | .r8Standard | .r200_100 | .r100 => .standard
  | .r8Fine | .r200 => .fine
  | .r8Superfine | .r16Superfine | .r200_400 | .r400 => .superfine
  | _ => .other

/-- /repo/src/t30.c:2943-2966 (`set_min_scan_time`, the code). -/
def minScanCode (s : Sess) (res : Res) : BitVec 3 :=
  let field : Nat := if s.ecm then 7 else ((s.far 5 >>> 4) &&& 7#8).toNat
  match res.y with
  | .superfine => (if test s.far 46 then translateHalf else translateFine).getD field 0#3
  | .fine => translateFine.getD field 0#3
  | .standard => translateNormal.getD field 0#3
  | .other => 7#3

/-- /repo/src/t30.c:2967-2973 (`set_min_scan_time`, the bits each row is padded to). -/
def minRowBits (c : Caps) (s : Sess) (res : Res) : Nat :=
  if c.features .iafNoFillBits then 0
  else rateOf s.fallback * minScanTimes.getD (minScanCode s res).toNat 0 / 1000

/-! ## The DCS -/

/-- The bits of a DCS for a compression and a kind of image.  /repo/src/t30.c:1757-1821. -/
def compBits (comp : Comp) (type : Img) : List Nat :=
  match comp with
  | .t4_2d => [16]
  | .t6 => [31]
  | .t85 => [78]
  | .t85_l0 => [79]
  | .t42_t81 => 68 :: multi
  | .t43 => 36 :: multi
  | _ => []
where
  multi : List Nat :=
    (if type = .colour8 ∨ type = .colour12 then [69] else []) ++
    (if type = .gray12 ∨ type = .colour12 then [71] else [])

/-- The bits for a resolution; `multi` for a grey or colour image (`!use_bilevel`).
/repo/src/t30.c:1857-1930. -/
def resBits (multi : Bool) : Res → List Nat
  | .r1200 => [106, 44] ++ (if multi then [111] else [])
  | .r600_1200 => [109, 44]
  | .r600 => [105, 44] ++ (if multi then [110] else [])
  | .r400_800 => [108, 44]
  | .r400 => [43, 44] ++ (if multi then [97] else [])
  | .r300_600 => [107, 44]
  | .r300 => [42, 44] ++ (if multi then [97] else [])
  | .r200_400 => [41, 44]
  | .r200 => [15, 44] ++ (if multi then [69] else [])
  | .r200_100 => [44]
  | .r100 => [44] ++ (if multi then [98] else [])
  | .r16Superfine => [43]
  | .r8Superfine => [41]
  | .r8Fine => [15]
  | .r8Standard => []

/-- The bits for a width.  /repo/src/t30.c:1823-1840.  (Bit 17 is 255 mm and 18 is 303 mm.) -/
def widthBits : Option Size → List Nat
  | some .w255 => [17]
  | some .w303 => [18]
  | _ => []

/-- The bits for the length.  /repo/src/t30.c:1842-1854. -/
def lengthBits (sizes : Size → Bool) : List Nat :=
  if sizes .unlimited then [20]
  else if sizes .b4 then [19]
  else if sizes .letter then [76]
  else if sizes .legal then [77]
  else []

/-- `!use_bilevel` -/
def Comp.isMulti : Comp → Bool
  | .t42_t81 | .t43 => true
  | _ => false

/-- /repo/src/t30.c:1707-1952 (`build_dcs`).  In the internet aware mode with continuous flow the code
clears bits of the DIS and not of the DCS; that effect is not modelled. -/
def buildDcs (c : Caps) (s : Sess) (m : Fmt) : Frame :=
  blank (kindDcs s.received)
  |> setIf true 10
  |> (fun f => orOctet f 4 (codeOf s.fallback))
  |> (fun f => orOctet f 5 ((minScanCode s m.res).zeroExtend 8 <<< 4))
  |> setAll true (compBits m.comp m.type)
  |> (fun f => if m.comp.isMulti || m.comp == .none then orOctet f 5 (7#8 <<< 4) else f)
  |> setAll true (widthBits m.widthCode)
  |> setAll true (lengthBits s.sizes)
  |> setAll true (resBits m.comp.isMulti m.res)
  |> setIf s.ecm 27
  |> setIf (c.features .iafFlowControl && test s.far 121) 121
  |> setIf (c.features .iafContinuousFlow && test s.far 123) 123

/-- The DCS a terminal sends; `sub` and `pwd` if a sub-address or a sender identification goes with it.
/repo/src/t30.c:1237-1283 (`send_sub_frame`, `send_sid_frame`), 1955-1978. -/
def dcsMessage (c : Caps) (s : Sess) (m : Fmt) (sub sid : Bool) : List Byte :=
  let (f, len) := pruneDcs (buildDcs c s m |> setIf sub 49 |> setIf sid 50)
  octets f len

/-! ## A received DCS -/

/-- What a received DCS fixes. -/
structure Agreed where
  ecm : Bool
  comp : Comp
  res : Res
  width : Nat
  fallback : Nat
  deriving DecidableEq, Repr

/-- What comes of a received DCS: `fault` is a write outside an array; the others are the ways
`analyze_rx_dcs` has of returning -1. -/
inductive DcsResult
  | fault | short | incompatible | noRes | badModem
  | ok (a : Agreed)
  deriving DecidableEq, Repr

/-- `if (supported & r) …` -/
def have? (m : Res → Bool) (r : Res) : Option Res := if m r then some r else none

/-- /repo/src/t30.c:2276-2380: the resolution of a grey or colour image. -/
def dcsColourRes (colour : Res → Bool) (f : Frame) : Option Res :=
  if test f 111 then have? colour .r1200
  else if test f 110 then have? colour .r600
  else if test f 43 then have? colour .r400
  else if test f 42 then have? colour .r300
  else if test f 15 then have? colour .r200
  else if test f 98 then have? colour .r100
  else none

/-- /repo/src/t30.c:2382-2406: the compression of a grey or colour image. -/
def dcsColourComp (comps : Comp → Bool) (f : Frame) : Option Comp :=
  if test f 68 then (if comps .t42_t81 then some .t42_t81 else none)
  else if test f 36 then (if comps .t43 then some .t43 else none)
  else none

/-- /repo/src/t30.c:2411-2571: the resolution of a bi-level image. -/
def dcsBilevelRes (bilevel : Res → Bool) (f : Frame) : Option Res :=
  if test f 106 then have? bilevel .r1200
  else if test f 109 then have? bilevel .r600_1200
  else if test f 105 then have? bilevel .r600
  else if test f 108 then have? bilevel .r400_800
  else if test f 43 then (if test f 44 then have? bilevel .r400 else have? bilevel .r16Superfine)
  else if test f 107 then have? bilevel .r300_600
  else if test f 42 then have? bilevel .r300
  else if test f 41 then (if test f 44 then have? bilevel .r200_400 else have? bilevel .r8Superfine)
  else if test f 15 then (if test f 44 then have? bilevel .r200 else have? bilevel .r8Fine)
  else if test f 44 then some .r200_100 else some .r8Standard

/-- /repo/src/t30.c:2573-2617: the compression of a bi-level image (T.88 is never supported). -/
def dcsBilevelComp (comps : Comp → Bool) (f : Frame) : Option Comp :=
  if test f 79 then (if comps .t85_l0 then some .t85_l0 else none)
  else if test f 78 then (if comps .t85 then some .t85 else none)
  else if test f 31 then (if comps .t6 then some .t6 else none)
  else if test f 16 then (if comps .t4_2d then some .t4_2d else none)
  else (if comps .t4_1d then some .t4_1d else none)

/-- /repo/src/t30.c:2222-2231 (`widths`): the row for a resolution. -/
def widthsOf : Res → List Nat
  | .r100 => [864, 1024, 1216, 1216]
  | .r8Standard | .r8Fine | .r8Superfine | .r200_100 | .r200 | .r200_400 => [1728, 2048, 2432, 2432]
  | .r300 | .r300_600 => [2592, 3072, 3648, 3648]
  | .r16Superfine | .r400 | .r400_800 => [3456, 4096, 4864, 4864]
  | .r600 | .r600_1200 => [5184, 6144, 7296, 7296]
  | .r1200 => [10368, 12288, 14592, 14592]

/-- The size of `rx_dcs_string`.  /repo/src/spandsp/private/t30.h:77. -/
def dcsStringSize : Nat := 22*3 + 1

/-- The last write to `rx_dcs_string` for a frame of `len` octets: at 3(len - 1) - 10, of four octets with
the terminating zero.  /repo/src/t30.c:2245-2249. -/
def dcsStringEnd (len : Nat) : Nat := 3*(len - 1) - 10 + 4

/-- /repo/src/t30.c:2219-2650 (`analyze_rx_dcs`).  Bits 116 and 127 (T.45, sYCC) mark a colour image, in
a compression which is never supported. -/
def analyzeDcs (c : Caps) (msg : List Byte) : DcsResult :=
  if msg.length < 6 then .short
  else if dcsStringEnd msg.length > dcsStringSize then .fault
  else
    let f := padded msg
    let multi := test f 68 || test f 36 || test f 116 || test f 127
    let res := if multi then dcsColourRes c.colour f else dcsBilevelRes c.bilevel f
    let comp := if multi then dcsColourComp c.comps f else dcsBilevelComp c.comps f
    match comp with
    | none => .incompatible
    | some comp =>
      match res with
      | none => .noRes
      | some res =>
        match findFallback (f 4 &&& 0x3C#8) 0 fallbackTable with
        | none => .badModem
        | some i => .ok ⟨test f 27, comp, res, (widthsOf res).getD (f 5 &&& 3#8).toNat 0, i⟩

/-! ## A call -/

/-- The caller's side of a call, up to its first DCS: it takes the DIS to pieces, finds that the far end
can receive, and chooses a format.  `none` if it gives up.  /repo/src/t30.c:3129-3190
(`process_rx_dis_dtc`), 2977-3072 (`start_sending_document`). -/
def offer (c : Caps) (dis : List Byte) (p : Page) : Option (Sess × Fmt) :=
  match analyzeDis c false dis with
  | none => none
  | some s =>
    if !c.txFile then none
    else if !test s.far 10 then none
    else match chooseFormat s.comps s.sizes s.bilevel s.colour p with
      | .error _ => none
      | .ok m => some (s, m)

/-- `n` steps down in speed. -/
def stepDown (s : Sess) : Nat → Option Sess
  | 0 => some s
  | n + 1 => (stepFallback s).bind fun s => stepDown s n

end Nego
