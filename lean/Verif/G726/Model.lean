import Verif.G711.Model

/-!
# Model of `src/g726.c`

Values of `int16_t` are integers which are brought into range with `s16` where the code converts to that type.
All other arithmetic is that of `int`, on operands of 16 bits (24 bits for `yl`), and does not come near its
limits.  A shift by a negative number of bits, or by 32 or more, and an access outside of a table are faults,
`none`.  Shifting a negative value to the left multiplies it.
-/

namespace G726

abbrev Byte := BitVec 8

/-- A conversion to `int16_t`. -/
def s16 (x : Int) : Int := Int.bmod x 65536

/-- `a << n`. -/
def shl (a n : Int) : Option Int := if 0 ≤ n ∧ n < 32 then some (a*2^n.toNat) else none

/-- `a >> n`. -/
def shr (a n : Int) : Option Int := if 0 ≤ n ∧ n < 32 then some (a/2^n.toNat) else none

/-- `top_bit` of a value which is not negative.  src/spandsp/bit_operations.h:81-143; see
`Verif.BitOps.Model` for the code, and `top_eq` of `Verif.G726.Safe`. -/
def top (n : Nat) : Int := if n = 0 then -1 else n.log2

/-! ## Tables -/

/-- The tables and numbers in which the coders for the four rates differ: values of a code, and decision
levels; the number of states of the quantiser, the sign bit of a code, and the mask for the magnitude. -/
structure Tab where
  bits : Nat
  dqln : List Int
  wi : List Int
  fi : List Int
  q : List Int
  states : Nat
  sign : Nat
  mask : Int

/-- src/g726.c:84-112, 730-804. -/
def tab16 : Tab :=
  ⟨2, [116, 365, 365, 116], [-704, 14048, 14048, -704], [0x000, 0xE00, 0xE00, 0x000], [261], 4, 2, 16384⟩

/-- src/g726.c:114-142, 809-883. -/
def tab24 : Tab :=
  ⟨3, [-2048, 135, 273, 373, 373, 273, 135, -2048], [-128, 960, 4384, 18624, 18624, 4384, 960, -128],
    [0x000, 0x200, 0x400, 0xE00, 0xE00, 0x400, 0x200, 0x000], [8, 218, 331], 7, 4, 16384⟩

/-- src/g726.c:144-175, 888-962. -/
def tab32 : Tab :=
  ⟨4, [-2048, 4, 135, 213, 273, 323, 373, 425, 425, 373, 323, 273, 213, 135, 4, -2048],
    [-384, 576, 1312, 2048, 3584, 6336, 11360, 35904, 35904, 11360, 6336, 3584, 2048, 1312, 576, -384],
    [0x000, 0x000, 0x000, 0x200, 0x200, 0x200, 0x600, 0xE00, 0xE00, 0x600, 0x200, 0x200, 0x200, 0x000, 0x000, 0x000],
    [-124, 80, 178, 246, 300, 349, 400], 15, 8, 16384⟩

/-- src/g726.c:177-215, 968-1042. -/
def tab40 : Tab :=
  ⟨5, [-2048, -66, 28, 104, 169, 224, 274, 318, 358, 395, 429, 459, 488, 514, 539, 566,
       566, 539, 514, 488, 459, 429, 395, 358, 318, 274, 224, 169, 104, 28, -66, -2048],
    [448, 448, 768, 1248, 1280, 1312, 1856, 3200, 4512, 5728, 7008, 8960, 11456, 14080, 16928, 22272,
     22272, 16928, 14080, 11456, 8960, 7008, 5728, 4512, 3200, 1856, 1312, 1280, 1248, 768, 448, 448],
    [0x000, 0x000, 0x000, 0x000, 0x000, 0x200, 0x200, 0x200, 0x200, 0x200, 0x400, 0x600, 0x800, 0xA00, 0xC00, 0xC00,
     0xC00, 0xC00, 0xA00, 0x800, 0x600, 0x400, 0x200, 0x200, 0x200, 0x200, 0x200, 0x000, 0x000, 0x000, 0x000, 0x000],
    [-122, -16, 68, 139, 198, 250, 298, 339, 378, 413, 445, 475, 502, 528, 553], 31, 16, 32768⟩

/-! ## The predictor and the scale -/

/-- src/spandsp/private/g726.h:38-82, but for the options and the bits left over. -/
structure Pred where
  yl : Int
  yu : Int
  dms : Int
  dml : Int
  ap : Int
  a0 : Int
  a1 : Int
  b : List Int
  pk0 : Bool
  pk1 : Bool
  dq : List Int
  sr0 : Int
  sr1 : Int
  td : Bool
  deriving DecidableEq, Repr

/-- src/g726.c:1189-1210 (`g726_init`). -/
def predInit : Pred :=
  ⟨34816, 544, 0, 0, 0, 0, 0, List.replicate 6 0, false, false, List.replicate 6 32, 32, 32, false⟩

/-- `anmant`.  src/g726.c:232. -/
def mantissa (anmag anexp : Int) : Option Int :=
  if anmag = 0 then some 32 else if anexp ≥ 0 then shr anmag anexp else shl anmag (-anexp)

/-- `retval`.  src/g726.c:236. -/
def scaled (wanmant wanexp : Int) : Option Int :=
  if wanexp ≥ 0 then (shl wanmant wanexp).map (· % 32768) else shr wanmant (-wanexp)

/-- src/g726.c:221-239 (`fmult`).  `x & 0x1FFF` and the like are remainders. -/
def fmult (an srn : Int) : Option Int := do
  let anmag := if an > 0 then an else (-an) % 8192
  let anexp := top anmag.toNat - 5
  let anmant ← mantissa anmag anexp
  let wanexp := anexp + (srn/64) % 16 - 13
  let wanmant := (anmant*(srn % 64) + 0x30)/16
  let retval ← scaled wanmant wanexp
  return if (an < 0) ≠ (srn < 0) then -retval else retval

/-- The sum of the loop of `predictor_zero`.  src/g726.c:250-254. -/
def zeros : List Int → List Int → Option Int
  | b :: bs, d :: ds => do return (← fmult (b/4) d) + (← zeros bs ds)
  | _, _ => some 0

/-- src/g726.c:245-256 (`predictor_zero`). -/
def predictorZero (s : Pred) : Option Int := (zeros s.b s.dq).map s16

/-- src/g726.c:262-265 (`predictor_pole`). -/
def predictorPole (s : Pred) : Option Int := do return s16 ((← fmult (s.a1/4) s.sr1) + (← fmult (s.a0/4) s.sr0))

/-- src/g726.c:271-288 (`step_size`). -/
def stepSize (s : Pred) : Int :=
  if s.ap ≥ 256 then s.yu
  else
    let y := s.yl/64
    let dif := s.yu - y
    let al := s.ap/4
    if dif > 0 then y + dif*al/64 else if dif < 0 then y + (dif*al + 0x3F)/64 else y

/-- The loop of src/g726.c:335-341. -/
def search (dln : Int) : List Int → Nat
  | [] => 0
  | t :: ts => if dln < t then 0 else search dln ts + 1

/-- `dl` of src/g726.c:316-320: the logarithm of a magnitude. -/
def logMag (d : Int) : Option Int := do
  let dqm := s16 d.natAbs
  let exp := top (dqm/2).toNat + 1
  let mant := (← shr (dqm*128) exp) % 128
  return s16 (exp*128 + mant)

/-- src/g726.c:298-356 (`quantize`).  A magnitude which does not fit is a fault: its logarithm would
shift by 32 bits. -/
def quantize (d y : Int) (t : Tab) : Option Nat := do
  if s16 d.natAbs < 0 then none
  else
    let dl ← logMag d
    let dln := s16 (dl - s16 (y/4))
    let size := (t.states - 1)/2
    let i := search dln (t.q.take size)
    if d < 0 then return size*2 + 1 - i
    else if i = 0 ∧ t.states % 2 = 1 then return t.states
    else return i

/-- src/g726.c:364-383 (`reconstruct`). -/
def reconstruct (sign : Bool) (dqln y : Int) : Option Int := do
  let dql := s16 (dqln + y/4)
  if dql < 0 then return if sign then -0x8000 else 0
  else
    let dex := (dql/128) % 16
    let dqt := 128 + dql % 128
    let dq ← (shr (dqt*128) (14 - dex)).map s16
    return if sign then s16 (dq - 0x8000) else dq

/-- src/g726.c:485-506. -/
def limc (a2p : Int) (p' : Bool) : Int :=
  if p' then if a2p ≤ -12160 then -12288 else if a2p ≥ 12416 then 12288 else s16 (a2p - 0x80)
  else if a2p ≤ -12416 then -12288 else if a2p ≥ 12160 then 12288 else s16 (a2p + 0x80)

/-- The leak of a pole, and the limit.  src/g726.c:468-511.  `p` is `pks1`, `p'` is `pk0 ^ pk[1]`. -/
def upa2 (a0 a1 dqsez : Int) (p p' : Bool) : Int :=
  let a2p := s16 (a1 - a1/128)
  if dqsez = 0 then a2p
  else
    let fa1 := if p then a0 else s16 (-a0)
    let a2p := if fa1 < -8191 then s16 (a2p - 0x100) else if fa1 > 8191 then s16 (a2p + 0xFF) else s16 (a2p + fa1/32)
    limc a2p p'

/-- src/g726.c:513-531. -/
def upa1 (a0 a2p dqsez : Int) (p : Bool) : Int :=
  let a := s16 (a0 - a0/256)
  let a := if dqsez = 0 then a else if !p then s16 (a + 192) else s16 (a - 192)
  let a1ul := s16 (15360 - a2p)
  if a < -a1ul then s16 (-a1ul) else if a > a1ul then a1ul else a

/-- One coefficient of src/g726.c:533-549. -/
def upb (bits : Nat) (dq b d : Int) : Int :=
  let b := s16 (b - b/(if bits = 5 then 512 else 256))
  if dq % 32768 = 0 then b else if (dq < 0) = (d < 0) then s16 (b + 128) else s16 (b - 128)

/-- A magnitude with its sign as an exponent of four bits and a mantissa of six.
src/g726.c:561-566, 576-577, 581-583. -/
def floatOf (mag : Int) (neg : Bool) : Option Int := do
  let exp := top mag.toNat + 1
  let m ← shr (mag*64) exp
  return s16 (exp*64 + m - if neg then 0x400 else 0)

/-- `thr`.  src/g726.c:418-421. -/
def threshold (yl : Int) : Option Int :=
  let ylint := s16 (yl/32768)
  let ylfrac := s16 ((yl/1024) % 32)
  if ylint > 9 then some 31744 else (shl (32 + ylfrac) ylint).map s16

/-- src/g726.c:555-566. -/
def dqFloat (dq : Int) : Option Int :=
  if dq % 32768 = 0 then some (if dq ≥ 0 then 0x20 else -992) else floatOf (dq % 32768) (dq < 0)

/-- src/g726.c:569-589. -/
def srFloat (sr : Int) : Option Int :=
  if sr = 0 then some 0x20 else if sr > 0 then floatOf sr false
  else if sr > -32768 then floatOf (-sr) true else some (-992)

/-- src/g726.c:389-621 (`update`). -/
def update (bits : Nat) (s : Pred) (y wi fi dq sr dqsez : Int) : Option Pred := do
  let pk0 : Bool := dqsez < 0
  let mag := dq % 32768
  let thr ← threshold s.yl
  let dqthr := s16 ((thr + thr/2)/2)
  let tr : Bool := s.td && mag > dqthr
  let yu := s16 (y + (wi - y)/32)
  let yu := if yu < 544 then 544 else if yu > 5120 then 5120 else yu
  let yl := s.yl + yu + (-s.yl)/64
  let pks1 := pk0 ^^ s.pk0
  let a2p := if tr then 0 else upa2 s.a0 s.a1 dqsez pks1 (pk0 ^^ s.pk1)
  let a0 := if tr then 0 else upa1 s.a0 a2p dqsez pks1
  let b := if tr then List.replicate 6 0 else List.zipWith (upb bits dq) s.b s.dq
  let dq0 ← dqFloat dq
  let sr0 ← srFloat sr
  let td : Bool := !tr && a2p < -11776
  let dms := s16 (s.dms + (s16 fi - s.dms)/32)
  let dml := s16 (s.dml + (s16 (fi*4) - s.dml)/128)
  let ap := if tr then 256
    else if y < 1536 then s16 (s.ap + (0x200 - s.ap)/16)
    else if td then s16 (s.ap + (0x200 - s.ap)/16)
    else if ((dms*4 - dml).natAbs : Int) ≥ dml/8 then s16 (s.ap + (0x200 - s.ap)/16)
    else s16 (s.ap + (-s.ap)/16)
  return ⟨yl, yu, dms, dml, ap, a0, a2p, b, pk0, s.pk0, dq0 :: s.dq.take 5, sr0, s.sr0, td⟩

/-! ## Codes -/

/-- The coding of samples.  src/spandsp/g726.h:46-51. -/
inductive Coding where
  | linear
  | alaw
  | ulaw
  deriving DecidableEq, Repr

/-- The next lower value of a code of A-law.  src/g726.c:655-660. -/
def alawLower (sp : Byte) : Byte :=
  if sp &&& 0x80#8 ≠ 0#8 then (if sp = 0xD5#8 then 0x55#8 else ((sp ^^^ 0x55#8) - 1#8) ^^^ 0x55#8)
  else if sp = 0x2A#8 then 0x2A#8 else ((sp ^^^ 0x55#8) + 1#8) ^^^ 0x55#8

/-- The next higher one.  src/g726.c:664-669. -/
def alawHigher (sp : Byte) : Byte :=
  if sp &&& 0x80#8 ≠ 0#8 then (if sp = 0xAA#8 then 0xAA#8 else ((sp ^^^ 0x55#8) + 1#8) ^^^ 0x55#8)
  else if sp = 0x55#8 then 0xD5#8 else ((sp ^^^ 0x55#8) - 1#8) ^^^ 0x55#8

/-- src/g726.c:706-711. -/
def ulawLower (sp : Byte) : Byte :=
  if sp &&& 0x80#8 ≠ 0#8 then (if sp = 0xFF#8 then 0x7E#8 else sp + 1#8)
  else if sp = 0x00#8 then 0x00#8 else sp - 1#8

/-- src/g726.c:715-720. -/
def ulawHigher (sp : Byte) : Byte :=
  if sp &&& 0x80#8 ≠ 0#8 then (if sp = 0x80#8 then 0x80#8 else sp - 1#8)
  else if sp = 0x7F#8 then 0xFE#8 else sp + 1#8

/-- src/g726.c:624-673 (`tandem_adjust_alaw`). -/
def tandemAlaw (sr se y : Int) (i : Nat) (t : Tab) : Option Byte := do
  let sr := if sr ≤ -32768 then -1 else sr
  let sp ← G711.linearToAlaw (sr/2*8)
  let dx := s16 (G711.alawToLinear sp/4 - se)
  let id ← quantize dx y t
  return if id = i then sp else if id ^^^ t.sign > i ^^^ t.sign then alawLower sp else alawHigher sp

/-- src/g726.c:676-724 (`tandem_adjust_ulaw`). -/
def tandemUlaw (sr se y : Int) (i : Nat) (t : Tab) : Option Byte := do
  let sr := if sr ≤ -32768 then 0 else sr
  let sp ← G711.linearToUlaw (sr*4)
  let dx := s16 (G711.ulawToLinear sp/4 - se)
  let id ← quantize dx y t
  return if id = i then sp else if id ^^^ t.sign > i ^^^ t.sign then ulawLower sp else ulawHigher sp

/-- The encoders.  src/g726.c:730-760, 809-839, 888-918, 968-998. -/
def encoder (t : Tab) (s : Pred) (amp : Int) : Option (Pred × Nat) := do
  let sezi ← predictorZero s
  let sei := s16 (sezi + (← predictorPole s))
  let se := sei/2
  let d := s16 (amp - se)
  let y := stepSize s
  let i ← quantize d y t
  let dq ← reconstruct (i &&& t.sign ≠ 0) (← t.dqln[i]?) y
  let sr := s16 (if dq < 0 then se - dq % t.mask else se + dq)
  let dqsez := s16 (sr + sezi/2 - se)
  let s ← update t.bits s y (← t.wi[i]?) (← t.fi[i]?) dq sr dqsez
  return (s, i)

/-- The decoders.  src/g726.c:767-803, 846-882, 925-961, 1005-1041.  A code of A-law or u-law is given by
its value. -/
def decoder (t : Tab) (c : Coding) (s : Pred) (code : Byte) : Option (Pred × Int) := do
  let code := code.toNat % 2^t.bits
  let sezi ← predictorZero s
  let sei := s16 (sezi + (← predictorPole s))
  let y := stepSize s
  let dq ← reconstruct (code &&& t.sign ≠ 0) (← t.dqln[code]?) y
  let se := sei/2
  let sr := s16 (if dq < 0 then se - dq % t.mask else se + dq)
  let dqsez := s16 (sr + sezi/2 - se)
  let s ← update t.bits s y (← t.wi[code]?) (← t.fi[code]?) dq sr dqsez
  match c with
  | .alaw => return (s, ((← tandemAlaw sr se y code t).toNat : Int))
  | .ulaw => return (s, ((← tandemUlaw sr se y code t).toNat : Int))
  | .linear => return (s, s16 (sr*4))

/-! ## Streams -/

/-- The packing of codes.  src/spandsp/g726.h:53-58. -/
inductive Packing where
  | none
  | left
  | right
  deriving DecidableEq, Repr

/-- The state with the bits left over.  `stream` is `bs.bitstream`. -/
structure Codec where
  p : Pred
  stream : BitVec 32
  residue : Nat
  deriving DecidableEq, Repr

/-- The options of `g726_init`: the tables for the rate, the coding of samples, the packing of codes. -/
structure Cfg where
  t : Tab
  coding : Coding
  packing : Packing

/-- src/g726.c:1175-1238 (`g726_init`). -/
def cfg (rate : Int) (coding : Coding) (packing : Packing) : Option Cfg :=
  if rate = 16000 then some ⟨tab16, coding, packing⟩
  else if rate = 24000 then some ⟨tab24, coding, packing⟩
  else if rate = 32000 then some ⟨tab32, coding, packing⟩
  else if rate = 40000 then some ⟨tab40, coding, packing⟩
  else none

/-- src/g726.c:1189-1210, 1236; src/bitstream.c:148-161. -/
def init : Codec := ⟨predInit, 0#32, 0⟩

/-- A sample as 14 bits.  src/g726.c:1121-1134. -/
def linearise (c : Coding) (a : Int) : Int :=
  match c with
  | .alaw => G711.alawToLinear (BitVec.ofInt 8 a)/4
  | .ulaw => G711.ulawToLinear (BitVec.ofInt 8 a)/4
  | .linear => a/4

/-- What comes of a code.  src/g726.c:1136-1168. -/
def emit (g : Cfg) (s : Codec) (code : Nat) : Codec × List Byte :=
  let n := g.t.bits
  match g.packing with
  | .none => (s, [BitVec.ofNat 8 code])
  | .right =>
    let st := s.stream ||| (BitVec.ofNat 32 code <<< s.residue)
    let r := s.residue + n
    if r ≥ 8 then ({ s with stream := st >>> 8, residue := r - 8 }, [st.setWidth 8])
    else ({ s with stream := st, residue := r }, [])
  | .left =>
    let st := (s.stream <<< n) ||| BitVec.ofNat 32 code
    let r := s.residue + n
    if r ≥ 8 then ({ s with stream := st, residue := r - 8 }, [(st >>> (r - 8)).setWidth 8])
    else ({ s with stream := st, residue := r }, [])

/-- src/g726.c:1109-1172 (`g726_encode`). -/
def encode (g : Cfg) (s : Codec) : List Int → Option (Codec × List Byte)
  | [] => some (s, [])
  | a :: l => do
    let (p, code) ← encoder g.t s.p (linearise g.coding a)
    let (s, o) := emit g { s with p := p } code
    let (s, os) ← encode g s l
    return (s, o ++ os)

/-- The next code, if there are bits enough for one.  src/g726.c:1056-1096.  A code takes five bits at
most, so that one octet is enough. -/
def pull (g : Cfg) (s : Codec) (l : List Byte) : Option (Byte × Codec × List Byte) :=
  let n := g.t.bits
  match g.packing with
  | .none =>
    match l with
    | [] => none
    | o :: l => some (o, s, l)
  | .right =>
    match (if s.residue < n then
        match l with
        | [] => none
        | o :: l => some ({ s with stream := s.stream ||| (o.setWidth 32 <<< s.residue), residue := s.residue + 8 }, l)
      else some (s, l)) with
    | none => none
    | some (s, l) =>
      some (BitVec.ofNat 8 (s.stream.toNat % 2^n), { s with stream := s.stream >>> n, residue := s.residue - n }, l)
  | .left =>
    match (if s.residue < n then
        match l with
        | [] => none
        | o :: l => some ({ s with stream := (s.stream <<< 8) ||| o.setWidth 32, residue := s.residue + 8 }, l)
      else some (s, l)) with
    | none => none
    | some (s, l) =>
      some (BitVec.ofNat 8 ((s.stream >>> (s.residue - n)).toNat % 2^n), { s with residue := s.residue - n }, l)

/-- The loop of src/g726.c:1054-1104.  It is a fault if it takes `k` turns and does not end. -/
def decodeLoop (g : Cfg) : Nat → Codec → List Byte → Option (Codec × List Int)
  | 0, _, _ => none
  | k + 1, s, l =>
    match pull g s l with
    | none => some (s, [])
    | some (code, s, l) => do
      let (p, a) ← decoder g.t g.coding s.p code
      let (s, as) ← decodeLoop g k { s with p := p } l
      return (s, a :: as)

/-- src/g726.c:1044-1106 (`g726_decode`).  Each octet holds four codes at most. -/
def decode (g : Cfg) (s : Codec) (l : List Byte) : Option (Codec × List Int) := decodeLoop g (4*l.length + 5) s l

end G726
