/-!
# G.722 sub-band coding of wide band speech

Model of /repo/src/g722.c.  Values are integers; where the code converts to 16 bits, or adds up in 32 bits,
a value which does not fit is a fault (`none`), and so is an index outside of a table.  `x >> n` is `x / 2^n`
rounded down.  Products of two 16 bit values always fit in 32 bits.
-/

namespace G722

abbrev Byte := BitVec 8

/-- A conversion to `int16_t`, which should not change the value. -/
def chk16 (x : Int) : Option Int := if -32768 ≤ x ∧ x ≤ 32767 then some x else none

/-- A sum in `int32_t`, which should not overflow. -/
def chk32 (x : Int) : Option Int := if -2147483648 ≤ x ∧ x ≤ 2147483647 then some x else none

/-- /repo/src/spandsp/saturated.h:45-68, 206-231, 268-291 (`saturate16`, `sat_add16`, `sat_sub16`). -/
def sat16 (x : Int) : Int := max (-32768) (min 32767 x)

/-- /repo/src/spandsp/saturated.h:71-91 (`saturate15`). -/
def sat15 (x : Int) : Int := if x > 16383 then 16383 else if x < -16384 then -16384 else x

/-! ## Tables, /repo/src/g722.c:58-182 -/

def qmfFwd : List Int := [3, -11, 12, 32, -210, 951, 3876, -805, 362, -156, 53, -11]
def qmfRev : List Int := [-11, 53, -156, 362, -805, 3876, 951, -210, 32, 12, -11, 3]
def qm2 : List Int := [-7408, -1616, 7408, 1616]
def qm4 : List Int :=
  [0, -20456, -12896, -8968, -6288, -4240, -2584, -1200, 20456, 12896, 8968, 6288, 4240, 2584, 1200, 0]
def qm5 : List Int :=
  [-280, -280, -23352, -17560, -14120, -11664, -9752, -8184, -6864, -5712, -4696, -3784, -2960, -2208, -1520,
   -880, 23352, 17560, 14120, 11664, 9752, 8184, 6864, 5712, 4696, 3784, 2960, 2208, 1520, 880, 280, -280]
def qm6 : List Int :=
  [-136, -136, -136, -136, -24808, -21904, -19008, -16704, -14984, -13512, -12280, -11192, -10232, -9360,
   -8576, -7856, -7192, -6576, -6000, -5456, -4944, -4464, -4008, -3576, -3168, -2776, -2400, -2032, -1688,
   -1360, -1040, -728, 24808, 21904, 19008, 16704, 14984, 13512, 12280, 11192, 10232, 9360, 8576, 7856, 7192,
   6576, 6000, 5456, 4944, 4464, 4008, 3576, 3168, 2776, 2400, 2032, 1688, 1360, 1040, 728, 432, 136, -432,
   -136]
def q6 : List Int :=
  [0, 35, 72, 110, 150, 190, 233, 276, 323, 370, 422, 473, 530, 587, 650, 714, 786, 858, 940, 1023, 1121, 1219,
   1339, 1458, 1612, 1765, 1980, 2195, 2557, 2919, 0, 0]
def ilb : List Int :=
  [2048, 2093, 2139, 2186, 2233, 2282, 2332, 2383, 2435, 2489, 2543, 2599, 2656, 2714, 2774, 2834, 2896, 2960,
   3025, 3091, 3158, 3228, 3298, 3371, 3444, 3520, 3597, 3676, 3756, 3838, 3922, 4008]
def iln : List Nat :=
  [0, 63, 62, 31, 30, 29, 28, 27, 26, 25, 24, 23, 22, 21, 20, 19, 18, 17, 16, 15, 14, 13, 12, 11, 10, 9, 8, 7,
   6, 5, 4, 0]
def ilp : List Nat :=
  [0, 61, 60, 59, 58, 57, 56, 55, 54, 53, 52, 51, 50, 49, 48, 47, 46, 45, 44, 43, 42, 41, 40, 39, 38, 37, 36,
   35, 34, 33, 32, 0]
def ihn : List Nat := [0, 1, 0]
def ihp : List Nat := [0, 3, 2]
def wl : List Int := [-60, -30, 58, 172, 334, 538, 1198, 3042]
def rl42 : List Nat := [0, 7, 6, 5, 4, 3, 2, 1, 7, 6, 5, 4, 3, 2, 1, 0]
def wh : List Int := [0, -214, 798]
def rh2 : List Nat := [2, 1, 2, 1]

/-! ## A band -/

/-- /repo/src/spandsp/private/g722.h:32-43 (`g722_band_t`).  `d` is `d[1]` to `d[6]`: `d[0]` is always set
before it is used. -/
structure Band where
  nb : Int
  det : Int
  s : Int
  sz : Int
  r : Int
  p0 : Int
  p1 : Int
  a0 : Int
  a1 : Int
  b : List Int
  d : List Int
  deriving DecidableEq, Repr

/-- `(x ^ y) & 0x8000`. -/
def differ (x y : Int) : Bool := decide (x < 0) != decide (y < 0)

/-- `if (abs(x) > m) x = (x < 0) ? -m : m;` -/
def lim (x m : Int) : Int := if (x.natAbs : Int) > m then (if x < 0 then -m else m) else x

/-- UPPOL2.  /repo/src/g722.c:202-214. -/
def uppol2 (s : Band) (p : Int) : Option Int :=
  let wd1 := sat16 (4*s.a0)
  let wd32 := if differ p s.p0 then wd1 else -wd1
  let wd32 := if wd32 > 32767 then 32767 else wd32
  (chk16 ((if differ p s.p1 then -128 else 128) + wd32/128 + s.a1*32512/32768)).map fun wd3 => lim wd3 12288

/-- UPPOL1.  /repo/src/g722.c:216-224. -/
def uppol1 (s : Band) (p ap1 : Int) : Option Int :=
  (chk16 (s.a0*32640/32768)).map fun wd2 =>
    lim (sat16 ((if differ p s.p0 then -192 else 192) + wd2)) (sat16 (15360 - ap1))

/-- FILTEP.  /repo/src/g722.c:226-231. -/
def filtep (s : Band) (r ap0 ap1 : Int) : Option Int :=
  (chk16 (ap0*sat16 (r + r)/32768)).bind fun wd1 =>
  (chk16 (ap1*sat16 (s.r + s.r)/32768)).map fun wd2 => sat16 (wd1 + wd2)

/-- UPZERO, DELAYA and FILTEZ, from the last coefficient to the first: the new coefficients and the sum.
`prev` is `d[i]`, the lists are `b[i]` and so on, and `d[i + 1]` and so on, before they are moved.
/repo/src/g722.c:238-254. -/
def filtez (dx : Int) (prev : Int) : List Int → List Int → Option (List Int × Int)
  | [], _ => some ([], 0)
  | _ :: _, [] => none
  | b :: bs, d :: ds =>
    (filtez dx d bs ds).bind fun (bs, sz) =>
    let wd1 := if dx = 0 then 0 else 128
    (chk16 (b*32640/32768)).bind fun wd3 =>
    let b := sat16 ((if differ d dx then -wd1 else wd1) + wd3)
    (chk32 (sz + b*sat16 (prev + prev)/32768)).map fun sz => (b :: bs, sz)

/-- /repo/src/g722.c:184-258 (`block4`). -/
def block4 (s : Band) (dx : Int) : Option Band :=
  let r := sat16 (s.s + dx)
  let p := sat16 (s.sz + dx)
  (uppol2 s p).bind fun ap1 =>
  (uppol1 s p ap1).bind fun ap0 =>
  (filtep s r ap0 ap1).bind fun sp =>
  (filtez dx dx s.b s.d).map fun (b, sz) =>
    { s with r := r, a1 := ap1, a0 := ap0, p1 := s.p0, p0 := p, b := b, d := (dx :: s.d).take 6,
             sz := sat16 sz, s := sat16 (sp + sat16 sz) }

/-- SCALEL (`k` is 8) and SCALEH (`k` is 10).
/repo/src/g722.c:341-345, 369-373, 548-552, 586-590. -/
def scale (k : Int) (nb : Int) : Option Int :=
  (ilb[(nb/64 % 32).toNat]?).bind fun v =>
  let wd2 := k - nb/2048
  chk16 ((if wd2 < 0 then v*2^(-wd2).toNat else v/2^wd2.toNat)*4)

/-! ## The quadrature mirror filters -/

/-- /repo/src/vector_int.c:50-259 (`vec_dot_prodi16`), the plain version. -/
def dotAcc (acc : Int) : List Int → List Int → Option Int
  | x :: xs, c :: cs => (chk32 (acc + x*c)).bind fun acc => dotAcc acc xs cs
  | _, _ => some acc

/-- /repo/src/vector_int.c:262-269 (`vec_circular_dot_prodi16`), for the length 12. -/
def circDot (x c : List Int) (pos : Nat) : Option Int :=
  (dotAcc 0 (x.drop pos) (c.take (12 - pos))).bind fun z =>
  (dotAcc 0 (x.take pos) (c.drop (12 - pos))).bind fun w => chk32 (z + w)

/-- `if (++ptr >= 12) ptr = 0;` -/
def advance (ptr : Nat) : Nat := if ptr + 1 ≥ 12 then 0 else ptr + 1

/-! ## Decoding -/

/-- `bits_per_sample`, `eight_k`, `packed`.  The test mode, which no function of the interface sets, is not
modelled. -/
structure Cfg where
  bits : Nat
  eightK : Bool
  packed : Bool
  deriving DecidableEq, Repr

/-- /repo/src/g722.c:413-441, 621-648 (`g722_decode_init`, `g722_encode_init`). -/
def cfg (rate : Int) (eightK packed : Bool) : Cfg :=
  let bits := if rate = 48000 then 6 else if rate = 56000 then 7 else 8
  ⟨bits, eightK, packed && bits != 8⟩

/-- A band to begin with. -/
def bandInit (det : Int) : Band :=
  ⟨0, det, 0, 0, 0, 0, 0, 0, 0, List.replicate 6 0, List.replicate 6 0⟩

/-- /repo/src/spandsp/private/g722.h:74-95, and 48-69 for the encoder, which has the same fields. -/
structure Codec where
  x : List Int
  y : List Int
  ptr : Nat
  low : Band
  high : Band
  buf : Nat
  nbits : Nat
  deriving DecidableEq, Repr

/-- /repo/src/g722.c:424-440, 632-647. -/
def init : Codec := ⟨List.replicate 12 0, List.replicate 12 0, 0, bandInit 32, bandInit 8, 0, 0⟩

/-- LOGSCL and LOGSCH of the decoder.  /repo/src/g722.c:330-339, 358-367. -/
def logsclD (nb w top : Int) : Option Int :=
  let wd1 := nb*127/128 + w
  chk16 (if wd1 < 0 then 0 else if wd1 > top then top else wd1)

/-- The code for each band, the finer value of the lower one and its four bits.
/repo/src/g722.c:298-319. -/
def split (bits code : Nat) : Option (Nat × Int × Nat) :=
  match bits with
  | 7 => (qm5[code % 32]?).map fun v => (code % 32 / 2, v, code/32 % 4)
  | 6 => (qm4[code % 16]?).map fun v => (code % 16, v, code/16 % 4)
  | _ => (qm6[code % 64]?).map fun v => (code % 64 / 4, v, code/64 % 4)

/-- The lower band: `v` is the finer value, `c` the four bits.  The new band and the value decoded.
/repo/src/g722.c:320-347. -/
def decLow (s : Band) (v : Int) (c : Nat) : Option (Band × Int) :=
  let rlow := sat15 (s.s + s.det*v/32768)
  (qm4[c]?).bind fun q =>
  (chk16 (s.det*q/32768)).bind fun dlow =>
  (rl42[c]?).bind fun i => (wl[i]?).bind fun w =>
  (logsclD s.nb w 18432).bind fun nb =>
  (scale 8 nb).bind fun det =>
  (block4 { s with nb := nb, det := det } dlow).map fun s => (s, rlow)

/-- The upper band.  /repo/src/g722.c:351-375. -/
def decHigh (s : Band) (c : Nat) : Option (Band × Int) :=
  (qm2[c]?).bind fun q =>
  (chk16 (s.det*q/32768)).bind fun dhigh =>
  let rhigh := sat15 (dhigh + s.s)
  (rh2[c]?).bind fun i => (wh[i]?).bind fun w =>
  (logsclD s.nb w 22528).bind fun nb =>
  (scale 10 nb).bind fun det =>
  (block4 { s with nb := nb, det := det } dhigh).map fun s => (s, rhigh)

/-- One code.  /repo/src/g722.c:298-407. -/
def decodeCode (g : Cfg) (s : Codec) (code : Nat) : Option (Codec × List Int) :=
  (split g.bits code).bind fun (c, v, h) =>
  (decLow s.low v c).bind fun (low, rlow) =>
  if g.eightK then (chk16 (rlow*2)).map fun a => ({ s with low := low }, [a])
  else
    (decHigh s.high h).bind fun (high, rhigh) =>
    (chk16 (rlow + rhigh)).bind fun xv =>
    (chk16 (rlow - rhigh)).bind fun yv =>
    let x := s.x.set s.ptr xv
    let y := s.y.set s.ptr yv
    let ptr := advance s.ptr
    (circDot y qmfRev ptr).bind fun z1 =>
    (circDot x qmfFwd ptr).map fun z2 =>
      ({ s with low := low, high := high, x := x, y := y, ptr := ptr },
       [sat16 (z1/2048), sat16 (z2/2048)])

/-- The next code, and what is left of the data.  /repo/src/g722.c:279-296. -/
def pull (g : Cfg) (s : Codec) (o : Byte) (l : List Byte) : Nat × Codec × List Byte :=
  if g.packed then
    if s.nbits < g.bits then
      let buf := s.buf ||| (o.toNat <<< s.nbits)
      (buf &&& (2^g.bits - 1), { s with buf := buf >>> g.bits, nbits := s.nbits + 8 - g.bits }, l)
    else (s.buf &&& (2^g.bits - 1), { s with buf := s.buf >>> g.bits, nbits := s.nbits - g.bits }, o :: l)
  else (o.toNat, s, l)

/-- The loop of /repo/src/g722.c:277-408, with a limit to its rounds; running into it counts as a fault. -/
def decodeLoop (g : Cfg) : Nat → Codec → List Byte → Option (Codec × List Int)
  | _, s, [] => some (s, [])
  | 0, _, _ :: _ => none
  | k + 1, s, o :: l =>
    let (code, s, l) := pull g s o l
    (decodeCode g s code).bind fun (s, a) =>
    (decodeLoop g k s l).map fun (s, as) => (s, a ++ as)

/-- /repo/src/g722.c:261-410 (`g722_decode`). -/
def decode (g : Cfg) (s : Codec) (l : List Byte) : Option (Codec × List Int) :=
  decodeLoop g (8*l.length + s.nbits) s l

/-! ## Encoding -/

/-- LOGSCL and LOGSCH of the encoder.  /repo/src/g722.c:538-546, 576-584. -/
def logsclE (nb w top : Int) : Option Int :=
  (chk16 (nb*127/128 + w)).map fun nb => if nb < 0 then 0 else if nb > top then top else nb

/-- QUANTL: the first level which is above, or 30.  `n` levels are left from `i` on.
/repo/src/g722.c:520-530. -/
def quantl (det wd : Int) : Nat → Nat → Option Nat
  | _, 0 => some 30
  | i, n + 1 => (q6[i]?).bind fun q => if wd < q*det/4096 then some i else quantl det wd (i + 1) n

/-- The lower band.  /repo/src/g722.c:517-554. -/
def encLow (s : Band) (xlow : Int) : Option (Band × Nat) :=
  let el := sat16 (xlow - s.s)
  let wd := if el ≥ 0 then el else -el - 1
  (quantl s.det wd 1 29).bind fun i =>
  ((if el < 0 then iln else ilp)[i]?).bind fun ilow =>
  let ril := ilow/4
  (qm4[ril]?).bind fun q =>
  (chk16 (s.det*q/32768)).bind fun dlow =>
  (rl42[ril]?).bind fun i => (wl[i]?).bind fun w =>
  (logsclE s.nb w 18432).bind fun nb =>
  (scale 8 nb).bind fun det =>
  (block4 { s with nb := nb, det := det } dlow).map fun s => (s, ilow)

/-- The upper band.  /repo/src/g722.c:563-592. -/
def encHigh (s : Band) (xhigh : Int) : Option (Band × Nat) :=
  let eh := sat16 (xhigh - s.s)
  let wd := if eh ≥ 0 then eh else -eh - 1
  let mih := if wd ≥ 564*s.det/4096 then 2 else 1
  ((if eh < 0 then ihn else ihp)[mih]?).bind fun ihigh =>
  (qm2[ihigh]?).bind fun q =>
  (chk16 (s.det*q/32768)).bind fun dhigh =>
  (rh2[ihigh]?).bind fun i => (wh[i]?).bind fun w =>
  (logsclE s.nb w 22528).bind fun nb =>
  (scale 10 nb).bind fun det =>
  (block4 { s with nb := nb, det := det } dhigh).map fun s => (s, ihigh)

/-- The code of one sample at 8000 a second.  /repo/src/g722.c:494-498, 517-560. -/
def encode8 (g : Cfg) (s : Codec) (a : Int) : Option (Codec × Nat) :=
  (encLow s.low (a/2)).map fun (low, ilow) => ({ s with low := low }, (0xC0 ||| ilow) >>> (8 - g.bits))

/-- The code of two samples at 16000 a second.  /repo/src/g722.c:501-593. -/
def encode16 (g : Cfg) (s : Codec) (a b : Int) : Option (Codec × Nat) :=
  let x := s.x.set s.ptr a
  let y := s.y.set s.ptr b
  let ptr := advance s.ptr
  (circDot x qmfFwd ptr).bind fun sumodd =>
  (circDot y qmfRev ptr).bind fun sumeven =>
  (chk32 (sumeven + sumodd)).bind fun up => (chk32 (sumeven - sumodd)).bind fun down =>
  (chk16 (up/16384)).bind fun xlow =>
  (chk16 (down/16384)).bind fun xhigh =>
  (encLow s.low xlow).bind fun (low, ilow) =>
  (encHigh s.high xhigh).map fun (high, ihigh) =>
    ({ s with low := low, high := high, x := x, y := y, ptr := ptr },
     ((ihigh <<< 6) ||| ilow) >>> (8 - g.bits))

/-- A code goes out.  /repo/src/g722.c:597-613. -/
def emit (g : Cfg) (s : Codec) (code : Nat) : Codec × List Byte :=
  if g.packed then
    let buf := s.buf ||| (code <<< s.nbits)
    let nbits := s.nbits + g.bits
    if nbits ≥ 8 then ({ s with buf := buf >>> 8, nbits := nbits - 8 }, [BitVec.ofNat 8 (buf &&& 0xFF)])
    else ({ s with buf := buf, nbits := nbits }, [])
  else (s, [BitVec.ofNat 8 code])

/-- /repo/src/g722.c:457-618 (`g722_encode`).  An odd number of samples at 16000 a second is a read outside
of the samples given. -/
def encode (g : Cfg) (s : Codec) : List Int → Option (Codec × List Byte)
  | [] => some (s, [])
  | a :: l =>
    if g.eightK then
      (encode8 g s a).bind fun (s, code) =>
      let (s, o) := emit g s code
      (encode g s l).map fun (s, os) => (s, o ++ os)
    else match l with
      | [] => none
      | b :: l =>
        (encode16 g s a b).bind fun (s, code) =>
        let (s, o) := emit g s code
        (encode g s l).map fun (s, os) => (s, o ++ os)

end G722
