import Verif.C

/-!
# Model of src/bert.c, the bit error rate tester

`uint32_t` registers and the bits themselves are 32 bit words. The counts held in an `int` are unbounded here, so
that the overflow of `tx.bits`, `rx.bits` and `results.total_bits` after 2³¹ bits, and of
`resync_len*resync_percent`, is not modelled. The text of `printf` and the logging are left out. The tables
`decade_ptr[9]` and `decade_bad[9][10]` are functions of their indices.
-/

namespace Bert

abbrev Word := BitVec 32

/-- `bert_results_t`, src/spandsp/bert.h:94-99. -/
structure Results where
  totalBits : Nat
  badBits : Nat
  resyncs : Nat
deriving DecidableEq

/-- `bert_tx_state_t`, src/spandsp/private/bert.h:29-36. -/
structure Tx where
  reg : Word
  step : Nat
  stepBit : Nat
  bits : Nat
  zeros : Nat
deriving DecidableEq

/-- `bert_rx_state_t`, src/spandsp/private/bert.h:38-54. -/
structure Rx where
  reg : Word
  refReg : Word
  masterReg : Word
  step : Nat
  stepBit : Nat
  resync : Nat
  bits : Nat
  zeros : Nat
  resyncLen : Int
  resyncPercent : Int
  resyncBadBits : Nat
  resyncCnt : Int
  reportCountdown : Int
  measurementStep : Int
deriving DecidableEq

/-- `bert_state_s`, src/spandsp/private/bert.h:60-87. Whether there is a `reporter` is a truth value; what it is told is the
output of `putBit`. -/
structure State where
  patternClass : Nat
  reporter : Bool
  reportFrequency : Int
  limit : Int
  mask : Word
  shift : Nat
  shift2 : Nat
  maxZeros : Nat
  invert : Word
  resyncTime : Nat
  decadePtr : Nat → Nat
  decadeBad : Nat → Nat → Nat
  errorRate : Nat
  tx : Tx
  rx : Rx
  results : Results

/-- A call of the reporter: the reason, and the results at that time. -/
abbrev Report := Nat × Results

/-- `BERT_REPORT_SYNCED`, src/spandsp/bert.h:56. -/
def reportSynced : Nat := 0
/-- `BERT_REPORT_UNSYNCED`, src/spandsp/bert.h:57. -/
def reportUnsynced : Nat := 1
/-- `BERT_REPORT_REGULAR`, src/spandsp/bert.h:58. -/
def reportRegular : Nat := 2
/-- `BERT_REPORT_GT_10_2`, src/spandsp/bert.h:59. -/
def reportGt10_2 : Nat := 3

/-- The reporter is called if there is one, src/bert.c:176, 195, 233, 269, 326, 365. -/
def State.report (s : State) (reason : Nat) : List Report :=
  if s.reporter then [(reason, s.results)] else []

/-- `qbf`, src/bert.c:53-54, without the final zero. -/
def qbf : List Char :=
  ("VoyeZ Le BricK GeanT QuE J'ExaminE PreS Du WharF 123 456 7890 + - * : = $ % ( )" ++
   "ThE QuicK BrowN FoX JumpS OveR ThE LazY DoG 123 456 7890 + - * : = $ % ( )").toList

/-- `qbf[i]`, src/bert.c:128, 345, 352, with the final zero. It is also zero beyond the end, where the code never reads. -/
def qbfAt (i : Nat) : Word := ((qbf.map (fun c => BitVec.ofNat 32 c.toNat))[i]?).getD 0

/-- The shift register of a pseudo-random pattern, src/bert.c:102 and 337. -/
def next (shift shift2 : Nat) (reg : Word) : Word :=
  (reg >>> 1) ||| (((reg ^^^ (reg >>> shift)) &&& 1) <<< shift2)

/-- The rotation of a fixed pattern, src/bert.c:98, 227 and 252. -/
def rot (shift2 : Nat) (reg : Word) : Word := (reg >>> 1) ||| ((reg &&& 1) <<< shift2)

/-- The suppression of long runs, src/bert.c:103-121 and, with another variable tested, 285-303. The result is the count and
the bit. -/
def suppress (maxZeros zeros : Nat) (test : Bool) (bit : Word) : Nat × Word :=
  if maxZeros ≠ 0 then
    if test then
      if zeros + 1 > maxZeros then (0, bit ^^^ 1) else (zeros + 1, bit)
    else (0, bit)
  else (zeros, bit)

/-- Class 2 of `bert_get_bit` fetches the next character, src/bert.c:125-136. -/
def fetch (t : Tx) : Tx :=
  if t.stepBit = 0 then
    let c := qbfAt t.step
    if c = 0 then { t with stepBit := 7, reg := 0x56, step := 1 }
    else { t with stepBit := 7, reg := c, step := t.step + 1 }
  else t

/-- `SIG_STATUS_END_OF_DATA`, src/spandsp/async.h:83, is -7. -/
def endOfData : Word := -7

/-- `bert_get_bit`, src/bert.c:86-145. -/
def getBit (s : State) : State × Word :=
  if s.limit ≠ 0 ∧ (s.tx.bits : Int) ≥ s.limit then (s, endOfData)
  else
    let (t, bit) : Tx × Word :=
      if s.patternClass = 0 then
        ({ s.tx with reg := rot s.shift2 s.tx.reg }, s.tx.reg &&& 1)
      else if s.patternClass = 1 then
        let bit := s.tx.reg &&& 1
        let (zeros, bit) := suppress s.maxZeros s.tx.zeros (bit != 0) bit
        ({ s.tx with reg := next s.shift s.shift2 s.tx.reg, zeros := zeros }, bit ^^^ s.invert)
      else if s.patternClass = 2 then
        let t := fetch s.tx
        ({ t with reg := t.reg >>> 1, stepBit := t.stepBit - 1 }, t.reg &&& 1)
      else (s.tx, 0)
    ({ s with tx := { t with bits := t.bits + 1 } }, bit)

/-- An element of `decade_ptr` is written. -/
def setPtr (f : Nat → Nat) (i v : Nat) : Nat → Nat := fun k => if k = i then v else f k

/-- An element of `decade_bad` is written. -/
def setBad (f : Nat → Nat → Nat) (i j v : Nat) : Nat → Nat → Nat :=
  fun k l => if k = i ∧ l = j then v else f k l

/-- The sum of the ten snapshots of a decade, src/bert.c:169-171. -/
def decadeSum (s : State) (i : Nat) : Nat :=
  (List.range 10).foldl (fun sum j => sum + s.decadeBad i j) 0

/-- A change of the error rate is reported, src/bert.c:176-179 and 195-198. -/
def setRate (s : State) (i : Nat) : State × List Report :=
  ({ s with errorRate := i }, if s.errorRate ≠ i then s.report (reportGt10_2 + i - 2) else [])

/-- One turn of the loop which does not break, src/bert.c:163-185. `i` is the decade. The result has the new value of `test`. -/
def rollDecade (s : State) (test : Bool) (i : Nat) : State × Bool × List Report :=
  let s := { s with decadePtr := setPtr s.decadePtr i 0 }
  let sum := decadeSum s i
  let (s, test, reps) : State × Bool × List Report :=
    if test ∧ sum > 10 then
      let (s, reps) := setRate s i
      (s, false, reps)
    else (s, test, [])
  let s := { s with decadeBad := setBad s.decadeBad i 0 0 }
  let s := if i < 7 then { s with decadeBad := setBad s.decadeBad (i + 1) (s.decadePtr (i + 1)) sum } else s
  (s, test, reps)

/-- The loop of `assess_error_rate` and what follows it, src/bert.c:161-206. `fuel` is the number of turns left. -/
def assessLoop : Nat → State → Bool → Nat → State × List Report
  | 0, s, test, i =>
    let s := if s.decadePtr i ≥ 10 then { s with decadePtr := setPtr s.decadePtr i 0 } else s
    if test then setRate s i else (s, [])
  | fuel + 1, s, test, i =>
    if s.decadePtr i + 1 < 10 then
      ({ s with decadePtr := setPtr s.decadePtr i (s.decadePtr i + 1),
                decadeBad := setBad s.decadeBad i (s.decadePtr i + 1) 0 }, [])
    else
      let (s, test, reps) := rollDecade s test i
      let (s, reps') := assessLoop fuel s test (i + 1)
      (s, reps ++ reps')

/-- `assess_error_rate`, src/bert.c:148-207: `i` goes from 2 to 7. -/
def assess (s : State) : State × List Report := assessLoop 6 s true 2

/-- Class 0 of `bert_put_bit`, src/bert.c:224-254. -/
def putFixed (s : State) (bit : Word) : State × List Report :=
  if s.rx.resync ≠ 0 then
    let reg := (s.rx.reg >>> 1) ||| (bit <<< s.shift2)
    let refReg := rot s.shift2 s.rx.refReg
    if reg = refReg then
      if s.rx.resync + 1 > s.resyncTime then
        ({ s with rx := { s.rx with reg := reg, refReg := refReg, resync := 0 } }, s.report reportSynced)
      else ({ s with rx := { s.rx with reg := reg, refReg := refReg, resync := s.rx.resync + 1 } }, [])
    else ({ s with rx := { s.rx with reg := reg, refReg := s.rx.masterReg, resync := 2 } }, [])
  else
    let bad := (bit ^^^ s.rx.refReg) &&& 1
    ({ s with results := { s.results with totalBits := s.results.totalBits + 1,
                                          badBits := s.results.badBits + (if bad ≠ 0 then 1 else 0) },
              rx := { s.rx with refReg := rot s.shift2 s.rx.refReg } }, [])

/-- The search for synchronisation, src/bert.c:264-280. -/
def putSearch (s : State) (bit : Word) : State × List Report :=
  if bit = (s.rx.reg >>> s.shift) &&& 1 then
    if s.rx.resync + 1 > s.resyncTime then
      ({ s with rx := { s.rx with resync := 0 } }, s.report reportSynced)
    else ({ s with rx := { s.rx with resync := s.rx.resync + 1 } }, [])
  else ({ s with rx := { s.rx with resync := 2, reg := s.rx.reg ^^^ s.mask } }, [])

/-- The bit is compared with the register, src/bert.c:284-310. -/
def check (s : State) (bit : Word) : State :=
  let s : State := { s with results := { s.results with totalBits := s.results.totalBits + 1 } }
  let (zeros, bit) := suppress s.maxZeros s.rx.zeros ((s.rx.reg &&& s.mask) != (0 : Word)) bit
  let s : State := { s with rx := { s.rx with zeros := zeros } }
  if bit ≠ (s.rx.reg >>> s.shift) &&& 1 then
    { s with results := { s.results with badBits := s.results.badBits + 1 },
             rx := { s.rx with resyncBadBits := s.rx.resyncBadBits + 1 },
             decadeBad := setBad s.decadeBad 2 (s.decadePtr 2) (s.decadeBad 2 (s.decadePtr 2) + 1) }
  else s

/-- `MEASUREMENT_STEP`, src/bert.c:51. -/
def measurementStep : Int := 100

/-- The measurement of the error rate is due, src/bert.c:311-317. -/
def measure (s : State) : State × List Report :=
  if s.rx.measurementStep - 1 ≤ 0 then
    assess { s with rx := { s.rx with measurementStep := measurementStep } }
  else ({ s with rx := { s.rx with measurementStep := s.rx.measurementStep - 1 } }, [])

/-- The check for a loss of synchronisation, src/bert.c:318-334. -/
def checkSync (s : State) : State × List Report :=
  if s.rx.resyncCnt - 1 ≤ 0 then
    if (s.rx.resyncBadBits : Int) ≥ (s.rx.resyncLen * s.rx.resyncPercent).tdiv 100 then
      let s := { s with results := { s.results with resyncs := s.results.resyncs + 1 } }
      ({ s with rx := { s.rx with resync := 1, resyncCnt := s.rx.resyncLen, resyncBadBits := 0 } },
        s.report reportUnsynced)
    else ({ s with rx := { s.rx with resyncCnt := s.rx.resyncLen, resyncBadBits := 0 } }, [])
  else ({ s with rx := { s.rx with resyncCnt := s.rx.resyncCnt - 1 } }, [])

/-- Class 1 of `bert_put_bit`, src/bert.c:257-337. -/
def putRandom (s : State) (bit : Word) : State × List Report :=
  let (s, reps) : State × List Report :=
    if s.rx.resync ≠ 0 then putSearch s bit
    else
      let (s, r1) := measure (check s bit)
      let (s, r2) := checkSync s
      (s, r1 ++ r2)
  ({ s with rx := { s.rx with reg := next s.shift s.shift2 s.rx.reg } }, reps)

/-- Class 2 of `bert_put_bit`, src/bert.c:340-357. -/
def putText (s : State) (bit : Word) : State × List Report :=
  let reg := (s.rx.reg >>> 1) ||| (bit <<< 6)
  let s :=
    if s.rx.stepBit + 1 = 7 then
      { s with
        results := { s.results with
          badBits := s.results.badBits + (if reg ≠ qbfAt s.rx.step then 1 else 0) },
        rx := { s.rx with
          reg := reg, stepBit := 0, step := if qbfAt (s.rx.step + 1) = 0 then 0 else s.rx.step + 1 } }
    else { s with rx := { s.rx with reg := reg, stepBit := s.rx.stepBit + 1 } }
  ({ s with results := { s.results with totalBits := s.results.totalBits + 1 } }, [])

/-- The regular reports, src/bert.c:361-372. -/
def regular (s : State) : State × List Report :=
  if s.reportFrequency > 0 then
    if s.rx.reportCountdown - 1 ≤ 0 then
      ({ s with rx := { s.rx with reportCountdown := s.reportFrequency } }, s.report reportRegular)
    else ({ s with rx := { s.rx with reportCountdown := s.rx.reportCountdown - 1 } }, [])
  else (s, [])

/-- The switch of `bert_put_bit` on the class of the pattern, src/bert.c:221-360. -/
def putClass (s : State) (bit : Word) : State × List Report :=
  if s.patternClass = 0 then putFixed s bit
  else if s.patternClass = 1 then putRandom s bit
  else if s.patternClass = 2 then putText s bit
  else (s, [])

/-- `bert_put_bit`, src/bert.c:210-373. -/
def putBit (s : State) (bit : Word) : State × List Report :=
  if bit.slt 0 then (s, [])
  else
    let bit := (bit &&& 1) ^^^ s.invert
    let s := { s with rx := { s.rx with bits := s.rx.bits + 1 } }
    let (s, r1) := putClass s bit
    let (s, r2) := regular s
    (s, r1 ++ r2)

/-- `bert_result`, src/bert.c:376-382. -/
def result (s : State) : Results := s.results

/-- `bert_set_report`, src/bert.c:385-392. -/
def setReport (s : State) (freq : Int) (reporter : Bool) : State :=
  { s with reportFrequency := freq, reporter := reporter, rx := { s.rx with reportCountdown := freq } }

/-- The patterns, src/spandsp/bert.h:73-88. -/
inductive Pattern where
  | zeros | ones | p7to1 | p3to1 | p1to1 | p1to3 | p1to7 | qbf | o151_23 | o151_20 | o151_15 | o152_11 | o153_9
deriving DecidableEq

/-- What `bert_init` chooses by the pattern, src/bert.c:415-509. -/
structure Choice where
  patternClass : Nat
  reg : Word
  mask : Word := 0
  shift : Nat := 0
  shift2 : Nat := 0
  invert : Word := 0
  resyncTime : Nat := 72
  maxZeros : Nat := 0

/-- The switch of `bert_init`, src/bert.c:415-509. -/
def choice : Pattern → Choice
  | .zeros => { patternClass := 0, reg := 0, shift2 := 31 }
  | .ones => { patternClass := 0, reg := ~~~0, shift2 := 31 }
  | .p7to1 => { patternClass := 0, reg := 0xFEFEFEFE, shift2 := 31 }
  | .p3to1 => { patternClass := 0, reg := 0xEEEEEEEE, shift2 := 31 }
  | .p1to1 => { patternClass := 0, reg := 0xAAAAAAAA, shift2 := 31 }
  | .p1to3 => { patternClass := 0, reg := 0x11111111, shift2 := 31 }
  | .p1to7 => { patternClass := 0, reg := 0x01010101, shift2 := 31 }
  | .qbf => { patternClass := 2, reg := 0 }
  | .o151_23 => { patternClass := 1, reg := 0x7FFFFF, mask := 0x20, shift := 5, shift2 := 22, invert := 1,
                  resyncTime := 56 }
  | .o151_20 => { patternClass := 1, reg := 0xFFFFF, mask := 0x8, shift := 3, shift2 := 19, invert := 1,
                  resyncTime := 50, maxZeros := 14 }
  | .o151_15 => { patternClass := 1, reg := 0x7FFF, mask := 0x2, shift := 1, shift2 := 14, invert := 1,
                  resyncTime := 40 }
  | .o152_11 => { patternClass := 1, reg := 0x7FF, mask := 0x4, shift := 2, shift2 := 10, resyncTime := 32 }
  | .o153_9 => { patternClass := 1, reg := 0x1FF, mask := 0x10, shift := 4, shift2 := 8, resyncTime := 28 }

/-- `bert_init`, src/bert.c:395-549. -/
def init (limit : Int) (pattern : Pattern) (resyncLen resyncPercent : Int) : State :=
  let c := choice pattern
  { patternClass := c.patternClass, reporter := false, reportFrequency := 0, limit := limit,
    mask := c.mask, shift := c.shift, shift2 := c.shift2, maxZeros := c.maxZeros, invert := c.invert,
    resyncTime := c.resyncTime, decadePtr := fun _ => 0, decadeBad := fun _ _ => 0, errorRate := 8,
    tx := { reg := c.reg, step := 0, stepBit := 0, bits := 0, zeros := 0 },
    rx := { reg := c.reg, refReg := c.reg, masterReg := c.reg, step := 0, stepBit := 0, resync := 1, bits := 0,
            zeros := 0, resyncLen := resyncLen, resyncPercent := resyncPercent, resyncBadBits := 0,
            resyncCnt := resyncLen, reportCountdown := 0, measurementStep := measurementStep },
    results := { totalBits := 0, badBits := 0, resyncs := 0 } }

end Bert
