/-!
# Power meters

A model of `power_meter.c`.  `none` is an overflow, or a shift by more than there are bits.
-/

namespace Power

/-- A value which fits into 32 bits. -/
def i32 (x : Int) : Option Int := if -2147483648 ≤ x ∧ x ≤ 2147483647 then some x else none

/-- `power_meter_t`: /repo/src/spandsp/private/power_meter.h:33-40. -/
structure Meter where
  shift : Nat
  reading : Int
  deriving DecidableEq, Repr

/-- /repo/src/power_meter.c:132-145 (`power_meter_init`). -/
def Meter.init (shift : Nat) : Meter := ⟨shift, 0⟩

/-- /repo/src/power_meter.c:65-69 (`power_meter_update`).  A shift to the right rounds down. -/
def Meter.update (s : Meter) (amp : Int) : Option Meter := do
  let p ← i32 (amp*amp)
  let d ← i32 (p - s.reading)
  if s.shift < 32 then do
    let r ← i32 (s.reading + d/2^s.shift)
    some { s with reading := r }
  else none

/-- /repo/src/power_meter.c:72-79 (`power_meter_rx`): the meter and what is returned. -/
def Meter.rx (s : Meter) : List Int → Option (Meter × Int)
  | [] => some (s, 0)
  | a :: l => (s.update a).bind fun s => s.rx l

/-- `power_surge_detector_state_t`: /repo/src/spandsp/private/power_meter.h:42-50. -/
structure Surge where
  short : Meter
  medium : Meter
  present : Bool
  surge : Int
  sag : Int
  min : Int
  deriving DecidableEq, Repr

/-- /repo/src/power_meter.c:207-228 (`power_surge_detector_init`), with the ratios and the level as integers. -/
def Surge.init (surge sag min : Int) : Surge := ⟨.init 4, { Meter.init 7 with reading := min + 1 }, false, surge, sag, min⟩

/-- /repo/src/power_meter.c:162-192 (`power_surge_detector`). -/
def Surge.step (s : Surge) (amp : Int) : Option (Surge × Int) := do
  let sh ← s.short.update amp
  let md ← s.medium.update amp
  let s := { s with short := sh, medium := md }
  if md.reading < s.min then some (s, 0)
  else if !s.present then do
    let v ← i32 (s.surge*(md.reading/1024))
    if sh.reading ≤ v then some (s, 0)
    else some ({ s with present := true, medium := { md with reading := sh.reading } }, sh.reading)
  else do
    let v ← i32 (s.sag*(md.reading/1024))
    if sh.reading < v then some ({ s with present := false, medium := { md with reading := sh.reading } }, 0)
    else some (s, sh.reading)

/-- Some samples: the detector and what was returned for each. -/
def Surge.run (s : Surge) : List Int → Option (Surge × List Int)
  | [] => some (s, [])
  | a :: l => (s.step a).bind fun (s, x) => (s.run l).map fun (s, y) => (s, x :: y)

end Power
