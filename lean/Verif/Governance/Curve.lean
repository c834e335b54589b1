import Verif.Communities.Model

/-!
# Referenda thresholds

`Curve` and `is_passing` of pallet_referenda (outside `/repo`), used by the tracks defined in `/repo`. Fractions are
numbers of parts per billion (`Perbill`).
-/

namespace Verif.Governance

open Verif Verif.Communities

/-- `Perbill::from_percent(p)`, and `percent(p)` of runtime/kreivo/src/collective/tracks.rs 9-11 turned into a
`Perbill`. -/
def percent (p : Nat) : Nat := p * 10000000

/-- `Curve::LinearDecreasing` of pallet_referenda, the only curve the code uses (`make_linear(28, 28, floor, ceil)`
of tracks.rs 101 makes one of length 100%). -/
structure Curve where
  length : Nat
  floor : Nat
  ceil : Nat
  deriving DecidableEq

/-- `Perbill * Perbill`, rounded down. Outside /repo; used at pallets/communities-manager/src/lib.rs 238-259. -/
def perbillMul (a b : Nat) : Nat := a * b / perbill

/-- `Curve::threshold(x)`: `ceil - (x.min(length).saturating_div(length, Down) * (ceil - floor))`. Outside /repo; used at
pallets/communities-manager/src/lib.rs 238-259. -/
def Curve.threshold (c : Curve) (x : Nat) : Nat :=
  c.ceil - perbillMul (fromRational perbill (min x c.length) c.length) (c.ceil - c.floor)

/-- `Curve::passing(x, y)`. Outside /repo; used at pallets/communities-manager/src/lib.rs 238-259. -/
def Curve.passing (c : Curve) (x y : Nat) : Bool := decide (c.threshold x ≤ y)

/-- `TrackInfo` of pallet_referenda; the name is its 25 bytes. Outside /repo; used at
pallets/communities-manager/src/lib.rs 238-259 and runtime/kreivo/src/collective/tracks.rs 18-106. -/
structure TrackInfo where
  name : List UInt8
  maxDeciding : Nat
  decisionDeposit : Nat
  preparePeriod : Nat
  decisionPeriod : Nat
  confirmPeriod : Nat
  minEnactmentPeriod : Nat
  minApproval : Curve
  minSupport : Curve
  deriving DecidableEq

/-- `is_passing` of pallet_referenda: the elapsed part of the decision period decides the thresholds. Outside /repo; used
at runtime/kreivo/src/communities/governance.rs 92-113. -/
def isPassing (i : TrackInfo) (elapsed support approval : Nat) : Bool :=
  let x := fromRational perbill (min elapsed i.decisionPeriod) i.decisionPeriod
  i.minSupport.passing x support && i.minApproval.passing x approval

end Verif.Governance
