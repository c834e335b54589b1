import Verif.Runtime.Charge

/-!
# The fee multiplier (runtime/kreivo/src/configuration/monetary_stuff.rs 46)

Kreivo adjusts its fees with `SlowAdjustingFeeUpdate` of polkadot_runtime_common, that is
`TargetedFeeAdjustment` of pallet_transaction_payment with a target of a quarter of what normal transactions may use, the
variable 75/1000000, at least a tenth and at most the largest `FixedU128`. Both are outside `/repo` and taken as they are in
the stable2409 branch. What they are applied to, the limits of a block, is Kreivo's (`Block.lean`). `FixedU128` is a number
of units of which 10^18 are one.
-/

namespace Verif.Runtime

/-- `FixedU128::saturating_mul`: rounds down. Outside /repo; used at runtime/kreivo/src/configuration/monetary_stuff.rs 46
(sp_arithmetic). -/
def fixedMul (x y : Nat) : Nat := min u128Max (x * y / fixedOne)

/-- `MinimumMultiplier`, a tenth. Outside /repo; used at runtime/kreivo/src/configuration/monetary_stuff.rs 46
(polkadot_runtime_common). -/
def multiplierMin : Nat := fixedRatio 1 10

/-- `AdjustmentVariable`. Outside /repo; used at runtime/kreivo/src/configuration/monetary_stuff.rs 46
(polkadot_runtime_common). -/
def adjustment : Nat := fixedRatio 75 1000000

/-- `Perquintill::from_percent(25) * x`, the target; rounds to the nearest, halves down. Outside /repo; used at
runtime/kreivo/src/configuration/monetary_stuff.rs 46 (`TargetBlockFullness` of polkadot_runtime_common). -/
def targetOf (x : Nat) : Nat :=
  let parts := 250000000000000000
  x / fixedOne * parts +
    (x % fixedOne * parts / fixedOne + if x % fixedOne * parts % fixedOne > fixedOne / 2 then 1 else 0)

/-- The dimension that decides: what normal transactions used of it, and what they may use
(configuration/system_support.rs 26-28). The proof size decides if its share, as a `Perbill`, is larger. Outside /repo; used
at runtime/kreivo/src/configuration/monetary_stuff.rs 46 (`TargetedFeeAdjustment::convert`). -/
def limiting (used : Weight) : Nat × Nat :=
  let n : Weight := ⟨min used.refTime normalMax.refTime, min used.proofSize normalMax.proofSize⟩
  if fromRational billion n.refTime (max normalMax.refTime 1) < fromRational billion n.proofSize (max normalMax.proofSize 1)
  then (n.proofSize, normalMax.proofSize)
  else (n.refTime, normalMax.refTime)

/-- `TargetedFeeAdjustment::convert`: the multiplier after a block whose normal transactions used `used`. Outside /repo;
used at runtime/kreivo/src/configuration/monetary_stuff.rs 46. -/
def nextMultiplier (previous : Nat) (used : Weight) : Nat :=
  let prev := max previous multiplierMin
  let l := limiting used
  let target := targetOf l.2
  let diff := fixedRatio (max l.1 target - min l.1 target) (max l.2 1)
  let first := fixedMul adjustment diff
  let second := fixedMul (fixedMul adjustment adjustment / 2) (fixedMul diff diff)
  if target ≤ l.1 then
    min u128Max (max multiplierMin (min u128Max (prev + fixedMul (min u128Max (first + second)) prev)))
  else
    min u128Max (max multiplierMin (prev - fixedMul (first - second) prev))

/-- `NextFeeMultiplier` after blocks, given what the normal transactions of each used (`on_finalize` of
pallet_transaction_payment). Part of the transition system around the code (outside /repo). -/
def multiplierAfter (m : Nat) (blocks : List Weight) : Nat := blocks.foldl nextMultiplier m

/-- The multiplier of the genesis block, one (`MULTIPLIER_DEFAULT_VALUE`). Outside /repo; used at
runtime/kreivo/src/configuration/monetary_stuff.rs 41-48. -/
def multiplierGenesis : Nat := fixedOne

end Verif.Runtime
