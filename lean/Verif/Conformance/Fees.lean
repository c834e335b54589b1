import Verif.Runtime.Fees

/-!
# The unit tests of runtime/runtime-constants/src/lib.rs, replayed on the model

Not proofs of properties but evidence that the model of fee polynomials is the code. Kreivo itself uses the polynomials of
runtime/kreivo/src/constants.rs, which have the same shape with other denominators.
-/

namespace Verif.Conformance.Fees

open Verif Verif.Runtime

/-- `WeightToFee::polynomial` of the relay chain's constants: runtime/runtime-constants/src/lib.rs 95-109, with
`ExtrinsicBaseWeight` of runtime/runtime-constants/src/weights/extrinsic_weights.rs. -/
def relayFee (refTime : Nat) : Nat := (coefficient centsKusama (10 * 124706000)).eval refTime

/-- `full_block_fee_is_correct`: runtime/runtime-constants/src/lib.rs 146-153 (`MAXIMUM_BLOCK_WEIGHT` of polkadot_runtime_common is two
seconds). -/
example : 1000 * centsKusama ≤ relayFee 2000000000000 ∧ relayFee 2000000000000 ≤ 10000 * centsKusama := by decide +kernel

/-- `extrinsic_base_fee_is_correct`: runtime/runtime-constants/src/lib.rs 155-164. -/
example :
    let x := relayFee 124706000
    let y := centsKusama / 10
    max x y - min x y < centsKusama / 1000 := by decide +kernel

end Verif.Conformance.Fees
