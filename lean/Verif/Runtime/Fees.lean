import Verif.Base.PerThing

/-!
# Weight fees of Kreivo (runtime/kreivo/src/constants.rs, module `fee`)

Balances are u128 and weights pairs of u64, as natural numbers; saturation of the polynomial is included.
-/

namespace Verif.Runtime

open Verif

/-- `Weight` (sp_weights, outside `/repo`). -/
structure Weight where
  refTime : Nat
  proofSize : Nat
  deriving DecidableEq

/-- Both components are u64. Outside /repo; used at runtime/kreivo/src/constants.rs 63-72. -/
def Weight.Valid (w : Weight) : Prop := w.refTime < 2 ^ 64 ∧ w.proofSize < 2 ^ 64

/-- `UNITS` and `CENTS` of runtime/runtime-constants/src/lib.rs 28-41: for Kusama and for the `paseo` feature. -/
def centsKusama : Nat := 1000000000000 / 30 / 100
/-- CENTS of the Paseo relay chain; outside /repo, used at runtime/kreivo/src/constants.rs 24. -/
def centsPaseo : Nat := 10000000000 / 100

/-- Accuracy of `Perbill`. Outside /repo; used at runtime/kreivo/src/constants.rs 84-89. -/
def billion : Nat := 1000000000

/-- `Perbill * u128` (sp_arithmetic, outside `/repo`): whole billions times the parts, and the remainder rounded to the
nearest, halves down. -/
def perbillOf (parts x : Nat) : Nat :=
  x / billion * parts +
    (x % billion * parts / billion + if x % billion * parts % billion > billion / 2 then 1 else 0)

/-- Largest u128. Outside /repo; used at runtime/kreivo/src/constants.rs 63-72. -/
def u128Max : Nat := 2 ^ 128 - 1

/-- `WeightToFeeCoefficient` of degree 1, not negative. Outside /repo; used at runtime/kreivo/src/constants.rs 84-89. -/
structure Coefficient where
  frac : Nat
  integer : Nat
  deriving DecidableEq

/-- `FeePolynomial::eval` of one such coefficient (sp_weights, outside `/repo`). -/
def Coefficient.eval (c : Coefficient) (x : Nat) : Nat :=
  min u128Max (min u128Max (0 + perbillOf c.frac x) + min u128Max (c.integer * x))

/-- The coefficient of `p / q`: constants.rs 84-89. -/
def coefficient (p q : Nat) : Coefficient := ⟨fromRational billion (p % q) q, p / q⟩

/-- `RefTimeToFee`: constants.rs 78-90. `base` is the ref time of frame_support's `ExtrinsicBaseWeight` (outside
`/repo`). -/
def refTimeToFee (cents base : Nat) : Coefficient := coefficient cents (100 * base)

/-- `ProofSizeToFee`: constants.rs 94-109. -/
def proofSizeToFee (cents : Nat) : Coefficient := coefficient cents 10000

/-- `WeightToFee::weight_to_fee`: constants.rs 63-71. -/
def weightToFee (cents base : Nat) (w : Weight) : Nat :=
  max ((refTimeToFee cents base).eval w.refTime) ((proofSizeToFee cents).eval w.proofSize)

/-- `TransactionByteFee` and `LengthToFee`: configuration/monetary_stuff.rs 38, 45 (`ConstantMultiplier` saturates). -/
def lengthToFee (cents : Nat) (len : Nat) : Nat := min u128Max (len * (10 * (cents / 1000)))

end Verif.Runtime
