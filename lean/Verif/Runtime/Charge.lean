import Verif.Runtime.Block
import Verif.Base.AMap

/-!
# What a transaction pays (runtime/kreivo/src/lib.rs 128-140, configuration/monetary_stuff.rs, runtime/common/src/impls.rs)

The configuration decides who is charged, in what, and who receives it. The pallets that move the money are outside
`/repo`: `pallet_transaction_payment::FungibleAdapter`, `pallet_asset_tx_payment::FungiblesAdapter`,
`pallet_assets::BalanceToAssetBalance` and the credits of `Balances` and `Assets`, as they are in the stable2409 branch.
Balances are u128 and natural numbers here; a deposit that would exceed u128 cannot happen, since no balance exceeds the
issuance.
-/

namespace Verif.Runtime

open Verif

/-- Account ids. Outside /repo; used at runtime/kreivo/src/lib.rs 107 (AccountId). -/
abbrev Acct := List UInt8

/-- Balances of the native currency and of the assets. `locked` is what freezes keep from being spent. Outside /repo; used
at runtime/kreivo/src/configuration/monetary_stuff.rs 43 (pallet_balances). -/
structure Money where
  native : Acct → Nat
  locked : Acct → Nat
  issued : Nat
  asset : Nat → Acct → Nat
  lockedA : Nat → Acct → Nat
  issuedA : Nat → Nat

/-- What `Assets` records of an asset that matters here. Outside /repo; used at
runtime/kreivo/src/configuration/monetary_stuff.rs 106-109 (pallet_assets). -/
structure AssetInfo where
  sufficient : Bool
  min : Nat
  deriving DecidableEq

/-- The surroundings of a charge. `refuses` are accounts that cannot take a deposit of an asset for another reason than its
size (blocked, no consumer reference left). runtime/kreivo/src/configuration/monetary_stuff.rs 13, 43 and 106-109; the
rest outside /repo. -/
structure ChargeEnv where
  ed : Nat
  treasury : Acct
  author : Option Acct
  info : Nat → Option AssetInfo
  refuses : Nat → Acct → Bool

/-- Update one point of a function. Writing one entry of a map. Outside /repo. -/
def put {α : Type} [DecidableEq α] {β : Type} (f : α → β) (a : α) (b : β) : α → β := fun x => if x = a then b else f x

/-! ## Conversion of a fee to an asset -/

/-- Accuracy of `FixedU128`. Outside /repo; used at runtime/kreivo/src/configuration/monetary_stuff.rs 46 and 107
(sp_arithmetic). -/
def fixedOne : Nat := 1000000000000000000

/-- `FixedU128::saturating_from_rational(n, d)` with `d` not zero: rounds down. Outside /repo; used at
runtime/kreivo/src/configuration/monetary_stuff.rs 46 and 107 (sp_arithmetic). -/
def fixedRatio (n d : Nat) : Nat := min u128Max (n * fixedOne / d)

/-- `FixedU128::saturating_mul_int`: rounds down. Outside /repo; used at
runtime/kreivo/src/configuration/monetary_stuff.rs 46 and 107 (sp_arithmetic). -/
def fixedMulInt (x n : Nat) : Nat := min u128Max (x * n / fixedOne)

/-- `BalanceToAssetBalance::to_asset_balance` as configured in monetary_stuff.rs 107 and xcm_config.rs 206: a native
amount as an amount of an asset, by their minimum balances. -/
def toAsset (env : ChargeEnv) (k : Nat) (amount : Nat) : Option Nat :=
  match env.info k with
  | none => none
  | some i =>
    if i.sufficient = false then none
    else if env.ed = 0 then none
    else some (fixedMulInt (fixedRatio i.min env.ed) amount)

/-- The fee in an asset: at least one unit if there is a fee (`FungiblesAdapter`). Outside /repo; used at
runtime/kreivo/src/configuration/monetary_stuff.rs 106-109. -/
def assetFee (env : ChargeEnv) (k : Nat) (fee : Nat) : Option Nat :=
  (toAsset env k fee).map fun c => max c (if fee = 0 then 0 else 1)

/-! ## Credits -/

/-- Drop a credit of the native currency: it is burned. Outside /repo; used at
runtime/kreivo/src/configuration/monetary_stuff.rs 43 (pallet_balances). -/
def burnN (m : Money) (n : Nat) : Money := { m with issued := m.issued - n }

/-- `resolve` a credit of the native currency into an account; burned if the account would stay below the existential
deposit (`ResolveTo` drops what `resolve` returns). Outside /repo; used at
runtime/kreivo/src/configuration/monetary_stuff.rs 43 (pallet_balances). -/
def resolveN (env : ChargeEnv) (m : Money) (who : Acct) (n : Nat) : Money :=
  if n = 0 then m
  else if m.native who + n < env.ed then burnN m n
  else { m with native := put m.native who (m.native who + n) }

/-- Drop a credit of an asset. Outside /repo; used at runtime/kreivo/src/configuration/monetary_stuff.rs 106-109
(pallet_assets). -/
def burnA (m : Money) (k n : Nat) : Money := { m with issuedA := put m.issuedA k (m.issuedA k - n) }

/-- Whether an account can take a deposit of an asset. Outside /repo; used at
runtime/kreivo/src/configuration/monetary_stuff.rs 106-109 (pallet_assets). -/
def canTake (env : ChargeEnv) (m : Money) (k : Nat) (who : Acct) (n : Nat) : Bool :=
  match env.info k with
  | none => false
  | some i => decide (i.min ≤ m.asset k who + n) && !env.refuses k who

/-- `resolve` a credit of an asset into an account; burned if that fails. Outside /repo; used at
runtime/kreivo/src/configuration/monetary_stuff.rs 106-109 (pallet_assets). -/
def resolveA (env : ChargeEnv) (m : Money) (k : Nat) (who : Acct) (n : Nat) : Money :=
  if n = 0 then m
  else if canTake env m k who n then { m with asset := put m.asset k (put (m.asset k) who (m.asset k who + n)) }
  else burnA m k n

/-- `AssetsToBlockAuthor::handle_credit`: runtime/common/src/impls.rs 47-57. -/
def toAuthor (env : ChargeEnv) (m : Money) (k n : Nat) : Money :=
  match env.author with
  | some a => resolveA env m k a n
  | none => burnA m k n

/-! ## Before and after the call -/

/-- What was taken before the call: `Pre` of the nested extensions. Outside /repo; used at runtime/kreivo/src/lib.rs 128.
-/
inductive Paid
  | nothing
  | gas
  | native (who : Acct) (amount : Nat)
  | asset (who : Acct) (k amount : Nat)
  deriving DecidableEq

/-- `withdraw_fee` of `ChargeAssetTxPayment` (runtime/kreivo/src/lib.rs 128), for the payer: nothing if there is no fee; an asset if the
transaction names one; the native currency otherwise. The payer must keep the minimum balance, and what is frozen. -/
def withdrawFee (env : ChargeEnv) (m : Money) (who : Acct) (asset : Option Nat) (fee : Nat) : Option (Money × Paid) :=
  if fee = 0 then some (m, .nothing)
  else match asset with
    | none =>
      if m.native who < fee + max env.ed (m.locked who) then none
      else some ({ m with native := put m.native who (m.native who - fee) }, .native who fee)
    | some k =>
      match assetFee env k fee, env.info k with
      | some c, some i =>
        if m.asset k who < c + max i.min (m.lockedA k who) then none
        else some ({ m with asset := put m.asset k (put (m.asset k) who (m.asset k who - c)) }, .asset who k c)
      | _, _ => none

/-- `ChargeGasTxPayment`, `pre_dispatch` (runtime/kreivo/src/lib.rs 128; `NonFungibleGasBurner` over the memberships of the payer,
monetary_stuff.rs 141): gas of a membership first, fees only without. `hasGas` is whether a membership of the payer has
gas for the transaction. -/
def charge (env : ChargeEnv) (m : Money) (payer : Acct) (hasGas : Bool) (asset : Option Nat) (fee : Nat) :
    Option (Money × Paid) :=
  if hasGas then some (m, .gas) else withdrawFee env m payer asset fee

/-- `post_dispatch`: gives back what was taken beyond the fee for the weight really used (`due`), and passes the fee on, to
the treasury (monetary_stuff.rs 43, tip included) or to the author of the block (monetary_stuff.rs 108). A payer whose
account is gone gets nothing back: in the native currency all of it is the fee then, in an asset the rest is burned. -/
def settle (env : ChargeEnv) (m : Money) (p : Paid) (due : Nat) : Option Money :=
  match p with
  | .nothing => some m
  | .gas => some m
  | .native who amount =>
    let refund := if 0 < m.native who then amount - due else 0
    some (resolveN env { m with native := put m.native who (m.native who + refund) } env.treasury (amount - refund))
  | .asset who k amount =>
    match assetFee env k due with
    | none => none
    | some c =>
      let fee := min amount c
      some (toAuthor env (resolveA env m k who (amount - fee)) k fee)

/-! ## The fee -/

/-- Parameters of `compute_fee`: the rates, the base weight, the multiplier for congestion (`FixedU128`, outside `/repo`). -/
structure Rates where
  cents : Nat
  base : Nat
  multiplier : Nat

/-- A weight, at most that of a block: what `weight_to_fee` of pallet_transaction_payment charges for. Outside /repo; used at
runtime/kreivo/src/apis.rs 153-155 and 176-178. -/
def Weight.capped (w : Weight) : Weight :=
  ⟨min w.refTime maxBlockWeight.refTime, min w.proofSize maxBlockWeight.proofSize⟩

/-- `compute_fee_raw` of pallet_transaction_payment for a call that pays: base fee, fee for the length, fee for the weight
times the multiplier, and the tip. `baseWeight` is the base weight of an extrinsic. Outside /repo; used at
runtime/kreivo/src/configuration/monetary_stuff.rs 41-48. -/
def computeFee (r : Rates) (baseWeight w : Weight) (len tip : Nat) : Nat :=
  weightToFee r.cents r.base baseWeight.capped + lengthToFee r.cents len
    + fixedMulInt r.multiplier (weightToFee r.cents r.base w.capped) + tip

end Verif.Runtime
