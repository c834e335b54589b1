import Verif.Runtime.Fees
import Verif.Xcm.Location

/-!
# XCM messages and their weight on Kreivo (runtime/kreivo/src/weights/xcm)

Instructions keep the parts that the weights, the barrier and the origin register look at. Of a list of assets only the
length is kept.
-/

namespace Verif.Xcm

open Verif Verif.Runtime

/-- Outside /repo; used at runtime/kreivo/src/weights/xcm/mod.rs 28-56 (sp_weights). -/
def u64Max : Nat := 2 ^ 64 - 1

/-- `Weight::MAX`. Outside /repo; used at runtime/kreivo/src/weights/xcm/mod.rs 28-56 (sp_weights). -/
def Weight.max : Weight := ⟨u64Max, u64Max⟩
/-- `Weight::zero()`. Outside /repo; used at runtime/kreivo/src/weights/xcm/mod.rs 28-56 (sp_weights). -/
def Weight.zero : Weight := ⟨0, 0⟩
/-- `Weight::saturating_mul`. Outside /repo; used at runtime/kreivo/src/weights/xcm/mod.rs 28-56 (sp_weights). -/
def Weight.satMul (w : Weight) (n : Nat) : Weight := ⟨Nat.min u64Max (w.refTime * n), Nat.min u64Max (w.proofSize * n)⟩
/-- `Weight::saturating_add`. Outside /repo; used at runtime/kreivo/src/weights/xcm/mod.rs 28-56 (sp_weights). -/
def Weight.satAdd (v w : Weight) : Weight :=
  ⟨Nat.min u64Max (v.refTime + w.refTime), Nat.min u64Max (v.proofSize + w.proofSize)⟩
/-- `Weight::checked_add`: none on overflow of either component. Outside /repo; used at
runtime/kreivo/src/weights/xcm/mod.rs 28-56 (sp_weights). -/
def Weight.checkedAdd (v w : Weight) : Option Weight :=
  if v.refTime + w.refTime ≤ u64Max ∧ v.proofSize + w.proofSize ≤ u64Max then
    some ⟨v.refTime + w.refTime, v.proofSize + w.proofSize⟩ else none
/-- `Weight::min`: componentwise. Outside /repo; used at runtime/kreivo/src/weights/xcm/mod.rs 28-56 (sp_weights). -/
def Weight.min (v w : Weight) : Weight := ⟨Nat.min v.refTime w.refTime, Nat.min v.proofSize w.proofSize⟩
/-- `Weight::all_gte`. Outside /repo; used at runtime/kreivo/src/weights/xcm/mod.rs 28-56 (sp_weights). -/
def Weight.allGte (v w : Weight) : Bool := decide (w.refTime ≤ v.refTime) && decide (w.proofSize ≤ v.proofSize)
/-- `Weight::checked_sub` succeeds. Outside /repo; used at runtime/kreivo/src/weights/xcm/mod.rs 28-56 (sp_weights). -/
def Weight.covers (credit w : Weight) : Bool := Weight.allGte credit w

/-- `AssetFilter`: an explicit list of so many assets, or a wildcard. Outside /repo; used at
runtime/kreivo/src/weights/xcm/mod.rs 59-223 (xcm::latest). -/
inductive AssetFilter
  | definite (count : Nat)
  | all
  | allOfFungible
  | allOfNonFungible
  | allCounted (count : Nat)
  | allOfCounted (count : Nat)
  deriving DecidableEq

/-- `WeightLimit`. Outside /repo; used at runtime/kreivo/src/weights/xcm/mod.rs 59-223 (xcm::latest). -/
inductive WeightLimit
  | unlimited
  | limited (w : Weight)
  deriving DecidableEq

/-- `OriginKind`. Outside /repo; used at runtime/kreivo/src/weights/xcm/mod.rs 59-223 (xcm::latest). -/
inductive OriginKind
  | native
  | sovereignAccount
  | superuser
  | xcm
  deriving DecidableEq

/-- `xcm::latest::Instruction` (version 4). Outside /repo; used at runtime/kreivo/src/weights/xcm/mod.rs 59-223
(xcm::latest). -/
inductive Instr
  | withdrawAsset (assets : Nat)
  | reserveAssetDeposited (assets : Nat)
  | receiveTeleportedAsset (assets : Nat)
  | queryResponse
  | transferAsset (assets : Nat)
  | transferReserveAsset (assets : Nat)
  | transact (kind : OriginKind) (requireWeightAtMost : Weight)
  | hrmpNewChannelOpenRequest
  | hrmpChannelAccepted
  | hrmpChannelClosing
  | clearOrigin
  | descendOrigin (who : List Junction)
  | reportError
  | depositAsset (assets : AssetFilter)
  | depositReserveAsset (assets : AssetFilter)
  | exchangeAsset
  | initiateReserveWithdraw (assets : AssetFilter)
  | initiateTeleport (assets : AssetFilter)
  | reportHolding
  | buyExecution (limit : WeightLimit)
  | refundSurplus
  | setErrorHandler (xcm : List Instr)
  | setAppendix (xcm : List Instr)
  | clearError
  | claimAsset (assets : Nat)
  | trap
  | subscribeVersion
  | unsubscribeVersion
  | burnAsset (assets : Nat)
  | expectAsset (assets : Nat)
  | expectOrigin (origin : Option Location)
  | expectError
  | expectTransactStatus
  | queryPallet
  | expectPallet
  | reportTransactStatus
  | clearTransactStatus
  | universalOrigin (j : Junction)
  | exportMessage
  | lockAsset
  | unlockAsset
  | noteUnlockable
  | requestUnlock
  | setFeesMode
  | setTopic
  | clearTopic
  | aliasOrigin (l : Location)
  | unpaidExecution (limit : WeightLimit) (checkOrigin : Option Location)

/-- `RocksDbWeight` (frame_support, outside `/repo`), the `DbWeight` of runtime/kreivo/src/configuration: picoseconds of a
read and of a write. -/
def dbRead : Nat := 25000000
/-- Outside /repo; used at runtime/kreivo/src/configuration/system_support.rs 75 (RocksDbWeight). -/
def dbWrite : Nat := 100000000

/-- A benchmarked weight: base time, proof size, reads, writes. Body of each function of
runtime/kreivo/src/weights/xcm/pallet_xcm_benchmarks_{fungible,generic}.rs. -/
def bench (time proof reads writes : Nat) : Weight := ⟨time + reads * dbRead + writes * dbWrite, proof⟩

/-! Benchmarks of fungible instructions: weights/xcm/pallet_xcm_benchmarks_fungible.rs 53-157. -/
namespace Fungible
/-- `withdraw_asset`, runtime/kreivo/src/weights/xcm/pallet_xcm_benchmarks_fungible.rs 53-61. -/
def withdrawAsset : Weight := bench 26613000 3593 1 1
/-- `transfer_asset`, runtime/kreivo/src/weights/xcm/pallet_xcm_benchmarks_fungible.rs 64-72. -/
def transferAsset : Weight := bench 50611000 6196 2 2
/-- `transfer_reserve_asset`, runtime/kreivo/src/weights/xcm/pallet_xcm_benchmarks_fungible.rs 87-95. -/
def transferReserveAsset : Weight := bench 73381000 6196 8 4
/-- `receive_teleported_asset`, runtime/kreivo/src/weights/xcm/pallet_xcm_benchmarks_fungible.rs 96-102. -/
def receiveTeleportedAsset : Weight := bench 3970000 0 0 0
/-- `deposit_asset`, runtime/kreivo/src/weights/xcm/pallet_xcm_benchmarks_fungible.rs 105-113. -/
def depositAsset : Weight := bench 27186000 3593 1 1
/-- `deposit_reserve_asset`, runtime/kreivo/src/weights/xcm/pallet_xcm_benchmarks_fungible.rs 128-136. -/
def depositReserveAsset : Weight := bench 50949000 3593 7 3
/-- `initiate_teleport`, runtime/kreivo/src/weights/xcm/pallet_xcm_benchmarks_fungible.rs 149-157. -/
def initiateTeleport : Weight := bench 30521000 3540 6 2
end Fungible

/-! Benchmarks of the other instructions: weights/xcm/pallet_xcm_benchmarks_generic.rs. -/
namespace Generic
/-- `report_holding`, runtime/kreivo/src/weights/xcm/pallet_xcm_benchmarks_generic.rs 63-71. -/
def reportHolding : Weight := bench 349790000 3540 6 2
/-- `buy_execution`, runtime/kreivo/src/weights/xcm/pallet_xcm_benchmarks_generic.rs 72-78. -/
def buyExecution : Weight := bench 3994000 0 0 0
/-- `query_response`, runtime/kreivo/src/weights/xcm/pallet_xcm_benchmarks_generic.rs 81-88. -/
def queryResponse : Weight := bench 11070000 3534 1 0
/-- `transact`, runtime/kreivo/src/weights/xcm/pallet_xcm_benchmarks_generic.rs 89-95. -/
def transact : Weight := bench 13787000 0 0 0
/-- `refund_surplus`, runtime/kreivo/src/weights/xcm/pallet_xcm_benchmarks_generic.rs 96-102. -/
def refundSurplus : Weight := bench 4328000 0 0 0
/-- `set_error_handler`, runtime/kreivo/src/weights/xcm/pallet_xcm_benchmarks_generic.rs 103-109. -/
def setErrorHandler : Weight := bench 2761000 0 0 0
/-- `set_appendix`, runtime/kreivo/src/weights/xcm/pallet_xcm_benchmarks_generic.rs 110-116. -/
def setAppendix : Weight := bench 2723000 0 0 0
/-- `clear_error`, runtime/kreivo/src/weights/xcm/pallet_xcm_benchmarks_generic.rs 117-123. -/
def clearError : Weight := bench 2866000 0 0 0
/-- `descend_origin`, runtime/kreivo/src/weights/xcm/pallet_xcm_benchmarks_generic.rs 124-130. -/
def descendOrigin : Weight := bench 3679000 0 0 0
/-- `clear_origin`, runtime/kreivo/src/weights/xcm/pallet_xcm_benchmarks_generic.rs 131-137. -/
def clearOrigin : Weight := bench 2750000 0 0 0
/-- `report_error`, runtime/kreivo/src/weights/xcm/pallet_xcm_benchmarks_generic.rs 150-158. -/
def reportError : Weight := bench 25553000 3540 6 2
/-- `claim_asset`, runtime/kreivo/src/weights/xcm/pallet_xcm_benchmarks_generic.rs 161-169. -/
def claimAsset : Weight := bench 16240000 3591 1 1
/-- `trap`, runtime/kreivo/src/weights/xcm/pallet_xcm_benchmarks_generic.rs 170-176. -/
def trap : Weight := bench 2732000 0 0 0
/-- `subscribe_version`, runtime/kreivo/src/weights/xcm/pallet_xcm_benchmarks_generic.rs 189-197. -/
def subscribeVersion : Weight := bench 28531000 3540 6 3
/-- `unsubscribe_version`, runtime/kreivo/src/weights/xcm/pallet_xcm_benchmarks_generic.rs 200-207. -/
def unsubscribeVersion : Weight := bench 4996000 0 0 1
/-- `initiate_reserve_withdraw`, runtime/kreivo/src/weights/xcm/pallet_xcm_benchmarks_generic.rs 220-228. -/
def initiateReserveWithdraw : Weight := bench 397796000 3540 6 2
/-- `burn_asset`, runtime/kreivo/src/weights/xcm/pallet_xcm_benchmarks_generic.rs 229-235. -/
def burnAsset : Weight := bench 121240000 0 0 0
/-- `expect_asset`, runtime/kreivo/src/weights/xcm/pallet_xcm_benchmarks_generic.rs 236-242. -/
def expectAsset : Weight := bench 12637000 0 0 0
/-- `expect_origin`, runtime/kreivo/src/weights/xcm/pallet_xcm_benchmarks_generic.rs 243-249. -/
def expectOrigin : Weight := bench 2831000 0 0 0
/-- `expect_error`, runtime/kreivo/src/weights/xcm/pallet_xcm_benchmarks_generic.rs 250-256. -/
def expectError : Weight := bench 2798000 0 0 0
/-- `expect_transact_status`, runtime/kreivo/src/weights/xcm/pallet_xcm_benchmarks_generic.rs 257-263. -/
def expectTransactStatus : Weight := bench 2930000 0 0 0
/-- `query_pallet`, runtime/kreivo/src/weights/xcm/pallet_xcm_benchmarks_generic.rs 276-284. -/
def queryPallet : Weight := bench 29596000 3540 6 2
/-- `expect_pallet`, runtime/kreivo/src/weights/xcm/pallet_xcm_benchmarks_generic.rs 285-291. -/
def expectPallet : Weight := bench 5444000 0 0 0
/-- `report_transact_status`, runtime/kreivo/src/weights/xcm/pallet_xcm_benchmarks_generic.rs 304-312. -/
def reportTransactStatus : Weight := bench 25842000 3540 6 2
/-- `clear_transact_status`, runtime/kreivo/src/weights/xcm/pallet_xcm_benchmarks_generic.rs 313-319. -/
def clearTransactStatus : Weight := bench 2787000 0 0 0
/-- `set_topic`, runtime/kreivo/src/weights/xcm/pallet_xcm_benchmarks_generic.rs 320-326. -/
def setTopic : Weight := bench 2692000 0 0 0
/-- `clear_topic`, runtime/kreivo/src/weights/xcm/pallet_xcm_benchmarks_generic.rs 327-333. -/
def clearTopic : Weight := bench 2705000 0 0 0
/-- `set_fees_mode`, runtime/kreivo/src/weights/xcm/pallet_xcm_benchmarks_generic.rs 334-340. -/
def setFeesMode : Weight := bench 2738000 0 0 0
/-- `unpaid_execution`, runtime/kreivo/src/weights/xcm/pallet_xcm_benchmarks_generic.rs 341-347. -/
def unpaidExecution : Weight := bench 2966000 0 0 0
end Generic

/-- `MAX_ASSETS`: weights/xcm/mod.rs 31. -/
def maxAssets : Nat := 100
/-- `MaxAssetsIntoHolding`: xcm_config.rs 135. -/
def maxAssetsIntoHolding : Nat := 64

/-- `weigh_multi_assets` of an asset filter: weights/xcm/mod.rs 33-50. -/
def AssetFilter.weigh (f : AssetFilter) (w : Weight) : Weight :=
  match f with
  | .definite n => Weight.satMul w n
  | .all => Weight.satMul w maxAssets
  | .allOfFungible => w
  | .allOfNonFungible => Weight.satMul w (maxAssetsIntoHolding * 2)
  | .allCounted n => Weight.satMul w (Nat.min maxAssets n)
  | .allOfCounted n => Weight.satMul w (Nat.min maxAssets n)

/-- `weigh_multi_assets` of a list of assets: weights/xcm/mod.rs 52-56. -/
def weighAssets (n : Nat) (w : Weight) : Weight := Weight.satMul w n

/-- `KreivoXcmWeight`: weights/xcm/mod.rs 58-223. -/
def Instr.weight : Instr → Weight
  | .withdrawAsset n => weighAssets n Fungible.withdrawAsset
  | .reserveAssetDeposited _ => ⟨10000, 0⟩
  | .receiveTeleportedAsset n => weighAssets n Fungible.receiveTeleportedAsset
  | .queryResponse => Generic.queryResponse
  | .transferAsset n => weighAssets n Fungible.transferAsset
  | .transferReserveAsset n => weighAssets n Fungible.transferReserveAsset
  | .transact _ _ => Generic.transact
  | .hrmpNewChannelOpenRequest => Weight.max
  | .hrmpChannelAccepted => Weight.max
  | .hrmpChannelClosing => Weight.max
  | .clearOrigin => Generic.clearOrigin
  | .descendOrigin _ => Generic.descendOrigin
  | .reportError => Generic.reportError
  | .depositAsset f => Weight.min ⟨1000000000, 0⟩ (f.weigh Fungible.depositAsset)
  | .depositReserveAsset f => f.weigh Fungible.depositReserveAsset
  | .exchangeAsset => Weight.max
  | .initiateReserveWithdraw f => f.weigh Generic.initiateReserveWithdraw
  | .initiateTeleport f => f.weigh Fungible.initiateTeleport
  | .reportHolding => Generic.reportHolding
  | .buyExecution _ => Generic.buyExecution
  | .refundSurplus => Generic.refundSurplus
  | .setErrorHandler _ => Generic.setErrorHandler
  | .setAppendix _ => Generic.setAppendix
  | .clearError => Generic.clearError
  | .claimAsset _ => Generic.claimAsset
  | .trap => Generic.trap
  | .subscribeVersion => Generic.subscribeVersion
  | .unsubscribeVersion => Generic.unsubscribeVersion
  | .burnAsset n => weighAssets n Generic.burnAsset
  | .expectAsset n => weighAssets n Generic.expectAsset
  | .expectOrigin _ => Generic.expectOrigin
  | .expectError => Generic.expectError
  | .expectTransactStatus => Generic.expectTransactStatus
  | .queryPallet => Generic.queryPallet
  | .expectPallet => Generic.expectPallet
  | .reportTransactStatus => Generic.reportTransactStatus
  | .clearTransactStatus => Generic.clearTransactStatus
  | .universalOrigin _ => Weight.max
  | .exportMessage => Weight.max
  | .lockAsset => Weight.max
  | .unlockAsset => Weight.max
  | .noteUnlockable => Weight.max
  | .requestUnlock => Weight.max
  | .setFeesMode => Generic.setFeesMode
  | .setTopic => Generic.setTopic
  | .clearTopic => Generic.clearTopic
  | .aliasOrigin _ => Weight.max
  | .unpaidExecution _ _ => Generic.unpaidExecution

/-- `MaxInstructions`: xcm_config.rs 134. -/
def maxInstructions : Nat := 100

mutual
/-- `WeightInfoBounds::weight_with_limit` (xcm-builder, outside `/repo`; xcm_config.rs 239, 291): the instructions left are
counted down before the instructions are weighed; none when they run out or the sum overflows. Answers the weight and
the instructions left. -/
def weighFrom : List Instr → Nat → Option (Weight × Nat)
  | msg, left =>
    if msg.length ≤ left then weighAll msg (left - msg.length) else none
  termination_by m => (sizeOf m, 2)
/-- The sum over the instructions of one message. Outside /repo; used at runtime/kreivo/src/xcm_config.rs 240
(WeightInfoBounds). -/
def weighAll : List Instr → Nat → Option (Weight × Nat)
  | [], left => some (Weight.zero, left)
  | i :: rest, left =>
    match weighOne i left with
    | none => none
    | some (w, left') =>
      match weighAll rest left' with
      | none => none
      | some (v, left'') => (Weight.checkedAdd w v).map fun s => (s, left'')
  termination_by m => (sizeOf m, 1)
/-- `instr_weight_with_limit`: the instruction itself and what it carries. Outside /repo; used at
runtime/kreivo/src/xcm_config.rs 240 (WeightInfoBounds). -/
def weighOne (i : Instr) (left : Nat) : Option (Weight × Nat) :=
  match i with
  | .transact k w => (Weight.checkedAdd (Instr.weight (.transact k w)) w).map fun s => (s, left)
  | .setErrorHandler xcm =>
    match weighFrom xcm left with
    | none => none
    | some (w, left') => (Weight.checkedAdd Generic.setErrorHandler w).map fun s => (s, left')
  | .setAppendix xcm =>
    match weighFrom xcm left with
    | none => none
    | some (w, left') => (Weight.checkedAdd Generic.setAppendix w).map fun s => (s, left')
  | i => some (i.weight, left)
  termination_by (sizeOf i, 0)
end

/-- `Weigher::weight` of a message. Outside /repo; used at runtime/kreivo/src/xcm_config.rs 240 (WeightInfoBounds). -/
def messageWeight (msg : List Instr) : Option Weight := (weighFrom msg maxInstructions).map (·.1)

end Verif.Xcm
