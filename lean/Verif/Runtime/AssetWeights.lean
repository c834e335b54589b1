import Verif.Runtime.CallWeights

/-!
# The declared weights of the assets and proxy pallets (runtime/kreivo/src/weights)

Both pallets are upstream's; the weights of their calls are the project's own files.
-/

namespace Verif.Runtime

open Verif

/-- The calls of the assets pallet, with the lengths of the strings given for the metadata. Outside /repo; used at
runtime/kreivo/src/weights/pallet_assets.rs 51-543 (one function each). -/
inductive AssetCall where
  | create | forceCreate | startDestroy | destroyAccounts | destroyApprovals | finishDestroy
  | mint | burn | transfer | transferKeepAlive | forceTransfer | transferAll
  | freeze | thaw | freezeAsset | thawAsset | transferOwnership | setTeam
  | setMetadata (name symbol : Nat) | clearMetadata | forceSetMetadata (name symbol : Nat) | forceClearMetadata
  | forceAssetStatus | approveTransfer | transferApproved | cancelApproval | forceCancelApproval
  | setMinBalance | touch | touchOther | refund | refundOther | block
deriving DecidableEq

/-- `RemoveItemsLimit`: what `destroy_accounts` and `destroy_approvals` are charged for.
runtime/kreivo/src/configuration/monetary_stuff.rs 94. -/
def removeItems : Nat := 1000

/-- `WeightInfo` of pallet_assets (runtime/kreivo/src/weights/pallet_assets.rs 51-543), with the arguments the pallet
gives it (outside /repo): `RemoveItemsLimit` for the destroying calls, the lengths of the strings for the metadata. -/
def assetWeight : AssetCall → Weight
  | .create => measured 27212000 3675 2 2
  | .forceCreate => measured 11755000 3675 1 1
  | .startDestroy => measured 13992000 3675 1 1
  | .destroyAccounts =>
    Weight.satAdd (Weight.satAdd (Weight.satAdd (measured 16877000 3675 2 1) ⟨12015579 * removeItems, 0⟩)
      (db (2 * removeItems) (2 * removeItems))) ⟨0, 2609 * removeItems⟩
  | .destroyApprovals =>
    Weight.satAdd (Weight.satAdd (Weight.satAdd (measured 17937000 3675 2 1) ⟨13846653 * removeItems, 0⟩)
      (db removeItems removeItems)) ⟨0, 2623 * removeItems⟩
  | .finishDestroy => measured 14051000 3675 2 1
  | .mint => measured 25580000 3675 2 2
  | .burn => measured 31052000 3675 2 2
  | .transfer => measured 42493000 6208 4 4
  | .transferKeepAlive => measured 38073000 6208 4 4
  | .forceTransfer => measured 42372000 6208 4 4
  | .transferAll => measured 17197000 3675 2 1
  | .freeze => measured 17359000 3675 2 1
  | .thaw => measured 17598000 3675 2 1
  | .freezeAsset => measured 13959000 3675 1 1
  | .thawAsset => measured 13574000 3675 1 1
  | .transferOwnership => measured 14999000 3675 2 1
  | .setTeam => measured 13898000 3675 1 1
  | .setMetadata n s => Weight.satAdd (measured 28109577 3675 2 1) ⟨15049 * n + 19600 * s, 0⟩
  | .clearMetadata => measured 28852000 3675 2 1
  | .forceSetMetadata _ s => Weight.satAdd (measured 13553158 3675 2 1) ⟨5010 * s, 0⟩
  | .forceClearMetadata => measured 28488000 3675 2 1
  | .forceAssetStatus => measured 12972000 3675 1 1
  | .approveTransfer => measured 31861000 3675 2 2
  | .transferApproved => measured 60201000 6208 5 5
  | .cancelApproval => measured 33561000 3675 2 2
  | .forceCancelApproval => measured 34111000 3675 2 2
  | .setMinBalance => measured 14098000 3675 1 1
  | .touch => measured 33272000 3675 3 3
  | .touchOther => measured 31497000 3675 2 2
  | .refund => measured 30149000 3675 3 3
  | .refundOther => measured 28419000 3675 2 2
  | .block => measured 17197000 3675 2 1

/-- The calls of the proxy pallet; two of them carry a call, of this declared weight. Outside /repo; used at
runtime/kreivo/src/weights/pallet_proxy.rs 50-223 (one function each). -/
inductive ProxyCall where
  | proxy (inner : Weight) | proxyAnnounced (inner : Weight)
  | removeAnnouncement | rejectAnnouncement | announce
  | addProxy | removeProxy | removeProxies | createPure | killPure

/-- `MaxProxies` and `MaxPending`. runtime/kreivo/src/lib.rs 506 and 510. -/
def maxProxies : Nat := 32

/-- `WeightInfo` of pallet_proxy (runtime/kreivo/src/weights/pallet_proxy.rs 50-223), with the arguments the pallet gives
it (outside /repo): the limits, whatever is stored. A carried call adds a read, a write and its own weight. -/
def proxyWeight : ProxyCall → Weight
  | .proxy inner =>
    Weight.satAdd (Weight.satAdd (Weight.satAdd (measured 18404764 4706 1 0) ⟨29489 * maxProxies, 0⟩) (db 1 1)) inner
  | .proxyAnnounced inner =>
    Weight.satAdd (Weight.satAdd (Weight.satAdd (measured 39231218 5698 3 2)
      ⟨144577 * maxProxies + 39464 * maxProxies, 0⟩) (db 1 1)) inner
  | .removeAnnouncement => Weight.satAdd (measured 26117943 5698 2 2) ⟨143478 * maxProxies + 8492 * maxProxies, 0⟩
  | .rejectAnnouncement => Weight.satAdd (measured 26025080 5698 2 2) ⟨146383 * maxProxies + 7614 * maxProxies, 0⟩
  | .announce => Weight.satAdd (measured 34858670 5698 3 2) ⟨148578 * maxProxies + 38530 * maxProxies, 0⟩
  | .addProxy => Weight.satAdd (measured 27005379 4706 1 1) ⟨58125 * maxProxies, 0⟩
  | .removeProxy => Weight.satAdd (measured 27435800 4706 1 1) ⟨57697 * maxProxies, 0⟩
  | .removeProxies => Weight.satAdd (measured 23866116 4706 1 1) ⟨25795 * maxProxies, 0⟩
  | .createPure => Weight.satAdd (measured 28972303 4706 1 1) ⟨10208 * maxProxies, 0⟩
  | .killPure => Weight.satAdd (measured 25184514 4706 1 1) ⟨17503 * maxProxies, 0⟩

end Verif.Runtime
