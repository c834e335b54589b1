import Verif.Runtime.AssetWeights
import Verif.Runtime.CallWeightTheorems

/-!
# The weights of the assets and proxy pallets (C141)
-/

namespace Verif.Runtime

open Verif

/-- How many stored items a call of the assets pallet reads and writes when it does the most it can. `transfer_all` moves
a balance between two accounts as `transfer` does: the asset, both holdings, and the receiver's system account.
Specification only, no code behind it (outside /repo; the pallet's benchmarks). -/
def itemsTouched : AssetCall → Nat × Nat
  | .transfer | .transferKeepAlive | .forceTransfer | .transferAll => (4, 4)
  | .transferApproved => (5, 5)
  | .touch | .refund => (3, 3)
  | .create | .mint | .burn | .approveTransfer | .cancelApproval | .forceCancelApproval | .touchOther
  | .refundOther => (2, 2)
  | .finishDestroy | .freeze | .thaw | .transferOwnership | .setMetadata _ _ | .clearMetadata | .forceSetMetadata _ _
  | .forceClearMetadata | .block => (2, 1)
  | .forceCreate | .startDestroy | .freezeAsset | .thawAsset | .setTeam | .forceAssetStatus | .setMinBalance => (1, 1)
  | .destroyAccounts => (2 + 2 * 1000, 1 + 2 * 1000)
  | .destroyApprovals => (2 + 1000, 1 + 1000)

/-- The strings are within the limit of the pallet. Specification only, no code behind it (outside /repo). -/
def AssetCall.Short : AssetCall → Prop
  | .setMetadata n s | .forceSetMetadata n s => n ≤ 50 ∧ s ≤ 50
  | _ => True

/-- The weight of the call a proxy call carries. Specification only, no code behind it (outside /repo). -/
def ProxyCall.inner : ProxyCall → Weight
  | .proxy w | .proxyAnnounced w => w
  | _ => ⟨0, 0⟩

/-! ## C141 -/

/-- Every call of the assets pallet fits in a block that has done no more than its opening hooks, as a transaction of up
to a megabyte. -/
theorem C141_assets_fit (c : AssetCall) (hc : c.Short) (len : Nat) (hl : len ≤ 1000000) : Fits (assetWeight c) len := by
  apply fits_of_le <;> cases c <;>
    simp only [AssetCall.Short, assetWeight, measured, db, Weight.satAdd, removeItems] at * <;> omega

/-- A call carried by a proxy fits if it leaves a millisecond and 6 kB; so does every other call of the proxy pallet. -/
theorem C141_proxy_fit (c : ProxyCall) (len : Nat) (h1 : c.inner.refTime ≤ 1397000000000)
    (h2 : c.inner.proofSize + len ≤ 3664000) : Fits (proxyWeight c) len := by
  apply fits_of_le <;> cases c <;>
    simp only [ProxyCall.inner, proxyWeight, measured, db, Weight.satAdd, maxProxies] at * <;> omega

/-- Carrying a call is charged on top of the call: at least two reads and a write more of time, and its proof. -/
theorem C141_carrying (w : Weight) (h1 : w.refTime ≤ 2 ^ 63) (h2 : w.proofSize ≤ 2 ^ 63) :
    w.refTime + 150000000 ≤ (proxyWeight (.proxy w)).refTime ∧ w.proofSize + 4706 ≤ (proxyWeight (.proxy w)).proofSize ∧
    w.refTime + 400000000 ≤ (proxyWeight (.proxyAnnounced w)).refTime ∧
    w.proofSize + 5698 ≤ (proxyWeight (.proxyAnnounced w)).proofSize := by
  simp only [proxyWeight, measured, db, Weight.satAdd, maxProxies]
  omega

/-- No call of either pallet is free: at least a read, a write and 10 microseconds of work, and 3,675 bytes of proof. -/
theorem C141_not_free (c : AssetCall) (p : ProxyCall) (hp : p.inner.refTime ≤ 2 ^ 63 ∧ p.inner.proofSize ≤ 2 ^ 63)
    (hc : c.Short) :
    135000000 ≤ (assetWeight c).refTime ∧ 3675 ≤ (assetWeight c).proofSize ∧
    135000000 ≤ (proxyWeight p).refTime ∧ 4706 ≤ (proxyWeight p).proofSize := by
  obtain ⟨hp1, hp2⟩ := hp
  refine ⟨?_, ?_, ?_, ?_⟩
  · cases c <;> simp only [AssetCall.Short, assetWeight, measured, db, Weight.satAdd, removeItems] at * <;> omega
  · cases c <;> simp only [AssetCall.Short, assetWeight, measured, db, Weight.satAdd, removeItems] at * <;> omega
  · cases p <;> simp only [ProxyCall.inner, proxyWeight, measured, db, Weight.satAdd, maxProxies] at * <;> omega
  · cases p <;> simp only [ProxyCall.inner, proxyWeight, measured, db, Weight.satAdd, maxProxies] at * <;> omega

/-- Every call of the assets pallet but `transfer_all` is charged for every item it may read and write. -/
theorem C141_charged_for_items_partial (c : AssetCall) (hc : c.Short) (hne : c ≠ .transferAll) :
    25000000 * (itemsTouched c).1 + 100000000 * (itemsTouched c).2 < (assetWeight c).refTime := by
  cases c <;> simp only [ne_eq, not_true_eq_false, AssetCall.Short, itemsTouched, assetWeight, measured, db,
    Weight.satAdd, removeItems] at * <;> omega

/-- `transfer_all` is charged two reads and a write, what `block` is, for what touches four items: less than half of what
`transfer` pays for the same move. -/
theorem C141_charged_for_items_fails :
    (assetWeight .transferAll).refTime
      < 25000000 * (itemsTouched .transferAll).1 + 100000000 * (itemsTouched .transferAll).2 ∧
    assetWeight .transferAll = assetWeight .block ∧
    2 * (assetWeight .transferAll).refTime < (assetWeight .transfer).refTime ∧
    (assetWeight .transferAll).proofSize < (assetWeight .transfer).proofSize := by
  decide +kernel

example : assetWeight .destroyAccounts = ⟨262182456000, 2612675⟩ := by decide +kernel
example : (AssetCall.setMetadata 50 12).Short := ⟨by decide, by decide⟩
example : (ProxyCall.proxy (assetWeight .destroyAccounts)).inner.proofSize + 1000000 ≤ 3664000 := by decide +kernel
example : proxyWeight (.proxy (assetWeight .transfer)) = ⟨711841412, 10914⟩ := by decide +kernel

end Verif.Runtime
