import Verif.Xcm.Location

/-!
# Which origins are trusted as reserves, which may run for free (runtime/kreivo/src/xcm_config.rs)

An asset is modelled by the location in its id: nothing else of it is looked at.
-/

namespace Verif.Xcm

/-- `AssetHubLocation`: runtime/kreivo/src/xcm_config.rs 172, with `ASSET_HUB_ID` of constants.rs 123. -/
def assetHub : Location := ⟨1, [.parachain 1000]⟩

/-- `PolkadotLocation`: runtime/kreivo/src/xcm_config.rs 173. -/
def polkadotLocation : Location := ⟨2, [.globalConsensus .polkadot]⟩

/-- `matches_prefix`: runtime/kreivo/src/xcm_config.rs 177-185. -/
def matchesPrefix (pre loc : Location) : Bool :=
  pre.parents == loc.parents && decide (pre.interior.length ≤ loc.interior.length) &&
    (List.zip pre.interior loc.interior).all fun p => p.1 == p.2

/-- `NativeAsset` (xcm-builder, outside `/repo`): the asset's location is the origin. -/
def nativeAsset (asset origin : Location) : Bool := asset == origin

/-- `ReserveAssetsFrom<Prefix>`: runtime/kreivo/src/xcm_config.rs 186-192; the origin is not used. -/
def reserveAssetsFrom (pre asset : Location) (_origin : Location) : Bool := matchesPrefix pre asset

/-- `ReserveForeignAssetsFrom<Prefix, Reserve>`: runtime/kreivo/src/xcm_config.rs 193-201. -/
def reserveForeignAssetsFrom (pre reserve asset origin : Location) : Bool :=
  reserve == origin && matchesPrefix pre asset

/-- `Reserves`, the runtime's `IsReserve`: runtime/kreivo/src/xcm_config.rs 222-226. -/
def isReserve (asset origin : Location) : Bool :=
  nativeAsset asset origin || reserveAssetsFrom assetHub asset origin ||
    reserveForeignAssetsFrom polkadotLocation assetHub asset origin

end Verif.Xcm
