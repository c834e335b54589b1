import Verif.Xcm.Location

/-!
# Local asset ids and XCM locations (common/src/multilocation_asset_id.rs)

A Rust `panic!` is the explicit outcome `panic`.
-/

namespace Verif.Xcm

/-- `Para`: common/src/multilocation_asset_id.rs 23-27. -/
structure Para where
  id : UInt16
  pallet : UInt8
  index : UInt32
  deriving DecidableEq, Repr

/-- The local `NetworkId`: common/src/multilocation_asset_id.rs 34-38. -/
inductive Network
  | polkadot
  | kusama
  | ethereum (chainId : UInt64)
  deriving DecidableEq, Repr

/-- `FungibleAssetLocation`: common/src/multilocation_asset_id.rs 12-16. -/
inductive AssetId
  | here (index : UInt32)
  | sibling (para : Para)
  | external (network : Network) (child : Option Para)
  deriving DecidableEq, Repr

/-- Result of `convert`: an id, `None`, or a panic. common/src/multilocation_asset_id.rs, the result of the conversions
cited below (`.rs` lines there). -/
inductive Converted
  | some (id : AssetId)
  | none
  | panic
  deriving DecidableEq, Repr

/-- `TryFrom<xcm NetworkId>` for the local network: common/src/multilocation_asset_id.rs 61-72. -/
def Network.tryFrom : NetworkId → Option Network
  | .polkadot => .some .polkadot
  | .kusama => .some .kusama
  | .ethereum c => .some (.ethereum c)
  | _ => .none

/-- `From<NetworkId> for xcm NetworkId`: common/src/multilocation_asset_id.rs 74-82. -/
def Network.into : Network → NetworkId
  | .polkadot => .polkadot
  | .kusama => .kusama
  | .ethereum c => .ethereum c

/-- `u16::try_from(u32)` (used at multilocation_asset_id.rs 96, 104). -/
def u16OfU32 (x : UInt32) : Option UInt16 :=
  if x.toNat < 2 ^ 16 then .some (UInt16.ofNat x.toNat) else .none

/-- `u32::try_from(u128)` (used at multilocation_asset_id.rs 98, 106, 110-111). -/
def u32OfU128 (x : BitVec 128) : Option UInt32 :=
  if x.toNat < 2 ^ 32 then .some (UInt32.ofNat x.toNat) else .none

/-- The fields of `Para` with their `.ok()?`: multilocation_asset_id.rs 95-99, 103-107. -/
def Para.tryNew (id : UInt32) (pallet : UInt8) (index : BitVec 128) : Option Para :=
  match u16OfU32 id, u32OfU128 index with
  | .some i, .some x => .some ⟨i, pallet, x⟩
  | _, _ => .none

/-- `AsFungibleAssetLocation::convert`: common/src/multilocation_asset_id.rs 86-116. The `.expect` in the local
case is `panic`. -/
def convert (l : Location) : Converted :=
  match l.parents, l.interior with
  | 2, [.globalConsensus n] =>
    match Network.tryFrom n with
    | .some n => .some (.external n .none)
    | .none => .none
  | 2, [.globalConsensus n, .parachain id, .palletInstance p, .generalIndex i] =>
    match Network.tryFrom n, Para.tryNew id p i with
    | .some n, .some para => .some (.external n (.some para))
    | _, _ => .none
  | 1, [.parachain id, .palletInstance p, .generalIndex i] =>
    match Para.tryNew id p i with
    | .some para => .some (.sibling para)
    | .none => .none
  | 0, [.palletInstance 13, .generalIndex i] =>
    match u32OfU128 i with
    | .some x => .some (.here x)
    | .none => .panic
  | _, _ => .none

/-- The three junctions of a `Para` in `convert_back`: common/src/multilocation_asset_id.rs 123-126, 135-140.
`.into()` widens without loss. -/
def Para.junctions (p : Para) : List Junction :=
  [.parachain (UInt32.ofNat p.id.toNat), .palletInstance p.pallet, .generalIndex (BitVec.ofNat 128 p.index.toNat)]

/-- `AsFungibleAssetLocation::convert_back`: common/src/multilocation_asset_id.rs 118-143 (always `Some`). -/
def convertBack : AssetId → Location
  | .here i => ⟨0, [.palletInstance 13, .generalIndex (BitVec.ofNat 128 i.toNat)]⟩
  | .sibling p => ⟨1, p.junctions⟩
  | .external n .none => ⟨2, [.globalConsensus n.into]⟩
  | .external n (.some p) => ⟨2, .globalConsensus n.into :: p.junctions⟩

/-- `FungibleAssetLocation::from(u32)`: common/src/multilocation_asset_id.rs 46-50. -/
def AssetId.ofU32 (v : UInt32) : AssetId := .here v

/-- `Default`: common/src/multilocation_asset_id.rs 40-44. -/
def AssetId.default : AssetId := .here 0

end Verif.Xcm
