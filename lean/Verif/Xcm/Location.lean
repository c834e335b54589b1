/-!
# XCM locations

The part of XCM v4 (`staging-xcm` 14.2.0, not in `/repo`) that the code under `/repo` matches on: `Location`,
`Junction`, `NetworkId`, `BodyId` and `BodyPart`, with their Rust field widths.

Simplifications: the interior of a location is a list of any length, while in XCM it has at most eight junctions;
every statement over all lists covers those. Byte arrays are lists of bytes of any length.
-/

namespace Verif.Xcm

/-- `xcm::latest::NetworkId`, used in common/src/multilocation_asset_id.rs 61-82. -/
inductive NetworkId
  | byGenesis (hash : List UInt8)
  | byFork (blockNumber : UInt64) (hash : List UInt8)
  | polkadot
  | kusama
  | westend
  | rococo
  | wococo
  | ethereum (chainId : UInt64)
  | bitcoinCore
  | bitcoinCash
  | polkadotBulletin
  deriving DecidableEq, Repr

/-- `xcm::latest::BodyId`, used in pallets/communities/src/origin.rs 166, 182 and
runtime/kreivo/src/xcm_config.rs 147. -/
inductive BodyId
  | unit
  | moniker (m : List UInt8)
  | index (i : UInt32)
  | executive
  | technical
  | legislative
  | judicial
  | defense
  | administration
  | treasury
  deriving DecidableEq, Repr

/-- `xcm::latest::BodyPart`, used in pallets/communities/src/origin.rs 155-164, 185-190. -/
inductive BodyPart
  | voice
  | members (count : UInt32)
  | fraction (nom denom : UInt32)
  | atLeastProportion (nom denom : UInt32)
  | moreThanProportion (nom denom : UInt32)
  deriving DecidableEq, Repr

/-- `xcm::latest::Junction`. `GeneralIndex` carries a u128, modelled as a 128-bit vector. Outside /repo; used at
runtime/kreivo/src/xcm_config.rs 22 (xcm::latest). -/
inductive Junction
  | parachain (id : UInt32)
  | accountId32 (network : Option NetworkId) (id : List UInt8)
  | accountIndex64 (network : Option NetworkId) (index : UInt64)
  | accountKey20 (network : Option NetworkId) (key : List UInt8)
  | palletInstance (i : UInt8)
  | generalIndex (i : BitVec 128)
  | generalKey (length : UInt8) (data : List UInt8)
  | onlyChild
  | plurality (id : BodyId) (part : BodyPart)
  | globalConsensus (n : NetworkId)
  deriving DecidableEq, Repr

/-- `xcm::latest::Location`: number of parents and interior junctions; `location.unpack()` is the pair of both
fields. Outside /repo; used at runtime/kreivo/src/xcm_config.rs 22 (xcm::latest). -/
structure Location where
  parents : UInt8
  interior : List Junction
  deriving DecidableEq, Repr

end Verif.Xcm
