import Verif.Base.Bytes
import Verif.Base.PerThing
import Verif.Xcm.Location

/-!
# Derived accounts, address lookup and XCM account conversion on Kreivo

Models `AccountIdConversion` of `sp_runtime` (outside `/repo`) for `PalletId` and `Sibling`, and the code of
`/repo/runtime/kreivo/src` that uses it. Accounts are lists of bytes; the ones made here have 32 bytes.
-/

namespace Verif.Accounts

open Verif Verif.Xcm

/-- `AccountId32`. Outside /repo; used at runtime/kreivo/src/lib.rs 107 (parachains_common). -/
abbrev AccountId := List UInt8

/-- `AccountId::decode(&mut TrailingZeroInput(b))`: the first 32 bytes, padded with zeros. Outside /repo; used at
pallets/communities/src/functions.rs 22-24 (AccountIdConversion). -/
def pad32 (b : List UInt8) : AccountId := (b ++ List.replicate 32 0).take 32

/-- `TYPE_ID` of `PalletId`. Outside /repo; used at pallets/communities/src/functions.rs 22-24. -/
def modl : List UInt8 := ascii "modl"
/-- `TYPE_ID` of `Sibling`. Outside /repo; used at runtime/kreivo/src/xcm_config.rs 60. -/
def sibl : List UInt8 := ascii "sibl"

/-- `PalletId::into_sub_account_truncating(sub)`, `sub` given by its encoding; with the empty encoding it is
`into_account_truncating`. Outside /repo; used at pallets/communities/src/functions.rs 22-24 (AccountIdConversion). -/
def palletAccount (pid sub : List UInt8) : AccountId := pad32 (modl ++ pid ++ sub)

/-- `PalletId::try_from_sub_account::<u16>(x)`: the type id, then an 8-byte pallet id, a little-endian u16, and
nothing but zeros. Outside /repo; used at runtime/kreivo/src/payments.rs 48-49,
runtime/kreivo/src/xcm_config/communities.rs 55, runtime/kreivo/src/communities/mod.rs 47-52. -/
def trySubAccount (x : AccountId) : Option (List UInt8 × UInt16) :=
  if x.take 4 = modl then
    let d := x.drop 4
    if 10 ≤ d.length ∧ (d.drop 10).all (· == 0) then
      some (d.take 8, UInt16.ofNat (fromLE ((d.drop 8).take 2)))
    else none
  else none

/-- `CommunityPalletId`: runtime/kreivo/src/communities/mod.rs 40. -/
def communityPalletId : List UInt8 := ascii "kv/cmtys"
/-- `TreasuryPalletId`: runtime/kreivo/src/lib.rs 438. -/
def treasuryPalletId : List UInt8 := ascii "py/trsry"
/-- `PotId`: runtime/kreivo/src/lib.rs 403. -/
def potPalletId : List UInt8 := ascii "PotStake"
/-- `PassPalletId`: runtime/kreivo/src/configuration/system_support.rs 131. -/
def passPalletId : List UInt8 := ascii "kreivo_p"
/-- `PaymentPalletId`: runtime/kreivo/src/payments.rs 12. -/
def paymentPalletId : List UInt8 := ascii "payments"
/-- The checking account's pallet id of `pallet_xcm` (outside `/repo`), used at
runtime/kreivo/src/xcm_config.rs 40-41. -/
def xcmCheckPalletId : List UInt8 := ascii "py/xcmch"

/-- `TreasuryAccount` (runtime/kreivo/src/lib.rs, `Treasury::account_id()`). -/
def treasuryAccount : AccountId := palletAccount treasuryPalletId []

/-- `Communities::community_account`: pallets/communities/src/functions.rs 22-24, with the Kreivo pallet id and
u16 community ids. -/
def communityAccount (c : UInt16) : AccountId := palletAccount communityPalletId (leBytes 2 c.toNat)

/-- `AccountToCommunityId`: runtime/kreivo/src/communities/mod.rs 47-52 (the pallet id is dropped). -/
def accountToCommunityId (a : AccountId) : Option UInt16 := (trySubAccount a).map (·.2)

/-- `MultiAddress<AccountId, CommunityId>`: runtime/kreivo/src/lib.rs 117. -/
inductive Address
  | id (a : AccountId)
  | index (c : UInt16)
  | raw (b : List UInt8)
  | address32 (b : List UInt8)
  | address20 (b : List UInt8)
  deriving DecidableEq

/-- `CommunityLookup::lookup`: runtime/kreivo/src/configuration/system_support.rs 46-52. -/
def lookup : Address → Option AccountId
  | .id a => some a
  | .index c => some (communityAccount c)
  | _ => none

/-- `CommunityLookup::unlookup`: runtime/kreivo/src/configuration/system_support.rs 53-55. -/
def unlookup (a : AccountId) : Address := .id a

/-- `RelayNetwork`: runtime/kreivo/src/xcm_config.rs 38. -/
def relayNetwork : Option NetworkId := some .kusama

/-- `ParentIsPreset` (xcm-builder, outside `/repo`): the account "Parent". -/
def parentIsPreset (l : Location) : Option AccountId :=
  if l = ⟨1, []⟩ then some (pad32 (ascii "Parent")) else none

/-- `Sibling::into_account_truncating`. Outside /repo; used at runtime/kreivo/src/xcm_config.rs 60. -/
def siblingAccount (id : UInt32) : AccountId := pad32 (sibl ++ leBytes 4 id.toNat)

/-- `SiblingParachainConvertsVia<Sibling, _>` (xcm-builder, outside `/repo`). -/
def siblingConverts (l : Location) : Option AccountId :=
  match l.parents, l.interior with
  | 1, [.parachain id] => some (siblingAccount id)
  | _, _ => none

/-- `u32.saturated_into::<u16>()`. Outside /repo; used at runtime/kreivo/src/xcm_config/communities.rs 23. -/
def satU16 (x : UInt32) : UInt16 := UInt16.ofNat (min x.toNat 65535)

/-- `PluralityConvertsToCommunityAccountId`: runtime/kreivo/src/xcm_config/communities.rs 14-27. -/
def pluralityConverts (l : Location) : Option AccountId :=
  match l.parents, l.interior with
  | 0, [.plurality (.index id) _] => some (communityAccount (satU16 id))
  | _, _ => none

/-- `AccountId32FromRelay`: runtime/kreivo/src/xcm_config/communities.rs 29-42. -/
def accountFromRelay (l : Location) : Option AccountId :=
  match l.parents, l.interior with
  | 1, [.accountId32 n id] => if n = none ∨ n = relayNetwork then some id else none
  | _, _ => none

/-- `AccountId32Aliases` (xcm-builder, outside `/repo`). -/
def accountAliases (l : Location) : Option AccountId :=
  match l.parents, l.interior with
  | 0, [.accountId32 n id] => if n = none ∨ n = relayNetwork then some id else none
  | _, _ => none

/-- `LocationToAccountId`: runtime/kreivo/src/xcm_config.rs 56-67; the first converter that answers wins. -/
def locationToAccount (l : Location) : Option AccountId :=
  (parentIsPreset l).or <| (siblingConverts l).or <| (pluralityConverts l).or <|
    (accountFromRelay l).or <| accountAliases l

/-! ## Community origins and junctions (pallets/communities/src/origin.rs) -/

/-- `Permill::ACCURACY`. Outside /repo; used at pallets/communities/src/origin.rs 153-169. -/
def permill : Nat := 1000000

/-- `Subset`: pallets/communities/src/origin.rs 122-127. A `Permill` is its number of parts per million. -/
inductive Subset (Mid : Type)
  | member (m : Mid)
  | members (count : UInt32)
  | fraction (parts : Fin (permill + 1))
  | atLeastRank (r : UInt8)
  deriving DecidableEq

/-- `RawOrigin`: pallets/communities/src/origin.rs 98-101. -/
structure CommunityOrigin (Cid Mid : Type) where
  community : Cid
  subset : Option (Subset Mid)
  deriving DecidableEq

/-- `Permill::from_rational(p, q)`. Outside /repo; used at pallets/communities/src/origin.rs 153-169. -/
def permillFromRational (p q : Nat) : Fin (permill + 1) :=
  ⟨fromRational permill p q, Nat.lt_succ_of_le (fromRational_le _ _ _)⟩

/-- `TryFrom<RawOrigin> for Junction`: pallets/communities/src/origin.rs 153-169. `toU32` is
`u32::from(community_id)`. -/
def originToJunction {Cid Mid : Type} (toU32 : Cid → UInt32) (o : CommunityOrigin Cid Mid) : Option Junction :=
  match o.subset with
  | none => some (.plurality (.index (toU32 o.community)) .voice)
  | some (.member _) => some (.plurality (.index (toU32 o.community)) (.members 1))
  | some (.members n) => some (.plurality (.index (toU32 o.community)) (.members n))
  | some (.fraction p) =>
    some (.plurality (.index (toU32 o.community)) (.fraction (UInt32.ofNat p.val) (UInt32.ofNat permill)))
  | some (.atLeastRank _) => none

/-- `TryFrom<Junction> for RawOrigin`: pallets/communities/src/origin.rs 180-196. `ofU32` is
`T::CommunityId::from(id)`. -/
def junctionToOrigin {Cid Mid : Type} (ofU32 : UInt32 → Cid) (j : Junction) : Option (CommunityOrigin Cid Mid) :=
  match j with
  | .plurality (.index id) .voice => some ⟨ofU32 id, none⟩
  | .plurality (.index id) (.members n) => some ⟨ofU32 id, some (.members n)⟩
  | .plurality (.index id) (.fraction n d) =>
    some ⟨ofU32 id, some (.fraction (permillFromRational n.toNat d.toNat))⟩
  | _ => none

/-- Widening `u32::from(u16)` for Kreivo community ids. pallets/communities/src/origin.rs 153-169. -/
def u16ToU32 (c : UInt16) : UInt32 := UInt32.ofNat c.toNat

/-! ## Runtime origins and outgoing XCM -/

/-- `pallet_custom_origins::Origin`: runtime/kreivo/src/governance/origins.rs 33-40. -/
inductive CustomOrigin
  | createMemberships
  | referendumCanceller
  | referendumKiller
  deriving DecidableEq

/-- The runtime origins that matter here: system origins, a community origin, the custom governance origins, and any
other pallet's. pallets/communities/src/origin.rs 98-118, runtime/kreivo/src/governance/origins.rs 33-40; the rest outside
/repo. -/
inductive RtOrigin
  | root
  | none
  | signed (a : AccountId)
  | community (o : CommunityOrigin UInt16 UInt32)
  | custom (o : CustomOrigin)
  | other (n : Nat)
  deriving DecidableEq

/-- `TryConvert<RuntimeOrigin, Location> for RawOrigin`: pallets/communities/src/origin.rs 136-142. A junction
becomes a location with no parents. -/
def communityToLocation : RtOrigin → Option Location
  | .community o => (originToJunction u16ToU32 o).map fun j => ⟨0, [j]⟩
  | _ => Option.none

/-- `SignedByCommunityToPlurality`: runtime/kreivo/src/xcm_config/communities.rs 44-61. -/
def signedToPlurality : RtOrigin → Option Location
  | .signed a =>
    match trySubAccount a with
    | some (_, c) =>
      (originToJunction (Mid := UInt32) u16ToU32 ⟨c, Option.none⟩).map fun j => ⟨0, [j]⟩
    | Option.none => Option.none
  | _ => Option.none

/-- `SignedToAccountId32<_, _, RelayNetwork>` (xcm-builder, outside `/repo`). -/
def signedToAccountId32 : RtOrigin → Option Location
  | .signed a => some ⟨0, [.accountId32 relayNetwork a]⟩
  | _ => Option.none

/-- `CanSendXcmMessages`: runtime/kreivo/src/xcm_config.rs 264-267. -/
def canSendXcm (o : RtOrigin) : Option Location := (communityToLocation o).or (signedToPlurality o)

/-- `CanExecuteXcmTransactions`: runtime/kreivo/src/xcm_config.rs 270-273. -/
def canExecuteXcm (o : RtOrigin) : Option Location := (communityToLocation o).or (signedToAccountId32 o)

/-- `AsSignedByCommunity::try_origin`: pallets/communities/src/origin.rs 213-218. -/
def asSignedByCommunity : RtOrigin → Option AccountId
  | .community o => some (communityAccount o.community)
  | _ => Option.none

/-- `AsSignedByStaticCommunity<_, C>::try_origin`: pallets/communities/src/origin.rs 243-250. -/
def asSignedByStaticCommunity (c : UInt16) : RtOrigin → Option AccountId
  | .community o => if o.community = c then some (communityAccount c) else Option.none
  | _ => Option.none

/-- `InstantiateOrigin` of the contracts pallet: runtime/kreivo/src/contracts.rs 62-68. -/
def instantiateOrigin (o : RtOrigin) : Option AccountId :=
  if o = .root then some treasuryAccount
  else (asSignedByStaticCommunity 1 o).or (asSignedByStaticCommunity 2 o)

/-- `UploadOrigin` of the contracts pallet: runtime/kreivo/src/contracts.rs 61. -/
def uploadOrigin (o : RtOrigin) : Option AccountId :=
  if o = .root then some treasuryAccount else Option.none

/-- `SenderOrigin` of the payments pallet on Kreivo: runtime/kreivo/src/payments.rs 75-98
(`EitherOf<AsSignedByCommunity, EnsureSigned>`). -/
def paymentSender (o : RtOrigin) : Option AccountId :=
  (asSignedByCommunity o).or (match o with | .signed a => some a | _ => Option.none)

end Verif.Accounts
