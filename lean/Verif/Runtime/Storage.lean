import Verif.Base.Codec
import Verif.Ids.PaymentId
import Verif.Xcm.AssetId
import Verif.Accounts.Model
import Verif.Runtime.Calls

/-!
# What the pallets store, byte by byte

The encodings derived for the types in /repo, as Kreivo instantiates them, and the keys of the storage maps.
-/

namespace Verif.Runtime

open Verif Verif.Accounts

/-- Balances of Kreivo (`u128`). Outside /repo; used at runtime/kreivo/src/configuration/monetary_stuff.rs 19. -/
abbrev Bal := BitVec 128

/-- `AccountId32`. Outside /repo; used at runtime/kreivo/src/lib.rs 107 (sp_runtime). -/
abbrev Acc32 := BytesN 32

/-- `Para`: common/src/multilocation_asset_id.rs 23-27. -/
def paraC : Codec Xcm.Para where
  enc p := u16C.enc p.id ++ u8C.enc p.pallet ++ u32C.enc p.index
  dec i := do
    let (id, r) ← u16C.dec i
    let (pallet, r) ← u8C.dec r
    let (index, r) ← u32C.dec r
    some (⟨id, pallet, index⟩, r)

/-- `NetworkId`: common/src/multilocation_asset_id.rs 34-38. -/
def networkC : Codec Xcm.Network where
  enc
    | .polkadot => [0]
    | .kusama => [1]
    | .ethereum c => 2 :: u64C.enc c
  dec
    | 0 :: r => some (.polkadot, r)
    | 1 :: r => some (.kusama, r)
    | 2 :: r => do
      let (c, r) ← u64C.dec r
      some (.ethereum c, r)
    | _ => none

/-- `FungibleAssetLocation`: common/src/multilocation_asset_id.rs 12-16. -/
def assetIdC : Codec Xcm.AssetId where
  enc
    | .here n => 0 :: u32C.enc n
    | .sibling p => 1 :: paraC.enc p
    | .external n c => 2 :: (networkC.enc n ++ (optionC paraC).enc c)
  dec
    | 0 :: r => do
      let (n, r) ← u32C.dec r
      some (.here n, r)
    | 1 :: r => do
      let (p, r) ← paraC.dec r
      some (.sibling p, r)
    | 2 :: r => do
      let (n, r) ← networkC.dec r
      let (c, r) ← (optionC paraC).dec r
      some (.external n c, r)
    | _ => none

/-- `PaymentId`, encoded by hand: common/src/payment_id.rs 144-162. -/
def paymentIdC : Codec Ids.PaymentId where
  enc := Ids.PaymentId.encode
  dec := Ids.PaymentId.decode

/-- `CommunityState`, the only field of `CommunityInfo`: pallets/communities/src/types.rs 36-55. -/
inductive StoredState
  | active
  | blocked
  deriving DecidableEq

/-- `CommunityInfo`: pallets/communities/src/types.rs 36-55. -/
def stateC : Codec StoredState where
  enc
    | .active => [0]
    | .blocked => [1]
  dec
    | 0 :: r => some (.active, r)
    | 1 :: r => some (.blocked, r)
    | _ => none

/-- `DecisionMethod` with the assets of Kreivo: pallets/communities/src/types.rs 58-64. -/
inductive StoredMethod
  | membership
  | nativeToken
  | communityAsset (asset : Xcm.AssetId) (minVote : Bal)
  | rank
  deriving DecidableEq

/-- `DecisionMethod`: pallets/communities/src/types.rs 57-64. -/
def methodC : Codec StoredMethod where
  enc
    | .membership => [0]
    | .nativeToken => [1]
    | .communityAsset a m => 2 :: (assetIdC.enc a ++ u128C.enc m)
    | .rank => [3]
  dec
    | 0 :: r => some (.membership, r)
    | 1 :: r => some (.nativeToken, r)
    | 2 :: r => do
      let (a, r) ← assetIdC.dec r
      let (m, r) ← u128C.dec r
      some (.communityAsset a m, r)
    | 3 :: r => some (.rank, r)
    | _ => none

/-- `Vote` with the assets and balances of Kreivo: pallets/communities/src/types.rs 71-75. -/
inductive StoredVote
  | asset (say : Bool) (id : Xcm.AssetId) (amount : Bal)
  | native (say : Bool) (amount : Bal)
  | standard (say : Bool)
  deriving DecidableEq

/-- `Vote`: pallets/communities/src/types.rs 69-75. -/
def voteC : Codec StoredVote where
  enc
    | .asset b a n => 0 :: (boolC.enc b ++ assetIdC.enc a ++ u128C.enc n)
    | .native b n => 1 :: (boolC.enc b ++ u128C.enc n)
    | .standard b => 2 :: boolC.enc b
  dec
    | 0 :: r => do
      let (b, r) ← boolC.dec r
      let (a, r) ← assetIdC.dec r
      let (n, r) ← u128C.dec r
      some (.asset b a n, r)
    | 1 :: r => do
      let (b, r) ← boolC.dec r
      let (n, r) ← u128C.dec r
      some (.native b n, r)
    | 2 :: r => do
      let (b, r) ← boolC.dec r
      some (.standard b, r)
    | _ => none

/-- `Tally`: pallets/communities/src/types.rs 112-117; the marker takes no bytes. -/
structure StoredTally where
  ayes : UInt32
  nays : UInt32
  bareAyes : UInt32
  deriving DecidableEq

/-- `Tally`: pallets/communities/src/types.rs 109-117. -/
def tallyC : Codec StoredTally where
  enc t := u32C.enc t.ayes ++ u32C.enc t.nays ++ u32C.enc t.bareAyes
  dec i := do
    let (a, r) ← u32C.dec i
    let (n, r) ← u32C.dec r
    let (b, r) ← u32C.dec r
    some (⟨a, n, b⟩, r)

/-- `Permill`, which refuses more than a million parts. Outside /repo; used at pallets/communities/src/origin.rs 125. -/
def permillC : Codec (Fin (permill + 1)) where
  enc p := leBytes 4 p.val
  dec i := do
    let (n, r) ← u32C.dec i
    if h : n.toNat < permill + 1 then some (⟨n.toNat, h⟩, r) else none

/-- `Subset` with the memberships of Kreivo: pallets/communities/src/origin.rs 121-127. -/
def subsetC : Codec (Subset UInt32) where
  enc
    | .member m => 0 :: u32C.enc m
    | .members n => 1 :: u32C.enc n
    | .fraction p => 2 :: permillC.enc p
    | .atLeastRank k => 3 :: u8C.enc k
  dec
    | 0 :: r => do
      let (m, r) ← u32C.dec r
      some (.member m, r)
    | 1 :: r => do
      let (n, r) ← u32C.dec r
      some (.members n, r)
    | 2 :: r => do
      let (p, r) ← permillC.dec r
      some (.fraction p, r)
    | 3 :: r => do
      let (k, r) ← u8C.dec r
      some (.atLeastRank k, r)
    | _ => none

/-- `RawOrigin` with the communities of Kreivo: pallets/communities/src/origin.rs 97-101. -/
def communityOriginC : Codec (CommunityOrigin UInt16 UInt32) where
  enc o := u16C.enc o.community ++ (optionC subsetC).enc o.subset
  dec i := do
    let (c, r) ← u16C.dec i
    let (s, r) ← (optionC subsetC).dec r
    some (⟨c, s⟩, r)

/-- `PaymentState`: pallets/payments/src/types.rs 54-67. -/
inductive StoredPState
  | created
  | needsReview
  | refundRequested (cancelBlock : UInt32)
  | paymentRequested
  | finished
  deriving DecidableEq

/-- `PaymentState`: pallets/payments/src/types.rs 53-67. -/
def pstateC : Codec StoredPState where
  enc
    | .created => [0]
    | .needsReview => [1]
    | .refundRequested b => 2 :: u32C.enc b
    | .paymentRequested => [3]
    | .finished => [4]
  dec
    | 0 :: r => some (.created, r)
    | 1 :: r => some (.needsReview, r)
    | 2 :: r => do
      let (b, r) ← u32C.dec r
      some (.refundRequested b, r)
    | 3 :: r => some (.paymentRequested, r)
    | 4 :: r => some (.finished, r)
    | _ => none

/-- `Fee`: pallets/payments/src/types.rs 17-18. -/
abbrev StoredFee := Acc32 × Bal × Bool

/-- `Fee`: pallets/payments/src/types.rs 17-18. -/
def feeC : Codec StoredFee := pairC (bytesC 32) (pairC u128C boolC)

/-- `MaxFees` of Kreivo: runtime/kreivo/src/payments.rs 89. -/
def maxFees : Nat := 50

/-- `PaymentDetail` with its `Fees`: pallets/payments/src/types.rs 34-48 and 105-108. -/
structure StoredPayment where
  asset : Xcm.AssetId
  amount : Bal
  beneficiary : Acc32
  incentive : Bal
  state : StoredPState
  senderPays : Bounded maxFees StoredFee
  beneficiaryPays : Bounded maxFees StoredFee

/-- `PaymentDetail`: pallets/payments/src/types.rs 30-48 and 102-108. -/
def paymentC : Codec StoredPayment where
  enc p := assetIdC.enc p.asset ++ u128C.enc p.amount ++ (bytesC 32).enc p.beneficiary ++ u128C.enc p.incentive ++
    pstateC.enc p.state ++ (boundedC maxFees feeC).enc p.senderPays ++ (boundedC maxFees feeC).enc p.beneficiaryPays
  dec i := do
    let (asset, r) ← assetIdC.dec i
    let (amount, r) ← u128C.dec r
    let (beneficiary, r) ← (bytesC 32).dec r
    let (incentive, r) ← u128C.dec r
    let (state, r) ← pstateC.dec r
    let (senderPays, r) ← (boundedC maxFees feeC).dec r
    let (beneficiaryPays, r) ← (boundedC maxFees feeC).dec r
    some (⟨asset, amount, beneficiary, incentive, state, senderPays, beneficiaryPays⟩, r)

/-- `Percent`, which refuses more than a hundred. Outside /repo; used at pallets/payments/src/types.rs 168. -/
def percentC : Codec (Fin 101) where
  enc p := leBytes 1 p.val
  dec i := do
    let (n, r) ← u8C.dec i
    if h : n.toNat < 101 then some (⟨n.toNat, h⟩, r) else none

/-- `Role`: pallets/payments/src/types.rs 160-164. -/
inductive StoredRole
  | sender
  | beneficiary
  deriving DecidableEq

/-- `Role`: pallets/payments/src/types.rs 159-164. -/
def roleC : Codec StoredRole where
  enc
    | .sender => [0]
    | .beneficiary => [1]
  dec
    | 0 :: r => some (.sender, r)
    | 1 :: r => some (.beneficiary, r)
    | _ => none

/-- `DisputeResult`: pallets/payments/src/types.rs 166-170. -/
def disputeC : Codec (Fin 101 × StoredRole) := pairC percentC roleC

/-- `ProxyType`: runtime/kreivo/src/impls.rs 48-68. -/
def proxyTypeC : Codec ProxyType where
  enc
    | .any => [0]
    | .nonTransfer => [1]
    | .cancelProxy => [2]
    | .assets => [3]
    | .assetOwner => [4]
    | .assetManager => [5]
    | .collator => [6]
  dec
    | 0 :: r => some (.any, r)
    | 1 :: r => some (.nonTransfer, r)
    | 2 :: r => some (.cancelProxy, r)
    | 3 :: r => some (.assets, r)
    | 4 :: r => some (.assetOwner, r)
    | 5 :: r => some (.assetManager, r)
    | 6 :: r => some (.collator, r)
    | _ => none

/-! ## Maps -/

/-- The chain's storage: bytes under bytes. Outside /repo; used at pallets/payments/src/lib.rs 154 (sp_io::storage). -/
abbrev Raw := List UInt8 → Option (List UInt8)

/-- The hash functions of the keys; nothing is known of them but the length of their result. Outside /repo; used at
pallets/communities/src/lib.rs 269 and pallets/payments/src/lib.rs 169 (sp_io::hashing). -/
structure Hashers where
  blake128 : List UInt8 → List UInt8
  twox64 : List UInt8 → List UInt8
  twox128 : List UInt8 → List UInt8
  blake128_len : ∀ l, (blake128 l).length = 16
  twox64_len : ∀ l, (twox64 l).length = 8
  twox128_len : ∀ l, (twox128 l).length = 16

/-- A storage map: the prefix of its keys, what follows the prefix, and how values are written. Outside /repo; used at
pallets/communities/src/lib.rs 269-294 and pallets/payments/src/lib.rs 162-181 (frame_support). -/
structure SMap (κ ν : Type) where
  pre : List UInt8
  key : κ → List UInt8
  val : Codec ν

/-- `get` (`None` where nothing is stored or it cannot be decoded; bytes left over are ignored). Outside /repo; used at
pallets/payments/src/lib.rs 308 (frame_support). -/
def SMap.get {κ ν : Type} (m : SMap κ ν) (s : Raw) (k : κ) : Option ν :=
  (s (m.pre ++ m.key k)).bind fun b => (m.val.dec b).map Prod.fst

/-- `insert`. Outside /repo; used at pallets/communities/src/functions.rs 71 (frame_support). -/
def SMap.insert {κ ν : Type} (m : SMap κ ν) (s : Raw) (k : κ) (v : ν) : Raw := fun x =>
  if x = m.pre ++ m.key k then some (m.val.enc v) else s x

/-- `remove`. Outside /repo; used at pallets/payments/src/lib.rs 415 (frame_support). -/
def SMap.remove {κ ν : Type} (m : SMap κ ν) (s : Raw) (k : κ) : Raw := fun x =>
  if x = m.pre ++ m.key k then none else s x

/-- The prefix of a map: the hashed names of pallet and map. Outside /repo; used at pallets/communities/src/lib.rs 269
(frame_support). -/
def mapPrefix (h : Hashers) (pallet map : String) : List UInt8 := h.twox128 (ascii pallet) ++ h.twox128 (ascii map)

/-- A hashed key followed by the key itself (`Blake2_128Concat`, `Twox64Concat`). Outside /repo; used at
pallets/communities/src/lib.rs 269 and pallets/payments/src/lib.rs 176. -/
def concatKey {α : Type} (hash : List UInt8 → List UInt8) (c : Codec α) (a : α) : List UInt8 := hash (c.enc a) ++ c.enc a

/-- `Info`: pallets/communities/src/lib.rs 268-269. -/
def infoMap (h : Hashers) : SMap UInt16 StoredState :=
  ⟨mapPrefix h "Communities" "Info", concatKey h.blake128 u16C, stateC⟩

/-- `CommunityIdFor`: pallets/communities/src/lib.rs 272-273. The encoding of origins is a parameter. -/
def idForMap {O : Type} (h : Hashers) (origins : Codec O) : SMap O UInt16 :=
  ⟨mapPrefix h "Communities" "CommunityIdFor", concatKey h.blake128 origins, u16C⟩

/-- `CommunityDecisionMethod`: pallets/communities/src/lib.rs 276-278. -/
def methodMap (h : Hashers) : SMap UInt16 StoredMethod :=
  ⟨mapPrefix h "Communities" "CommunityDecisionMethod", concatKey h.blake128 u16C, methodC⟩

/-- `CommunityVotes`: pallets/communities/src/lib.rs 281-289. -/
def votesMap (h : Hashers) : SMap (UInt32 × UInt32) (StoredVote × Acc32) :=
  ⟨mapPrefix h "Communities" "CommunityVotes",
    fun k => concatKey h.blake128 u32C k.1 ++ concatKey h.blake128 u32C k.2, pairC voteC (bytesC 32)⟩

/-- `CommunityVoteLocks`: pallets/communities/src/lib.rs 292-294. -/
def locksMap (h : Hashers) : SMap (Acc32 × UInt32) StoredVote :=
  ⟨mapPrefix h "Communities" "CommunityVoteLocks",
    fun k => concatKey h.blake128 (bytesC 32) k.1 ++ concatKey h.blake128 u32C k.2, voteC⟩

/-- `Payment`: pallets/payments/src/lib.rs 162-171. -/
def paymentMap (h : Hashers) : SMap (Acc32 × Ids.PaymentId) StoredPayment :=
  ⟨mapPrefix h "Payments" "Payment",
    fun k => concatKey h.blake128 (bytesC 32) k.1 ++ concatKey h.twox64 paymentIdC k.2, paymentC⟩

/-- `PaymentParties`: pallets/payments/src/lib.rs 174-181. -/
def partiesMap (h : Hashers) : SMap Ids.PaymentId (Acc32 × Acc32) :=
  ⟨mapPrefix h "Payments" "PaymentParties", concatKey h.twox64 paymentIdC, pairC (bytesC 32) (bytesC 32)⟩

/-- What is hashed to name the scheduled cancellation of a payment: the text `payment` (its length first) and the id.
pallets/payments/src/lib.rs 338. -/
def taskName (id : Ids.PaymentId) : List UInt8 := compactEnc 7 ++ ascii "payment" ++ paymentIdC.enc id

end Verif.Runtime
