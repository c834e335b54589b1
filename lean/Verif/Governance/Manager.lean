import Verif.Governance.Curve
import Verif.Communities.Steps

/-!
# The communities manager (pallets/communities-manager/src/lib.rs)

Registration of a community with its collection, track and seat in the collective, and the creation of memberships.
Errors are explicit; `transact` is FRAME's rollback. The pallets used here are reached through the operations of
`MEnv`, which may refuse for reasons that are not modelled.
-/

namespace Verif.Governance

open Verif Verif.Accounts Verif.Communities

/-- The manager's errors (pallets/communities-manager/src/lib.rs 121-128), those of the communities pallet, and those of the other pallets. -/
inductive MErr
  | badOrigin
  | invalidCommunityName
  | lookup
  | tooManyMemberships
  | community (e : Err)
  | collection
  | track
  | collective
  | mint
  | price
  | panic
  deriving DecidableEq

/-- The manager's events (pallets/communities-manager/src/lib.rs 108-117). -/
inductive MEvent
  | communityRegistered (c : CId)
  | membershipsCreated (startingAt : MId) (amount : Nat)
  deriving DecidableEq

/-- A collection of pallet_nfts: its owner and admin. Outside /repo; used at pallets/communities-manager/src/lib.rs
167-176. -/
structure Collection where
  owner : AccountId
  admin : AccountId
  deriving DecidableEq

/-- Storage: the communities pallet (with the memberships in its world), collections and prices of pallet_nfts, tracks
and the track of each origin of pallet_referenda_tracks, members of the ranked collective, and events.
pallets/communities-manager/src/lib.rs 51-99; the storage of the pallets it is configured with is outside /repo. -/
structure MSt where
  comm : St
  collections : CId → Option Collection
  prices : CId → MId → Option Nat
  tracks : CId → Option TrackInfo
  trackOf : Origin → Option CId
  seats : AccountId → Option Nat
  events : List MEvent

/-- Operations of other pallets that may be refused for reasons outside the model. -/
structure MEnv where
  base : Env
  denyCollection : CId → Bool
  denyTrack : CId → Bool
  denySeat : AccountId → Bool
  denyMint : CId → MId → Bool
  denyPrice : CId → MId → Bool

/-- The configuration the logic depends on: pallets/communities-manager/src/lib.rs 46-103. -/
structure MConfig where
  base : Config
  registerOrigin : Origin → Option (Option (Nat × AccountId × AccountId))
  membershipsOrigin : Origin → Bool
  managerCollection : CId
  managerOwner : AccountId

/-- One step of `core::str::from_utf8`: how many bytes the well-formed sequence at the head has (Unicode table 3-7). -/
def utf8Len : List UInt8 → Option Nat
  | [] => none
  | a :: l =>
    let cont (b : UInt8) : Bool := 0x80 ≤ b && b ≤ 0xBF
    if a ≤ 0x7F then some 1
    else match l with
      | [] => none
      | b :: l =>
        if 0xC2 ≤ a && a ≤ 0xDF then (if cont b then some 2 else none)
        else match l with
          | [] => none
          | c :: l =>
            if 0xE0 ≤ a && a ≤ 0xEF then
              if cont c && (if a = 0xE0 then 0xA0 ≤ b && b ≤ 0xBF else if a = 0xED then 0x80 ≤ b && b ≤ 0x9F
                else cont b)
              then some 3 else none
            else match l with
              | [] => none
              | d :: _ =>
                if 0xF0 ≤ a && a ≤ 0xF4 then
                  if cont c && cont d && (if a = 0xF0 then 0x90 ≤ b && b ≤ 0xBF else if a = 0xF4 then 0x80 ≤ b && b ≤ 0x8F
                    else cont b)
                  then some 4 else none
                else none

/-- `core::str::from_utf8(bytes).is_ok()`; the first argument bounds the number of characters. Outside /repo; used at
pallets/communities-manager/src/lib.rs 148. -/
def utf8Loop : Nat → List UInt8 → Bool
  | _, [] => true
  | 0, _ => false
  | n + 1, l => match utf8Len l with
    | some k => utf8Loop n (l.drop k)
    | none => false

/-- `core::str::from_utf8(bytes).is_ok()`. Outside /repo; used at pallets/communities-manager/src/lib.rs 148. -/
def validUtf8 (b : List UInt8) : Bool := utf8Loop b.length b

/-- `str_array::<25>` of sp_runtime (outside `/repo`): pads with zeros, panics when the name does not fit. -/
def strArray25 (b : List UInt8) : Option (List UInt8) :=
  if b.length ≤ 25 then some (b ++ List.replicate (25 - b.length) 0) else none

/-- `default_tack`: pallets/communities-manager/src/lib.rs 238-259. `none` is a panic. -/
def defaultTrack (name : List UInt8) : Option TrackInfo :=
  match strArray25 name with
  | none => none
  | some n => some {
      name := n
      maxDeciding := 1
      decisionDeposit := 0
      preparePeriod := 1
      decisionPeriod := 255
      confirmPeriod := 1
      minEnactmentPeriod := 1
      minApproval := ⟨percent 100, percent 50, percent 100⟩
      minSupport := ⟨percent 100, percent 0, percent 50⟩ }

/-- `CommunityOrigin::new(c).into_caller()`: pallets/communities/src/origin.rs 104-109. -/
def communityOrigin (c : CId) : Origin := .community ⟨c, none⟩

/-- Lift a step of the communities pallet. pallets/communities-manager/src/lib.rs 137-190, the calls into
pallet_communities. -/
def liftComm (s : MSt) (r : Except Err St) : Except MErr MSt :=
  match r with
  | .ok c => .ok { s with comm := c }
  | .error e => .error (.community e)

/-- `set_decision_method` as the new admin, if a method is given: pallets/communities-manager/src/lib.rs 157-163. -/
def applyMethod (cfg : MConfig) (env : MEnv) (s : MSt) (admin : Origin) (c : CId) : Option Method → Except MErr MSt
  | none => .ok s
  | some dm => liftComm s (setDecisionMethod cfg.base env.base s.comm admin c dm)

/-- `T::CreateCollection::create_collection_with_id`: refused when the id is in use. Outside /repo; used at
pallets/communities-manager/src/lib.rs 167-176. -/
def createCollection (env : MEnv) (s : MSt) (c : CId) (owner admin : AccountId) : Except MErr MSt :=
  if s.collections c ≠ none ∨ env.denyCollection c then .error .collection
  else .ok { s with collections := fun d => if d = c then some ⟨owner, admin⟩ else s.collections d }

/-- The track: the one given, or the default: pallets/communities-manager/src/lib.rs 183. -/
def chooseTrack (name : List UInt8) : Option TrackInfo → Except MErr TrackInfo
  | some i => .ok i
  | none => match defaultTrack name with
    | some i => .ok i
    | none => .error .panic

/-- `T::Tracks::insert(id, info, origin)` of pallet_referenda_tracks: refused when the id is in use. Outside /repo; used
at pallets/communities-manager/src/lib.rs 180-184. -/
def insertTrack (env : MEnv) (s : MSt) (c : CId) (i : TrackInfo) (o : Origin) : Except MErr MSt :=
  if s.tracks c ≠ none ∨ env.denyTrack c then .error .track
  else .ok { s with
    tracks := fun d => if d = c then some i else s.tracks d
    trackOf := fun x => if x = o then some c else s.trackOf x }

/-- `T::RankedCollective::induct(who)`: refused for members; new members have rank 0. Outside /repo; used at
pallets/communities-manager/src/lib.rs 186. -/
def induct (env : MEnv) (s : MSt) (who : AccountId) : Except MErr MSt :=
  if s.seats who ≠ none ∨ env.denySeat who then .error .collective
  else .ok { s with seats := fun a => if a = who then some 0 else s.seats a }

/-- `register`: pallets/communities-manager/src/lib.rs 137-190. -/
def mregister (cfg : MConfig) (env : MEnv) (s : MSt) (o : Origin) (c : CId) (name : List UInt8) (firstAdmin : Address)
    (method : Option Method) (track : Option TrackInfo) : Except MErr MSt :=
  match cfg.registerOrigin o with
  | none => .error .badOrigin
  | some deposit =>
    if validUtf8 name = false then .error .invalidCommunityName
    else match lookup firstAdmin with
      | none => .error .lookup
      | some adminAccount => do
        let admin : Origin := .signed adminAccount
        let s ← liftComm s (register env.base s.comm admin c deposit)
        let s ← applyMethod cfg env s admin c method
        let account := communityAccount c
        let s ← createCollection env s c account account
        let info ← chooseTrack name track
        let s ← insertTrack env s c info (communityOrigin c)
        let s ← induct env s account
        .ok { s with events := .communityRegistered c :: s.events }

/-- `T::CreateMemberships::mint_into`: refused without the collection or when the item exists. Outside /repo; used at
pallets/communities-manager/src/lib.rs 206-212. -/
def mintInto (env : MEnv) (s : MSt) (c : CId) (m : MId) (owner : AccountId) : Except MErr MSt :=
  if s.collections c = none ∨ (s.comm.world.items.any fun i => decide (i.group = c ∧ i.id = m)) = true ∨ env.denyMint c m
  then .error .mint
  else .ok { s with comm := { s.comm with world := { s.comm.world with
    items := ⟨c, m, owner, 0⟩ :: s.comm.world.items } } }

/-- `T::CreateMemberships::set_price`. Outside /repo; used at pallets/communities-manager/src/lib.rs 214-220. -/
def setPrice (env : MEnv) (s : MSt) (c : CId) (m : MId) (price : Nat) : Except MErr MSt :=
  if env.denyPrice c m then .error .price
  else .ok { s with prices := fun d n => if d = c ∧ n = m then some price else s.prices d n }

/-- `Incrementable::increment` of u32: `checked_add(1)`. Outside /repo; used at pallets/communities-manager/src/lib.rs
221-226. -/
def increment (m : MId) : Option MId := if m.toNat + 1 < 2 ^ 32 then some (m + 1) else none

/-- The loop of `create_memberships`: pallets/communities-manager/src/lib.rs 194-226. The first argument is the number of rounds left; the result
carries the number reported as minted. -/
def mintLoop (cfg : MConfig) (env : MEnv) (price : Nat) : Nat → MSt → MId → Nat → Except MErr (MSt × Nat)
  | 0, s, _, minted => .ok (s, minted)
  | n + 1, s, id, minted => do
    let s ← mintInto env s cfg.managerCollection id cfg.managerOwner
    let s ← setPrice env s cfg.managerCollection id price
    match increment id with
    | some next => mintLoop cfg env price n s next (minted + 1)
    | none => .ok (s, minted)

/-- `create_memberships`: pallets/communities-manager/src/lib.rs 194-234. -/
def createMemberships (cfg : MConfig) (env : MEnv) (s : MSt) (o : Origin) (amount : UInt16) (startingAt : MId)
    (price : Nat) : Except MErr MSt :=
  if ¬ amount ≤ 1024 then .error .tooManyMemberships
  else if cfg.membershipsOrigin o = false then .error .badOrigin
  else do
    let r ← mintLoop cfg env price amount.toNat s startingAt 0
    .ok { r.1 with events := .membershipsCreated startingAt r.2 :: r.1.events }

/-- The manager's calls. pallets/communities-manager/src/lib.rs 137-234. -/
inductive MCall
  | register (c : CId) (name : List UInt8) (firstAdmin : Address) (method : Option Method) (track : Option TrackInfo)
  | createMemberships (amount : UInt16) (startingAt : MId) (price : Nat)

/-- Dispatch of a call of this pallet. pallets/communities-manager/src/lib.rs 137-234. -/
def mdispatch (cfg : MConfig) (env : MEnv) (s : MSt) (o : Origin) : MCall → Except MErr MSt
  | .register c name a m t => mregister cfg env s o c name a m t
  | .createMemberships n m p => createMemberships cfg env s o n m p

/-- FRAME's transactional dispatch: an error undoes everything. Outside /repo; used at
pallets/communities-manager/src/lib.rs 130-234. -/
def transact (s : MSt) (r : Except MErr MSt) : MSt :=
  match r with
  | .ok s' => s'
  | .error _ => s

/-- `UNITS`: runtime/kreivo/src/constants.rs. -/
def units : Nat := 1000000000000

/-- `impl pallet_communities_manager::Config for Runtime`: runtime/kreivo/src/communities/mod.rs 42-43, 55-56, 89-102.
`RegisterOrigin`: root for free, any signer against half a unit to the treasury. `CreateMembershipsOrigin`: root or the
`CreateMemberships` origin. -/
def kreivoManager : MConfig where
  base := kreivo
  registerOrigin := fun o => match o with
    | .root => some none
    | .signed a => some (some (units / 2, a, treasuryAccount))
    | _ => none
  membershipsOrigin := fun o => decide (o = .root ∨ o = .custom .createMemberships)
  managerCollection := 0
  managerOwner := treasuryAccount

end Verif.Governance
