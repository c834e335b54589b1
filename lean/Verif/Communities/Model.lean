import Verif.Base.AMap
import Verif.Base.PerThing
import Verif.Accounts.Model

/-!
# The communities pallet (pallets/communities/src)

Storage, origin checks and every dispatchable, function by function. Community ids are u16, membership ids u32 (common/src/lib.rs),
accounts are bytes and origins are those of `Verif.Accounts`, as on Kreivo. What the pallet reaches through its
configuration is in `World` (memberships, balances, referenda) and changes through the operations of `Env`, whose
assumed behaviour is stated where it is used.
-/

namespace Verif.Communities

open Verif Verif.Accounts

/-- `CommunityId`: common/src/lib.rs. -/
abbrev CId := UInt16
/-- `MembershipId`: common/src/lib.rs. -/
abbrev MId := UInt32
/-- `PalletsOriginOf<T>`, the caller of a runtime origin. pallets/communities/src/types.rs 21-22. -/
abbrev Origin := RtOrigin
/-- `PollIndexOf<T>` (u32 in the code, unbounded here). pallets/communities/src/types.rs 19. -/
abbrev PollIx := Nat
/-- `AssetIdOf<T>`, opaque. pallets/communities/src/types.rs 12. -/
abbrev AssetKey := Nat

/-- Largest `VoteWeight` (u32): pallets/communities/src/types.rs 67. -/
def WMAX : Nat := 2 ^ 32 - 1

/-- `CommunityState`: pallets/communities/src/types.rs 46-54. -/
inductive CState
  | active
  | blocked
  deriving DecidableEq, Repr

/-- `DecisionMethod`: pallets/communities/src/types.rs 58-64. -/
inductive Method
  | membership
  | native
  | asset (a : AssetKey) (min : Nat)
  | rank
  deriving DecidableEq, Repr

/-- `Vote`: pallets/communities/src/types.rs 71-75. -/
inductive Vote
  | asset (say : Bool) (a : AssetKey) (amount : Nat)
  | native (say : Bool) (amount : Nat)
  | standard (say : Bool)
  deriving DecidableEq, Repr

/-- `Vote::say`: pallets/communities/src/types.rs 82-88. -/
def Vote.say : Vote → Bool
  | .asset b _ _ => b
  | .native b _ => b
  | .standard b => b

/-- `Vote::weight`: pallets/communities/src/types.rs 90-96 (`saturated_into::<u32>`). -/
def Vote.weight : Vote → Nat
  | .asset _ _ n => min n WMAX
  | .native _ n => min n WMAX
  | .standard _ => 1

/-- `Tally`: pallets/communities/src/types.rs 112-128. -/
structure Tally where
  ayes : Nat
  nays : Nat
  bareAyes : Nat
  deriving DecidableEq, Repr

/-- `Tally::default`: pallets/communities/src/types.rs 119-128. -/
def Tally.zero : Tally := ⟨0, 0, 0⟩

/-- `u32::saturating_add`. Outside /repo; used at pallets/communities/src/functions.rs 216-223. -/
def satAdd32 (a b : Nat) : Nat := min (a + b) WMAX

/-- `Tally::add_vote`: functions.rs 216-223. -/
def Tally.addVote (t : Tally) (say : Bool) (multiplied weight : Nat) : Tally :=
  if say then { t with ayes := satAdd32 t.ayes multiplied, bareAyes := satAdd32 t.bareAyes weight }
  else { t with nays := satAdd32 t.nays multiplied }

/-- `Tally::remove_vote`: functions.rs 225-232 (`saturating_sub` is the truncated subtraction of `Nat`). -/
def Tally.removeVote (t : Tally) (say : Bool) (multiplied weight : Nat) : Tally :=
  if say then { t with ayes := t.ayes - multiplied, bareAyes := t.bareAyes - weight }
  else { t with nays := t.nays - multiplied }

/-- A membership: item `id` of collection `group`, with its owner and rank attribute. Outside /repo; used at
pallets/communities/src/lib.rs 180-252 (T::MemberMgmt; pallet_nfts items). -/
structure Item where
  group : CId
  id : MId
  owner : AccountId
  rank : UInt8
  deriving DecidableEq

/-- What `T::Polls` (pallet_referenda, outside `/repo`) knows about an index. -/
inductive Poll
  | ongoing (tally : Tally) (cls : CId)
  | ended
  deriving DecidableEq

/-- Who may do what with an asset of pallet_assets, and whether it alone keeps an account alive. Outside /repo; used at
runtime/kreivo/src/configuration/monetary_stuff.rs 75-99 (pallet_assets). -/
structure Team where
  owner : AccountId
  issuer : AccountId
  admin : AccountId
  freezer : AccountId
  sufficient : Bool
  deriving DecidableEq

/-- The state of the pallets this one is configured with: memberships (`T::MemberMgmt`), native and asset balances
and issuance (`T::Balances`, `T::Assets`), existing assets with their minimum balance and their team, and referenda
(`T::Polls`). Outside /repo; used at pallets/communities/src/lib.rs 180-252. -/
structure World where
  items : List Item
  native : AccountId → Nat
  asset : AssetKey → AccountId → Nat
  nativeIssuance : Nat
  assetIssuance : AssetKey → Nat
  assetMin : AssetKey → Option Nat
  team : AssetKey → Team
  polls : PollIx → Option Poll

/-- `Event`: pallets/communities/src/lib.rs 300-334. -/
inductive Event
  | communityCreated (id : CId) (origin : Origin)
  | adminOriginSet (id : CId) (origin : Origin)
  | decisionMethodSet (id : CId)
  | memberAdded (who : AccountId) (m : MId)
  | memberRemoved (who : AccountId) (m : MId)
  | rankUpdated (m : MId) (rank : UInt8)
  | voteCasted (who : AccountId) (p : PollIx) (v : Vote)
  | voteRemoved (who : AccountId) (p : PollIx)
  deriving DecidableEq

/-- Storage of the pallet: pallets/communities/src/lib.rs 265-294, the amounts frozen for `FreezeReason::VoteCasted` (pallets/communities/src/lib.rs 260-263), the
provider references it adds (functions.rs 73), its events, and the other pallets. `CommunityVotes` of a poll and
`CommunityVoteLocks` of an account are kept as lists of entries since the latter is iterated over. -/
structure St where
  info : CId → Option CState
  adminOf : Origin → Option CId
  method : CId → Method
  votes : PollIx → List (MId × (Vote × AccountId))
  locks : AccountId → List (PollIx × Vote)
  frozenN : AccountId → Nat
  frozenA : AssetKey → AccountId → Nat
  providers : AccountId → Nat
  events : List Event
  world : World

/-- The pallet's errors (pallets/communities/src/lib.rs 338-368) and those it passes on. -/
inductive Err
  | badOrigin
  | lookup
  | communityAlreadyExists
  | communityAtCapacity
  | notAMember
  | alreadyOngoing
  | notOngoing
  | invalidTrack
  | invalidVoteType
  | noVoteCasted
  | noLocksInPlace
  | alreadyAdmin
  | voteBelowMinimum
  | transferFailed
  | membershipFailed
  | fundsUnavailable
  | foreign
  deriving DecidableEq

/-- The parts of `Config` (pallets/communities/src/lib.rs 160-252) the logic depends on: who may call `create` and what they pay, and which
signed accounts count as communities for `AdminOrigin` and `MemberMgmtOrigin`. -/
structure Config where
  createOrigin : Origin → Option (Option (Nat × AccountId × AccountId))
  accountCommunity : AccountId → Option CId

/-- Operations of the other pallets. `assign` and `release` are those of `membership::Manager`; the `deny` oracles
may refuse an operation for reasons that are not modelled; `foreign` is a call of another pallet. Outside /repo; used at
pallets/communities/src/lib.rs 180-252. -/
structure Env where
  assign : List Item → CId → MId → AccountId → Option (List Item)
  release : List Item → CId → MId → Option (List Item)
  denyTransfer : AccountId → AccountId → Nat → Bool
  denyFreezeN : St → AccountId → Nat → Bool
  denyFreezeA : St → AssetKey → AccountId → Nat → Bool
  denyCreateAsset : AssetKey → Nat → Bool
  denyRank : CId → MId → Bool
  foreign : Nat → Origin → World → Option World

/-! ## Memberships (`fc_traits_memberships` over pallet_nfts, outside `/repo`) -/

/-- `Inspect::user_memberships`. Outside /repo; used at pallets/communities/src/lib.rs 425-427 and
pallets/communities/src/functions.rs 38-42. -/
def userMemberships (items : List Item) (who : AccountId) (g : Option CId) : List (CId × MId) :=
  (items.filter fun i => decide (i.owner = who ∧ (g = none ∨ g = some i.group))).map fun i => (i.group, i.id)

/-- `Inspect::is_member_of`. Outside /repo; used at pallets/communities/src/lib.rs 450 and
pallets/communities/src/functions.rs 30. -/
def isMemberOf (items : List Item) (c : CId) (who : AccountId) : Bool :=
  items.any fun i => decide (i.group = c ∧ i.owner = who)

/-- `Inspect::check_membership`: the group in which the account holds this membership id. Outside /repo; used at
pallets/communities/src/lib.rs 518. -/
def checkMembership (items : List Item) (who : AccountId) (m : MId) : Option CId :=
  (items.find? fun i => decide (i.owner = who ∧ i.id = m)).map (·.group)

/-- `Rank::rank_of`. Outside /repo; used at pallets/communities/src/functions.rs 34 and 91-93. -/
def rankOf (items : List Item) (c : CId) (m : MId) : Option UInt8 :=
  (items.find? fun i => decide (i.group = c ∧ i.id = m)).map (·.rank)

/-- `Rank::set_rank`. Outside /repo; used at pallets/communities/src/lib.rs 460-482. -/
def setRank (items : List Item) (c : CId) (m : MId) (r : UInt8) : List Item :=
  items.map fun i => if i.group = c ∧ i.id = m then { i with rank := r } else i

/-- `Inspect::members_total`. Outside /repo; used at pallets/communities/src/types.rs 131-140. -/
def membersTotal (items : List Item) (c : CId) : Nat := (items.filter fun i => decide (i.group = c)).length

/-- `Rank::ranks_total`. Outside /repo; used at pallets/communities/src/types.rs 131-140. -/
def ranksTotal (items : List Item) (c : CId) : Nat :=
  ((items.filter fun i => decide (i.group = c)).map fun i => i.rank.toNat).sum

/-- `GenericRank::promote_by(1)`. Outside /repo; used at pallets/communities/src/lib.rs 460-470. -/
def promoteRank (r : UInt8) : UInt8 := if r = 255 then 255 else r + 1
/-- `GenericRank::demote_by(1)`. Outside /repo; used at pallets/communities/src/lib.rs 474-482. -/
def demoteRank (r : UInt8) : UInt8 := if r = 0 then 0 else r - 1

/-! ## Origins -/

/-- `EnsureCommunity::try_origin`: origin.rs 25-40. -/
def ensureCommunity (s : St) (o : Origin) : Option CId :=
  match o with
  | .root => none
  | .none => none
  | _ =>
    let id := match o with
      | .community c => some c.community
      | _ => s.adminOf o
    match id with
    | none => none
    | some c => if s.info c = some .active then some c else none

/-- `AdminOrigin` and `MemberMgmtOrigin`: `EnsureCommunity` and then, on Kreivo, `EnsureCommunityAccount`
(runtime/kreivo/src/communities/mod.rs 47-53, 63-64). -/
def authority (cfg : Config) (s : St) (o : Origin) : Option CId :=
  (ensureCommunity s o).or (match o with | .signed a => cfg.accountCommunity a | _ => none)

/-- `EnsureMember::try_origin`: origin.rs 71-87. -/
def ensureMember (s : St) (o : Origin) (c : CId) : Bool :=
  match o with
  | .signed who => isMemberOf s.world.items c who
  | _ => false

/-- `ensure_signed`. Outside /repo; used at pallets/communities/src/lib.rs 510-558. -/
def ensureSigned : Origin → Option AccountId
  | .signed a => some a
  | _ => none

/-! ## Helpers of the pallet -/

/-- `deposit_event`; the newest event first. pallets/communities/src/lib.rs 300-334. -/
def emit (s : St) (e : Event) : St := { s with events := e :: s.events }

/-- `T::Balances::transfer(from, to, amount, Preserve)`. Outside /repo; used at pallets/communities/src/functions.rs
62-69. -/
def transferNative (env : Env) (s : St) (src dst : AccountId) (n : Nat) : Except Err St :=
  if s.world.native src < n ∨ env.denyTransfer src dst n then .error .transferFailed
  else
    let bal1 := fun a => if a = src then s.world.native a - n else s.world.native a
    let bal2 := fun a => if a = dst then bal1 a + n else bal1 a
    .ok { s with world := { s.world with native := bal2 } }

/-- The deposit of a registration: functions.rs 62-69. -/
def payDeposit (env : Env) (s : St) : Option (Nat × AccountId × AccountId) → Except Err St
  | some (n, src, dst) => transferNative env s src dst n
  | none => .ok s

/-- `Pallet::register`: functions.rs 51-76. -/
def register (env : Env) (s : St) (admin : Origin) (c : CId) (deposit : Option (Nat × AccountId × AccountId)) :
    Except Err St :=
  if s.info c ≠ none then .error .communityAlreadyExists
  else if s.adminOf admin ≠ none then .error .alreadyAdmin
  else do
    let s ← payDeposit env s deposit
    .ok { s with
      adminOf := fun o => if o = admin then some c else s.adminOf o
      info := fun d => if d = c then some .active else s.info d
      providers := fun a => if a = communityAccount c then s.providers a + 1 else s.providers a }

/-- `force_state`: functions.rs 44-46. -/
def forceState (s : St) (c : CId) (st : CState) : St :=
  { s with info := fun d => if d = c then (s.info d).map fun _ => st else s.info d }

/-- `LockUpdateType`: pallets/communities/src/types.rs 144-147. -/
inductive LockUpdate
  | add
  | remove
  deriving DecidableEq

/-- `set_frozen(.., Polite)` of the native currency: refused above the account's balance. Outside /repo; used at
pallets/communities/src/functions.rs 165-166 and 190-195. -/
def setFrozenN (env : Env) (s : St) (who : AccountId) (n : Nat) : Except Err St :=
  if s.world.native who < n ∨ env.denyFreezeN s who n then .error .fundsUnavailable
  else .ok { s with frozenN := fun a => if a = who then n else s.frozenN a }

/-- `set_frozen(asset, .., Polite)`. Outside /repo; used at pallets/communities/src/functions.rs 161-162 and 179. -/
def setFrozenA (env : Env) (s : St) (k : AssetKey) (who : AccountId) (n : Nat) : Except Err St :=
  if s.world.asset k who < n ∨ env.denyFreezeA s k who n then .error .fundsUnavailable
  else .ok { s with frozenA := fun k' a => if k' = k ∧ a = who then n else s.frozenA k' a }

/-- The amount a lock freezes in the native currency: functions.rs 184-188. -/
def lockN : Vote → Nat
  | .native _ n => n
  | _ => 0

/-- The amount a lock freezes in an asset: functions.rs 171-177. -/
def lockA (k : AssetKey) : Vote → Nat
  | .asset _ a n => if a = k then n else 0
  | _ => 0

/-- Largest native lock: functions.rs 182-188. -/
def maxLockN (l : List (PollIx × Vote)) : Nat := l.foldr (fun e m => max m (lockN e.2)) 0
/-- Largest lock in an asset: functions.rs 169-177. -/
def maxLockA (k : AssetKey) (l : List (PollIx × Vote)) : Nat := l.foldr (fun e m => max m (lockA k e.2)) 0

/-- `update_locks`: functions.rs 141-201. -/
def updateLocks (env : Env) (s : St) (who : AccountId) (p : PollIx) (v : Vote) (u : LockUpdate) : Except Err St :=
  let s := match v with
    | .standard _ => s
    | _ => match u with
      | .add => { s with locks := fun a => if a = who then aset (s.locks a) p v else s.locks a }
      | .remove => { s with locks := fun a => if a = who then adel (s.locks a) p else s.locks a }
  match u, v with
  | .add, .asset _ k n => setFrozenA env s k who (max (s.frozenA k who) n)
  | .add, .native _ n => setFrozenN env s who (max (s.frozenN who) n)
  | .remove, .asset _ k _ => setFrozenA env s k who (maxLockA k (s.locks who))
  | .remove, .native _ _ => setFrozenN env s who (maxLockN (s.locks who))
  | _, .standard _ => .ok s

/-- The multiplier of a vote: functions.rs 90-95 and 126-131. -/
def multiplier (s : St) (dm : Method) (c : CId) (m : MId) : Nat :=
  match dm with
  | .rank => match rankOf s.world.items c m with | some r => r.toNat | none => 0
  | _ => 1

/-- `vote_multiplier * vote_weight`: functions.rs 108 and 134, a u32 product that wraps in release builds. -/
def mul32 (a b : Nat) : Nat := (a * b) % 2 ^ 32

/-- Whether the vote suits the decision method: functions.rs 97-105. -/
def checkVote (v : Vote) (dm : Method) : Except Err Bool :=
  match v, dm with
  | .asset say a n, .asset a' min =>
    if a = a' then (if n < min then .error .voteBelowMinimum else .ok say) else .error .invalidVoteType
  | .native say _, .native => .ok say
  | .standard say, .membership => .ok say
  | .standard say, .rank => .ok say
  | _, _ => .error .invalidVoteType

/-- Write the tally of an ongoing poll. Outside /repo; used at pallets/communities/src/functions.rs 78-139. -/
def setPoll (s : St) (p : PollIx) (q : Poll) : St :=
  { s with world := { s.world with polls := fun i => if i = p then some q else s.world.polls i } }

/-- `try_vote`: functions.rs 78-113. -/
def tryVote (env : Env) (s : St) (c : CId) (dm : Method) (who : AccountId) (m : MId) (p : PollIx) (v : Vote) :
    Except Err St :=
  match s.world.polls p with
  | some (.ongoing t cls) =>
    if c ≠ cls then .error .invalidTrack
    else do
      let mult := multiplier s (s.method c) c m
      let say ← checkVote v dm
      let s := setPoll s p (.ongoing (t.addVote say (mul32 mult v.weight) v.weight) cls)
      let s := { s with votes := fun i => if i = p then aset (s.votes i) m (v, who) else s.votes i }
      updateLocks env s who p v .add
  | _ => .error .notOngoing

/-- `try_remove_vote`: functions.rs 115-139. -/
def tryRemoveVote (env : Env) (s : St) (c : CId) (dm : Method) (m : MId) (p : PollIx) : Except Err St :=
  match s.world.polls p with
  | some (.ongoing t cls) =>
    if c ≠ cls then .error .invalidTrack
    else match aget (s.votes p) m with
      | none => .error .noVoteCasted
      | some (v, voter) =>
        let mult := multiplier s dm c m
        let s := setPoll s p (.ongoing (t.removeVote v.say (mul32 mult v.weight) v.weight) cls)
        let s := { s with votes := fun i => if i = p then adel (s.votes i) m else s.votes i }
        updateLocks env s voter p v .remove
  | _ => .error .notOngoing

/-! ## Dispatchables -/

/-- `create`: pallets/communities/src/lib.rs 378-392. -/
def create (cfg : Config) (env : Env) (s : St) (o admin : Origin) (c : CId) : Except Err St :=
  match cfg.createOrigin o with
  | none => .error .badOrigin
  | some deposit => do
    let s ← register env s admin c deposit
    .ok (emit s (.communityCreated c admin))

/-- `set_admin_origin`: pallets/communities/src/lib.rs 396-412. -/
def setAdminOrigin (cfg : Config) (s : St) (o admin : Origin) : Except Err St :=
  match authority cfg s o with
  | none => .error .badOrigin
  | some c =>
    if s.adminOf o ≠ some c then .error .badOrigin
    else
      let removed := fun x => if x = o then none else s.adminOf x
      .ok (emit { s with adminOf := fun x => if x = admin then some c else removed x } (.adminOriginSet c admin))

/-- `add_member`: pallets/communities/src/lib.rs 419-433. -/
def addMember (cfg : Config) (env : Env) (s : St) (o : Origin) (a : Address) : Except Err St :=
  match authority cfg s o with
  | none => .error .badOrigin
  | some c =>
    match lookup a with
    | none => .error .lookup
    | some who =>
      match (userMemberships s.world.items (communityAccount c) none).head? with
      | none => .error .communityAtCapacity
      | some (_, m) =>
        match env.assign s.world.items c m who with
        | none => .error .membershipFailed
        | some items => .ok (emit { s with world := { s.world with items := items } } (.memberAdded who m))

/-- `remove_member`: pallets/communities/src/lib.rs 442-456. -/
def removeMember (cfg : Config) (env : Env) (s : St) (o : Origin) (a : Address) (m : MId) : Except Err St :=
  match authority cfg s o with
  | none => .error .badOrigin
  | some c =>
    match lookup a with
    | none => .error .lookup
    | some who =>
      if !isMemberOf s.world.items c who then .error .notAMember
      else
        match env.release s.world.items c m with
        | none => .error .membershipFailed
        | some items => .ok (emit { s with world := { s.world with items := items } } (.memberRemoved who m))

/-- `promote`: pallets/communities/src/lib.rs 460-470. -/
def promote (cfg : Config) (env : Env) (s : St) (o : Origin) (m : MId) : Except Err St :=
  match authority cfg s o with
  | none => .error .badOrigin
  | some c =>
    match rankOf s.world.items c m with
    | none => .error .notAMember
    | some r =>
      if env.denyRank c m then .error .membershipFailed
      else
        let rank := promoteRank r
        .ok (emit { s with world := { s.world with items := setRank s.world.items c m rank } } (.rankUpdated m rank))

/-- `demote`: pallets/communities/src/lib.rs 474-482. The event carries the rank read before the change. -/
def demote (cfg : Config) (env : Env) (s : St) (o : Origin) (m : MId) : Except Err St :=
  match authority cfg s o with
  | none => .error .badOrigin
  | some c =>
    match rankOf s.world.items c m with
    | none => .error .notAMember
    | some rank =>
      if env.denyRank c m then .error .membershipFailed
      else
        .ok (emit { s with world := { s.world with items := setRank s.world.items c m (demoteRank rank) } }
          (.rankUpdated m rank))

/-- `T::PalletId::get().into_account_truncating()`: pallets/communities/src/lib.rs 498. -/
def palletAccountOfCommunities : AccountId := palletAccount communityPalletId []

/-- The best-effort `create` of the community asset: pallets/communities/src/lib.rs 494-502; `do_force_create` of pallet_assets gives all roles to
the owner. -/
def createAsset (env : Env) (s : St) (dm : Method) : St :=
  match dm with
  | .asset k min =>
    if s.world.assetMin k ≠ none ∨ min = 0 ∨ env.denyCreateAsset k min then s
    else
      let a := palletAccountOfCommunities
      { s with world := { s.world with
        assetMin := fun k' => if k' = k then some min else s.world.assetMin k'
        team := fun k' => if k' = k then ⟨a, a, a, a, false⟩ else s.world.team k' } }
  | _ => s

/-- `set_decision_method`: pallets/communities/src/lib.rs 488-506. -/
def setDecisionMethod (cfg : Config) (env : Env) (s : St) (o : Origin) (c : CId) (dm : Method) : Except Err St :=
  match authority cfg s o with
  | none => .error .badOrigin
  | some _ =>
    let s := createAsset env s dm
    .ok (emit { s with method := fun d => if d = c then dm else s.method d } (.decisionMethodSet c))

/-- The earlier vote of the membership is taken back first: pallets/communities/src/lib.rs 520-522. -/
def dropVote (env : Env) (s : St) (c : CId) (dm : Method) (m : MId) (p : PollIx) : Except Err St :=
  if (aget (s.votes p) m).isSome then tryRemoveVote env s c dm m p else .ok s

/-- `vote`: pallets/communities/src/lib.rs 510-530. -/
def vote (env : Env) (s : St) (o : Origin) (m : MId) (p : PollIx) (v : Vote) : Except Err St :=
  if v.weight = 0 then .error .voteBelowMinimum
  else match ensureSigned o with
    | none => .error .badOrigin
    | some who =>
      match checkMembership s.world.items who m with
      | none => .error .notAMember
      | some c => do
        let dm := s.method c
        let s ← dropVote env s c dm m p
        let s ← tryVote env s c dm who m p v
        .ok (emit s (.voteCasted who p v))

/-- `remove_vote`: pallets/communities/src/lib.rs 534-548. -/
def removeVote (env : Env) (s : St) (o : Origin) (m : MId) (p : PollIx) : Except Err St :=
  match ensureSigned o with
  | none => .error .badOrigin
  | some who =>
    match checkMembership s.world.items who m with
    | none => .error .notAMember
    | some c => do
      let s ← tryRemoveVote env s c (s.method c) m p
      .ok (emit s (.voteRemoved who p))

/-- `T::Polls::as_ongoing(p).is_some()`. Outside /repo; used at pallets/communities/src/lib.rs 555. -/
def isOngoing (s : St) (p : PollIx) : Bool :=
  match s.world.polls p with
  | some (.ongoing _ _) => true
  | _ => false

/-- `unlock`: pallets/communities/src/lib.rs 553-558. -/
def unlock (env : Env) (s : St) (o : Origin) (p : PollIx) : Except Err St :=
  match ensureSigned o with
  | none => .error .badOrigin
  | some who =>
    if isOngoing s p then .error .alreadyOngoing
    else match aget (s.locks who) p with
      | none => .error .noLocksInPlace
      | some v => updateLocks env s who p v .remove

/-- The pallet's calls, nested calls of `dispatch_as_account`, and calls of other pallets. pallets/communities/src/lib.rs
378-572. -/
inductive Call
  | create (admin : Origin) (c : CId)
  | setAdminOrigin (admin : Origin)
  | addMember (who : Address)
  | removeMember (who : Address) (m : MId)
  | promote (m : MId)
  | demote (m : MId)
  | setDecisionMethod (c : CId) (dm : Method)
  | vote (m : MId) (p : PollIx) (v : Vote)
  | removeVote (m : MId) (p : PollIx)
  | unlock (p : PollIx)
  | dispatchAsAccount (call : Call)
  | foreign (n : Nat)

/-- Dispatch of a call. A failing call leaves no trace (calls are transactional), so errors carry no state.
`dispatch_as_account` is pallets/communities/src/lib.rs 569-572 with functions.rs 203-212. -/
def dispatch (cfg : Config) (env : Env) (s : St) (o : Origin) : Call → Except Err St
  | .create admin c => create cfg env s o admin c
  | .setAdminOrigin admin => setAdminOrigin cfg s o admin
  | .addMember a => addMember cfg env s o a
  | .removeMember a m => removeMember cfg env s o a m
  | .promote m => promote cfg env s o m
  | .demote m => demote cfg env s o m
  | .setDecisionMethod c dm => setDecisionMethod cfg env s o c dm
  | .vote m p v => vote env s o m p v
  | .removeVote m p => removeVote env s o m p
  | .unlock p => unlock env s o p
  | .dispatchAsAccount call =>
    match authority cfg s o with
    | none => .error .badOrigin
    | some c => dispatch cfg env s (.signed (communityAccount c)) call
  | .foreign n =>
    match env.foreign n o s.world with
    | none => .error .foreign
    | some w => .ok { s with world := w }

/-! ## Tallies as fractions (pallets/communities/src/impls.rs) -/

/-- `max_support`: pallets/communities/src/types.rs 131-140. -/
def maxSupport (s : St) (c : CId) : Nat :=
  match s.method c with
  | .membership => membersTotal s.world.items c
  | .rank => ranksTotal s.world.items c
  | .native => min s.world.nativeIssuance WMAX
  | .asset k _ => min (s.world.assetIssuance k) WMAX

/-- `Perbill::ACCURACY`. Outside /repo; used at pallets/communities/src/impls.rs 18-24. -/
def perbill : Nat := 1000000000

/-- `VoteTally::support`: pallets/communities/src/impls.rs 18-20, in parts per billion. -/
def support (s : St) (t : Tally) (c : CId) : Nat := fromRational perbill t.bareAyes (maxSupport s c)

/-- `VoteTally::approval`: pallets/communities/src/impls.rs 22-24, in parts per billion; the u32 sum wraps in release builds. -/
def approval (t : Tally) : Nat := fromRational perbill t.ayes (max 1 ((t.ayes + t.nays) % 2 ^ 32))

/-! ## Configurations -/

/-- `impl pallet_communities::Config for Runtime`: runtime/kreivo/src/communities/mod.rs 58-87 (`CreateOrigin` is
`EnsureNever`; `EnsureCommunityAccount` accepts the accounts of lines 47-53). -/
def kreivo : Config where
  createOrigin := fun _ => none
  accountCommunity := accountToCommunityId

end Verif.Communities
