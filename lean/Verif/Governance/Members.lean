import Verif.Governance.ManagerLemmas

/-!
# Memberships as the non-fungible tokens they are

Memberships of Kreivo are items of pallet_nfts (runtime/kreivo/src/communities/memberships.rs, instance
`CommunityMemberships`), whose calls anybody may use: the base call filter lets everything pass and all features are enabled
(`BaseCallFilter` is left at its default; `NftsPalletFeatures` in runtime/kreivo/src/lib.rs). The collection of a community is created with the default configuration, so that its items
can be transferred, priced and bought, and the account of the community is its owner, issuer, admin and freezer
(pallets/communities-manager/src/lib.rs 164-176). pallet_nfts is outside `/repo`.

Simplifications: attributes and metadata are left out, and with them the deposits for them; issuer, admin and freezer are one
(they are the account of the community until somebody else is named); ownership of a collection changes without the new
owner's consent; the numbers of approvals and the lengths of offers are not limited; an item shown to mint another one may be
shown again; there is no maximal supply and root creates collections with the default configuration only; balances have no
minimum.
-/

namespace Verif.Governance

open Verif Verif.Accounts Verif.Communities

/-- Who may mint items of a collection (`MintType`). Outside /repo; used at
pallets/communities-manager/src/lib.rs 168-174 (pallet_nfts; the default is the issuer). -/
inductive MintType
  | issuer
  | everybody
  | holderOf (c : CId)
  deriving DecidableEq

/-- `MintSettings`; the default is that the issuer mints for nothing at any time. Outside /repo; used at
pallets/communities-manager/src/lib.rs 168-174 (pallet_nfts). -/
structure MintSettings where
  who : MintType := .issuer
  price : Option Nat := none
  start : Option Nat := none
  stop : Option Nat := none
  deriving DecidableEq

/-- An item offered for another one (`PendingSwap`); the price is paid by the one who takes the offer (true) or by the one
who made it. Outside /repo; used at runtime/kreivo/src/communities/memberships.rs 9-43 (pallet_nfts). -/
structure Offer where
  wantC : CId
  wantM : Option MId
  price : Option (Bool × Nat)
  deadline : Nat
  deriving DecidableEq

/-- What is signed for somebody else to mint (`PreSignedMint`). Outside /repo; used at
runtime/kreivo/src/communities/memberships.rs 9-43 (pallet_nfts). -/
structure PreSigned where
  c : CId
  m : MId
  only : Option AccountId
  deadline : Nat
  price : Option Nat

/-- Operations of other pallets, and which data an account has signed. `OffchainSignature` is the runtime's:
runtime/kreivo/src/communities/memberships.rs 37. -/
structure NEnv extends MEnv where
  signs : AccountId → PreSigned → Bool

/-- Storage, with the items whose transfer is locked, the collections whose items cannot be transferred, who may mint, the
accounts that may transfer an item for its holder (until a block, if one is given), for whom alone an item is for sale, the
offers to swap, and the number of the block. Outside /repo; used at runtime/kreivo/src/communities/memberships.rs 9-43
(pallet_nfts). -/
structure NSt where
  m : MSt
  locked : CId → MId → Bool
  frozen : CId → Bool
  minting : CId → MintSettings
  approved : CId → MId → AccountId → Option (Option Nat)
  onlyFor : CId → MId → Option AccountId
  offers : CId → MId → Option Offer
  now : Nat

/-- Calls of pallet_nfts. Outside /repo; used at runtime/kreivo/src/communities/memberships.rs 9-43 (pallet_nfts). -/
inductive NftCall
  | mint (c : CId) (m : MId) (dst : AccountId) (witness : Option MId)
  | forceMint (c : CId) (m : MId) (dst : AccountId) (lock : Bool)
  | mintPreSigned (d : PreSigned) (signer : AccountId)
  | burn (c : CId) (m : MId)
  | transfer (c : CId) (m : MId) (dst : AccountId)
  | lock (c : CId) (m : MId)
  | unlock (c : CId) (m : MId)
  | freeze (c : CId)
  | forceConfig (c : CId) (frozen : Bool) (minting : MintSettings)
  | setMinting (c : CId) (minting : MintSettings)
  | approve (c : CId) (m : MId) (x : AccountId) (length : Option Nat)
  | cancelApproval (c : CId) (m : MId) (x : AccountId)
  | clearApprovals (c : CId) (m : MId)
  | setPrice (c : CId) (m : MId) (p : Option Nat) (only : Option AccountId)
  | buy (c : CId) (m : MId) (bid : Nat)
  | offer (c : CId) (m : MId) (wantC : CId) (wantM : Option MId) (price : Option (Bool × Nat)) (length : Nat)
  | cancelOffer (c : CId) (m : MId)
  | take (c : CId) (m : MId) (forC : CId) (forM : MId) (price : Option (Bool × Nat))
  | setTeam (c : CId) (admin : AccountId)
  | transferOwnership (c : CId) (owner : AccountId)
  | create (c : CId) (admin : AccountId)
  | destroy (c : CId)

/-- Who holds an item. Outside /repo; used at runtime/kreivo/src/communities/memberships.rs 9-43 (pallet_nfts). -/
def holder (items : List Item) (c : CId) (m : MId) : Option AccountId :=
  (items.find? fun i => decide (i.group = c ∧ i.id = m)).map (·.owner)

/-- Give an item to somebody. Outside /repo; used at runtime/kreivo/src/communities/memberships.rs 9-43 (pallet_nfts). -/
def giveItem (items : List Item) (c : CId) (m : MId) (dst : AccountId) : List Item :=
  items.map fun i => if i.group = c ∧ i.id = m then { i with owner := dst } else i

/-- Write what another pallet left; price, approvals and offer stay as long as the holder stays. A lock stays until it is
taken away: burning an item keeps a configuration that is not the default one. Outside /repo; used at
runtime/kreivo/src/communities/memberships.rs 9-43 (pallet_nfts). -/
def NSt.settle (s : NSt) (m : MSt) : NSt :=
  let stays (c : CId) (k : MId) : Bool := decide (holder m.comm.world.items c k = holder s.m.comm.world.items c k)
  { s with
    m := { m with prices := fun c k => if stays c k then m.prices c k else none }
    approved := fun c k => if stays c k then s.approved c k else fun _ => none
    onlyFor := fun c k => if stays c k then s.onlyFor c k else none
    offers := fun c k => if stays c k then s.offers c k else none }

/-- Change the world only. Outside /repo; used at runtime/kreivo/src/communities/memberships.rs 9-43 (pallet_nfts). -/
def NSt.withWorld (s : NSt) (w : World) : NSt := { s with m := { s.m with comm := { s.m.comm with world := w } } }

/-- Change the items only. Outside /repo; used at runtime/kreivo/src/communities/memberships.rs 9-43 (pallet_nfts). -/
def NSt.withItems (s : NSt) (items : List Item) : NSt :=
  s.settle { s.m with comm := { s.m.comm with world := { s.m.comm.world with items := items } } }

/-- `do_transfer`, after its checks: price, approvals and offer of the item are removed. Outside /repo; used at
runtime/kreivo/src/communities/memberships.rs 9-43 (pallet_nfts). -/
def NSt.give (s : NSt) (c : CId) (m : MId) (dst : AccountId) : NSt :=
  { s with
    m := { s.m with
      comm := { s.m.comm with world := { s.m.comm.world with items := giveItem s.m.comm.world.items c m dst } }
      prices := fun d k => if d = c ∧ k = m then none else s.m.prices d k }
    approved := fun d k => if d = c ∧ k = m then fun _ => none else s.approved d k
    onlyFor := fun d k => if d = c ∧ k = m then none else s.onlyFor d k
    offers := fun d k => if d = c ∧ k = m then none else s.offers d k }

/-- `Currency::transfer`. Outside /repo; used at runtime/kreivo/src/communities/memberships.rs 15 (pallet_balances). -/
def payFrom (env : NEnv) (w : World) (x y : AccountId) (p : Nat) : Option World :=
  if x = y then some w
  else if w.native x < p ∨ env.base.denyTransfer x y p = true then none
  else some { w with native := fun z => if z = x then w.native x - p else if z = y then w.native y + p else w.native z }

/-- May an item be transferred at the hands of this origin: its holder, or who the holder approved, in time. Outside /repo;
used at runtime/kreivo/src/communities/memberships.rs 9-43 (pallet_nfts). -/
def NSt.mayMove (s : NSt) (c : CId) (m : MId) : Origin → Bool
  | .signed x => match holder s.m.comm.world.items c m with
    | some a => decide (x = a) || (s.approved c m x).any fun t => t.all fun d => decide (s.now ≤ d)
    | none => false
  | _ => false

/-- Can the item be transferred at all. Outside /repo; used at runtime/kreivo/src/communities/memberships.rs 9-43
(pallet_nfts). -/
def NSt.loose (s : NSt) (c : CId) (m : MId) : Bool := !s.locked c m && !s.frozen c

/-- Does an origin act for the holder: the holder, or root. Outside /repo; used at
runtime/kreivo/src/communities/memberships.rs 16 (pallet_nfts, `ForceOrigin`). -/
def NSt.holderOrRoot (s : NSt) (c : CId) (m : MId) : Origin → Bool
  | .root => (holder s.m.comm.world.items c m).isSome
  | .signed x => decide (holder s.m.comm.world.items c m = some x)
  | _ => false

/-- May an account mint, by the settings of the collection. Outside /repo; used at
runtime/kreivo/src/communities/memberships.rs 9-43 (pallet_nfts). -/
def NSt.mayMint (s : NSt) (c : CId) (col : Collection) (x : AccountId) (witness : Option MId) : Bool :=
  (s.minting c).start.all (fun t => decide (t ≤ s.now)) && (s.minting c).stop.all (fun t => decide (s.now ≤ t)) &&
  match (s.minting c).who with
  | .issuer => decide (x = col.admin)
  | .everybody => true
  | .holderOf d => witness.any fun k => decide (holder s.m.comm.world.items d k = some x)

/-- Is there such an item, or collection. Outside /repo; used at runtime/kreivo/src/communities/memberships.rs 9-43
(pallet_nfts). -/
def NSt.known (s : NSt) (c : CId) : Option MId → Bool
  | some k => (holder s.m.comm.world.items c k).isSome
  | none => (s.m.collections c).isSome

/-- Dispatch of a call of pallet_nfts; none is an error. `CreateOrigin` is root and creates for the treasury:
runtime/kreivo/src/communities/memberships.rs 17-18; `ForceOrigin` is root: line 16. -/
def nftCall (env : NEnv) (s : NSt) (o : Origin) : NftCall → Option NSt
  | .mint c m dst witness =>
    match o, s.m.collections c with
    | .signed x, some col =>
      if s.mayMint c col x witness = true ∧ holder s.m.comm.world.items c m = none ∧ s.locked c m = false then
        match (s.minting c).price with
        | none => some (s.withItems (⟨c, m, dst, 0⟩ :: s.m.comm.world.items))
        | some p => match payFrom env s.m.comm.world x col.owner p with
          | some w => some ((s.withWorld w).withItems (⟨c, m, dst, 0⟩ :: s.m.comm.world.items))
          | none => none
      else none
    | _, _ => none
  | .forceMint c m dst lock =>
    match s.m.collections c with
    | some col =>
      if (o = .root ∨ o = .signed col.admin) ∧ holder s.m.comm.world.items c m = none ∧
          (s.locked c m = true → lock = true) then
        some { s.withItems (⟨c, m, dst, 0⟩ :: s.m.comm.world.items) with
          locked := fun d k => if d = c ∧ k = m then lock else s.locked d k }
      else none
    | none => none
  | .mintPreSigned d signer =>
    match o, s.m.collections d.c with
    | .signed x, some col =>
      if env.signs signer d = true ∧ signer = col.admin ∧ d.only.all (fun y => decide (y = x)) = true ∧ s.now ≤ d.deadline ∧
          holder s.m.comm.world.items d.c d.m = none ∧ s.locked d.c d.m = false then
        match d.price with
        | none => some (s.withItems (⟨d.c, d.m, x, 0⟩ :: s.m.comm.world.items))
        | some p => match payFrom env s.m.comm.world x col.owner p with
          | some w => some ((s.withWorld w).withItems (⟨d.c, d.m, x, 0⟩ :: s.m.comm.world.items))
          | none => none
      else none
    | _, _ => none
  | .burn c m =>
    if s.holderOrRoot c m o = true then
      some (s.withItems (s.m.comm.world.items.filter fun i => !decide (i.group = c ∧ i.id = m)))
    else none
  | .transfer c m dst =>
    if s.mayMove c m o = true ∧ s.loose c m = true then some (s.give c m dst) else none
  | .lock c m =>
    match o, s.m.collections c with
    | .signed a, some col =>
      if a = col.admin ∧ (holder s.m.comm.world.items c m ≠ none ∨ s.locked c m = true) then
        some { s with locked := fun d k => if d = c ∧ k = m then true else s.locked d k }
      else none
    | _, _ => none
  | .unlock c m =>
    match o, s.m.collections c with
    | .signed a, some col =>
      if a = col.admin ∧ (holder s.m.comm.world.items c m ≠ none ∨ s.locked c m = true) then
        some { s with locked := fun d k => if d = c ∧ k = m then false else s.locked d k }
      else none
    | _, _ => none
  | .freeze c =>
    match s.m.collections c with
    | some col => if o = .signed col.admin then some { s with frozen := fun d => if d = c then true else s.frozen d } else none
    | none => none
  | .forceConfig c frozen minting =>
    if o = .root ∧ s.m.collections c ≠ none then
      some { s with
        frozen := fun d => if d = c then frozen else s.frozen d
        minting := fun d => if d = c then minting else s.minting d }
    else none
  | .setMinting c minting =>
    match s.m.collections c with
    | some col =>
      if o = .root ∨ o = .signed col.admin then
        some { s with minting := fun d => if d = c then minting else s.minting d }
      else none
    | none => none
  | .approve c m x length =>
    if s.holderOrRoot c m o = true ∧ s.frozen c = false then
      some { s with approved := fun d k => if d = c ∧ k = m then
        fun y => if y = x then some (length.map (s.now + ·)) else s.approved d k y else s.approved d k }
    else none
  | .cancelApproval c m x =>
    match o, s.approved c m x with
    | .signed _, some t | .root, some t =>
      if s.holderOrRoot c m o = true ∨ (holder s.m.comm.world.items c m ≠ none ∧ ∃ d ∈ t, d < s.now) then
        some { s with approved := fun d k => if d = c ∧ k = m then
          fun y => if y = x then none else s.approved d k y else s.approved d k }
      else none
    | _, _ => none
  | .clearApprovals c m =>
    if s.holderOrRoot c m o = true then
      some { s with approved := fun d k => if d = c ∧ k = m then fun _ => none else s.approved d k }
    else none
  | .setPrice c m p only =>
    match o, holder s.m.comm.world.items c m with
    | .signed x, some a =>
      if x = a ∧ s.loose c m = true then
        some { s with
          m := { s.m with prices := fun d k => if d = c ∧ k = m then p else s.m.prices d k }
          onlyFor := fun d k => if d = c ∧ k = m then only else s.onlyFor d k }
      else none
    | _, _ => none
  | .buy c m bid =>
    match o, holder s.m.comm.world.items c m, s.m.prices c m with
    | .signed b, some a, some p =>
      if b ≠ a ∧ p ≤ bid ∧ (s.onlyFor c m).all (fun y => decide (y = b)) = true ∧ s.loose c m = true then
        match payFrom env s.m.comm.world b a p with
        | some w => some ((s.withWorld w).give c m b)
        | none => none
      else none
    | _, _, _ => none
  | .offer c m wantC wantM price length =>
    match o, holder s.m.comm.world.items c m with
    | .signed x, some a =>
      if x = a ∧ s.known wantC wantM = true then
        some { s with offers := fun d k => if d = c ∧ k = m then some ⟨wantC, wantM, price, s.now + length⟩
          else s.offers d k }
      else none
    | _, _ => none
  | .cancelOffer c m =>
    match o, s.offers c m with
    | .signed x, some w =>
      if w.deadline < s.now ∨ holder s.m.comm.world.items c m = some x then
        some { s with offers := fun d k => if d = c ∧ k = m then none else s.offers d k }
      else none
    | _, _ => none
  | .take c m forC forM price =>
    match o, holder s.m.comm.world.items forC forM, holder s.m.comm.world.items c m, s.offers c m with
    | .signed x, some a, some b, some w =>
      if x = a ∧ w.wantC = forC ∧ w.price = price ∧ w.wantM.all (fun k => decide (k = forM)) = true ∧ s.now ≤ w.deadline ∧
          s.loose forC forM = true ∧ s.loose c m = true then
        match (match price with
          | none => some s.m.comm.world
          | some (true, p) => payFrom env s.m.comm.world a b p
          | some (false, p) => payFrom env s.m.comm.world b a p) with
        | some w' => some (((s.withWorld w').give forC forM b).give c m a)
        | none => none
      else none
    | _, _, _, _ => none
  | .setTeam c admin =>
    match s.m.collections c with
    | some col =>
      if o = .root ∨ o = .signed col.owner then
        some { s with m := { s.m with collections := fun d => if d = c then some ⟨col.owner, admin⟩ else s.m.collections d } }
      else none
    | none => none
  | .transferOwnership c owner =>
    match s.m.collections c with
    | some col =>
      if o = .root ∨ o = .signed col.owner then
        some { s with m := { s.m with collections := fun d => if d = c then some ⟨owner, col.admin⟩ else s.m.collections d } }
      else none
    | none => none
  | .create c admin =>
    if o = .root ∧ s.m.collections c = none then
      some { s with m := { s.m with
        collections := fun d => if d = c then some ⟨treasuryAccount, admin⟩ else s.m.collections d } }
    else none
  | .destroy c =>
    match s.m.collections c with
    | some col =>
      if (o = .root ∨ o = .signed col.owner) ∧ (s.m.comm.world.items.any fun i => decide (i.group = c)) = false then
        some { s with
          m := { s.m with collections := fun d => if d = c then none else s.m.collections d }
          frozen := fun d => if d = c then false else s.frozen d
          minting := fun d => if d = c then {} else s.minting d }
      else none
    | none => none

/-- The calls of this machine. pallets/communities/src/lib.rs 378-572, pallets/communities-manager/src/lib.rs 137-234 and
pallet_nfts, configured at runtime/kreivo/src/communities/memberships.rs 9-43. -/
inductive NCall
  | comm (c : Call)
  | mgr (c : MCall)
  | nft (c : NftCall)
  | asAccount (c : NCall)

/-- Dispatch; `asAccount` is `dispatch_as_account` (pallets/communities/src/lib.rs 569-572) around any of these. -/
def ndispatch (env : NEnv) (s : NSt) (o : Origin) : NCall → Option NSt
  | .comm c => match dispatch kreivo env.base s.m.comm o c with
    | .ok c' => some (s.settle { s.m with comm := c' })
    | .error _ => none
  | .mgr c => match mdispatch kreivoManager env.toMEnv s.m o c with
    | .ok m' => some { s with m := m' }
    | .error _ => none
  | .nft c => nftCall env s o c
  | .asAccount c => match authority kreivo s.m.comm o with
    | none => none
    | some d => ndispatch env s (.signed (communityAccount d)) c

/-- An item has one holder. Specification only, no code behind it (outside /repo). -/
def OneHolder (items : List Item) : Prop :=
  ∀ i ∈ items, ∀ j ∈ items, i.group = j.group → i.id = j.id → i.owner = j.owner

/-- What is assumed of `membership::Manager` (outside `/repo`) and of other pallets' calls: assigning takes a membership out
of the manager's collection, where the account of the community holds it, and makes one with the same number in the
community's; releasing removes it there and returns one to the community's account; other memberships of communities stay as
they are, and no item gets a second holder. -/
structure GroupLaws (env : Env) : Prop where
  assign_new : ∀ {items c m who items'}, env.assign items c m who = some items' →
    ∀ i ∈ items', i.group ≠ 0 → i ∈ items ∨ (i.group = c ∧ i.id = m ∧ i.owner = who)
  assign_keeps : ∀ {items c m who items'}, env.assign items c m who = some items' →
    ∀ i ∈ items, i.group ≠ 0 → i ∈ items'
  assign_uses : ∀ {items c m who items'}, env.assign items c m who = some items' →
    (∃ i ∈ items, i.group = 0 ∧ i.id = m ∧ i.owner = communityAccount c) ∧
    ∀ i ∈ items', ¬ (i.group = 0 ∧ i.id = m ∧ i.owner = communityAccount c)
  assign_zero : ∀ {items c m who items'}, env.assign items c m who = some items' →
    ∀ i ∈ items', i.group = 0 → ∃ j ∈ items, j.group = 0 ∧ j.id = i.id
  release_new : ∀ {items c m items'}, env.release items c m = some items' →
    ∀ i ∈ items', i.group ≠ 0 → i ∈ items
  release_keeps : ∀ {items c m items'}, env.release items c m = some items' →
    ∀ i ∈ items, i.group ≠ 0 → ¬ (i.group = c ∧ i.id = m) → i ∈ items'
  assign_one : ∀ {items c m who items'}, env.assign items c m who = some items' → OneHolder items → OneHolder items'
  release_one : ∀ {items c m items'}, env.release items c m = some items' → OneHolder items → OneHolder items'
  foreign : ∀ {n o w w'}, env.foreign n o w = some w' → w'.items = w.items

/-- Whose account a call is really signed by, if it is wrapped in calls as the account of a community. Specification only,
no code behind it (outside /repo). -/
inductive Speaks (s : St) : Origin → Origin → Prop
  | self (o : Origin) : Speaks s o o
  | account {o o' : Origin} (c : CId) (h : authority kreivo s o = some c)
      (hs : Speaks s (.signed (communityAccount c)) o') : Speaks s o o'

/-- An account is a member of a community. Specification only, no code behind it (outside /repo). -/
def Member (s : NSt) (c : CId) (a : AccountId) : Prop := ∃ i ∈ s.m.comm.world.items, i.group = c ∧ i.owner = a

end Verif.Governance
