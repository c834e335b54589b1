import Verif.Base.AMap
import Verif.Xcm.Barrier
import Verif.Xcm.AssetId
import Verif.Xcm.Reserves

/-!
# What XCM messages do to assets on Kreivo (runtime/kreivo/src/xcm_config.rs)

The executor with the configuration of Kreivo: which accounts a message withdraws from and pays into, what it may claim to
have received, what becomes of what is left over. The executor itself, its asset transactors and traders are outside `/repo`
(xcm-executor, xcm-builder, cumulus, pallet-xcm); the configuration decides the accounts, the ids and the trusted reserves.

Simplifications: assets are fungible (no transactor of Kreivo handles others); every instruction may also fail for a reason
not modelled; calls dispatched by `Transact` leave the ledger alone here (their origins are C93); the effects of an
instruction are undone when it fails (`TransactionalProcessor`, xcm_config.rs 256, and the executor restoring its
holding). Sending is free (runtime/kreivo/src/lib.rs 378, xcm_config.rs 250, 279) and messages sent are not followed.
-/

namespace Verif.Xcm

open Verif Verif.Runtime Verif.Accounts

/-- Largest amount of an asset. Outside /repo; used at runtime/kreivo/src/xcm_config.rs 228-261 (xcm-executor). -/
def amountMax : Nat := 2 ^ 128 - 1

/-! ## Currencies and the ledger -/

/-- What Kreivo keeps balances of: its native token (`Balances`) and the assets of `Assets`.
runtime/kreivo/src/xcm_config.rs 78-107 and 169; the adapters are outside /repo. -/
inductive Cur
  | native
  | asset (id : AssetId)
  deriving DecidableEq

/-- An asset in a message: its location and an amount. Outside /repo; used at runtime/kreivo/src/xcm_config.rs 228-261
(xcm-executor). -/
abbrev XAsset := Location × Nat

/-- Outcome of matching an asset. runtime/kreivo/src/xcm_config.rs 78-107 and 169; the adapters are outside /repo. -/
inductive Matched
  | cur (c : Cur)
  | no
  | panic

/-- `AssetTransactors`: xcm_config.rs 78-107, 169: the relay chain's location is the native token, other locations are
converted by `AsFungibleAssetLocation`. -/
def matchAsset (l : Location) : Matched :=
  if l = ⟨1, []⟩ then .cur .native
  else
    match convert l with
    | .some id => .cur (.asset id)
    | .none => .no
    | .panic => .panic

/-- The location of a currency: xcm_config.rs 37 and `convert_back`. -/
def Cur.location : Cur → Location
  | .native => ⟨1, []⟩
  | .asset id => convertBack id

/-- Balances and, for each currency that exists, the least balance of an account. Outside /repo; used at
runtime/kreivo/src/xcm_config.rs 78-107 and 169 (FungibleAdapter, FungiblesAdapter). -/
structure XLedger where
  bal : List ((Cur × AccountId) × Nat)
  minBal : Cur → Option Nat

/-- Balance of an account. Outside /repo; used at runtime/kreivo/src/xcm_config.rs 78-107 and 169 (FungibleAdapter,
FungiblesAdapter). -/
def XLedger.get (L : XLedger) (c : Cur) (a : AccountId) : Nat := (aget L.bal (c, a)).getD 0
/-- Writing a balance. Outside /repo; used at runtime/kreivo/src/xcm_config.rs 78-107 and 169 (FungibleAdapter,
FungiblesAdapter). -/
def XLedger.set (L : XLedger) (c : Cur) (a : AccountId) (n : Nat) : XLedger := { L with bal := aset L.bal (c, a) n }
/-- Total issuance: the sum of all balances. Outside /repo; used at runtime/kreivo/src/xcm_config.rs 78-107 and 169
(FungibleAdapter, FungiblesAdapter). -/
def XLedger.supply (L : XLedger) (c : Cur) : Nat := asum (fun e => if e.1.1 = c then e.2 else 0) L.bal

/-- `burn_from` of the transactors' withdrawals (`Expendable`, `Exact`): xcm_config.rs 78-107. A rest below the least balance is
destroyed; answers the ledger and what was destroyed. -/
def XLedger.withdraw (L : XLedger) (c : Cur) (a : AccountId) (n : Nat) : Option (XLedger × Nat) :=
  match L.minBal c with
  | none => none
  | some least =>
    if L.get c a < n then none
    else if L.get c a - n < least then some (L.set c a 0, L.get c a - n)
    else some (L.set c a (L.get c a - n), 0)

/-- `mint_into` of the transactors' deposits: xcm_config.rs 78-107. -/
def XLedger.deposit (L : XLedger) (c : Cur) (a : AccountId) (n : Nat) : Option XLedger :=
  if n = 0 then some L
  else
    match L.minBal c with
    | none => none
    | some least =>
      if L.get c a + n < least then none
      else if amountMax < L.get c a + n then none
      else some (L.set c a (L.get c a + n))

/-- `transfer` of the transactors (`Expendable`): a rest below the least balance is destroyed or given to the receiver.
Outside /repo; used at runtime/kreivo/src/xcm_config.rs 78-107 and 169 (FungibleAdapter, FungiblesAdapter). -/
def XLedger.transfer (L : XLedger) (c : Cur) (src dst : AccountId) (n : Nat) (toDest : Bool) : Option (XLedger × Nat) :=
  if src = dst then
    if L.get c src < n then none else some (L, 0)
  else
    match L.withdraw c src n with
    | none => none
    | some (L1, dust) =>
      if toDest then (L1.deposit c dst (n + dust)).map fun L2 => (L2, 0)
      else (L1.deposit c dst n).map fun L2 => (L2, dust)

/-! ## The holding register -/

/-- `AssetsInHolding`: amounts by location. Outside /repo; used at runtime/kreivo/src/xcm_config.rs 228-261
(xcm-executor). -/
abbrev Hold := List (Location × Nat)

/-- Amount of an asset held. Outside /repo; used at runtime/kreivo/src/xcm_config.rs 228-261 (xcm-executor). -/
def amt (h : Hold) (l : Location) : Nat := (aget h l).getD 0
/-- Adding an amount, without limit. Outside /repo; used at runtime/kreivo/src/xcm_config.rs 228-261 (xcm-executor). -/
def put (h : Hold) (l : Location) (n : Nat) : Hold := aset h l (amt h l + n)
/-- Amount of an asset in a list of assets. Outside /repo; used at runtime/kreivo/src/xcm_config.rs 228-261
(xcm-executor). -/
def sumAt : List XAsset → Location → Nat
  | [], _ => 0
  | (m, n) :: rest, l => (if m = l then n else 0) + sumAt rest l

/-- Taking up to the wanted amounts (`saturating_take`): what is taken, without empty amounts, and what is left. Outside
/repo; used at runtime/kreivo/src/xcm_config.rs 228-261 (xcm-executor). -/
def takeList (h : Hold) : List XAsset → List XAsset × Hold
  | [] => ([], h)
  | (l, n) :: rest =>
    let r := takeList (aset h l (amt h l - Nat.min n (amt h l))) rest
    (if Nat.min n (amt h l) = 0 then r.1 else (l, Nat.min n (amt h l)) :: r.1, r.2)

/-- `AssetFilter` with its contents. Outside /repo; used at runtime/kreivo/src/xcm_config.rs 228-261 (xcm-executor). -/
inductive VFilter
  | definite (assets : List XAsset)
  | all
  | allOf (asset : Location)
  | counted (n : Nat)
  | allOfCounted (asset : Location) (n : Nat)

/-- What a filter asks for. Which assets a counted wildcard reaches depends on their order and is left open (`pick`).
Outside /repo; used at runtime/kreivo/src/xcm_config.rs 228-261 (xcm-executor). -/
def VFilter.wanted (f : VFilter) (h : Hold) (pick : Location → Bool) : List XAsset :=
  match f with
  | .definite as => as
  | .all => h.map fun e => (e.1, amt h e.1)
  | .allOf l => [(l, amt h l)]
  | .counted _ => (h.filter fun e => pick e.1).map fun e => (e.1, amt h e.1)
  | .allOfCounted l _ => [(l, amt h l)]

/-- The filter as the weigher and the barrier see it. Outside /repo; used at runtime/kreivo/src/xcm_config.rs 228-261
(xcm-executor). -/
def VFilter.shape : VFilter → AssetFilter
  | .definite as => .definite as.length
  | .all => .all
  | .allOf _ => .allOfFungible
  | .counted n => .allCounted n
  | .allOfCounted _ n => .allOfCounted n

/-! ## Instructions -/

/-- Instructions that touch neither the origin nor assets, and those that Kreivo's configuration always refuses
(xcm_config.rs 248-252, 255). -/
inductive Plain
  | queryResponse | hrmpNewChannelOpenRequest | hrmpChannelAccepted | hrmpChannelClosing | reportError | exchangeAsset
  | reportHolding | clearError | trap | subscribeVersion | unsubscribeVersion
  | expectAsset (n : Nat) | expectOrigin (o : Option Location) | expectError | expectTransactStatus | queryPallet
  | expectPallet | reportTransactStatus | clearTransactStatus | universalOrigin (j : Junction) | exportMessage | lockAsset
  | unlockAsset | noteUnlockable | requestUnlock | setFeesMode | setTopic | clearTopic | aliasOrigin (l : Location)
  | unpaidExecution (limit : WeightLimit) (check : Option Location)

/-- The instruction as the weigher and the barrier see it. Outside /repo; used at runtime/kreivo/src/xcm_config.rs 228-261
(xcm-executor). -/
def Plain.shape : Plain → Instr
  | .queryResponse => .queryResponse
  | .hrmpNewChannelOpenRequest => .hrmpNewChannelOpenRequest
  | .hrmpChannelAccepted => .hrmpChannelAccepted
  | .hrmpChannelClosing => .hrmpChannelClosing
  | .reportError => .reportError
  | .exchangeAsset => .exchangeAsset
  | .reportHolding => .reportHolding
  | .clearError => .clearError
  | .trap => .trap
  | .subscribeVersion => .subscribeVersion
  | .unsubscribeVersion => .unsubscribeVersion
  | .expectAsset n => .expectAsset n
  | .expectOrigin o => .expectOrigin o
  | .expectError => .expectError
  | .expectTransactStatus => .expectTransactStatus
  | .queryPallet => .queryPallet
  | .expectPallet => .expectPallet
  | .reportTransactStatus => .reportTransactStatus
  | .clearTransactStatus => .clearTransactStatus
  | .universalOrigin j => .universalOrigin j
  | .exportMessage => .exportMessage
  | .lockAsset => .lockAsset
  | .unlockAsset => .unlockAsset
  | .noteUnlockable => .noteUnlockable
  | .requestUnlock => .requestUnlock
  | .setFeesMode => .setFeesMode
  | .setTopic => .setTopic
  | .clearTopic => .clearTopic
  | .aliasOrigin l => .aliasOrigin l
  | .unpaidExecution w c => .unpaidExecution w c

/-- `xcm::latest::Instruction` (version 4) with the assets it is about. Outside /repo; used at
runtime/kreivo/src/xcm_config.rs 228-261 (xcm-executor). -/
inductive VInstr
  | withdrawAsset (assets : List XAsset)
  | reserveAssetDeposited (assets : List XAsset)
  | receiveTeleportedAsset (assets : List XAsset)
  | transferAsset (assets : List XAsset) (beneficiary : Location)
  | transferReserveAsset (assets : List XAsset) (dest : Location)
  | transact (kind : OriginKind) (w : Weight)
  | clearOrigin
  | descendOrigin (who : List Junction)
  | depositAsset (assets : VFilter) (beneficiary : Location)
  | depositReserveAsset (assets : VFilter) (dest : Location)
  | initiateReserveWithdraw (assets : VFilter) (reserve : Location)
  | initiateTeleport (assets : VFilter) (dest : Location)
  | buyExecution (fees : XAsset) (limit : WeightLimit)
  | refundSurplus
  | setErrorHandler (xcm : List VInstr)
  | setAppendix (xcm : List VInstr)
  | claimAsset (assets : List XAsset)
  | burnAsset (assets : List XAsset)
  | plain (i : Plain)

/-- The instruction as the weigher and the barrier see it. Outside /repo; used at runtime/kreivo/src/xcm_config.rs 228-261
(xcm-executor). -/
def VInstr.shape : VInstr → Instr
  | .withdrawAsset as => .withdrawAsset as.length
  | .reserveAssetDeposited as => .reserveAssetDeposited as.length
  | .receiveTeleportedAsset as => .receiveTeleportedAsset as.length
  | .transferAsset as _ => .transferAsset as.length
  | .transferReserveAsset as _ => .transferReserveAsset as.length
  | .transact k w => .transact k w
  | .clearOrigin => .clearOrigin
  | .descendOrigin who => .descendOrigin who
  | .depositAsset f _ => .depositAsset f.shape
  | .depositReserveAsset f _ => .depositReserveAsset f.shape
  | .initiateReserveWithdraw f _ => .initiateReserveWithdraw f.shape
  | .initiateTeleport f _ => .initiateTeleport f.shape
  | .buyExecution _ limit => .buyExecution limit
  | .refundSurplus => .refundSurplus
  | .setErrorHandler xcm => .setErrorHandler (xcm.map VInstr.shape)
  | .setAppendix xcm => .setAppendix (xcm.map VInstr.shape)
  | .claimAsset as => .claimAsset as.length
  | .burnAsset as => .burnAsset as.length
  | .plain i => i.shape

/-! ## The machine -/

/-- What the traders give back: assets, as far as they were paid, and what `UsingComponents` (xcm_config.rs 219) gives back
of the relay chain's token beyond what it was paid; see Xcm/Traders. -/
structure Refund where
  assets : List XAsset
  bonus : Nat

/-- What the model leaves open about one step. Outside /repo; used at runtime/kreivo/src/xcm_config.rs 228-261
(xcm-executor). -/
structure Luck where
  /-- the instruction fails for a reason not modelled -/
  fails : Bool
  /-- whether the rest below the least balance goes to the receiver of a transfer -/
  dustToDest : Cur → Bool
  /-- which assets a counted wildcard reaches -/
  pick : Location → Bool
  /-- what the trader charges, at most what is offered -/
  charge : Nat
  /-- what the trader gives back -/
  refund : Refund
  /-- which assets can be named from the reserve's point of view -/
  reanchors : Location → Bool

/-- What a message leaves behind: balances and trapped assets (`AssetTrap = PolkadotXcm`, xcm_config.rs 243-244), with
records of what was accepted as deposited on a reserve (by whom), of what was destroyed or sent away, and of what traders
gave back without having been paid it. -/
structure Chain where
  ledger : XLedger
  traps : List (Location × Hold)
  received : List (Location × XAsset)
  gone : Hold
  minted : Hold

/-- The executor's registers. Outside /repo; used at runtime/kreivo/src/xcm_config.rs 228-261 (xcm-executor). -/
structure Mach where
  sender : Location
  origin : Option Location
  holding : Hold
  paid : Hold
  code : List VInstr
  handler : List VInstr
  appendix : List VInstr
  chain : Chain

/-- Outcome of an instruction; a panic takes the block with it. Outside /repo; used at runtime/kreivo/src/xcm_config.rs
228-261 (xcm-executor). -/
inductive Tri (α : Type)
  | ok (a : α)
  | err
  | panic

/-- The balances and the record of destroyed amounts, while several assets are handled. Outside /repo; used at
runtime/kreivo/src/xcm_config.rs 228-261 (xcm-executor). -/
abbrev Acc := XLedger × Hold

/-- One asset after another through the transactors; the first error ends it. runtime/kreivo/src/xcm_config.rs 78-107 and
169; the adapters are outside /repo. -/
def eachAsset (f : Acc → Cur → Nat → Option Acc) : Acc → List XAsset → Tri Acc
  | a, [] => .ok a
  | a, (l, n) :: rest =>
    match matchAsset l with
    | .panic => .panic
    | .no => .err
    | .cur c =>
      match f a c n with
      | none => .err
      | some a' => eachAsset f a' rest

/-- Whether matching an asset panics. runtime/kreivo/src/xcm_config.rs 78-107 and 169; the adapters are outside /repo. -/
def panics (l : Location) : Bool :=
  match matchAsset l with
  | .panic => true
  | _ => false

/-- Withdrawing from the account of a location (`withdraw_asset`). Outside /repo; used at runtime/kreivo/src/xcm_config.rs
78-107 and 169 (FungibleAdapter, FungiblesAdapter). -/
def withdrawFrom (who : Location) (a : Acc) (c : Cur) (n : Nat) : Option Acc :=
  match locationToAccount who with
  | none => none
  | some acct => (a.1.withdraw c acct n).map fun r => (r.1, put a.2 c.location r.2)

/-- Depositing into the account of a location (`deposit_asset`). Outside /repo; used at runtime/kreivo/src/xcm_config.rs
78-107 and 169 (FungibleAdapter, FungiblesAdapter). -/
def depositTo (who : Location) (a : Acc) (c : Cur) (n : Nat) : Option Acc :=
  match locationToAccount who with
  | none => none
  | some acct => (a.1.deposit c acct n).map fun L => (L, a.2)

/-- Transferring between the accounts of two locations (`transfer_asset`). Outside /repo; used at
runtime/kreivo/src/xcm_config.rs 78-107 and 169 (FungibleAdapter, FungiblesAdapter). -/
def transferTo (luck : Luck) (src dst : Location) (a : Acc) (c : Cur) (n : Nat) : Option Acc :=
  match locationToAccount src, locationToAccount dst with
  | some s, some d => (a.1.transfer c s d n (luck.dustToDest c)).map fun r => (r.1, put a.2 c.location r.2)
  | _, _ => none

/-- `PolkadotXcm::check_account()`, the account that tracks teleports: xcm_config.rs 40-41. -/
def checkAccount : AccountId := palletAccount (ascii "py/xcmch") []

/-- `can_check_out` and `check_out`: xcm_config.rs 40, 90. What is teleported away is kept on the checking account; of an
asset without issuance nothing is kept. -/
def checkOut (a : Acc) (c : Cur) (n : Nat) : Option Acc :=
  if c ≠ .native ∧ a.1.supply c = 0 then some (a.1, put a.2 c.location n)
  else (a.1.deposit c checkAccount n).map fun L => (L, a.2)

/-- `deposit_assets_with_retry`: all assets are tried even after an error. Outside /repo; used at
runtime/kreivo/src/xcm_config.rs 78-107 and 169 (FungibleAdapter, FungiblesAdapter). -/
def depositAll (who : Location) (a : Acc) (as : List XAsset) : Tri Acc :=
  if as.any fun e => panics e.1 then .panic else eachAsset (depositTo who) a as

/-- `subsume_assets`: amounts saturate. Outside /repo; used at runtime/kreivo/src/xcm_config.rs 228-261 (xcm-executor). -/
def Mach.subsume (m : Mach) : List XAsset → Mach
  | [] => m
  | (l, n) :: rest =>
    let room := Nat.min n (amountMax - amt m.holding l)
    Mach.subsume { m with holding := put m.holding l room,
                          chain := { m.chain with gone := put m.chain.gone l (n - room) } } rest

/-- Writing back the balances and the record of destroyed amounts. Outside /repo; used at runtime/kreivo/src/xcm_config.rs
228-261 (xcm-executor). -/
def Mach.setAcc (m : Mach) (a : Acc) : Mach := { m with chain := { m.chain with ledger := a.1, gone := a.2 } }
/-- The balances and the record of destroyed amounts. Outside /repo; used at runtime/kreivo/src/xcm_config.rs 228-261
(xcm-executor). -/
def Mach.acc (m : Mach) : Acc := (m.chain.ledger, m.chain.gone)

/-- Which assets the traders take: xcm_config.rs 69-75, 210-220. -/
def traderAccepts (l : Location) : Bool :=
  decide (l = ⟨1, []⟩) ||
    ((matchesPrefix assetHub l || matchesPrefix polkadotLocation l) &&
      match convert l with
      | .some _ => true
      | _ => false)

/-- `AssetClaims`: the same assets, amount by amount. Outside /repo; used at runtime/kreivo/src/xcm_config.rs 243-244
(pallet_xcm). -/
def sameAssets (h : Hold) (as : List XAsset) : Bool :=
  (h.map (·.1) ++ as.map (·.1)).all fun l => amt h l == sumAt as l

/-- Removing the first trap of this origin with these assets. Outside /repo; used at runtime/kreivo/src/xcm_config.rs
243-244 (pallet_xcm). -/
def claim (o : Location) (as : List XAsset) : List (Location × Hold) → Option (List (Location × Hold))
  | [] => none
  | t :: rest => if t.1 = o ∧ sameAssets t.2 as = true then some rest else (claim o as rest).map (t :: ·)

/-- `refund_surplus`: what the trader gives back goes into holding. Outside /repo; used at
runtime/kreivo/src/xcm_config.rs 228-261 (xcm-executor). -/
def Mach.refund (m : Mach) (w : Refund) : Mach :=
  let r := takeList m.paid w.assets
  Mach.subsume { m with paid := r.2, chain := { m.chain with minted := put m.chain.minted ⟨1, []⟩ w.bonus } }
    ((⟨1, []⟩, w.bonus) :: r.1)

/-- Destroyed or sent away. Outside /repo; used at runtime/kreivo/src/xcm_config.rs 228-261 (xcm-executor). -/
def putAll (h : Hold) : List XAsset → Hold
  | [] => h
  | (l, n) :: rest => putAll (put h l n) rest

/-- One instruction of `XcmExecutor::process_instruction` with the configuration of Kreivo (xcm_config.rs 228-261). -/
def Mach.effect (m : Mach) (luck : Luck) : VInstr → Tri Mach
  | .withdrawAsset as =>
    match m.origin with
    | none => .err
    | some o =>
      match eachAsset (withdrawFrom o) m.acc as with
      | .ok a => .ok ((m.setAcc a).subsume as)
      | .err => .err
      | .panic => .panic
  | .reserveAssetDeposited as =>
    match m.origin with
    | none => .err
    | some o =>
      if as.all fun e => isReserve e.1 o then
        .ok (Mach.subsume { m with chain := { m.chain with received := m.chain.received ++ as.map fun e => (o, e) } } as)
      else .err
  | .receiveTeleportedAsset as =>
    match m.origin, as with
    | some _, [] => .ok m
    | _, _ => .err
  | .transferAsset as dst =>
    match m.origin with
    | none => .err
    | some o =>
      match eachAsset (transferTo luck o dst) m.acc as with
      | .ok a => .ok (m.setAcc a)
      | .err => .err
      | .panic => .panic
  | .transferReserveAsset as dst =>
    match m.origin with
    | none => .err
    | some o =>
      match eachAsset (transferTo luck o dst) m.acc as with
      | .ok a => .ok (m.setAcc a)
      | .err => .err
      | .panic => .panic
  | .transact k _ =>
    match m.origin with
    | none => .err
    | some o => if (convertOrigin o k).isSome then .ok m else .err
  | .clearOrigin => .ok { m with origin := none }
  | .descendOrigin who =>
    match m.origin with
    | none => .err
    | some o =>
      match o.append who with
      | none => .err
      | some o' => .ok { m with origin := some o' }
  | .depositAsset f dst =>
    let r := takeList m.holding (f.wanted m.holding luck.pick)
    match depositAll dst m.acc r.1 with
    | .ok a => .ok (Mach.setAcc { m with holding := r.2 } a)
    | .err => .err
    | .panic => .panic
  | .depositReserveAsset f dst =>
    let r := takeList m.holding (f.wanted m.holding luck.pick)
    match depositAll dst m.acc r.1 with
    | .ok a => .ok (Mach.setAcc { m with holding := r.2 } a)
    | .err => .err
    | .panic => .panic
  | .initiateReserveWithdraw f _ =>
    let r := takeList m.holding (f.wanted m.holding luck.pick)
    .ok (Mach.subsume
      { m with holding := r.2,
               chain := { m.chain with gone := putAll m.chain.gone (r.1.filter fun e => luck.reanchors e.1) } }
      (r.1.filter fun e => !luck.reanchors e.1))
  | .initiateTeleport f _ =>
    let r := takeList m.holding (f.wanted m.holding luck.pick)
    match eachAsset checkOut m.acc r.1 with
    | .ok a => .ok (Mach.setAcc { m with holding := r.2 } a)
    | .err => .err
    | .panic => .panic
  | .buyExecution fees limit =>
    match limit with
    | .unlimited => .ok m
    | .limited _ =>
      if amt m.holding fees.1 < fees.2 then .err
      else if traderAccepts fees.1 then
        let r := takeList m.holding [(fees.1, Nat.min luck.charge fees.2)]
        .ok { m with holding := r.2, paid := putAll m.paid r.1 }
      else .err
  | .refundSurplus => .ok (m.refund luck.refund)
  | .setErrorHandler xcm => .ok { m with handler := xcm }
  | .setAppendix xcm => .ok { m with appendix := xcm }
  | .claimAsset as =>
    match m.origin with
    | none => .err
    | some o =>
      match claim o as m.chain.traps with
      | none => .err
      | some ts => .ok (Mach.subsume { m with chain := { m.chain with traps := ts } } as)
  | .burnAsset as =>
    let r := takeList m.holding as
    .ok { m with holding := r.2, chain := { m.chain with gone := putAll m.chain.gone r.1 } }
  | .plain _ => .ok m

/-- After an error: the error handler, or else the appendix. Outside /repo; used at runtime/kreivo/src/xcm_config.rs
228-261 (xcm-executor). -/
def Mach.failed (m : Mach) : Mach :=
  match m.handler with
  | [] => { m with code := m.appendix, handler := [], appendix := [] }
  | h => { m with code := h, handler := [] }

/-- One step of `XcmExecutor::execute`; none is a panic. Outside /repo; used at runtime/kreivo/src/xcm_config.rs 228-261
(xcm-executor). -/
def Mach.step (m : Mach) (luck : Luck) : Option Mach :=
  match m.code with
  | [] => some { m with code := m.appendix, handler := [], appendix := [] }
  | i :: rest =>
    if luck.fails then some m.failed
    else
      match Mach.effect { m with code := rest } luck i with
      | .ok m' => some m'
      | .err => some m.failed
      | .panic => none

/-- Any number of steps. Outside /repo; used at runtime/kreivo/src/xcm_config.rs 228-261 (xcm-executor). -/
def Mach.run (m : Mach) : List Luck → Option Mach
  | [] => some m
  | x :: xs =>
    match m.step x with
    | none => none
    | some m' => Mach.run m' xs

/-- What the traders took is deposited on the treasury (`XcmAssetFeesReceiver`, `ResolveTo<TreasuryAccount>`, xcm_config.rs 136,
216, 219), or lost if that fails. -/
def payTreasury : List XAsset → Acc → Acc
  | [], a => a
  | (l, n) :: rest, a =>
    match matchAsset l with
    | .cur c =>
      match a.1.deposit c treasuryAccount n with
      | some L => payTreasury rest (L, a.2)
      | none => payTreasury rest (a.1, put a.2 l n)
    | _ => payTreasury rest (a.1, put a.2 l n)

/-- What is in a register, each asset once. Outside /repo; used at runtime/kreivo/src/xcm_config.rs 228-261
(xcm-executor). -/
def contents (h : Hold) : List XAsset := (takeList h (VFilter.all.wanted h fun _ => true)).1

/-- `post_process`: refund, pay the treasury, trap what is left under the origin, or under the sender if it was cleared.
Outside /repo; used at runtime/kreivo/src/xcm_config.rs 228-261 (xcm-executor). -/
def Mach.finish (m : Mach) (refund : Refund) : Chain :=
  let m1 := m.refund refund
  let a := payTreasury (contents m1.paid) m1.acc
  let c := { m1.chain with ledger := a.1, gone := a.2 }
  if m1.holding.all fun e => amt m1.holding e.1 == 0 then c
  else { c with traps := c.traps ++ [(m1.origin.getD m1.sender, m1.holding)] }

/-- A message begins with its sender as the origin and empty registers. Outside /repo; used at
runtime/kreivo/src/xcm_config.rs 228-261 (xcm-executor). -/
def Mach.start (c : Chain) (sender : Location) (msg : List VInstr) : Mach :=
  ⟨sender, some sender, [], [], msg, [], [], c⟩

/-- Executing a message, stopping after any number of steps; none is a panic. Outside /repo; used at
runtime/kreivo/src/xcm_config.rs 228-261 (xcm-executor). -/
def execute (c : Chain) (sender : Location) (msg : List VInstr) (lucks : List Luck) (refund : Refund) : Option Chain :=
  ((Mach.start c sender msg).run lucks).map fun m => m.finish refund

/-- A message with its sender and what the model leaves open about its execution. Outside /repo; used at
runtime/kreivo/src/xcm_config.rs 228-261 (xcm-executor). -/
structure Delivery where
  sender : Location
  msg : List VInstr
  lucks : List Luck
  refund : Refund

/-- Any sequence of messages. Outside /repo; used at runtime/kreivo/src/xcm_config.rs 228-261 (xcm-executor). -/
def deliverAll (c : Chain) : List Delivery → Option Chain
  | [] => some c
  | d :: ds =>
    match execute c d.sender d.msg d.lucks d.refund with
    | none => none
    | some c' => deliverAll c' ds

end Verif.Xcm
