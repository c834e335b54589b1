import Verif.Xcm.Executor
import Verif.Accounts.Model

/-!
# What users do through pallet_xcm (runtime/kreivo/src/xcm_config.rs 277-311)

The calls by which an account sends assets to other chains, claims trapped ones or executes messages. The pallet is outside
`/repo` (pallet-xcm and xcm-executor of polkadot-sdk stable2409); the configuration decides who may call, which assets are
thought to be at home where, where messages can be sent and what is filtered.

Simplifications: the fees for execution on other chains (`BuyExecution` there) are left out of the messages sent; separate
messages stand for the parts of one message about assets with different ways to travel; a call may in fact be refused for
further reasons, the theorems speak about calls that are not.
-/

namespace Verif.Xcm

open Verif Verif.Runtime Verif.Accounts

/-! ## Names of things on other chains -/

/-- Largest number of junctions. Outside /repo; used at runtime/kreivo/src/xcm_config.rs 277-311 (staging-xcm). -/
def maxJunctions : Nat := 8

/-- `InteriorLocation::invert_target`: how the target would address the place `context`. Outside /repo; used at
runtime/kreivo/src/xcm_config.rs 44-48, 295 (staging-xcm). -/
def invertTarget (context : List Junction) (target : Location) : Option Location :=
  let js := List.replicate (target.parents.toNat - context.length) Junction.onlyChild ++
    context.drop (context.length - target.parents.toNat)
  if js.length ≤ maxJunctions then some ⟨UInt8.ofNat target.interior.length, js⟩ else none

/-- `Location::prepend_with`: parents of the location cancel against the last junctions of the prefix. Outside /repo; used at
runtime/kreivo/src/xcm_config.rs 44-48, 295 (staging-xcm). -/
def Location.prependWith (l pre : Location) : Option Location :=
  let js := pre.interior.take (pre.interior.length - l.parents.toNat) ++ l.interior
  let ps := pre.parents.toNat + (l.parents.toNat - pre.interior.length)
  if js.length ≤ maxJunctions ∧ ps ≤ 255 then some ⟨UInt8.ofNat ps, js⟩ else none

/-- `Location::simplify`: while the first junction is the one of the context that the last parent leads to, both are dropped.
Outside /repo; used at runtime/kreivo/src/xcm_config.rs 44-48, 295 (staging-xcm). -/
def simplifyJs (context : List Junction) : Nat → List Junction → Nat × List Junction
  | 0, js => (0, js)
  | p + 1, [] => (p + 1, [])
  | p + 1, j :: js =>
    if p + 1 ≤ context.length ∧ context[context.length - (p + 1)]? = some j then simplifyJs context p js else (p + 1, j :: js)

/-- `Location::reanchored`: the name of a location from the point of view of a target. Outside /repo; used at
runtime/kreivo/src/xcm_config.rs 44-48, 295 (staging-xcm). -/
def reanchor (context : List Junction) (target l : Location) : Option Location :=
  match invertTarget context target with
  | none => none
  | some inv =>
    match l.prependWith inv with
    | none => none
    | some r =>
      let s := simplifyJs target.interior r.parents.toNat r.interior
      some ⟨UInt8.ofNat s.1, s.2⟩

/-- Whether a junction names a chain. Outside /repo; used at runtime/kreivo/src/xcm_config.rs 284-311 (staging-xcm). -/
def Junction.isChain : Junction → Bool
  | .parachain _ => true
  | .globalConsensus _ => true
  | _ => false

/-- `Location::chain_location`: without what comes after the last chain. Outside /repo; used at
runtime/kreivo/src/xcm_config.rs 284-311 (staging-xcm). -/
def chainLocation (l : Location) : Location :=
  ⟨l.parents, (l.interior.reverse.dropWhile fun j => !j.isChain).reverse⟩

/-! ## How an asset travels -/

/-- `TransferType`. Outside /repo; used at runtime/kreivo/src/xcm_config.rs 284-311 (xcm-executor). -/
inductive TransferType
  | teleport
  | localReserve
  | destinationReserve
  | remoteReserve (reserve : Location)
  deriving DecidableEq

/-- `XcmAssetTransfers::determine_for` with `IsTeleporter = ()` and `IsReserve = Reserves` (xcm_config.rs 222-226, 235-237): the
destination if it is trusted as a reserve of the asset, this chain if the asset is from here, else the chain of the asset if
it is trusted as its reserve. -/
def determine (asset dest : Location) : Option TransferType :=
  if isReserve asset dest then some .destinationReserve
  else if chainLocation asset = ⟨0, []⟩ then some .localReserve
  else if isReserve asset (chainLocation asset) then some (.remoteReserve (chainLocation asset))
  else none

/-- `find_fee_and_assets_transfer_types`: of the other assets, which must all travel in one way, and of the one fees are paid
in. Outside /repo; used at runtime/kreivo/src/xcm_config.rs 284-311 (pallet-xcm). -/
def findTypes (dest : Location) (assets : List XAsset) (fee : Nat) : Option (TransferType × TransferType) :=
  if assets.any fun e => e.2 == 0 then none
  else
    match assets with
    | [] => none
    | [e] => if fee = 0 then (determine e.1 dest).map fun t => (t, t) else none
    | _ =>
      match assets[fee]?, assets.eraseIdx fee with
      | some f, o :: others =>
        match determine f.1 dest, determine o.1 dest with
        | some tf, some t => if others.all fun e => decide (determine e.1 dest = some t) then some (t, tf) else none
        | _, _ => none
      | _, _ => none

/-! ## Messages sent -/

/-- What a message tells the receiving chain: to take the assets from the account Kreivo has there, or that they were put on
the account that chain has on Kreivo. Outside /repo; used at runtime/kreivo/src/xcm_config.rs 277-311 (pallet-xcm). -/
inductive OrderKind
  | withdraw
  | deposited
  deriving DecidableEq

/-- A message sent: to which chain, with the assets as that chain names them, and where they are passed on to. Outside /repo;
used at runtime/kreivo/src/xcm_config.rs 277-311 (pallet-xcm). -/
structure Order where
  dest : Location
  kind : OrderKind
  assets : List XAsset
  onward : Option Location

/-- `XcmRouter` (xcm_config.rs 277-282): the relay chain by UMP, siblings by XCMP, nothing else. -/
def routable (l : Location) : Bool :=
  match l.parents, l.interior with
  | 1, [] => true
  | 1, [.parachain _] => true
  | _, _ => false

/-- The assets as another chain names them. Outside /repo; used at runtime/kreivo/src/xcm_config.rs 284-311 (pallet-xcm). -/
def reanchorAll (context : List Junction) (target : Location) : List XAsset → Option (List XAsset)
  | [] => some []
  | (l, n) :: rest =>
    match reanchor context target l, reanchorAll context target rest with
    | some r, some rs => some ((r, n) :: rs)
    | _, _ => none

/-- The part of the message to be executed on Kreivo: `TransferAsset` to the account of the destination, `WithdrawAsset` and
`BurnAsset`, or `WithdrawAsset` and `InitiateReserveWithdraw`. Outside /repo; used at runtime/kreivo/src/xcm_config.rs 284-311
(pallet-xcm). -/
def legCode (dest : Location) (t : TransferType) (as : List XAsset) : List VInstr :=
  match t with
  | .teleport => []
  | .localReserve => [.transferAsset as dest]
  | .destinationReserve => [.withdrawAsset as, .burnAsset as]
  | .remoteReserve r => [.withdrawAsset as, .plain .setFeesMode, .initiateReserveWithdraw (.counted as.length) r]

/-- What is sent where; teleports are filtered (`XcmTeleportFilter = Nothing`, xcm_config.rs 292). -/
def legOrder (context : List Junction) (dest fee : Location) (t : TransferType) (as : List XAsset) : Option Order :=
  match t with
  | .teleport => none
  | .localReserve => (reanchorAll context dest as).map fun rs => ⟨dest, .deposited, rs, none⟩
  | .destinationReserve => (reanchorAll context dest as).map fun rs => ⟨dest, .withdraw, rs, none⟩
  | .remoteReserve r =>
    match reanchor context r fee, reanchor context dest fee, reanchor context r dest, reanchorAll context r as with
    | some _, some _, some d, some rs => some ⟨r, .withdraw, rs, some d⟩
    | _, _, _, _ => none

/-- What the steps of such a message meet: nothing fails for other reasons, a counted wildcard reaches all of as many assets,
and names are as computed. Outside /repo; used at runtime/kreivo/src/xcm_config.rs 284-311 (xcm-executor). -/
def fate (context : List Junction) (dust : Cur → Bool) : VInstr → Luck
  | .initiateReserveWithdraw _ r => ⟨false, dust, fun _ => true, 0, ⟨[], 0⟩, fun l => (reanchor context r l).isSome⟩
  | _ => ⟨false, dust, fun _ => true, 0, ⟨[], 0⟩, fun _ => true⟩

/-- Executing all instructions; an error of one is an error of the call (`ensure_complete`), which then changes nothing. Outside
/repo; used at runtime/kreivo/src/xcm_config.rs 284-311 (pallet-xcm). -/
def complete (context : List Junction) (dust : Cur → Bool) (m : Mach) : List VInstr → Tri Mach
  | [] => .ok m
  | i :: rest =>
    match m.effect (fate context dust i) i with
    | .ok m' => complete context dust m' rest
    | .err => .err
    | .panic => .panic

/-- The parts that travel separately: `do_transfer_assets`. Outside /repo; used at runtime/kreivo/src/xcm_config.rs 284-311
(pallet-xcm). -/
def legs (assets : List XAsset) (fee : Nat) (f : XAsset) (t tf : TransferType) : List (TransferType × List XAsset) :=
  if tf = t then [(t, assets)] else [(tf, [f]), (t, assets.eraseIdx fee)]

/-- Whether the assets pass through a third chain. Outside /repo; used at runtime/kreivo/src/xcm_config.rs 284-311
(pallet-xcm). -/
def TransferType.isRemote : TransferType → Bool
  | .remoteReserve _ => true
  | _ => false

/-- All messages sent. Outside /repo; used at runtime/kreivo/src/xcm_config.rs 284-311 (pallet-xcm). -/
def ordersOf (context : List Junction) (dest fee : Location) : List (TransferType × List XAsset) → Option (List Order)
  | [] => some []
  | (t, as) :: rest =>
    match legOrder context dest fee t as, ordersOf context dest fee rest with
    | some o, some os => some (o :: os)
    | _, _ => none

/-- `do_transfer_assets` and `execute_xcm_transfer`: at most two assets; the local part is executed as the caller, with weight
credit for the barrier (`TakeWeightCredit`, xcm_config.rs 157); then the messages are sent, without charge (xcm_config.rs 250,
279, runtime/kreivo/src/lib.rs 378). -/
def sendAssets (self : UInt32) (dust : Cur → Bool) (c : Chain) (who dest : Location) (assets : List XAsset) (fee : Nat)
    (t tf : TransferType) : Tri (Chain × List Order) :=
  match assets[fee]? with
  | none => .err
  | some f =>
    if 2 < assets.length ∨ (tf ≠ t ∧ (t.isRemote ∨ tf.isRemote)) then .err
    else
      match ordersOf (universalLocation self) dest f.1 (legs assets fee f t tf) with
      | none => .err
      | some os =>
        match complete (universalLocation self) dust (Mach.start c who [])
            ((legs assets fee f t tf).flatMap fun g => legCode dest g.1 g.2) with
        | .ok m => if os.all fun o => routable o.dest then .ok (m.finish ⟨[], 0⟩, os) else .err
        | .err => .err
        | .panic => .panic

/-! ## The calls -/

/-- The calls of pallet_xcm for everybody. Outside /repo; used at runtime/kreivo/src/xcm_config.rs 284-311 (pallet-xcm). -/
inductive XcmCall
  /-- `execute` -/
  | execute (msg : List VInstr)
  /-- `teleport_assets` and `limited_teleport_assets` -/
  | teleport (dest : Location) (assets : List XAsset) (fee : Nat)
  /-- `reserve_transfer_assets` and `limited_reserve_transfer_assets` -/
  | reserveTransfer (dest : Location) (assets : List XAsset) (fee : Nat)
  /-- `transfer_assets` -/
  | transfer (dest : Location) (assets : List XAsset) (fee : Nat)
  /-- `transfer_assets_using_type_and_then` -/
  | transferUsing (dest : Location) (assets : List XAsset) (fee : Nat) (t tf : TransferType)
  /-- `claim_assets` -/
  | claimAssets (assets : List XAsset) (beneficiary : Location)

/-- The calls, for an origin that may execute messages (`ExecuteXcmOrigin`, xcm_config.rs 287): `execute` and teleports are filtered
(xcm_config.rs 289-292), reserve transfers are not (293). -/
def xcmCall (self : UInt32) (dust : Cur → Bool) (c : Chain) (o : RtOrigin) (call : XcmCall) : Tri (Chain × List Order) :=
  match canExecuteXcm o with
  | none => .err
  | some who =>
    match call with
    | .execute _ => .err
    | .teleport _ _ _ => .err
    | .reserveTransfer dest assets fee =>
      match findTypes dest assets fee with
      | some (t, tf) => if t = tf ∧ t ≠ .teleport then sendAssets self dust c who dest assets fee t tf else .err
      | none => .err
    | .transfer dest assets fee =>
      match findTypes dest assets fee with
      | some (t, tf) => sendAssets self dust c who dest assets fee t tf
      | none => .err
    | .transferUsing dest assets fee t tf => sendAssets self dust c who dest assets fee t tf
    | .claimAssets assets beneficiary =>
      match complete (universalLocation self) dust (Mach.start c who [])
          [.claimAsset assets, .depositAsset (.counted assets.length) beneficiary] with
      | .ok m => .ok (m.finish ⟨[], 0⟩, [])
      | .err => .err
      | .panic => .panic

end Verif.Xcm
