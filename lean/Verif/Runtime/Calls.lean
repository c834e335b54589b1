import Verif.Accounts.Model
import Verif.Payments.Model

/-!
# Runtime calls, call filters and proxies of Kreivo

The calls of the runtime (runtime/kreivo/src/lib.rs 186-291), the filters of runtime/kreivo/src/impls.rs and
runtime/kreivo/src/contracts.rs over them, and what a call leads to when it carries other calls. Calls are told apart
as far as the filters do; the calls of pallets that no filter looks into are named by pallet and name.
-/

namespace Verif.Runtime

open Verif Verif.Accounts

/-- The pallets with calls: runtime/kreivo/src/lib.rs 186-291. -/
inductive Pallet
  | system | parachainSystem | timestamp | parachainInfo | pass | balances | assets | vesting
  | collatorSelection | session | xcmpQueue | polkadotXcm | cumulusXcm | messageQueue
  | multisig | utility | proxy | scheduler | preimage | treasury | kreivoCollective | kreivoReferenda
  | payments | communities | communityTracks | communityReferenda | communityMemberships | communitiesManager | contracts
  deriving DecidableEq

/-- `pallet_balances::Call` (outside `/repo`). -/
inductive BalancesCall
  | transferAllowDeath | forceTransfer | transferKeepAlive | transferAll | forceUnreserve | upgradeAccounts
  | forceSetBalance | forceAdjustTotalIssuance | burn
  deriving DecidableEq

/-- `pallet_assets::Call` (outside `/repo`). -/
inductive AssetsCall
  | create | forceCreate | startDestroy | destroyAccounts | destroyApprovals | finishDestroy | mint | burn
  | transfer | transferKeepAlive | forceTransfer | freeze | thaw | freezeAsset | thawAsset | transferOwnership | setTeam
  | setMetadata | clearMetadata | forceSetMetadata | forceClearMetadata | forceAssetStatus | approveTransfer
  | cancelApproval | forceCancelApproval | transferApproved | touch | refund | setMinBalance | touchOther | refundOther
  | block
  deriving DecidableEq

/-- `ProxyType`: runtime/kreivo/src/impls.rs 51-68. -/
inductive ProxyType
  | any | nonTransfer | cancelProxy | assets | assetOwner | assetManager | collator
  deriving DecidableEq

/-- The calls of the runtime. Calls that carry other calls are spelled out for the utility, multisig, proxy, pass
and communities pallets; those of other pallets (scheduler, referenda, XCM, contracts) count as plain calls.
runtime/kreivo/src/lib.rs 190-291 (the pallets of the runtime). -/
inductive Call
  | balances (c : BalancesCall)
  | assets (c : AssetsCall)
  /-- `Utility::batch` and `force_batch`. -/
  | batch (cs : List Call)
  /-- `Utility::batch_all`. -/
  | batchAll (cs : List Call)
  /-- `Utility::as_derivative`. -/
  | asDerivative (index : Nat) (c : Call)
  /-- `Utility::dispatch_as` and `with_weight`, for root only. -/
  | utilityRoot (c : Call)
  /-- `Multisig::as_multi_threshold_1`. -/
  | asMulti1 (others : List AccountId) (c : Call)
  /-- `Multisig::as_multi`. -/
  | asMulti (threshold : Nat) (others : List AccountId) (c : Call)
  /-- `Multisig::approve_as_multi`, `cancel_as_multi`. -/
  | multisigPlain (name : String)
  /-- `Proxy::proxy`. -/
  | proxy (real : AccountId) (force : Option ProxyType) (c : Call)
  /-- `Proxy::proxy_announced`, which anybody may send. -/
  | proxyAnnounced (delegate real : AccountId) (force : Option ProxyType) (c : Call)
  | addProxy (delegate : AccountId) (t : ProxyType) (delay : Nat)
  | removeProxy (delegate : AccountId) (t : ProxyType) (delay : Nat)
  | removeProxies
  | killPure
  | rejectAnnouncement (delegate : AccountId)
  /-- `Proxy::create_pure`, `announce`, `remove_announcement`, `poke_deposit`. -/
  | proxyPlain (name : String)
  /-- `Communities::dispatch_as_account`. -/
  | dispatchAsAccount (c : Call)
  /-- `Pass::dispatch` in the name of the pass account `who`, by a session key or with a credential of it. -/
  | passDispatch (who : AccountId) (c : Call)
  /-- `Payments`' calls. -/
  | payments (c : Verif.Payments.Call)
  /-- `CollatorSelection`'s calls. -/
  | collatorSelection (name : String)
  /-- `Treasury`'s calls. -/
  | treasury (name : String)
  /-- Any call of another pallet. -/
  | plain (p : Pallet) (name : String)

/-- The pallet a call belongs to. A `plain` call of one of the pallets spelled out above is read as theirs.
runtime/kreivo/src/lib.rs 190-291. -/
def Call.pallet : Call → Pallet
  | .balances _ => .balances
  | .assets _ => .assets
  | .batch _ | .batchAll _ | .asDerivative _ _ | .utilityRoot _ => .utility
  | .asMulti1 _ _ | .asMulti _ _ _ | .multisigPlain _ => .multisig
  | .proxy _ _ _ | .proxyAnnounced _ _ _ _ | .addProxy _ _ _ | .removeProxy _ _ _ | .removeProxies | .killPure
  | .rejectAnnouncement _ | .proxyPlain _ => .proxy
  | .dispatchAsAccount _ => .communities
  | .passDispatch _ _ => .pass
  | .payments _ => .payments
  | .collatorSelection _ => .collatorSelection
  | .treasury _ => .treasury
  | .plain p _ => p

/-! ## Filters -/

/-- `RuntimeBlackListedCalls::contains`: runtime/kreivo/src/impls.rs 33-45. -/
def runtimeBlackListed (c : Call) : Bool :=
  !(match c.pallet with
    | .balances => true
    | .treasury => true
    | .utility => true
    | .assets => true
    | .proxy => true
    | _ => false)

/-- `AllowBalancesCall::contains`, the call filter of contracts: contracts.rs 14-20. -/
def allowBalancesCall (c : Call) : Bool :=
  match c with
  | .balances .transferAllowDeath => true
  | _ => false

/-- `Utility { .. } | Multisig { .. }`, allowed to every restricted proxy but `NonTransfer`: runtime/kreivo/src/impls.rs 82-83. -/
def isUtilityOrMultisig (c : Call) : Bool :=
  match c.pallet with
  | .utility => true
  | .multisig => true
  | _ => false

/-- `<ProxyType as InstanceFilter>::filter`: runtime/kreivo/src/impls.rs 76-121. -/
def ProxyType.filter (t : ProxyType) (c : Call) : Bool :=
  match t with
  | .any => true
  | .nonTransfer =>
    !(match c.pallet with
      | .balances => true
      | .assets => true
      | _ => false)
  | .cancelProxy =>
    (match c with
      | .rejectAnnouncement _ => true
      | _ => false) || isUtilityOrMultisig c
  | .assets =>
    (match c.pallet with
      | .assets => true
      | _ => false) || isUtilityOrMultisig c
  | .assetOwner =>
    (match c with
      | .assets .create => true
      | .assets .startDestroy => true
      | .assets .destroyAccounts => true
      | .assets .destroyApprovals => true
      | .assets .finishDestroy => true
      | .assets .transferOwnership => true
      | .assets .setTeam => true
      | .assets .setMetadata => true
      | .assets .clearMetadata => true
      | _ => false) || isUtilityOrMultisig c
  | .assetManager =>
    (match c with
      | .assets .mint => true
      | .assets .burn => true
      | .assets .freeze => true
      | .assets .thaw => true
      | .assets .freezeAsset => true
      | .assets .thawAsset => true
      | _ => false) || isUtilityOrMultisig c
  | .collator =>
    (match c.pallet with
      | .collatorSelection => true
      | _ => false) || isUtilityOrMultisig c

/-- `<ProxyType as InstanceFilter>::is_superset`: runtime/kreivo/src/impls.rs 124-134. -/
def ProxyType.isSuperset (a b : ProxyType) : Bool :=
  if a = b then true
  else match a, b with
    | .any, _ => true
    | _, .any => false
    | .assets, .assetOwner => true
    | .assets, .assetManager => true
    | .nonTransfer, .collator => true
    | _, _ => false

/-- `Ordering`. Outside /repo; used at runtime/kreivo/src/impls.rs 138-151. -/
inductive Ord
  | less | equal | greater
  deriving DecidableEq

/-- `EqualOrGreatestRootCmp::cmp_privilege`: runtime/kreivo/src/impls.rs 140-150. -/
def cmpPrivilege (left right : RtOrigin) : Option Ord :=
  if left = right then some .equal
  else match left with
    | .root => some .greater
    | _ => none

/-- How the scheduler (outside `/repo`) uses it: a task may be cancelled or replaced unless the comparison of the
caller with the task's origin is `Less` or undefined (`matches!(cmp, Some(Less) | None)` refuses). -/
def mayTouchTask (caller task : RtOrigin) : Bool :=
  match cmpPrivilege caller task with
  | some .less => false
  | none => false
  | some _ => true

/-! ## Dispatching calls through proxies (pallet_proxy, pallet_utility, pallet_multisig; outside `/repo`) -/

/-- A proxy definition of an account. Outside /repo; used at runtime/kreivo/src/lib.rs 513-526 (pallet_proxy). -/
structure ProxyDef where
  delegate : AccountId
  type : ProxyType
  delay : Nat
  deriving DecidableEq

/-- The chain state and derivations the nested calls depend on: proxies, what delegates have announced for an account
(delegate, account, definition, call) for at least the delay of the definition, derivative and multisig accounts, approvals
collected for multisig calls, which accounts have authority over a community, and which signer may act for which pass
account (as a session key, or by a credential sent along). It is taken as constant while a call
runs. Outside /repo; used at runtime/kreivo/src/lib.rs 484-526 (pallet_multisig, pallet_utility, pallet_proxy) and
pallets/communities/src/lib.rs 569-572; runtime/kreivo/src/lib.rs 210 (pallet_pass). -/
structure Tables where
  proxies : AccountId → List ProxyDef
  announced : AccountId → AccountId → ProxyDef → Call → Bool
  derivative : AccountId → Nat → AccountId
  multiAccount : List AccountId → Nat → AccountId
  approved : AccountId → Call → Bool
  community : AccountId → Option UInt16
  passAs : AccountId → AccountId → Bool

/-- A signed origin with the filters it has collected: the type of the proxy it acts through, and whether `batch_all` is
excluded because it runs inside one. Outside /repo; used at runtime/kreivo/src/configuration/system_support.rs 58-59
(frame_system origins and their filter). -/
structure Sig where
  signer : AccountId
  via : Option ProxyType
  noBatchAll : Bool
  deriving DecidableEq

/-- A fresh `RawOrigin::Signed(a).into()`. `BaseCallFilter` lets everything through. Outside /repo; used at
runtime/kreivo/src/configuration/system_support.rs 58-59 (frame_system origins and their filter). -/
def Sig.fresh (a : AccountId) : Sig := ⟨a, none, false⟩

/-- The filter pallet_proxy adds to the origin (`do_proxy`): a proxy may only add or remove proxies it is a superset of,
only `Any` (the default) may remove all proxies or kill a pure account, otherwise the type's own filter decides. Outside
/repo; used at runtime/kreivo/src/lib.rs 513-526 (pallet_proxy). -/
def proxyFilter (t : ProxyType) (c : Call) : Bool :=
  match c with
  | .addProxy _ u _ => if t.isSuperset u then t.filter c else false
  | .removeProxy _ u _ => if t.isSuperset u then t.filter c else false
  | .removeProxies => if t = .any then t.filter c else false
  | .killPure => if t = .any then t.filter c else false
  | _ => t.filter c

/-- Whether the filters of the origin let the call through. Outside /repo; used at
runtime/kreivo/src/configuration/system_support.rs 58-59 (frame_system origins and their filter). -/
def Sig.allows (o : Sig) (c : Call) : Bool :=
  (match o.via with
    | some t => proxyFilter t c
    | none => true) &&
  (match c with
    | .batchAll _ => !o.noBatchAll
    | _ => true)

/-- `find_proxy(real, delegate, force)`: the first definition for the delegate, of the forced type if one is given.
Outside /repo; used at runtime/kreivo/src/lib.rs 513-526 (pallet_proxy). -/
def findProxy (T : Tables) (real delegate : AccountId) (force : Option ProxyType) : Option ProxyDef :=
  (T.proxies real).find? fun d => decide (d.delegate = delegate) && (match force with
    | some t => decide (d.type = t)
    | none => true)

mutual
/-- All dispatches a call may lead to when dispatched by a signed origin: the call itself if the filters let it through,
and those of the calls it carries, with the origin they get. Whether a dispatch succeeds is left out, so this lists
everything that may be tried. Outside /repo; used at runtime/kreivo/src/lib.rs 484-526 (pallet_multisig, pallet_utility,
pallet_proxy) and pallets/communities/src/lib.rs 569-572. -/
def reached (T : Tables) (o : Sig) (c : Call) : List (Sig × Call) :=
  if o.allows c then (o, c) :: inner T o c else []
/-- The dispatches of the calls carried by a call that passed the filters. Outside /repo; used at
runtime/kreivo/src/lib.rs 484-526 (pallet_multisig, pallet_utility, pallet_proxy) and pallets/communities/src/lib.rs
569-572. -/
def inner (T : Tables) (o : Sig) : Call → List (Sig × Call)
  | .batch cs => reachedAll T o cs
  | .batchAll cs => reachedAll T { o with noBatchAll := true } cs
  | .asDerivative i c => reached T { o with signer := T.derivative o.signer i } c
  | .asMulti1 others c => reached T (.fresh (T.multiAccount (o.signer :: others) 1)) c
  | .asMulti n others c =>
    if T.approved (T.multiAccount (o.signer :: others) n) c then reached T (.fresh (T.multiAccount (o.signer :: others) n)) c
    else []
  | .proxy real force c =>
    match findProxy T real o.signer force with
    | some d => if d.delay = 0 then reached T ⟨real, some d.type, false⟩ c else []
    | none => []
  | .proxyAnnounced delegate real force c =>
    match findProxy T real delegate force with
    | some d => if T.announced delegate real d c then reached T ⟨real, some d.type, false⟩ c else []
    | none => []
  | .dispatchAsAccount c =>
    match T.community o.signer with
    | some id => reached T (.fresh (communityAccount id)) c
    | none => []
  | .passDispatch who c => if T.passAs o.signer who then reached T (.fresh who) c else []
  | _ => []
/-- Several calls with the same origin. Outside /repo; used at runtime/kreivo/src/lib.rs 484-526 (pallet_multisig,
pallet_utility, pallet_proxy) and pallets/communities/src/lib.rs 569-572. -/
def reachedAll (T : Tables) (o : Sig) : List Call → List (Sig × Call)
  | [] => []
  | c :: cs => reached T o c ++ reachedAll T o cs
end

/-- What a contract's `call_runtime` may lead to (pallet_contracts, outside `/repo`, with the filter of contracts.rs 77):
a fresh origin of the contract's account with that filter added. The filter is only looked at for the outermost call
here. -/
def contractReached (T : Tables) (contract : AccountId) (c : Call) : List (Sig × Call) :=
  if allowBalancesCall c then reached T (.fresh contract) c
  else []

end Verif.Runtime
