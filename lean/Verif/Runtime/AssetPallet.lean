import Verif.Accounts.OriginTheorems
import Verif.Runtime.Block

/-!
# The assets pallet

`pallet_assets` and `pallet_assets_freezer` (outside `/repo`) as Kreivo configures them:
runtime/kreivo/src/configuration/monetary_stuff.rs 50-99. All calls are modelled but those about metadata, which touch nothing
here. What is frozen is changed by the pallets that freeze (communities freeze for votes), what XCM and the treasury issue or
burn comes in by steps of its own.

Simplifications: counters and amounts are natural numbers, with the checks of the code against the greatest balance; what the
native currency and the reference counters of accounts allow is given from outside (`Env`); units put on hold (payments) have
left `balance`, and holding them is not a step here; `destroy_accounts` and `destroy_approvals` take the entries to remove as
an argument, where the code takes the first ones in storage.
-/

namespace Verif.Runtime.Units

open Verif Verif.Accounts

/-- An asset, `FungibleAssetLocation`, by number. runtime/kreivo/src/configuration/monetary_stuff.rs 78 -/
abbrev Key := Nat

/-- `AssetStatus`. Outside /repo; used at runtime/kreivo/src/configuration/monetary_stuff.rs 75-99 (pallet_assets). -/
inductive Status
  | live
  | frozen
  | destroying
  deriving DecidableEq

/-- `AccountStatus`. Outside /repo; used at runtime/kreivo/src/configuration/monetary_stuff.rs 75-99 (pallet_assets). -/
inductive Hand
  | liquid
  | frozen
  | blocked
  deriving DecidableEq

/-- `ExistenceReason`: why an account of an asset is there. Outside /repo; used at
runtime/kreivo/src/configuration/monetary_stuff.rs 75-99 (pallet_assets). -/
inductive Reason
  | consumer
  | sufficient
  | held (n : Nat)
  | lent (by_ : AccountId) (n : Nat)
  deriving DecidableEq

/-- Accounts somebody left a deposit for stay when they are empty. Outside /repo; used at
runtime/kreivo/src/configuration/monetary_stuff.rs 94 (`dead_account` of pallet_assets). -/
def Reason.pinned : Reason → Bool
  | .held _ => true
  | .lent _ _ => true
  | _ => false

/-- `AssetAccount`. Outside /repo; used at runtime/kreivo/src/configuration/monetary_stuff.rs 75-99 (pallet_assets). -/
structure Acct where
  balance : Nat
  status : Hand
  reason : Reason
  deriving DecidableEq

/-- `AssetDetails`. Outside /repo; used at runtime/kreivo/src/configuration/monetary_stuff.rs 75-99 (pallet_assets). -/
structure Info where
  owner : AccountId
  issuer : AccountId
  admin : AccountId
  freezer : AccountId
  supply : Nat
  min : Nat
  sufficient : Bool
  accounts : Nat
  approvals : Nat
  status : Status
  deriving DecidableEq

/-- `Approval`: what a delegate may still take, and what was deposited for it. Outside /repo; used at
runtime/kreivo/src/configuration/monetary_stuff.rs 87 (pallet_assets). -/
structure Leave where
  amount : Nat
  deposit : Nat
  deriving DecidableEq

/-- The storage of both pallets, and what accounts have reserved for deposits. `appr` takes the holder, then the delegate;
`ice` is what is frozen on an account. Outside /repo; used at runtime/kreivo/src/configuration/monetary_stuff.rs 50-99
(pallet_assets, pallet_assets_freezer). -/
structure St where
  info : Key → Option Info
  acct : Key → AccountId → Option Acct
  appr : Key → AccountId → AccountId → Option Leave
  ice : Key → AccountId → Option Nat
  reserved : AccountId → Nat

/-- What the rest of the chain has to say: whether an account can reserve an amount, whether it can take two more consumer
references, and the cents deposits are counted in. Outside /repo; used at
runtime/kreivo/src/configuration/monetary_stuff.rs 75-99 (pallet_assets). -/
structure Env where
  canReserve : AccountId → Nat → Bool
  consumers : AccountId → Bool
  cents : Nat

/-- `ApprovalDeposit`: runtime/kreivo/src/configuration/monetary_stuff.rs 62 -/
def Env.approvalDeposit (env : Env) : Nat := existentialDeposit env.cents

/-- `AssetAccountDeposit`: runtime/kreivo/src/configuration/monetary_stuff.rs 61 -/
def Env.accountDeposit (env : Env) : Nat := deposit env.cents 1 16

/-- The greatest `Balance`, a `u128`. Outside /repo; used at runtime/kreivo/src/configuration/monetary_stuff.rs 77
(pallet_assets). -/
def maxUnits : Nat := 2 ^ 128 - 1

/-- Write one account. Outside /repo; used at runtime/kreivo/src/configuration/monetary_stuff.rs 75-99 (pallet_assets). -/
def St.setAcct (s : St) (k : Key) (who : AccountId) (v : Option Acct) : St :=
  { s with acct := fun k' a => if k' = k ∧ a = who then v else s.acct k' a }

/-- Write the details of an asset. Outside /repo; used at runtime/kreivo/src/configuration/monetary_stuff.rs 75-99
(pallet_assets). -/
def St.setInfo (s : St) (k : Key) (v : Option Info) : St :=
  { s with info := fun k' => if k' = k then v else s.info k' }

/-- Write one approval. Outside /repo; used at runtime/kreivo/src/configuration/monetary_stuff.rs 87 (pallet_assets). -/
def St.setAppr (s : St) (k : Key) (owner delegate : AccountId) (v : Option Leave) : St :=
  { s with appr := fun k' a b => if k' = k ∧ a = owner ∧ b = delegate then v else s.appr k' a b }

/-- Write what is frozen on an account. Outside /repo; used at runtime/kreivo/src/configuration/monetary_stuff.rs 50-55, 89
(pallet_assets_freezer). -/
def St.setIce (s : St) (k : Key) (who : AccountId) (v : Option Nat) : St :=
  { s with ice := fun k' a => if k' = k ∧ a = who then v else s.ice k' a }

/-- Reserve more of an account's native money. Outside /repo; used at runtime/kreivo/src/configuration/monetary_stuff.rs 80
(pallet_assets). -/
def St.reserve (s : St) (who : AccountId) (n : Nat) : St :=
  { s with reserved := fun a => if a = who then s.reserved a + n else s.reserved a }

/-- Give back what was reserved. Outside /repo; used at runtime/kreivo/src/configuration/monetary_stuff.rs 80
(pallet_assets). -/
def St.unreserve (s : St) (who : AccountId) (n : Nat) : St :=
  { s with reserved := fun a => if a = who then s.reserved a - n else s.reserved a }

/-- `reducible_balance`: none is an error. Outside /repo; used at runtime/kreivo/src/configuration/monetary_stuff.rs 75-99
(pallet_assets). -/
def reducible (s : St) (k : Key) (who : AccountId) (keep : Bool) : Option Nat :=
  match s.info k, s.acct k who with
  | some d, some a =>
    if d.status ≠ .live ∨ a.status ≠ .liquid then none
    else
      match s.ice k who with
      | some f => if maxUnits < f + d.min then none else some (Nat.min (a.balance - (f + d.min)) d.supply)
      | none => some (Nat.min (if keep then a.balance - d.min else a.balance) d.supply)
  | _, _ => none

/-- `prep_debit`: what leaves an account when `n` are asked for, the rest too if it is below the minimum. With `best`, as much
of it as there is. Outside /repo; used at runtime/kreivo/src/configuration/monetary_stuff.rs 75-99 (pallet_assets). -/
def debit (s : St) (k : Key) (who : AccountId) (n : Nat) (keep best : Bool) : Option Nat :=
  match s.info k, s.acct k who, reducible s k who keep with
  | some d, some a, some r =>
    let m := Nat.min r n
    if best = false ∧ m < n then none
    else if m = 0 then some 0
    else if a.balance - m < d.min then (if keep then none else some (m + (a.balance - m)))
    else some m
  | _, _, _ => none

/-- `can_increase` without new supply: whether an account can be given `n`. Outside /repo; used at
runtime/kreivo/src/configuration/monetary_stuff.rs 75-99 (pallet_assets). -/
def canGet (env : Env) (s : St) (k : Key) (who : AccountId) (n : Nat) : Bool :=
  match s.info k with
  | none => false
  | some d =>
    d.status ≠ .destroying &&
      match s.acct k who with
      | some a => a.status ≠ .blocked && a.balance + n ≤ maxUnits
      | none => d.min ≤ n && (d.sufficient || env.consumers who)

/-- Put `n` on an account, which is made if it is not there. Outside /repo; used at
runtime/kreivo/src/configuration/monetary_stuff.rs 75-99 (pallet_assets). -/
def give (s : St) (k : Key) (who : AccountId) (n : Nat) : St :=
  match s.info k, s.acct k who with
  | _, some a => s.setAcct k who (some { a with balance := a.balance + n })
  | some d, none =>
    (s.setAcct k who (some ⟨n, .liquid, if d.sufficient then .sufficient else .consumer⟩)).setInfo k
      (some { d with accounts := d.accounts + 1 })
  | none, none => s

/-- Remove an account, and with it what was frozen there. Outside /repo; used at
runtime/kreivo/src/configuration/monetary_stuff.rs 89 (`dead_account` of pallet_assets, `died` of pallet_assets_freezer). -/
def drop (s : St) (k : Key) (who : AccountId) : St :=
  match s.info k with
  | some d => ((s.setAcct k who none).setInfo k (some { d with accounts := d.accounts - 1 })).setIce k who none
  | none => s

/-- Take `n` off an account, which goes if less than the minimum is left and nobody left a deposit for it. Outside /repo; used
at runtime/kreivo/src/configuration/monetary_stuff.rs 75-99 (pallet_assets). -/
def take (s : St) (k : Key) (who : AccountId) (n : Nat) : St :=
  match s.info k, s.acct k who with
  | some d, some a =>
    if a.balance - n < d.min ∧ a.reason.pinned = false then drop s k who
    else s.setAcct k who (some { a with balance := a.balance - n })
  | _, _ => s

/-- `transfer_and_die` without the check of the admin. Outside /repo; used at
runtime/kreivo/src/configuration/monetary_stuff.rs 75-99 (pallet_assets). -/
def move (env : Env) (s : St) (k : Key) (src dst : AccountId) (n : Nat) (keep : Bool) : Option St :=
  if n = 0 then some s
  else
    match debit s k src n keep false with
    | some m =>
      if canGet env s k dst m then
        if src = dst then some s else some (take (give s k dst m) k src m)
      else none
    | none => none

/-- Change the supply. Outside /repo; used at runtime/kreivo/src/configuration/monetary_stuff.rs 75-99 (pallet_assets). -/
def St.setSupply (s : St) (k : Key) (f : Nat → Nat) : St :=
  s.setInfo k ((s.info k).map fun d => { d with supply := f d.supply })

/-- `do_mint`; `by_` is whom the issuer has to be, if anybody. Outside /repo; used at
runtime/kreivo/src/configuration/monetary_stuff.rs 75-99 (pallet_assets). -/
def mint (env : Env) (s : St) (k : Key) (by_ : Option AccountId) (who : AccountId) (n : Nat) : Option St :=
  if n = 0 then some s
  else
    match s.info k with
    | some d =>
      if d.status = .live ∧ (∀ a, by_ = some a → a = d.issuer) ∧ d.supply + n ≤ maxUnits ∧ canGet env s k who n then
        some ((give s k who n).setSupply k (· + n))
      else none
    | none => none

/-- `do_burn`; `by_` is whom the admin has to be, if anybody. Outside /repo; used at
runtime/kreivo/src/configuration/monetary_stuff.rs 75-99 (pallet_assets). -/
def burn (s : St) (k : Key) (by_ : Option AccountId) (who : AccountId) (n : Nat) (best : Bool) : Option St :=
  match s.info k with
  | some d =>
    if d.status = .destroying then none
    else if n = 0 then some s
    else
      match debit s k who n false best with
      | some m => if ∀ a, by_ = some a → a = d.admin then some ((take s k who m).setSupply k (· - m)) else none
      | none => none
  | none => none

/-- `do_touch`: an empty account somebody leaves a deposit for. Outside /repo; used at
runtime/kreivo/src/configuration/monetary_stuff.rs 94 (pallet_assets). -/
def touch (env : Env) (s : St) (k : Key) (who by_ : AccountId) : Option St :=
  match s.info k, s.acct k who with
  | some d, none =>
    if d.status = .live ∧ env.canReserve by_ env.accountDeposit = true then
      some (((s.reserve by_ env.accountDeposit).setAcct k who
        (some ⟨0, .liquid, if by_ = who then .held env.accountDeposit else .lent by_ env.accountDeposit⟩)).setInfo k
        (some { d with accounts := d.accounts + 1 }))
    else none
  | _, _ => none

/-- The deposit for an account goes back to who left it. Outside /repo; used at
runtime/kreivo/src/configuration/monetary_stuff.rs 94 (pallet_assets). -/
def payBack (s : St) (who : AccountId) : Reason → St
  | .held n => s.unreserve who n
  | .lent by_ n => s.unreserve by_ n
  | _ => s

/-- `do_refund`: the holder gives the account up, with what is on it if they say so. Outside /repo; used at
runtime/kreivo/src/configuration/monetary_stuff.rs 94 (pallet_assets). -/
def refund (s : St) (k : Key) (who : AccountId) (burning : Bool) : Option St :=
  match s.info k, s.acct k who with
  | some d, some a =>
    if d.status = .destroying ∨ (a.balance ≠ 0 ∧ burning = false) then none
    else
      match a.reason with
      | .consumer => some (drop s k who)
      | .held n => some (drop (s.unreserve who n) k who)
      | _ => none
  | _, _ => none

/-- `do_refund_other`: who lent the deposit, or the admin, gives an empty account up. Outside /repo; used at
runtime/kreivo/src/configuration/monetary_stuff.rs 94 (pallet_assets). -/
def refundOther (s : St) (k : Key) (who by_ : AccountId) : Option St :=
  match s.info k, s.acct k who with
  | some d, some a =>
    match a.reason with
    | .lent lender n =>
      if d.status = .live ∧ a.status = .liquid ∧ (by_ = lender ∨ by_ = d.admin) ∧ a.balance = 0 then
        some (drop (s.unreserve lender n) k who)
      else none
    | _ => none
  | _, _ => none

/-- `do_approve_transfer`: more for a delegate; the deposit is reserved once. Outside /repo; used at
runtime/kreivo/src/configuration/monetary_stuff.rs 87 (pallet_assets). -/
def approve (env : Env) (s : St) (k : Key) (owner delegate : AccountId) (n : Nat) : Option St :=
  match s.info k with
  | some d =>
    if d.status ≠ .live then none
    else
      let old := (s.appr k owner delegate).getD ⟨0, 0⟩
      let more := env.approvalDeposit - old.deposit
      if more ≠ 0 ∧ env.canReserve owner more = false then none
      else
        some (((s.reserve owner more).setAppr k owner delegate
          (some ⟨Nat.min (old.amount + n) maxUnits, Nat.max old.deposit env.approvalDeposit⟩)).setInfo k
          (some { d with approvals := d.approvals + (if s.appr k owner delegate = none then 1 else 0) }))
  | none => none

/-- An approval goes, and its deposit comes back. Outside /repo; used at runtime/kreivo/src/configuration/monetary_stuff.rs 87
(pallet_assets). -/
def unapprove (s : St) (k : Key) (owner delegate : AccountId) : Option St :=
  match s.info k, s.appr k owner delegate with
  | some d, some p =>
    some (((s.unreserve owner p.deposit).setAppr k owner delegate none).setInfo k
      (some { d with approvals := d.approvals - 1 }))
  | _, _ => none

/-- `do_transfer_approved`. Outside /repo; used at runtime/kreivo/src/configuration/monetary_stuff.rs 87 (pallet_assets). -/
def transferApproved (env : Env) (s : St) (k : Key) (owner delegate dst : AccountId) (n : Nat) : Option St :=
  match s.info k, s.appr k owner delegate with
  | some d, some p =>
    if d.status ≠ .live ∨ p.amount < n then none
    else
      match move env s k owner dst n false with
      | some s' =>
        if p.amount - n = 0 then unapprove s' k owner delegate
        else some (s'.setAppr k owner delegate (some { p with amount := p.amount - n }))
      | none => none
  | _, _ => none

/-- One account of an asset that is being destroyed goes. Outside /repo; used at
runtime/kreivo/src/configuration/monetary_stuff.rs 95 (`do_destroy_accounts` of pallet_assets). -/
def destroyAccount (k : Key) (s : St) (who : AccountId) : St :=
  match s.acct k who with
  | some a => drop (payBack s who a.reason) k who
  | none => s

/-- One approval of an asset that is being destroyed goes. Outside /repo; used at
runtime/kreivo/src/configuration/monetary_stuff.rs 95 (`do_destroy_approvals` of pallet_assets). -/
def destroyApproval (k : Key) (s : St) (x : AccountId × AccountId) : St := (unapprove s k x.1 x.2).getD s

/-- Write the status of an account. Outside /repo; used at runtime/kreivo/src/configuration/monetary_stuff.rs 75-99
(pallet_assets). -/
def setHand (s : St) (k : Key) (who : AccountId) (h : Hand) : Option St :=
  (s.acct k who).map fun a => s.setAcct k who (some { a with status := h })

/-- Calls of pallet_assets. Outside /repo; used at runtime/kreivo/src/configuration/monetary_stuff.rs 75-99
(pallet_assets). -/
inductive Call
  | create (k : Key) (admin : AccountId) (min : Nat)
  | forceCreate (k : Key) (owner : AccountId) (sufficient : Bool) (min : Nat)
  | startDestroy (k : Key)
  | destroyAccounts (k : Key) (l : List AccountId)
  | destroyApprovals (k : Key) (l : List (AccountId × AccountId))
  | finishDestroy (k : Key)
  | mint (k : Key) (who : AccountId) (n : Nat)
  | burn (k : Key) (who : AccountId) (n : Nat)
  | transfer (k : Key) (dst : AccountId) (n : Nat)
  | transferKeepAlive (k : Key) (dst : AccountId) (n : Nat)
  | forceTransfer (k : Key) (src dst : AccountId) (n : Nat)
  | freeze (k : Key) (who : AccountId)
  | thaw (k : Key) (who : AccountId)
  | freezeAsset (k : Key)
  | thawAsset (k : Key)
  | transferOwnership (k : Key) (owner : AccountId)
  | setTeam (k : Key) (issuer admin freezer : AccountId)
  | forceAssetStatus (k : Key) (owner issuer admin freezer : AccountId) (min : Nat) (sufficient frozen : Bool)
  | approveTransfer (k : Key) (delegate : AccountId) (n : Nat)
  | cancelApproval (k : Key) (delegate : AccountId)
  | forceCancelApproval (k : Key) (owner delegate : AccountId)
  | transferApproved (k : Key) (owner dst : AccountId) (n : Nat)
  | touch (k : Key)
  | refund (k : Key) (burning : Bool)
  | setMinBalance (k : Key) (min : Nat)
  | touchOther (k : Key) (who : AccountId)
  | refundOther (k : Key) (who : AccountId)
  | block (k : Key) (who : AccountId)
  deriving DecidableEq

/-- A call signed by an account. Outside /repo; used at runtime/kreivo/src/configuration/monetary_stuff.rs 75-99
(pallet_assets). -/
def bySigner (env : Env) (s : St) (by_ : AccountId) : Call → Option St
  | .startDestroy k =>
    match s.info k with
    | some d => if by_ = d.owner then some (s.setInfo k (some { d with status := .destroying })) else none
    | none => none
  | .destroyAccounts k l =>
    match s.info k with
    | some d => if d.status = .destroying ∧ l.length ≤ 1000 then some (l.foldl (destroyAccount k) s) else none
    | none => none
  | .destroyApprovals k l =>
    match s.info k with
    | some d => if d.status = .destroying ∧ l.length ≤ 1000 then some (l.foldl (destroyApproval k) s) else none
    | none => none
  | .finishDestroy k =>
    match s.info k with
    | some d => if d.status = .destroying ∧ d.accounts = 0 ∧ d.approvals = 0 then some (s.setInfo k none) else none
    | none => none
  | .mint k who n => mint env s k (some by_) who n
  | .burn k who n => burn s k (some by_) who n true
  | .transfer k dst n => move env s k by_ dst n false
  | .transferKeepAlive k dst n => move env s k by_ dst n true
  | .forceTransfer k src dst n =>
    match s.info k with
    | some d => if n = 0 ∨ by_ = d.admin then move env s k src dst n false else none
    | none => if n = 0 then some s else none
  | .freeze k who =>
    match s.info k with
    | some d => if d.status ≠ .destroying ∧ by_ = d.freezer then setHand s k who .frozen else none
    | none => none
  | .thaw k who =>
    match s.info k with
    | some d => if d.status ≠ .destroying ∧ by_ = d.admin then setHand s k who .liquid else none
    | none => none
  | .freezeAsset k =>
    match s.info k with
    | some d => if d.status = .live ∧ by_ = d.freezer then some (s.setInfo k (some { d with status := .frozen })) else none
    | none => none
  | .thawAsset k =>
    match s.info k with
    | some d => if d.status = .frozen ∧ by_ = d.admin then some (s.setInfo k (some { d with status := .live })) else none
    | none => none
  | .transferOwnership k owner =>
    match s.info k with
    | some d => if d.status = .live ∧ by_ = d.owner then some (s.setInfo k (some { d with owner := owner })) else none
    | none => none
  | .setTeam k issuer admin freezer =>
    match s.info k with
    | some d =>
      if d.status = .live ∧ by_ = d.owner then
        some (s.setInfo k (some { d with issuer := issuer, admin := admin, freezer := freezer }))
      else none
    | none => none
  | .approveTransfer k delegate n => approve env s k by_ delegate n
  | .cancelApproval k delegate =>
    match s.info k with
    | some d => if d.status = .live then unapprove s k by_ delegate else none
    | none => none
  | .forceCancelApproval k owner delegate =>
    match s.info k with
    | some d => if d.status = .live ∧ by_ = d.admin then unapprove s k owner delegate else none
    | none => none
  | .transferApproved k owner dst n => transferApproved env s k owner by_ dst n
  | .touch k => touch env s k by_ by_
  | .refund k burning => refund s k by_ burning
  | .setMinBalance k min =>
    match s.info k with
    | some d =>
      if by_ = d.owner ∧ ((min < d.min ∧ d.sufficient = false) ∨ d.accounts = 0) then
        some (s.setInfo k (some { d with min := min }))
      else none
    | none => none
  | .touchOther k who =>
    match s.info k with
    | some d => if by_ = d.admin ∨ by_ = d.freezer then touch env s k who by_ else none
    | none => none
  | .refundOther k who => refundOther s k who by_
  | .block k who =>
    match s.info k with
    | some d => if d.status ≠ .destroying ∧ by_ = d.freezer then setHand s k who .blocked else none
    | none => none
  | .create _ _ _ => none
  | .forceCreate _ _ _ _ => none
  | .forceAssetStatus _ _ _ _ _ _ _ _ => none

/-- A call by root, the force origin. runtime/kreivo/src/configuration/monetary_stuff.rs 70, 82-83; the calls are outside
/repo (pallet_assets). -/
def byRoot (s : St) : Call → Option St
  | .forceCreate k owner sufficient min =>
    if s.info k ≠ none ∨ min = 0 then none
    else some (s.setInfo k (some ⟨owner, owner, owner, owner, 0, min, sufficient, 0, 0, .live⟩))
  | .startDestroy k =>
    match s.info k with
    | some d => some (s.setInfo k (some { d with status := .destroying }))
    | none => none
  | .forceAssetStatus k owner issuer admin freezer min sufficient frozen =>
    match s.info k with
    | some d =>
      if d.status = .destroying then none
      else
        some (s.setInfo k (some { d with
          owner := owner, issuer := issuer, admin := admin, freezer := freezer, min := min, sufficient := sufficient
          status := if frozen then .frozen else .live }))
    | none => none
  | .forceCancelApproval k owner delegate =>
    match s.info k with
    | some d => if d.status = .live then unapprove s k owner delegate else none
    | none => none
  | _ => none

/-- Dispatch of a call; none is an error. runtime/kreivo/src/configuration/monetary_stuff.rs 82-83 (nobody calls `create`,
root is the force origin); the calls are outside /repo (pallet_assets). -/
def call (env : Env) (s : St) : RtOrigin → Call → Option St
  | .signed a, c => bySigner env s a c
  | .root, c => byRoot s c
  | _, _ => none

/-- What an account has of an asset. Outside /repo; used at runtime/kreivo/src/configuration/monetary_stuff.rs 75-99
(pallet_assets). -/
def St.has (s : St) (k : Key) (who : AccountId) : Nat := ((s.acct k who).map (·.balance)).getD 0

/-- The supply on record. Outside /repo; used at runtime/kreivo/src/configuration/monetary_stuff.rs 75-99 (pallet_assets). -/
def St.supply (s : St) (k : Key) : Nat := ((s.info k).map (·.supply)).getD 0

/-- What other pallets do to assets: make them (`set_decision_method` of communities), issue, burn, move them, freeze some of
an account. Part of the transition system around the code (outside /repo). -/
inductive Other
  | make (k : Key) (owner : AccountId) (sufficient : Bool) (min : Nat)
  | mintInto (k : Key) (who : AccountId) (n : Nat)
  | burnFrom (k : Key) (who : AccountId) (n : Nat) (best : Bool)
  | transfer (k : Key) (src dst : AccountId) (n : Nat) (keep : Bool)
  | setFrozen (k : Key) (who : AccountId) (f : Option Nat)

/-- Their effect. Part of the transition system around the code (outside /repo). -/
def other (env : Env) (s : St) : Other → Option St
  | .make k owner sufficient min => byRoot s (.forceCreate k owner sufficient min)
  | .mintInto k who n => mint env s k none who n
  | .burnFrom k who n best => burn s k none who n best
  | .transfer k src dst n keep => move env s k src dst n keep
  | .setFrozen k who f => some (s.setIce k who f)

/-- Histories of calls and of what other pallets do. Part of the transition system around the code (outside /repo). -/
inductive Step
  | call (o : RtOrigin) (c : Call)
  | other (x : Other)

/-- One step. Part of the transition system around the code (outside /repo). -/
def step (env : Env) (s : St) : Step → Option St
  | .call o c => call env s o c
  | .other x => other env s x

/-- What is reached by steps that succeed (what fails changes nothing); the environment may be another each time. Part of the
transition system around the code (outside /repo). -/
inductive Reach (z : St) : List Step → St → Prop
  | refl : Reach z [] z
  | step {l : List Step} {s s' : St} (env : Env) (x : Step) (h : Reach z l s) (hs : step env s x = some s') :
      Reach z (x :: l) s'

/-- Nothing yet. Part of the transition system around the code (outside /repo). -/
def genesis : St := ⟨fun _ => none, fun _ _ => none, fun _ _ _ => none, fun _ _ => none, fun _ => 0⟩

end Verif.Runtime.Units
