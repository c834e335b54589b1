import Verif.Communities.TallyTheorems

/-!
# Assets of Kreivo as communities use them

The calls of pallet_assets (outside `/repo`) that create assets, move them or say who may, with the configuration of
runtime/kreivo/src/configuration/monetary_stuff.rs 71-99: nobody calls `create`, root is the force origin. Assets also come
into being through `set_decision_method` (`createAsset`).

Simplifications: amounts are natural numbers; `start_destroy`, `destroy_accounts` and `finish_destroy` are one call; freezing
and blocking of accounts, approvals, metadata, touching and giving accounts up are left out, and what is said here is about the
calls that are modelled and accounts of which nothing is frozen: the calls left out move units too (by approval) or lose them
(giving up), and frozen units do not move. Runtime/AssetPallet is the full model of the pallet, with all of these; what is left
below the minimum balance goes along with a transfer or a burn.
-/

namespace Verif.Communities

open Verif Verif.Accounts

/-- Calls of pallet_assets. Outside /repo; used at runtime/kreivo/src/configuration/monetary_stuff.rs 75-99
(pallet_assets). -/
inductive ACall
  | create (k : AssetKey) (admin : AccountId) (min : Nat)
  | forceCreate (k : AssetKey) (owner : AccountId) (sufficient : Bool) (min : Nat)
  | forceStatus (k : AssetKey) (t : Team) (min : Nat)
  | transferOwnership (k : AssetKey) (owner : AccountId)
  | setTeam (k : AssetKey) (issuer admin freezer : AccountId)
  | mint (k : AssetKey) (who : AccountId) (n : Nat)
  | burn (k : AssetKey) (who : AccountId) (n : Nat)
  | transfer (k : AssetKey) (dst : AccountId) (n : Nat)
  | forceTransfer (k : AssetKey) (src dst : AccountId) (n : Nat)
  | destroy (k : AssetKey)
  deriving DecidableEq

/-- Set the balance of one account in one asset. Outside /repo; used at runtime/kreivo/src/configuration/monetary_stuff.rs
75-99 (pallet_assets). -/
def World.setAsset (w : World) (k : AssetKey) (who : AccountId) (n : Nat) : World :=
  { w with asset := fun k' a => if k' = k ∧ a = who then n else w.asset k' a }

/-- Write minimum and team of an asset. Outside /repo; used at runtime/kreivo/src/configuration/monetary_stuff.rs 75-99
(pallet_assets). -/
def World.define (w : World) (k : AssetKey) (min : Nat) (t : Team) : World :=
  { w with
    assetMin := fun k' => if k' = k then some min else w.assetMin k'
    team := fun k' => if k' = k then t else w.team k' }

/-- What really leaves an account: the amount, and the rest with it if it is below the minimum. Outside /repo; used at
runtime/kreivo/src/configuration/monetary_stuff.rs 75-99 (pallet_assets). -/
def leaving (min balance n : Nat) : Nat := if balance - n < min then balance else n

/-- Take from one account and give to another. Outside /repo; used at runtime/kreivo/src/configuration/monetary_stuff.rs
75-99 (pallet_assets). -/
def World.moveAsset (w : World) (k : AssetKey) (min : Nat) (src dst : AccountId) (n : Nat) : Option World :=
  if w.asset k src < n ∨ w.asset k dst + n < min then none
  else if src = dst then some w
  else
    let m := leaving min (w.asset k src) n
    some ((w.setAsset k src (w.asset k src - m)).setAsset k dst (w.asset k dst + m))

/-- The signer, if the asset exists, with its minimum. Outside /repo; used at
runtime/kreivo/src/configuration/monetary_stuff.rs 75-99 (pallet_assets). -/
def signerAnd (w : World) (o : Origin) (k : AssetKey) : Option (AccountId × Nat) :=
  match o, w.assetMin k with
  | .signed a, some min => some (a, min)
  | _, _ => none

/-- Dispatch of a call of pallet_assets; none is an error. Outside /repo; used at
runtime/kreivo/src/configuration/monetary_stuff.rs 75-99 (pallet_assets). -/
def assetCall (w : World) (o : Origin) : ACall → Option World
  | .create _ _ _ => none
  | .forceCreate k owner sufficient min =>
    match o with
    | .root => if w.assetMin k ≠ none ∨ min = 0 then none else some (w.define k min ⟨owner, owner, owner, owner, sufficient⟩)
    | _ => none
  | .forceStatus k t min =>
    match o with
    | .root => if w.assetMin k = none ∨ min = 0 then none else some (w.define k min t)
    | _ => none
  | .transferOwnership k owner =>
    match signerAnd w o k with
    | some (a, min) => if a = (w.team k).owner then some (w.define k min { w.team k with owner := owner }) else none
    | none => none
  | .setTeam k issuer admin freezer =>
    match signerAnd w o k with
    | some (a, min) =>
      if a = (w.team k).owner then
        some (w.define k min ⟨(w.team k).owner, issuer, admin, freezer, (w.team k).sufficient⟩)
      else none
    | none => none
  | .mint k who n =>
    match signerAnd w o k with
    | some (a, min) =>
      if a = (w.team k).issuer ∧ min ≤ w.asset k who + n then
        some { w.setAsset k who (w.asset k who + n) with
               assetIssuance := fun k' => if k' = k then w.assetIssuance k + n else w.assetIssuance k' }
      else none
    | none => none
  | .burn k who n =>
    match signerAnd w o k with
    | some (a, min) =>
      if a = (w.team k).admin then
        let m := leaving min (w.asset k who) (Nat.min n (w.asset k who))
        some { w.setAsset k who (w.asset k who - m) with
               assetIssuance := fun k' => if k' = k then w.assetIssuance k - m else w.assetIssuance k' }
      else none
    | none => none
  | .transfer k dst n =>
    match signerAnd w o k with
    | some (a, min) => w.moveAsset k min a dst n
    | none => none
  | .forceTransfer k src dst n =>
    match signerAnd w o k with
    | some (a, min) => if a = (w.team k).admin then w.moveAsset k min src dst n else none
    | none => none
  | .destroy k =>
    if w.assetMin k = none then none
    else if o = .root ∨ o = .signed (w.team k).owner then
      some { w with
        asset := fun k' a => if k' = k then 0 else w.asset k' a
        assetIssuance := fun k' => if k' = k then 0 else w.assetIssuance k'
        assetMin := fun k' => if k' = k then none else w.assetMin k' }
    else none

/-- What calls of other pallets, and the rest of the chain, do not do to asset `k`: create or destroy it, change its team, or
issue units of it. Specification only, no code behind it (outside /repo). -/
def Leaves (k : AssetKey) (w w' : World) : Prop :=
  w'.assetMin k = w.assetMin k ∧ w'.team k = w.team k ∧ w'.assetIssuance k ≤ w.assetIssuance k ∧
    ((∀ a, w.asset k a = 0) → ∀ a, w'.asset k a = 0)

/-- Calls of other pallets are those of pallet_assets, or leave asset `k`. Specification only, no code behind it (outside
/repo). -/
def AssetLaw (k : AssetKey) (env : Env) : Prop :=
  ∀ n o w w', env.foreign n o w = some w' → (∃ c, assetCall w o c = some w') ∨ Leaves k w w'

/-- Kreivo's assets behind any numbering of their calls. Specification only, no code behind it (outside /repo). -/
def withAssets (env : Env) (table : Nat → ACall) : Env := { env with foreign := fun n o w => assetCall w o (table n) }

end Verif.Communities
