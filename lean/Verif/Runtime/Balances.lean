import Verif.Accounts.Model
import Mathlib.Algebra.BigOperators.Group.Finset.Basic
import Mathlib.Algebra.BigOperators.Group.Finset.Piecewise

/-!
# The balances pallet

`pallet_balances` (outside `/repo`) as Kreivo configures it: runtime/kreivo/src/configuration/monetary_stuff.rs 12-32. All
its calls are modelled; reserves, holds, locks and freezes are those other pallets make, so they are changed by steps of
their own.
-/

namespace Verif.Runtime.Native

open Verif Verif.Accounts Verif.Runtime

/-- `AccountData`: what is free, what is reserved or on hold, and how much is frozen. Outside /repo; used at
runtime/kreivo/src/configuration/monetary_stuff.rs 16-32 (pallet_balances). -/
structure Acct where
  free : Nat
  reserved : Nat
  frozen : Nat
  deriving DecidableEq

/-- What belongs to the account. Outside /repo; used at runtime/kreivo/src/configuration/monetary_stuff.rs 16-32
(pallet_balances). -/
def Acct.total (a : Acct) : Nat := a.free + a.reserved

/-- The accounts, the issuance on record, and the existential deposit. Outside /repo; used at
runtime/kreivo/src/configuration/monetary_stuff.rs 12-32 (pallet_balances). -/
structure St where
  acc : AccountId → Acct
  issuance : Nat
  ed : Nat

/-- The greatest `Balance`, a `u128`. Outside /repo; used at runtime/kreivo/src/configuration/monetary_stuff.rs 16-32
(pallet_balances). -/
def maxBalance : Nat := 2 ^ 128 - 1

/-- Writing an account: with less than the existential deposit free and nothing reserved it is removed, and the rest is
dust, which `DustRemoval = ()` takes out of the issuance. runtime/kreivo/src/configuration/monetary_stuff.rs 22-23; the
writing is outside /repo (pallet_balances). -/
def put (s : St) (who : AccountId) (a : Acct) : St :=
  if a.free < s.ed ∧ a.reserved = 0 then
    { s with acc := fun b => if b = who then ⟨0, 0, 0⟩ else s.acc b, issuance := s.issuance - a.free }
  else { s with acc := fun b => if b = who then a else s.acc b }

/-- `reducible_balance` with `Polite`: `keep` is `Preserve`, else `Expendable`; `fixed` says whose provider reference is
needed. Outside /repo; used at runtime/kreivo/src/configuration/monetary_stuff.rs 16-32 (pallet_balances). -/
def reducible (fixed : AccountId → Bool) (s : St) (who : AccountId) (keep : Bool) : Nat :=
  let a := s.acc who
  let frozen := a.frozen - a.reserved
  let untouchable := if keep = true ∨ (a.free ≠ 0 ∧ fixed who = true) then max frozen s.ed else frozen
  a.free - untouchable

/-- A transfer, as `fungible::Mutate::transfer` does it. Outside /repo; used at
runtime/kreivo/src/configuration/monetary_stuff.rs 16-32 (pallet_balances). -/
def transfer (fixed : AccountId → Bool) (s : St) (src dst : AccountId) (n : Nat) (keep : Bool) : Option St :=
  if n = 0 then some s
  else if n ≤ reducible fixed s src keep ∧ s.ed ≤ (s.acc dst).free + n ∧ (s.acc dst).free + n ≤ maxBalance ∧
      s.issuance + n ≤ maxBalance then
    if src = dst then some s
    else
      let s1 := put s src { s.acc src with free := (s.acc src).free - n }
      some (put s1 dst { s1.acc dst with free := (s1.acc dst).free + n })
  else none

/-- The calls of the pallet. Outside /repo; used at runtime/kreivo/src/lib.rs 175-291 (pallet_balances). -/
inductive Call
  | transferAllowDeath (dst : AccountId) (n : Nat)
  | transferKeepAlive (dst : AccountId) (n : Nat)
  | transferAll (dst : AccountId) (keep : Bool)
  | burn (n : Nat) (keep : Bool)
  | upgradeAccounts
  | forceTransfer (src dst : AccountId) (n : Nat)
  | forceUnreserve (who : AccountId) (n : Nat)
  | forceSetBalance (who : AccountId) (free : Nat)
  | forceAdjustIssuance (up : Bool) (delta : Nat)

/-- The calls of signed accounts on their own behalf. Outside /repo; used at
runtime/kreivo/src/configuration/monetary_stuff.rs 16-32 (pallet_balances). -/
def byAccount (fixed : AccountId → Bool) (s : St) (who : AccountId) : Call → Option St
  | .transferAllowDeath dst n => transfer fixed s who dst n false
  | .transferKeepAlive dst n => transfer fixed s who dst n true
  | .transferAll dst keep => transfer fixed s who dst (reducible fixed s who keep) keep
  | .burn n keep =>
    if n ≤ reducible fixed s who keep then
      some (put { s with issuance := s.issuance - n } who { s.acc who with free := (s.acc who).free - n })
    else none
  | .upgradeAccounts => some s
  | _ => none

/-- Root's calls. `force_set_balance` sets what is free, nothing if it is below the existential deposit, and adjusts the
issuance by the difference. Outside /repo; used at runtime/kreivo/src/configuration/monetary_stuff.rs 16-32
(pallet_balances). -/
def byRoot (fixed : AccountId → Bool) (s : St) : Call → Option St
  | .forceTransfer src dst n => transfer fixed s src dst n false
  | .forceUnreserve who n =>
    let m := min n (s.acc who).reserved
    some (put s who { s.acc who with free := (s.acc who).free + m, reserved := (s.acc who).reserved - m })
  | .forceSetBalance who free =>
    let f := if free < s.ed then 0 else free
    some { s with
      acc := fun b => if b = who then { s.acc who with free := f } else s.acc b
      issuance := s.issuance - (s.acc who).free + f }
  | .forceAdjustIssuance up delta =>
    if delta = 0 then none
    else some { s with issuance := if up then s.issuance + delta else s.issuance - delta }
  | _ => none

/-- The dispatch of the pallet. Outside /repo; used at runtime/kreivo/src/lib.rs 175-291 (pallet_balances). -/
def dispatch (fixed : AccountId → Bool) (s : St) (o : RtOrigin) (c : Call) : Option St :=
  match o with
  | .signed who => byAccount fixed s who c
  | .root => byRoot fixed s c
  | _ => none

end Verif.Runtime.Native
