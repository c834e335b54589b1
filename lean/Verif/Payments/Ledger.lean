/-!
# Asset ledger used by the payments pallet

The payments pallet only touches balances through the `fungibles` traits of the
configured `T::Assets` (pallets/payments/src/lib.rs:88-93). That implementation
(pallet-assets with holds) is not part of /repo; this file is its assumed
contract (see DESIGN.md, trusted base). What an operation does when it succeeds is fixed;
whether it is refused for reasons outside this model (frozen account, too many
holds, blocked destination, existence of accounts ...) is left to an arbitrary oracle.
-/

namespace Verif.Payments

/-- `T::AccountId` (a 32 byte string; the number is its big endian value, so that the order
used by `BTreeMap` in pallets/payments/src/types.rs:120 is the order of `Nat`). Simplification: unbounded. -/
abbrev Acct := Nat
/-- `AssetIdOf<T>`, pallets/payments/src/types.rs:11. -/
abbrev Asset := Nat
/-- `T::PaymentId`, pallets/payments/src/lib.rs:114. On Kreivo the u64 form of `virto_common::PaymentId`. -/
abbrev PId := Nat
/-- `BlockNumberFor<T>`. Outside /repo; used at pallets/payments/src/lib.rs 116 (frame_system). -/
abbrev Block := Nat

/-- Largest value of the balance type (`Balance = u128` on Kreivo, runtime/kreivo/src/payments.rs:78). -/
def BAL_MAX : Nat := 2 ^ 128 - 1

/-- `Saturating::saturating_add` on balances (used in pallets/payments/src/lib.rs:559-561, 617-619, 633, pallets/payments/src/types.rs:127-139). -/
def satAdd (a b : Nat) : Nat := min (a + b) BAL_MAX

/-- Balance of one account in one asset: spendable part, and part on hold for
`HoldReason::TransferPayment` (pallets/payments/src/lib.rs:251-255). -/
structure Bal where
  free : Nat
  held : Nat
deriving DecidableEq, Repr

/-- The asset ledger. `swept`/`burned` are ghost counters of the dust (remainder below the asset's
minimum) moved along with, respectively destroyed by, transfers that may empty the source. Outside /repo; used at
pallets/payments/src/lib.rs 89-93 (the fungibles traits of T::Assets). -/
structure Ledger where
  bal : Asset → Acct → Bal
  minBal : Asset → Nat
  swept : Asset → Nat
  burned : Asset → Nat

/-- `Preservation` argument of `transfer` (`Expendable` / `Preserve`, pallets/payments/src/lib.rs:378, 572, 595, 700). -/
inductive Keep
  | expendable
  | preserve
deriving DecidableEq, Repr

/-- A ledger operation requested by the pallet. Outside /repo; used at pallets/payments/src/lib.rs 89-93 (the fungibles
traits of T::Assets). -/
inductive LOp
  | hold (a : Asset) (who : Acct) (amt : Nat)
  | release (a : Asset) (who : Acct) (amt : Nat)
  | transfer (a : Asset) (src dst : Acct) (amt : Nat) (k : Keep)
  | transferAndHold (a : Asset) (src dst : Acct) (amt : Nat)
deriving DecidableEq, Repr

/-- What happens to a remainder below the minimum balance after an `Expendable` transfer. Outside /repo; used at
pallets/payments/src/lib.rs 89-93 (the fungibles traits of T::Assets). -/
inductive Dust
  | keep
  | toDest
  | burn
deriving DecidableEq, Repr

/-- The unmodelled rest of the asset pallet: may refuse any operation, decides what happens to dust. Outside /repo; used
at pallets/payments/src/lib.rs 89-93 (the fungibles traits of T::Assets). -/
structure LedgerEnv where
  deny : Ledger → LOp → Bool
  dust : Ledger → LOp → Dust

/-- The environment that refuses nothing and leaves dust where it is. Example for non-vacuity (outside /repo). -/
def LedgerEnv.lenient : LedgerEnv := { deny := fun _ _ => false, dust := fun _ _ => .keep }

namespace Ledger

/-- Write one balance. Outside /repo; used at pallets/payments/src/lib.rs 89-93 (the fungibles traits of T::Assets). -/
def setBal (L : Ledger) (a : Asset) (w : Acct) (b : Bal) : Ledger :=
  { L with bal := fun a' w' => if a' = a ∧ w' = w then b else L.bal a' w' }

/-- `fungibles::hold::Mutate::hold`: moves `amt` from free to held; a held balance never exceeds the balance
type. The stricter requirements of the real implementation (leave the minimum free) are left to
`env.deny`. Outside /repo; used at pallets/payments/src/lib.rs 555-577. -/
def hold (env : LedgerEnv) (L : Ledger) (a : Asset) (who : Acct) (amt : Nat) : Option Ledger :=
  if env.deny L (.hold a who amt) then none
  else if amt ≤ (L.bal a who).free ∧ (L.bal a who).held + amt ≤ BAL_MAX then
    some (L.setBal a who ⟨(L.bal a who).free - amt, (L.bal a who).held + amt⟩)
  else none

/-- `fungibles::hold::Mutate::release` with `Precision::Exact`: moves `amt` from held to free, fails if
less is held. Outside /repo; used at pallets/payments/src/lib.rs 579-690. -/
def release (env : LedgerEnv) (L : Ledger) (a : Asset) (who : Acct) (amt : Nat) : Option Ledger :=
  if env.deny L (.release a who amt) then none
  else if amt ≤ (L.bal a who).held then
    some (L.setBal a who ⟨(L.bal a who).free + amt, (L.bal a who).held - amt⟩)
  else none

/-- Free balance moved by a transfer between two different accounts, source side removed amount
`amt + extra`. Outside /repo; used at pallets/payments/src/lib.rs 89-93 (the fungibles traits of T::Assets). -/
def moveFree (L : Ledger) (a : Asset) (src dst : Acct) (out inn : Nat) : Ledger :=
  let L1 := L.setBal a src ⟨(L.bal a src).free - out, (L.bal a src).held⟩
  L1.setBal a dst ⟨(L1.bal a dst).free + inn, (L1.bal a dst).held⟩

/-- `fungibles::Mutate::transfer`. A transfer of zero changes nothing; a transfer to oneself is checked
but changes nothing; `preserve` keeps the asset minimum in the source; with `expendable` a remainder
below the minimum is handled as the environment decides. Outside /repo; used at pallets/payments/src/lib.rs 555-706. -/
def transfer (env : LedgerEnv) (L : Ledger) (a : Asset) (src dst : Acct) (amt : Nat) (k : Keep) :
    Option Ledger :=
  if env.deny L (.transfer a src dst amt k) then none
  else if amt = 0 then some L
  else if (L.bal a src).free < amt then none
  else if k = .preserve ∧ (L.bal a src).free - amt < L.minBal a then none
  else if src = dst then some L
  else
    let rest := (L.bal a src).free - amt
    if k = .expendable ∧ 0 < rest ∧ rest < L.minBal a then
      match env.dust L (.transfer a src dst amt k) with
      | .keep => some (L.moveFree a src dst amt amt)
      | .toDest =>
        some { L.moveFree a src dst (amt + rest) (amt + rest) with
          swept := fun a' => if a' = a then L.swept a + rest else L.swept a' }
      | .burn =>
        some { L.moveFree a src dst (amt + rest) amt with
          burned := fun a' => if a' = a then L.burned a + rest else L.burned a' }
    else some (L.moveFree a src dst amt amt)

/-- `fungibles::hold::Mutate::transfer_and_hold` with `Exact, Preserve, Polite` (pallets/payments/src/lib.rs:565-574): free
balance of the source becomes held balance of the destination (which must fit the balance type), the
source keeps the minimum. -/
def transferAndHold (env : LedgerEnv) (L : Ledger) (a : Asset) (src dst : Acct) (amt : Nat) :
    Option Ledger :=
  if env.deny L (.transferAndHold a src dst amt) then none
  else if amt = 0 then some L
  else if (L.bal a src).free < amt + L.minBal a then none
  else if BAL_MAX < (L.bal a dst).held + amt then none
  else
    let L1 := L.setBal a src ⟨(L.bal a src).free - amt, (L.bal a src).held⟩
    some (L1.setBal a dst ⟨(L1.bal a dst).free, (L1.bal a dst).held + amt⟩)

end Ledger

end Verif.Payments
