import Verif.Runtime.Fees
import Verif.Accounts.Model

/-!
# Vesting on Kreivo

pallet_vesting with the parameters of runtime/kreivo/src/configuration/monetary_stuff.rs 112-129, over the part of
pallet_balances that decides what may leave an account. Amounts are natural numbers: they are parts of the issuance, so
that sums of them do not saturate.
-/

namespace Verif.Runtime

open Verif Verif.Accounts

/-- `VestingInfo`: an amount, what is released of it in every block, and from which block on. Outside /repo; used at
runtime/kreivo/src/configuration/monetary_stuff.rs 120-129 (pallet_vesting). -/
structure Sched where
  locked : Nat
  perBlock : Nat
  start : Nat
  deriving DecidableEq

/-- `VestingInfo::per_block`, at least one. Outside /repo; used at runtime/kreivo/src/configuration/monetary_stuff.rs
120-129 (pallet_vesting). -/
def Sched.rate (s : Sched) : Nat := max s.perBlock 1

/-- `VestingInfo::is_valid`. Outside /repo; used at runtime/kreivo/src/configuration/monetary_stuff.rs 120-129
(pallet_vesting). -/
def Sched.valid (s : Sched) : Bool := decide (s.locked ≠ 0) && decide (s.perBlock ≠ 0)

/-- `VestingInfo::locked_at`; a product that does not fit into a balance is larger than the amount, and then all is released.
Outside /repo; used at runtime/kreivo/src/configuration/monetary_stuff.rs 120-129 (pallet_vesting). -/
def Sched.lockedAt (s : Sched) (n : Nat) : Nat := s.locked - (n - s.start) * s.rate

/-- `VestingInfo::ending_block_as_balance`. Outside /repo; used at
runtime/kreivo/src/configuration/monetary_stuff.rs 120-129 (pallet_vesting). -/
def Sched.ending (s : Sched) : Nat :=
  s.start + (if s.locked ≤ s.rate then 1 else s.locked / s.rate + if s.locked % s.rate = 0 then 0 else 1)

/-- `merge_vesting_info`. Outside /repo; used at runtime/kreivo/src/configuration/monetary_stuff.rs 120-129
(pallet_vesting). -/
def mergeInfo (now : Nat) (a b : Sched) : Option Sched :=
  match decide (a.ending ≤ now), decide (b.ending ≤ now) with
  | true, true => none
  | true, false => some b
  | false, true => some a
  | false, false =>
    let locked := a.lockedAt now + b.lockedAt now
    let start := max (max now a.start) b.start
    let duration := max (max a.ending b.ending - start) 1
    some ⟨locked, max (locked / duration) 1, start⟩

/-- What pallet_balances and pallet_vesting know about an account: free and reserved or held funds, the largest other lock or
freeze, the lock of pallet_vesting and its schedules. `taken` counts what was taken from the reserved funds (slashed, or given
to somebody else by those who hold it). Outside /repo; used at runtime/kreivo/src/configuration/monetary_stuff.rs 14-32 and
120-129 (pallet_balances, pallet_vesting). -/
structure VAcct where
  free : Nat
  reserved : Nat
  other : Nat
  lock : Nat
  scheds : List Sched
  taken : Nat

/-- `AccountData::frozen`: `update_locks` takes the largest of all locks and freezes, whatever the reasons of the locks are.
Outside /repo; used at runtime/kreivo/src/configuration/monetary_stuff.rs 14-32 (pallet_balances). -/
def VAcct.frozen (a : VAcct) : Nat := max a.lock a.other

/-- `reducible_balance(.., Polite)` without the existential deposit. Outside /repo; used at
runtime/kreivo/src/configuration/monetary_stuff.rs 14-32 (pallet_balances). -/
def VAcct.reducible (a : VAcct) : Nat := a.free - (a.frozen - a.reserved)

/-- Funds leave the account: transfers, and fees, which `FungibleAdapter` withdraws politely. What needs the existential
deposit may refuse it as well, which is left open. Outside /repo; used at
runtime/kreivo/src/configuration/monetary_stuff.rs 14-49 (pallet_balances, pallet_transaction_payment). -/
def VAcct.withdraw (a : VAcct) (n : Nat) : Option VAcct :=
  if n ≤ a.reducible then some { a with free := a.free - n } else none

/-- `ReservableCurrency::reserve`: what stays free must cover everything frozen. Outside /repo; used at
runtime/kreivo/src/configuration/monetary_stuff.rs 14-32 (pallet_balances). -/
def VAcct.reserve (a : VAcct) (n : Nat) : Option VAcct :=
  if n ≤ a.free ∧ a.frozen ≤ a.free - n then
    some { a with
      free := a.free - n
      reserved := a.reserved + n }
  else none

/-- `fungible::hold`: frozen funds may be held. Outside /repo; used at
runtime/kreivo/src/configuration/monetary_stuff.rs 14-32 (pallet_balances). -/
def VAcct.hold (a : VAcct) (n : Nat) : Option VAcct :=
  if n ≤ a.free then
    some { a with
      free := a.free - n
      reserved := a.reserved + n }
  else none

/-- Reserved or held funds are given back, as many as there are. Outside /repo; used at
runtime/kreivo/src/configuration/monetary_stuff.rs 14-32 (pallet_balances). -/
def VAcct.unreserve (a : VAcct) (n : Nat) : VAcct :=
  { a with
    free := a.free + min n a.reserved
    reserved := a.reserved - min n a.reserved }

/-- Reserved or held funds are taken, as many as there are. Outside /repo; used at
runtime/kreivo/src/configuration/monetary_stuff.rs 14-32 (pallet_balances). -/
def VAcct.take (a : VAcct) (n : Nat) : VAcct :=
  { a with
    reserved := a.reserved - min n a.reserved
    taken := a.taken + min n a.reserved }

/-- `report_schedule_updates`: schedules with nothing left are dropped, and the rest is what stays locked. Outside /repo;
used at runtime/kreivo/src/configuration/monetary_stuff.rs 120-129 (pallet_vesting). -/
def report (now : Nat) (l : List Sched) : List Sched × Nat :=
  let kept := l.filter fun s => decide (s.lockedAt now ≠ 0)
  (kept, (kept.map fun s => s.lockedAt now).sum)

/-- `write_vesting` and `write_lock`. Outside /repo; used at runtime/kreivo/src/configuration/monetary_stuff.rs 120-129
(pallet_vesting). -/
def VAcct.write (a : VAcct) (r : List Sched × Nat) : VAcct :=
  { a with
    scheds := r.1
    lock := r.2 }

/-- `do_vest`: refused for accounts without schedules. Outside /repo; used at
runtime/kreivo/src/configuration/monetary_stuff.rs 120-129 (pallet_vesting). -/
def VAcct.vest (now : Nat) (a : VAcct) : Option VAcct :=
  if a.scheds = [] then none else some (a.write (report now a.scheds))

/-- `exec_action` of a merge: the two schedules go, schedules that have ended go, and the merged one is added. Outside /repo;
used at runtime/kreivo/src/configuration/monetary_stuff.rs 120-129 (pallet_vesting). -/
def VAcct.merge (now : Nat) (a : VAcct) (i j : Nat) : Option VAcct :=
  if i = j then some a
  else match a.scheds[i]?, a.scheds[j]? with
    | some x, some y =>
      let r := report now ((a.scheds.eraseIdx (max i j)).eraseIdx (min i j))
      match mergeInfo now x y with
      | some z => some (a.write (r.1 ++ [z], r.2 + z.lockedAt now))
      | none => some (a.write r)
    | _, _ => none

/-- `remove_vesting_schedule`, for root. Outside /repo; used at runtime/kreivo/src/configuration/monetary_stuff.rs 120-129
(pallet_vesting). -/
def VAcct.removeSched (now : Nat) (a : VAcct) (i : Nat) : Option VAcct :=
  if i < a.scheds.length then some (a.write (report now (a.scheds.eraseIdx i))) else none

/-- `MinVestedTransfer`: 100 cents. runtime/kreivo/src/configuration/monetary_stuff.rs 115. -/
def minVestedTransfer (cents : Nat) : Nat := 100 * cents

/-- `MAX_VESTING_SCHEDULES`: runtime/kreivo/src/configuration/monetary_stuff.rs 128. -/
def maxSchedules : Nat := 28

/-- `add_vesting_schedule`. Outside /repo; used at runtime/kreivo/src/configuration/monetary_stuff.rs 120-129
(pallet_vesting). -/
def VAcct.addSched (now : Nat) (a : VAcct) (s : Sched) : Option VAcct :=
  if a.scheds.length < maxSchedules then some (a.write (report now (a.scheds ++ [s]))) else none

/-- The accounts and the block number. Outside /repo; used at runtime/kreivo/src/configuration/monetary_stuff.rs 14-32 and
120-129 (pallet_balances, pallet_vesting). -/
structure VSt where
  acct : AccountId → VAcct
  now : Nat

/-- Write an account. Outside /repo; used at runtime/kreivo/src/configuration/monetary_stuff.rs 14-32 (pallet_balances). -/
def VSt.set (s : VSt) (w : AccountId) (a : VAcct) : VSt :=
  { s with acct := fun x => if x = w then a else s.acct x }

/-- `Currency::transfer`: nothing happens if the account pays itself. Outside /repo; used at
runtime/kreivo/src/configuration/monetary_stuff.rs 14-32 (pallet_balances). -/
def VSt.transfer (s : VSt) (src dst : AccountId) (n : Nat) : Option VSt :=
  if src = dst then some s
  else match (s.acct src).withdraw n with
    | none => none
    | some a => some ((s.set src a).set dst { s.acct dst with free := (s.acct dst).free + n })

/-- `do_vested_transfer`, of `vested_transfer` and `force_vested_transfer`. Outside /repo; used at
runtime/kreivo/src/configuration/monetary_stuff.rs 120-129 (pallet_vesting). -/
def VSt.vestedTransfer (cents : Nat) (s : VSt) (src dst : AccountId) (x : Sched) : Option VSt :=
  if x.locked < minVestedTransfer cents ∨ x.valid = false ∨ ¬ (s.acct dst).scheds.length < maxSchedules then none
  else match s.transfer src dst x.locked with
    | none => none
    | some s' => match (s'.acct dst).addSched s.now x with
      | none => none
      | some a => some (s'.set dst a)

end Verif.Runtime
