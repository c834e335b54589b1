import Mathlib.Order.Defs.LinearOrder
import Mathlib.Data.List.Sort
import Verif.Runtime.Block

/-!
# Multisigs (runtime/kreivo/src/lib.rs 476-492)

pallet_multisig is outside /repo; the deposits and the number of signatories are Kreivo's. Accounts are any ordered type; `H` are
the hashes of calls.
-/

namespace Verif.Runtime.Multi

/-- `Timepoint`: block and extrinsic. Outside /repo; used at runtime/kreivo/src/lib.rs 484-492 (pallet_multisig). -/
structure Timepoint where
  height : Nat
  index : Nat
  deriving DecidableEq

/-- `Multisig`, an open operation. Outside /repo; used at runtime/kreivo/src/lib.rs 484-492 (pallet_multisig). -/
structure Op (A : Type) where
  when_ : Timepoint
  deposit : Nat
  depositor : A
  approvals : List A

/-- `MaxSignatories`: runtime/kreivo/src/lib.rs 490. -/
def maxSignatories : Nat := 100

/-- `DepositBase` and `DepositFactor`: runtime/kreivo/src/lib.rs 477-482. `deposit` of pallet_multisig (outside /repo). -/
def depositFor (cents threshold : Nat) : Nat := Runtime.deposit cents 1 88 + threshold * Runtime.deposit cents 0 32

/-- What happened, oldest last. Part of the transition system around the code (outside /repo): used to say what led to an execution.
`agreed` is every successful `approve_as_multi` and `as_multi`; `executed` and `cancelled` close the operation. -/
inductive Entry (A H : Type)
  | agreed (who id : A) (h : H)
  | executed (id : A) (h : H)
  | cancelled (id : A) (h : H)

/-- `Multisigs`, what the pallet has reserved of each account, and the history. Outside /repo; used at
runtime/kreivo/src/lib.rs 484-492 (pallet_multisig). -/
structure St (A H : Type) where
  ops : List ((A × H) × Op A)
  reserved : A → Nat
  log : List (Entry A H)

variable {A H : Type} [LinearOrder A] [DecidableEq H]

/-- `Multisigs::get`. Outside /repo; used at runtime/kreivo/src/lib.rs 484-492 (pallet_multisig). -/
def St.get (s : St A H) (id : A) (h : H) : Option (Op A) := s.ops.lookup (id, h)

/-- `Multisigs::remove`. Outside /repo; used at runtime/kreivo/src/lib.rs 484-492 (pallet_multisig). -/
def drop (ops : List ((A × H) × Op A)) (id : A) (h : H) : List ((A × H) × Op A) := ops.filter fun e => e.1 ≠ (id, h)

/-- `Multisigs::insert`. Outside /repo; used at runtime/kreivo/src/lib.rs 484-492 (pallet_multisig). -/
def put (ops : List ((A × H) × Op A)) (id : A) (h : H) (m : Op A) : List ((A × H) × Op A) := ((id, h), m) :: drop ops id h

/-- The loop of `ensure_sorted_and_insert`: the list has to be strictly sorted and not to contain `who`, who is put in their
place. Outside /repo; used at runtime/kreivo/src/lib.rs 484-492 (pallet_multisig). -/
def sortedInsert (who : A) : List A → Option (List A)
  | [] => some [who]
  | [x] => if x = who then none else if x < who then some [x, who] else some [who, x]
  | x :: y :: l =>
    if ¬ x < y then none
    else if x = who then none
    else if x < who then (sortedInsert who (y :: l)).map (x :: ·)
    else
      match sortedInsert who (y :: l) with
      | none => none
      | some _ => some (who :: x :: y :: l)

/-- Checks that begin every call: threshold, number and order of signatories. Answers the signatories. Outside /repo; used at
runtime/kreivo/src/lib.rs 484-492 (pallet_multisig). -/
def signatories (who : A) (threshold : Nat) (others : List A) : Option (List A) :=
  if 2 ≤ threshold ∧ others ≠ [] ∧ others.length < maxSignatories then sortedInsert who others else none

/-- Approvals are kept sorted: the place `binary_search` finds. Outside /repo; used at runtime/kreivo/src/lib.rs 484-492
(pallet_multisig). -/
def insertApproval (who : A) : List A → List A
  | [] => [who]
  | x :: l => if who < x then who :: x :: l else x :: insertApproval who l

/-- A call of the pallet. `call`: whether the call itself is given (`as_multi`) rather than its hash (`approve_as_multi`).
Outside /repo; used at runtime/kreivo/src/lib.rs 484-492 (pallet_multisig). -/
inductive Cmd (A H : Type)
  | operate (who : A) (threshold : Nat) (others : List A) (tp : Option Timepoint) (h : H) (call : Bool)
  | cancel (who : A) (threshold : Nat) (others : List A) (tp : Timepoint) (h : H)

/-- What the call depends on besides the pallet: the unit of deposits, where it
stands in the block, what accounts can reserve, and whether the weight
given covers the call. Part of the transition system around the code (outside /repo). -/
structure Env (A : Type) where
  cents : Nat
  now : Timepoint
  canReserve : A → Nat → Bool
  weightOk : Bool

/-- Account of a multisig, `multi_account_id`; a hash of the signatories and the threshold. Outside /repo; used at
runtime/kreivo/src/lib.rs 484-492 (pallet_multisig). -/
abbrev Ids (A : Type) := List A → Nat → A

/-- `unreserve`. Outside /repo; used at runtime/kreivo/src/lib.rs 487 (pallet_balances). -/
def unreserve (r : A → Nat) (who : A) (n : Nat) : A → Nat := fun a => if a = who then r a - n else r a

/-- `reserve`, once it is known to be possible. Outside /repo; used at runtime/kreivo/src/lib.rs 487 (pallet_balances). -/
def reserve (r : A → Nat) (who : A) (n : Nat) : A → Nat := fun a => if a = who then r a + n else r a

/-- `operate`, for an operation that is open. Answers the new state and whether the call was dispatched, as the multisig's
account. Outside /repo; used at runtime/kreivo/src/lib.rs 484-492 (pallet_multisig). -/
def advance (s : St A H) (e : Env A) (id who : A) (threshold : Nat) (tp : Option Timepoint) (h : H) (call : Bool) (m : Op A) :
    Option (St A H × Bool) :=
  if tp = some m.when_ then
    let new : Bool := decide (who ∉ m.approvals ∧ m.approvals.length < threshold)
    let approvals := if new then m.approvals.length + 1 else m.approvals.length
    if call = true ∧ threshold ≤ approvals then
      if e.weightOk then
        some (⟨drop s.ops id h, unreserve s.reserved m.depositor m.deposit,
          .executed id h :: .agreed who id h :: s.log⟩, true)
      else none
    else if new then
      if m.approvals.length < maxSignatories then
        some (⟨put s.ops id h { m with approvals := insertApproval who m.approvals }, s.reserved, .agreed who id h :: s.log⟩, false)
      else none
    else none
  else none

/-- `operate`. Outside /repo; used at runtime/kreivo/src/lib.rs 484-492 (pallet_multisig). -/
def operate (acc : Ids A) (s : St A H) (e : Env A) (who : A) (threshold : Nat) (others : List A) (tp : Option Timepoint) (h : H)
    (call : Bool) : Option (St A H × Bool) :=
  match signatories who threshold others with
  | none => none
  | some all =>
    match s.get (acc all threshold) h with
    | some m => advance s e (acc all threshold) who threshold tp h call m
    | none =>
      if tp = none ∧ e.canReserve who (depositFor e.cents threshold) = true then
        some (⟨put s.ops (acc all threshold) h ⟨e.now, depositFor e.cents threshold, who, [who]⟩,
          reserve s.reserved who (depositFor e.cents threshold), .agreed who (acc all threshold) h :: s.log⟩, false)
      else none

/-- `cancel_as_multi`. Outside /repo; used at runtime/kreivo/src/lib.rs 484-492 (pallet_multisig). -/
def cancelOp (acc : Ids A) (s : St A H) (who : A) (threshold : Nat) (others : List A) (tp : Timepoint) (h : H) :
    Option (St A H × Bool) :=
  match signatories who threshold others with
  | none => none
  | some all =>
    match s.get (acc all threshold) h with
    | none => none
    | some m =>
      if m.when_ = tp ∧ m.depositor = who then
        some (⟨drop s.ops (acc all threshold) h, unreserve s.reserved m.depositor m.deposit,
          .cancelled (acc all threshold) h :: s.log⟩, false)
      else none

/-- A call of the pallet. Answers the new state and whether a call was dispatched; `none` when it fails. Outside /repo; used at
runtime/kreivo/src/lib.rs 484-492 (pallet_multisig). -/
def step (acc : Ids A) (s : St A H) (e : Env A) : Cmd A H → Option (St A H × Bool)
  | .operate who t others tp h call => operate acc s e who t others tp h call
  | .cancel who t others tp h => cancelOp acc s who t others tp h

/-- No operation is open at the start. Part of the transition system around the code (outside /repo). -/
def St.start : St A H := ⟨[], fun _ => 0, []⟩

/-- Reachable by calls of the pallet, in any order and with anything in between. Part of the transition system around the code
(outside /repo). -/
inductive Reach (acc : Ids A) : St A H → Prop
  | start : Reach acc .start
  | step {s s' : St A H} {e : Env A} {c : Cmd A H} {d : Bool} : Reach acc s → step acc s e c = some (s', d) → Reach acc s'

end Verif.Runtime.Multi
