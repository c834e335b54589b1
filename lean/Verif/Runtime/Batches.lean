import Verif.Runtime.AssetPallet

/-!
# Several calls in one

`pallet_utility` (outside `/repo`) as Kreivo has it (runtime/kreivo/src/lib.rs 256, 494-499): `batch`, `batch_all`,
`force_batch` and `as_derivative`, over any other calls. Whose authority a call inside a batch has, and what a proxy may put into
one, is in Runtime/Calls; here it is about effects.

Simplifications: weights are left out; a call that fails leaves the state as it was (the transactional layer FRAME puts around
every call), so its result is a state or none; `dispatch_as` and `with_weight`, for root, are left out.
-/

namespace Verif.Runtime.Batches

open Verif Verif.Accounts

/-- Calls, with the calls of pallet_utility around them. Outside /repo; used at runtime/kreivo/src/lib.rs 494-499
(pallet_utility). -/
inductive BCall (C : Type)
  | base (c : C)
  | batch (l : List (BCall C))
  | batchAll (l : List (BCall C))
  | forceBatch (l : List (BCall C))
  | asDerivative (i : Nat) (c : BCall C)

/-- What is around: the effect of the other calls, the account derived from an account by an index, and the greatest number
of calls in a batch. Outside /repo; used at runtime/kreivo/src/lib.rs 494-499 (pallet_utility). -/
structure Setting (C S : Type) where
  run : S → RtOrigin → C → Option S
  derived : AccountId → Nat → AccountId
  limit : Nat

variable {C S : Type}

/-- Who may batch, and how much. Outside /repo; used at runtime/kreivo/src/lib.rs 494-499 (pallet_utility). -/
def Setting.takes (E : Setting C S) (o : RtOrigin) (n : Nat) : Bool := o ≠ .none && n ≤ E.limit

mutual

/-- The effect of a call; `inAll` says whether it is inside a `batch_all`, where no other may be, but for root. Outside /repo;
used at runtime/kreivo/src/lib.rs 494-499 (pallet_utility). -/
def exec (E : Setting C S) (inAll : Bool) (s : S) (o : RtOrigin) : BCall C → Option S
  | .base c => E.run s o c
  | .batch l => if E.takes o l.length then some (untilError E inAll s o l) else none
  | .batchAll l =>
    if E.takes o l.length && !(inAll && o ≠ .root) then allOf E true s o l else none
  | .forceBatch l => if E.takes o l.length then some (whatever E inAll s o l) else none
  | .asDerivative i c =>
    match o with
    | .signed a => exec E inAll s (.signed (E.derived a i)) c
    | _ => none

/-- The calls of a `batch`: up to the first that fails. Outside /repo; used at runtime/kreivo/src/lib.rs 494-499
(pallet_utility). -/
def untilError (E : Setting C S) (inAll : Bool) (s : S) (o : RtOrigin) : List (BCall C) → S
  | [] => s
  | c :: l =>
    match exec E inAll s o c with
    | some s' => untilError E inAll s' o l
    | none => s

/-- The calls of a `batch_all`: none if one fails. Outside /repo; used at runtime/kreivo/src/lib.rs 494-499
(pallet_utility). -/
def allOf (E : Setting C S) (inAll : Bool) (s : S) (o : RtOrigin) : List (BCall C) → Option S
  | [] => some s
  | c :: l =>
    match exec E inAll s o c with
    | some s' => allOf E inAll s' o l
    | none => none

/-- The calls of a `force_batch`: all that do not fail. Outside /repo; used at runtime/kreivo/src/lib.rs 494-499
(pallet_utility). -/
def whatever (E : Setting C S) (inAll : Bool) (s : S) (o : RtOrigin) : List (BCall C) → S
  | [] => s
  | c :: l =>
    match exec E inAll s o c with
    | some s' => whatever E inAll s' o l
    | none => whatever E inAll s o l

end

/-- The state after a call was tried. Outside /repo; used at runtime/kreivo/src/lib.rs 494-499 (pallet_utility). -/
def after (E : Setting C S) (s : S) (o : RtOrigin) (c : BCall C) : S := (exec E false s o c).getD s

end Verif.Runtime.Batches
