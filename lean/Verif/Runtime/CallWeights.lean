import Verif.Runtime.Block
import Verif.Payments.Model
import Verif.Governance.Manager

/-!
# The declared weights of the project's calls (runtime/kreivo/src/weights)

What a transaction is charged for before it runs, and what the scheduler sets aside for a task. `DbWeight` is
`RocksDbWeight` of frame_support (outside `/repo`).
-/

namespace Verif.Runtime

open Verif

/-- `T::DbWeight::get().reads(r) + writes(w)`: 25 and 100 microseconds. Outside /repo; used at
runtime/kreivo/src/configuration/system_support.rs 75. -/
def db (r w : Nat) : Weight := ⟨25000000 * r + 100000000 * w, 0⟩

/-- `Weight::from_parts(time, 0) + Weight::from_parts(0, proof) + reads(r) + writes(w)`, the shape of every entry of the
weight files. runtime/kreivo/src/weights/pallet_communities.rs and runtime/kreivo/src/weights/pallet_payments.rs, body of
each function (lines cited at each weight below). -/
def measured (time proof r w : Nat) : Weight := Weight.satAdd (Weight.satAdd ⟨time, proof⟩ (db r 0)) (db 0 w)

/-- `WeightInfo` of pallet_communities (runtime/kreivo/src/weights/pallet_communities.rs 44-254), and the weight of
`dispatch_as_account` (pallets/communities/src/lib.rs 562-568): its own, a read and a write, and the wrapped call's.
`other` gives the weights of other pallets' calls. -/
def communityWeight (other : Nat → Weight) : Communities.Call → Weight
  | .create _ _ => measured 60467000 4087 3 3
  | .setAdminOrigin _ => measured 57312000 4087 2 2
  | .setDecisionMethod _ _ => measured 57754000 3689 2 2
  | .addMember _ => measured 372808000 9846 13 11
  | .removeMember _ _ => measured 528792000 15750 15 15
  | .promote _ => measured 223142000 6894 4 3
  | .demote _ => measured 180040000 6894 4 3
  | .vote _ _ _ => measured 502488000 6148 10 6
  | .removeVote _ _ => measured 238003000 4365 5 2
  | .unlock _ => measured 224360000 8123 6 3
  | .dispatchAsAccount call =>
    Weight.satAdd (Weight.satAdd (measured 37927000 3484 1 0) (db 1 1)) (communityWeight other call)
  | .foreign n => other n

/-- `WeightInfo` of pallet_communities_manager (runtime/kreivo/src/weights/pallet_communities_manager.rs 66-103).
`create_memberships` is charged by the `amount` asked for (pallets/communities-manager/src/lib.rs 192). -/
def managerWeight : Governance.MCall → Weight
  | .register _ _ _ _ _ => measured 164491000 132561 8 14
  | .createMemberships q _ _ =>
    let q := q.toNat
    Weight.satAdd (Weight.satAdd (Weight.satAdd (Weight.satAdd (Weight.satAdd
      ⟨117430000, 3547⟩ ⟨84131631 * q, 0⟩) (db (2 + 2 * q) 0)) (db 0 1)) (db 0 (4 * q))) ⟨0, 3334 * q⟩

/-- `WeightInfo` of pallet_payments (runtime/kreivo/src/weights/pallet_payments.rs 49-198). `pay` is charged by the
length of the remark (pallets/payments/src/lib.rs 266). -/
def paymentWeight : Payments.Call → Weight
  | .pay _ _ _ remark =>
    let q := (remark.getD []).length
    Weight.satAdd (Weight.satAdd (Weight.satAdd ⟨221623545, 8518⟩ ⟨539868 * q, 0⟩) (db 6 0)) (db 0 6)
  | .release _ => measured 392162000 8859 8 8
  | .cancel _ => measured 309037000 8518 7 7
  | .requestRefund _ => measured 80807000 159279 3 3
  | .disputeRefund _ => measured 202768000 159279 7 6
  | .resolveDispute _ _ => measured 675111000 8859 9 8
  | .requestPayment _ _ _ => measured 62431000 8518 2 2
  | .acceptAndPay _ => measured 262563000 8859 7 6

/-- How many `dispatch_as_account`s are wrapped around a call. pallets/communities/src/lib.rs 560-572 (nested
`dispatch_as_account`). -/
def nesting : Communities.Call → Nat
  | .dispatchAsAccount call => nesting call + 1
  | _ => 0

/-- The call of another pallet inside, if any. pallets/communities/src/lib.rs 560-572 (nested `dispatch_as_account`). -/
def wrapped : Communities.Call → Option Nat
  | .dispatchAsAccount call => wrapped call
  | .foreign n => some n
  | _ => none

end Verif.Runtime
