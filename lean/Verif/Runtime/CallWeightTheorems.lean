import Verif.Runtime.CallWeights
import Verif.Runtime.BlockTheorems
import Verif.Governance.ManagerTheorems

/-!
# Calls and blocks (C117)

Every call of the project's pallets that can succeed fits in a block that has done no more than its opening hooks, as a
transaction of up to a mebibyte; and what only governance can call fits what the scheduler may use.
-/

namespace Verif.Runtime

open Verif

/-- A block whose hooks have used no more than the 5% set aside for them (system_support.rs 37), and nothing else. -/
def Opened (u : Used) : Prop :=
  u.normal = ⟨0, 0⟩ ∧ u.operational = ⟨0, 0⟩ ∧ Weight.Le u.mandatory (Weight.percent 5 maxBlockWeight)

/-- The transaction of this declared weight and encoded length goes in, with any base weight of an extrinsic up to a
millisecond. -/
def Fits (w : Weight) (len : Nat) : Prop :=
  ∀ base u, base.refTime ≤ 1000000000 → base.proofSize = 0 → Opened u →
    ∃ v, checkWeight base u .normal (Weight.satAdd (Weight.satAdd w base) ⟨0, len⟩) = some v

/-- The scheduler may run a task of this declared weight in a block of its own: within `MaximumSchedulerWeight`. -/
def Schedulable (w : Weight) : Prop := Weight.Le w schedulerMax

theorem initMax_eq : Weight.percent 5 maxBlockWeight = ⟨100000000000, 262144⟩ := by decide +kernel
theorem schedulerMax_eq : schedulerMax = ⟨1600000000000, 4194304⟩ := by decide +kernel

theorem satAdd_small (v w : Weight) (h1 : v.refTime + w.refTime < 2 ^ 64) (h2 : v.proofSize + w.proofSize < 2 ^ 64) :
    Weight.satAdd v w = ⟨v.refTime + w.refTime, v.proofSize + w.proofSize⟩ := by
  unfold Weight.satAdd
  rw [Nat.min_eq_right (by omega), Nat.min_eq_right (by omega)]

/-- Anything up to 1.398 s of time and three and a half mebibytes of proof, with its length, fits. -/
theorem fits_of_le (w : Weight) (len : Nat) (h1 : w.refTime ≤ 1398000000000) (h2 : w.proofSize + len ≤ 3670016) :
    Fits w len := by
  intro base u hb1 hb2 hu
  obtain ⟨hn, ho, hm⟩ := hu
  rw [initMax_eq] at hm
  unfold Weight.Le at hm
  dsimp only at hm
  rw [satAdd_small w base (by omega) (by omega), satAdd_small _ _ (by dsimp only; omega) (by dsimp only; omega)]
  refine ⟨_, (checkWeight_normal _ _ _ _).2 ⟨?_, ?_, .inl ?_, ?_, rfl⟩⟩
  · rw [hn]; dsimp only; omega
  · rw [hn]; dsimp only; omega
  · rw [hn, maxBlock_eq]
    unfold Used.total
    rw [ho]
    simp only [Weight.satAdd, Weight.Le]
    omega
  · intro m hm'
    unfold maxExtrinsic maxTotal at hm'
    simp only [Option.map_some, Option.mem_def, Option.some.injEq] at hm'
    subst hm'
    rw [normalMax_eq, initMax_eq]
    unfold Weight.satSub Weight.Le
    dsimp only
    omega

/-! ## C117 -/

/-- What a call of the communities pallet costs: at most 2.5 ms for the call itself and 188 microseconds for every
wrapping. -/
theorem communityWeight_le (other : Nat → Weight) (c : Communities.Call) (hw : wrapped c = none)
    (hn : nesting c ≤ 256) :
    (communityWeight other c).refTime ≤ 2500000000 + 187927000 * nesting c ∧
    (communityWeight other c).proofSize ≤ 15750 + 3484 * nesting c := by
  induction c using communityWeight.induct with
  | case11 call ih =>
    have ih := ih hw (by unfold nesting at hn; omega)
    unfold communityWeight nesting
    unfold nesting at hn
    simp only [measured, db, Weight.satAdd]
    omega
  | case12 n => cases hw
  | _ =>
    simp only [communityWeight, nesting, measured, db, Weight.satAdd]
    omega

/-- C117: every call of the communities pallet fits, wrapped in up to 256 `dispatch_as_account`s (calls nested deeper
do not decode). -/
theorem C117_communities (other : Nat → Weight) (c : Communities.Call) (hw : wrapped c = none) (hn : nesting c ≤ 256)
    (len : Nat) (hl : len ≤ 1048576) : Fits (communityWeight other c) len := by
  have h := communityWeight_le other c hw hn
  exact fits_of_le _ _ (by omega) (by omega)

/-- C117: wrapping any other pallet's call costs exactly 188 microseconds and 3484 bytes of proof per level on top of
that call's own weight, so nothing is wrapped for less than it costs unwrapped. -/
theorem C117_wrapping (other : Nat → Weight) (c : Communities.Call) (n : Nat) (hw : wrapped c = some n)
    (h1 : (other n).refTime + 187927000 * nesting c < 2 ^ 64) (h2 : (other n).proofSize + 3484 * nesting c < 2 ^ 64) :
    communityWeight other c =
      ⟨(other n).refTime + 187927000 * nesting c, (other n).proofSize + 3484 * nesting c⟩ := by
  induction c using communityWeight.induct with
  | case11 call ih =>
    unfold nesting at h1 h2 ⊢
    have ih := ih hw (by omega) (by omega)
    unfold communityWeight
    rw [ih]
    simp only [measured, db, Weight.satAdd, Weight.mk.injEq]
    omega
  | case12 m =>
    cases hw
    unfold communityWeight nesting
    simp
  | _ => cases hw

/-- The weight of `create_memberships`, exactly. -/
theorem createMemberships_weight (q : UInt16) (m : Communities.MId) (price : Nat) :
    managerWeight (.createMemberships q m price) =
      ⟨267430000 + 534131631 * q.toNat, 3547 + 3334 * q.toNat⟩ := by
  have hq : q.toNat < 65536 := q.toNat_lt
  simp only [managerWeight, db, Weight.satAdd, Weight.mk.injEq]
  omega

/-- C117: a call of the manager pallet that succeeds for anyone fits in a block, both as a transaction and as a task of
the scheduler (which is how root and the `CreateMemberships` origin act). -/
theorem C117_manager (cfg : Governance.MConfig) (env : Governance.MEnv) (s s' : Governance.MSt) (o : Communities.Origin)
    (c : Governance.MCall) (h : Governance.mdispatch cfg env s o c = .ok s') :
    Schedulable (managerWeight c) ∧ ∀ len ≤ 131072, Fits (managerWeight c) len := by
  cases c with
  | register c name a m t =>
    have hw : managerWeight (.register c name a m t) = ⟨1764491000, 132561⟩ := by
      simp only [managerWeight, measured, db, Weight.satAdd, Weight.mk.injEq]
      omega
    rw [hw]
    refine ⟨?_, fun len hl => fits_of_le _ _ (by dsimp only; omega) (by dsimp only; omega)⟩
    unfold Schedulable Weight.Le
    rw [schedulerMax_eq]
    dsimp only
    omega
  | createMemberships q m p =>
    have hq : q.toNat ≤ 1024 := by
      simp only [Governance.mdispatch, Governance.createMemberships] at h
      split at h
      · cases h
      · rename_i hq
        have : q ≤ 1024 := by simpa using hq
        exact this
    rw [createMemberships_weight]
    refine ⟨?_, fun len hl => fits_of_le _ _ (by dsimp only; omega) (by dsimp only; omega)⟩
    unfold Schedulable Weight.Le
    rw [schedulerMax_eq]
    dsimp only
    omega

/-- C117: the limit of 1024 memberships is needed: from 1258 on, a task does not fit what the scheduler may use in any
block, and the call could never run. -/
theorem C117_limit_needed (q : UInt16) (m : Communities.MId) (price : Nat) (hq : 1258 ≤ q.toNat) :
    ¬ Schedulable (managerWeight (.createMemberships q m price)) := by
  rw [createMemberships_weight]
  unfold Schedulable Weight.Le
  rw [schedulerMax_eq]
  dsimp only
  omega

/-- C117: every call of the payments pallet fits; remarks are at most 50 bytes (runtime/kreivo/src/payments.rs 10). -/
theorem C117_payments (c : Payments.Call) (hr : ∀ b a n r, c = .pay b a n (some r) → r.length ≤ 50) (len : Nat)
    (hl : len ≤ 1048576) : Fits (paymentWeight c) len := by
  cases c with
  | pay b a n r =>
    have hq : (r.getD []).length ≤ 50 := by
      cases r with
      | none => simp
      | some r => exact hr b a n r rfl
    refine fits_of_le _ _ ?_ ?_ <;>
      · simp only [paymentWeight, db, Weight.satAdd]
        omega
  | _ =>
    refine fits_of_le _ _ ?_ ?_ <;>
      · simp only [paymentWeight, measured, db, Weight.satAdd]
        omega

/-- C117: and nothing is free: every call of the three pallets is charged for at least one write, a tenth of a
millisecond. -/
theorem C117_not_free (other : Nat → Weight) (p : Payments.Call) (m : Governance.MCall) (c : Communities.Call)
    (hc : wrapped c = none) :
    100000000 ≤ (paymentWeight p).refTime ∧ 100000000 ≤ (managerWeight m).refTime ∧
    100000000 ≤ (communityWeight other c).refTime := by
  refine ⟨?_, ?_, ?_⟩
  · cases p with
    | pay b a n r =>
      simp only [paymentWeight, db, Weight.satAdd]
      omega
    | _ =>
      simp only [paymentWeight, measured, db, Weight.satAdd]
      omega
  · cases m with
    | register =>
      simp only [managerWeight, measured, db, Weight.satAdd]
      omega
    | createMemberships q =>
      rw [createMemberships_weight]
      dsimp only
      omega
  · cases c with
    | foreign n => cases hc
    | dispatchAsAccount c =>
      simp only [communityWeight, measured, db, Weight.satAdd]
      omega
    | _ =>
      simp only [communityWeight, measured, db, Weight.satAdd]
      omega

/-- A block with half its opening allowance used, and some calls at their limits. -/
example : Opened ⟨⟨0, 0⟩, ⟨0, 0⟩, ⟨50000000000, 131072⟩⟩ := ⟨rfl, rfl, by decide +kernel⟩
example : wrapped (.dispatchAsAccount (.unlock 3)) = none ∧ nesting (.dispatchAsAccount (.unlock 3)) = 1 := ⟨rfl, rfl⟩
example : wrapped (.dispatchAsAccount (.foreign 3)) = some 3 := rfl
example : managerWeight (.createMemberships 1024 0 0) = ⟨547218220144, 3417563⟩ := by decide +kernel
example : ∃ s', Governance.mdispatch Governance.kreivoManager Governance.Demo.menv Governance.Demo.mstart
    (.custom .createMemberships) (.createMemberships 3 7 10) = .ok s' := ⟨_, rfl⟩
example : ∃ (r : List Nat), r.length = 50 := ⟨List.replicate 50 0, rfl⟩

end Verif.Runtime
