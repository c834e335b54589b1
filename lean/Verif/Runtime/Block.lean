import Verif.Runtime.Fees

/-!
# The room in a block (runtime/kreivo/src/configuration/system_support.rs 14-39, runtime/kreivo/src/lib.rs)

The limits are the configuration of Kreivo; `CheckWeight` and the builder of `BlockWeights` are frame_system's (outside
`/repo`), as is the size of a relay chain proof, five mebibytes.
-/

namespace Verif.Runtime

/-- Componentwise order: `Weight::all_lte`. Outside /repo; used at runtime/kreivo/src/lib.rs 110-114 and
runtime/kreivo/src/configuration/system_support.rs 21-38 (sp_weights). -/
def Weight.Le (v w : Weight) : Prop := v.refTime ≤ w.refTime ∧ v.proofSize ≤ w.proofSize

instance (v w : Weight) : Decidable (Weight.Le v w) := by unfold Weight.Le; infer_instance

/-- Saturating sum of u64 components. Outside /repo; used at runtime/kreivo/src/lib.rs 110-114 and
runtime/kreivo/src/configuration/system_support.rs 21-38 (sp_weights). -/
def Weight.satAdd (v w : Weight) : Weight :=
  ⟨min (2 ^ 64 - 1) (v.refTime + w.refTime), min (2 ^ 64 - 1) (v.proofSize + w.proofSize)⟩

/-- Difference, stopping at zero: `Weight::saturating_sub`. Outside /repo; used at runtime/kreivo/src/lib.rs 110-114 and
runtime/kreivo/src/configuration/system_support.rs 21-38 (sp_weights). -/
def Weight.satSub (v w : Weight) : Weight := ⟨v.refTime - w.refTime, v.proofSize - w.proofSize⟩

/-- `Perbill::from_percent(p) * weight`. Outside /repo; used at runtime/kreivo/src/lib.rs 110-114 and
runtime/kreivo/src/configuration/system_support.rs 21-38 (sp_weights). -/
def Weight.percent (p : Nat) (w : Weight) : Weight :=
  ⟨perbillOf (p * 10000000) w.refTime, perbillOf (p * 10000000) w.proofSize⟩

/-- `MAXIMUM_BLOCK_WEIGHT`: runtime/kreivo/src/lib.rs 111-114. Two seconds, and `MAX_POV_SIZE`. -/
def maxBlockWeight : Weight := ⟨2 * 1000000000000, 5 * 1024 * 1024⟩

/-- `DispatchClass`. Outside /repo; used at runtime/kreivo/src/lib.rs 138 and
runtime/kreivo/src/configuration/system_support.rs 21-38 (frame_system). -/
inductive Class
  | normal
  | operational
  | mandatory
  deriving DecidableEq

/-- `NORMAL_DISPATCH_RATIO` (75%) of the block: system_support.rs 26-28. -/
def normalMax : Weight := Weight.percent 75 maxBlockWeight

/-- `max_total` of each class: system_support.rs 26-30. Mandatory work has no limit. -/
def maxTotal : Class → Option Weight
  | .normal => some normalMax
  | .operational => some maxBlockWeight
  | .mandatory => none

/-- `reserved` of each class: system_support.rs 31-35; the builder reserves nothing for normal transactions and sets no
limit for mandatory work. -/
def reserved : Class → Option Weight
  | .normal => some ⟨0, 0⟩
  | .operational => some (Weight.satSub maxBlockWeight normalMax)
  | .mandatory => none

/-- `max_extrinsic`: what `build_or_panic` computes with `avg_block_initialization(5%)` (system_support.rs 37);
`base` is `ExtrinsicBaseWeight`. -/
def maxExtrinsic (base : Weight) (c : Class) : Option Weight :=
  (maxTotal c).map fun t => Weight.satSub (Weight.satSub t (Weight.percent 5 maxBlockWeight)) base

/-- `ConsumedWeight`: what each class has used of the block so far. Outside /repo; used at runtime/kreivo/src/lib.rs 138
and runtime/kreivo/src/configuration/system_support.rs 21-38 (frame_system). -/
structure Used where
  normal : Weight
  operational : Weight
  mandatory : Weight
  deriving DecidableEq

/-- What a class has used. Outside /repo; used at runtime/kreivo/src/lib.rs 138 and
runtime/kreivo/src/configuration/system_support.rs 21-38 (frame_system). -/
def Used.of (u : Used) : Class → Weight
  | .normal => u.normal
  | .operational => u.operational
  | .mandatory => u.mandatory

/-- `ConsumedWeight::total`. Outside /repo; used at runtime/kreivo/src/lib.rs 138 and
runtime/kreivo/src/configuration/system_support.rs 21-38 (frame_system). -/
def Used.total (u : Used) : Weight := Weight.satAdd (Weight.satAdd u.normal u.operational) u.mandatory

/-- Replace what a class has used. Outside /repo; used at runtime/kreivo/src/lib.rs 138 and
runtime/kreivo/src/configuration/system_support.rs 21-38 (frame_system). -/
def Used.set (u : Used) (c : Class) (w : Weight) : Used :=
  match c with
  | .normal => { u with normal := w }
  | .operational => { u with operational := w }
  | .mandatory => { u with mandatory := w }

/-- `calculate_consumed_weight` and `check_extrinsic_weight` of `CheckWeight`: whether a transaction of a class may go into
the block, and what the block has used then. `cost` is its declared weight with its length and the base weight of an
extrinsic. Outside /repo; used at runtime/kreivo/src/lib.rs 138 and runtime/kreivo/src/configuration/system_support.rs
21-38 (frame_system). -/
def checkWeight (base : Weight) (u : Used) (c : Class) (cost : Weight) : Option Used :=
  let v := u.set c (Weight.satAdd (u.of c) cost)
  match c with
  | .mandatory => some v
  | _ =>
    if 2 ^ 64 ≤ (u.of c).refTime + cost.refTime ∨ 2 ^ 64 ≤ (u.of c).proofSize + cost.proofSize then none
    else if ∃ m ∈ maxTotal c, ¬ Weight.Le (v.of c) m then none
    else if ¬ Weight.Le v.total maxBlockWeight ∧ ∃ r ∈ reserved c, ¬ Weight.Le (v.of c) r then none
    else if ∃ m ∈ maxExtrinsic base c, ¬ Weight.Le (Weight.satSub cost base) m then none
    else some v

/-- `MaximumSchedulerWeight`: runtime/kreivo/src/lib.rs 529. -/
def schedulerMax : Weight := Weight.percent 80 maxBlockWeight

/-- `MessageQueueServiceWeight`: runtime/kreivo/src/lib.rs 299. -/
def queueMax : Weight := Weight.percent 35 maxBlockWeight

/-- What happens to a block while it is built. Part of the transition system around the code (outside /repo). -/
inductive BlockAct
  /-- A hook of a pallet reports its weight (`register_extra_weight_unchecked`, as mandatory). -/
  | hook (w : Weight)
  /-- A transaction is tried; if it goes in, the unspent part of its weight is given back (`post_dispatch`). -/
  | tx (c : Class) (cost unspent : Weight)

/-- One step; a transaction that does not fit leaves the block as it is. Part of the transition system around the code
(outside /repo). -/
def blockStep (base : Weight) (u : Used) : BlockAct → Used
  | .hook w => u.set .mandatory (Weight.satAdd u.mandatory w)
  | .tx c cost unspent =>
    match checkWeight base u c cost with
    | some v => v.set c (Weight.satSub (v.of c) unspent)
    | none => u

/-- A block from its start, with nothing used. Part of the transition system around the code (outside /repo). -/
def buildBlock (base : Weight) (acts : List BlockAct) : Used :=
  acts.foldl (blockStep base) ⟨⟨0, 0⟩, ⟨0, 0⟩, ⟨0, 0⟩⟩

/-- `deposit` of runtime/runtime-constants/src/lib.rs 48-50, in u128. `cents` is `CENTS`; `MILLICENTS` is a thousandth. -/
def relayDeposit (cents items bytes : Nat) : Nat :=
  (items * 2000 * cents + bytes * 100 * (cents / 1000)) % 2 ^ 128

/-- `deposit` of runtime/kreivo/src/constants.rs 28-31. -/
def deposit (cents items bytes : Nat) : Nat := relayDeposit cents items bytes / 100

end Verif.Runtime
