import Verif.Runtime.CallTheorems

/-!
# The call filter at the door of the pool (runtime/kreivo/src/apis.rs 75-86)
-/

namespace Verif.Runtime

open Verif Verif.Accounts

/-- `BaseCallFilter` of frame_system: Kreivo does not set it (runtime/kreivo/src/configuration/system_support.rs 58-80), and
the default of `ParaChainDefaultConfig` (outside /repo) is `Everything`. -/
def baseCallFilter (_ : Call) : Bool := true

/-- What `validate_transaction` tells the pool: the call is not allowed, or what `Executive` (outside /repo) says.
runtime/kreivo/src/apis.rs 76-85. -/
inductive PoolAnswer (α : Type)
  | invalidCall
  | says (v : α)

/-- `validate_transaction`: runtime/kreivo/src/apis.rs 76-85. `executive` is `Executive::validate_transaction`, with the source,
the rest of the transaction and the block hash left to it. -/
def validateTransaction {α : Type} (executive : Call → α) (c : Call) : PoolAnswer α :=
  if !baseCallFilter c then .invalidCall else .says (executive c)

/-- **C79**: the exported list is not applied at the door of the pool: whatever the call, those of the five pallets included, the
answer is that of the checks of the transaction. -/
theorem C79_not_applied {α : Type} (executive : Call → α) (c : Call) :
    validateTransaction executive c = .says (executive c) := rfl

/-- Calls that are not on the exported list. -/
example : runtimeBlackListed (.balances .transferAll) = false ∧
    validateTransaction (fun _ => 7) (.balances .transferAll) = .says 7 := ⟨rfl, rfl⟩

end Verif.Runtime
