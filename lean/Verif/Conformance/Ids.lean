import Verif.Ids.PaymentId

/-!
# The unit tests of common/src/payment_id.rs, replayed on the model

Not proofs of properties but evidence that the model is the code.
-/

namespace Verif.Conformance.Ids

open Verif Verif.Ids

/-- `payment_id_u64`: common/src/payment_id.rs 177-181. -/
example : some (PaymentId.ofU64 0xFFFFFFFFFFFFFFFF) = PaymentId.ofParts 0xFFFFFFFF 0xFFFFFFFF [0xFF, 0xFF] := by
  decide +kernel

/-- `payment_id_display`: common/src/payment_id.rs 183-193. -/
example : (PaymentId.ofU64 0xFFFFFFFFFFFFFFFF).display false = .ok (ascii "jpXCZedGfVQ") ∧
    (PaymentId.ofU64 0xFFFFFFFFFFFFFFFF).display true = .ok (ascii "jpXCZ-edGfVQ") ∧
    (PaymentId.ofParts 1234567 5 [2, 5]).map (·.display true) = some (.ok (ascii "LbNvS-NtVQs")) ∧
    (PaymentId.fromStr (ascii "LbNvS-NtVQs")) =
      (match PaymentId.ofParts 1234567 5 [2, 5] with | some p => .ok p | none => .err) := by
  decide +kernel

end Verif.Conformance.Ids
