import Verif.Payments.Demo

/-!
# The unit tests of pallets/payments, replayed on the model

Not proofs of properties but evidence that the model is the code: each test of pallets/payments/src/tests.rs passes on the real
pallet, and the same calls in the mock's configuration give the same results here. The `weights` test is not replayed.
-/

namespace Verif.Conformance.Payments

open Verif.Payments Verif.Payments.Demo

/-- `SENDER_ACCOUNT`: pallets/payments/src/mock.rs 23. -/
def senderA : Acct := 10
/-- `PAYMENT_BENEFICIARY`: pallets/payments/src/mock.rs 24. -/
def benefA : Acct := 11
/-- `ROOT_ACCOUNT`: pallets/payments/src/mock.rs 26. -/
def rootA : Acct := 1
/-- `FEE_SENDER_ACCOUNT`: pallets/payments/src/mock.rs 34. -/
def feeSender : Acct := 30
/-- `FEE_BENEFICIARY_ACCOUNT`: pallets/payments/src/mock.rs 35. -/
def feeBenef : Acct := 31
/-- `FEE_SYSTEM_ACCOUNT`: pallets/payments/src/mock.rs 36. -/
def feeSystem : Acct := 32

/-- `MockFeeHandler::apply_fees`: pallets/payments/src/mock.rs 135-183. -/
def mockFees (amount : Nat) : Fees :=
  ⟨[⟨feeSender, 2, false⟩, ⟨feeSystem, mulFloor 15 amount, true⟩], [⟨feeBenef, 3, false⟩, ⟨feeSystem, mulFloor 15 amount, true⟩]⟩

/-- `Config for Test`: pallets/payments/src/mock.rs 206-229. -/
def mock : Config where
  incentivePct := 10
  cancelBuffer := 10
  blockMax := 2 ^ 64 - 1
  senderOrigin := fun o => match o with | .signed a => some a | _ => none
  beneficiaryOrigin := fun o => match o with | .signed a => some a | _ => none
  disputeResolver := fun o => match o with | .root => some rootA | _ => none
  lookup := fun x => match x with | .id a => some a | _ => none
  applyFees := fun _ _ _ _ n _ => mockFees n

/-- `new_test_ext`: asset 1 with least balance 1, of which the sender has 100; block 1. pallets/payments/src/mock.rs 232-275. -/
def genesis : St where
  payments := fun _ _ => none
  parties := fun _ => none
  agenda := fun _ => none
  ledger :=
    { bal := fun a w => if a = 1 ∧ w = senderA then ⟨100, 0⟩ else ⟨0, 0⟩
      minBal := fun _ => 1
      swept := fun _ => 0
      burned := fun _ => 0 }
  now := 1
  events := []

/-- The outcome of a call: its error, if any. Part of the transition system around the code (outside /repo). -/
def outcome : Except Err St → Option Err
  | .ok _ => none
  | .error e => some e

/-- `build_payment`: pallets/payments/src/tests.rs 14-62. -/
def payCall : Act := .call (env 1) (.signed senderA) (.pay (.id benefA) 1 20 (some [114, 101, 109, 97, 114, 107]))

/-- `run_to_block`, for one due task: pallets/payments/src/mock.rs 277-283. -/
def ticks (n : Nat) : List Act := List.replicate n .tick

/-- The record the tests expect. pallets/payments/src/tests.rs 42-52. -/
def record (st : PState) : Payment := ⟨1, 20, benefA, 2, st, mockFees 20⟩

/-- Free balance of asset 1. pallets/payments/src/tests.rs 64-89. -/
def bal (s : St) (w : Acct) : Nat := (s.ledger.bal 1 w).free
/-- Balance of asset 1 on hold. pallets/payments/src/tests.rs 54-61. -/
def onHold (s : St) (w : Acct) : Nat := (s.ledger.bal 1 w).held

/-- `build_payment` with its assertions: pallets/payments/src/tests.rs 14-62. -/
example :
    let s := run mock genesis [payCall]
    s.events = [.paymentCreated 1 1 20 (some [114, 101, 109, 97, 114, 107])] ∧
      s.payments senderA 1 = some (record .created) ∧ onHold s benefA = 20 ∧ onHold s senderA = 2 + 2 + 3 := by decide

/-- `test_pay_and_release_works`: pallets/payments/src/tests.rs 109-154. -/
example :
    let s := run mock genesis [payCall, aCall senderA (.release 1)]
    .paymentReleased 1 ∈ s.events ∧ s.payments senderA 1 = some (record .finished) ∧ bal s feeSystem = 6 ∧ bal s feeSender = 2 ∧
      bal s feeBenef = 3 ∧ bal s benefA = 20 - 3 - 3 ∧ bal s senderA = 100 - 20 - 2 - 3 := by decide

/-- `test_pay_and_cancel_works`: pallets/payments/src/tests.rs 157-196. -/
example :
    let s1 := run mock genesis [payCall]
    let s := run mock genesis [payCall, aCall benefA (.cancel 1)]
    outcome (cancel mock (env 0) s1 (.signed 999) 1) = some .invalidBeneficiary ∧ .paymentCancelled 1 ∈ s.events ∧
      s.payments senderA 1 = none ∧ bal s feeSystem = 0 ∧ bal s feeSender = 0 ∧ bal s feeBenef = 0 ∧ bal s benefA = 0 ∧
      bal s senderA = 100 := by decide

/-- `payment_refunded_request`: pallets/payments/src/tests.rs 199-230. -/
example :
    let s1 := run mock genesis [payCall, aCall senderA (.requestRefund 1)]
    let s := run mock s1 (ticks 10 ++ [aFire 1])
    s1.payments senderA 1 = some (record (.refundRequested 11)) ∧ .paymentRefunded 1 ∈ s.events ∧ bal s feeSystem = 0 ∧
      bal s feeSender = 0 ∧ bal s feeBenef = 0 ∧ bal s benefA = 0 ∧ bal s senderA = 100 := by decide

/-- The beneficiary is given 10 of the asset first: pallets/payments/src/tests.rs 283-288 and 397-402. -/
def minted : Act := .ext 1 benefA 10

/-- `payment_disputed_beneficiary_wins`: pallets/payments/src/tests.rs 274-348. -/
example :
    let s1 := run mock genesis [minted, payCall, aCall senderA (.requestRefund 1)]
    let s2 := run mock s1 [aCall benefA (.disputeRefund 1)]
    let s := run mock s2 [aRoot (.resolveDispute 1 ⟨90, .beneficiary⟩)]
    outcome (disputeRefund mock (env 0) s1 (.signed 999) 1) = some .invalidBeneficiary ∧
      s2.payments senderA 1 = some (record .needsReview) ∧ bal s senderA = 77 ∧ bal s benefA = 25 ∧ bal s feeSender = 0 ∧
      bal s feeBenef = 0 ∧ bal s feeSystem = 6 := by decide

/-- `payment_disputed_sender_wins`: pallets/payments/src/tests.rs 394-470. -/
example :
    let s2 := run mock genesis [minted, payCall, aCall senderA (.requestRefund 1), aCall benefA (.disputeRefund 1)]
    let s := run mock s2 [aRoot (.resolveDispute 1 ⟨90, .sender⟩)]
    s2.payments senderA 1 = some (record .needsReview) ∧ bal s senderA = 95 ∧ bal s benefA = 7 ∧ bal s rootA = 2 ∧
      bal s feeSender = 0 ∧ bal s feeBenef = 0 ∧ bal s feeSystem = 6 := by decide

/-- `request_payment`: pallets/payments/src/tests.rs 473-535. -/
example :
    let s1 := run mock genesis [.call (env 1) (.signed benefA) (.requestPayment (.id senderA) 1 20)]
    let s := run mock s1 [aCall senderA (.acceptAndPay 1)]
    .paymentRequestCreated 1 ∈ s1.events ∧ s1.payments senderA 1 = some (record .paymentRequested) ∧ bal s feeSystem = 6 ∧
      bal s feeSender = 2 ∧ bal s feeBenef = 3 ∧ bal s benefA = 20 - 3 - 3 ∧ bal s senderA = 100 - 20 - 2 - 3 := by decide

end Verif.Conformance.Payments
