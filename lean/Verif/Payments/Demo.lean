import Verif.Payments.Spec

/-!
# Payments: concrete histories

Small configurations and histories, used to show that theorem hypotheses are met by real executions and as
witnesses where the code breaks a property.
-/

namespace Verif.Payments.Demo

open Verif.Payments

/-- Sender pays 2 and 1 to account 50, beneficiary pays 3 to account 51; incentive 10%; buffer 5 blocks. -/
def cfg : Config where
  incentivePct := 10
  cancelBuffer := 5
  blockMax := 1000
  senderOrigin := fun o => match o with | .signed a => some a | _ => none
  beneficiaryOrigin := fun o => match o with | .signed a => some a | _ => none
  disputeResolver := fun o => match o with | .root => some 99 | _ => none
  lookup := fun x => match x with | .id a => some a | _ => none
  applyFees := fun _ _ _ _ _ _ => ⟨[⟨50, 2, true⟩, ⟨50, 1, true⟩], [⟨51, 3, false⟩]⟩

/-- Every account has 10000 of every asset, minimum 1. -/
def ledger0 : Ledger where
  bal := fun _ _ => ⟨10000, 0⟩
  minBal := fun _ => 1
  swept := fun _ => 0
  burned := fun _ => 0

def s0 : St where
  payments := fun _ _ => none
  parties := fun _ => none
  agenda := fun _ => none
  ledger := ledger0
  now := 10
  events := []

theorem s0_initial : Initial s0 := ⟨fun _ _ => rfl, fun _ => rfl, fun _ => rfl, fun _ _ => rfl⟩

/-- An environment that refuses nothing and hands out a fixed id. -/
def env (id : PId) : Env := ⟨LedgerEnv.lenient, fun _ _ => some id, true⟩

/-- Account `a` pays `n` of asset 0 to `b` under id `i`. -/
def aPay (i : PId) (a b : Acct) (n : Nat) : Act := .call (env i) (.signed a) (.pay (.id b) 0 n none)
/-- Account `b` requests `n` of asset 0 from `a` under id `i`. -/
def aRequest (i : PId) (a b : Acct) (n : Nat) : Act := .call (env i) (.signed b) (.requestPayment (.id a) 0 n)
def aCall (a : Acct) (c : Call) : Act := .call (env 0) (.signed a) c
def aRoot (c : Call) : Act := .call (env 0) .root c
def aFire (i : PId) : Act := .fire (env 0) i

theorem reach_run {cfg : Config} {s : St} (h : Reachable cfg s) (acts : List Act) : Reachable cfg (run cfg s acts) := by
  induction acts generalizing s with
  | nil => exact h
  | cons a as ih => exact ih (.step a h trivial)

theorem reachable (acts : List Act) : Reachable cfg (run cfg s0 acts) := reach_run (.init s0_initial) acts

/-- 1 pays 1000 to 2 under id 7. -/
def paid : St := run cfg s0 [aPay 7 1 2 1000]
/-- ... and asks for a refund. -/
def refunding : St := run cfg s0 [aPay 7 1 2 1000, aCall 1 (.requestRefund 7)]
/-- ... which the beneficiary disputes. -/
def disputed : St := run cfg s0 [aPay 7 1 2 1000, aCall 1 (.requestRefund 7), aCall 2 (.disputeRefund 7)]
/-- 2 requests 1000 from 1 under id 7. -/
def requested : St := run cfg s0 [aRequest 7 1 2 1000]
/-- A released payment. -/
def released : St := run cfg s0 [aPay 7 1 2 1000, aCall 1 (.release 7)]

/-- State of a payment record. -/
def stateOf (s : St) (a : Acct) (i : PId) : Option PState := (s.payments a i).map (·.state)

example : stateOf paid 1 7 = some .created := by decide
example : stateOf refunding 1 7 = some (.refundRequested 15) := by decide
example : stateOf disputed 1 7 = some .needsReview := by decide
example : stateOf requested 1 7 = some .paymentRequested := by decide
example : stateOf released 1 7 = some .finished := by decide
example : (paid.ledger.bal 0 1) = ⟨10000 - 1103, 103⟩ ∧ (paid.ledger.bal 0 2) = ⟨10000, 1000⟩ := by decide
example : (released.ledger.bal 0 1) = ⟨10000 - 1003, 0⟩ ∧ (released.ledger.bal 0 2) = ⟨10997, 0⟩ ∧
    (released.ledger.bal 0 50) = ⟨10003, 0⟩ ∧ (released.ledger.bal 0 51) = ⟨10003, 0⟩ := by decide

end Verif.Payments.Demo
