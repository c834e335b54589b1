import Verif.Payments.Ledger

/-!
# pallet-payments

Model of pallets/payments/src/lib.rs and pallets/payments/src/types.rs, function by function.
-/

namespace Verif.Payments

/-- `PaymentState`, pallets/payments/src/types.rs:54-66. -/
inductive PState
  | created
  | needsReview
  | refundRequested (cancelBlock : Block)
  | paymentRequested
  | finished
deriving DecidableEq, Repr

/-- `Fee<T> = (account, amount, chargeable on disputes)`, pallets/payments/src/types.rs:17-18. -/
structure Fee where
  to : Acct
  amt : Nat
  mandatory : Bool
deriving DecidableEq, Repr

/-- `Fees`, pallets/payments/src/types.rs:105-108. Simplification: the `MaxFees` bound of the two vectors is not part of the
type (fee lists of any length are covered). -/
structure Fees where
  senderPays : List Fee
  beneficiaryPays : List Fee
deriving DecidableEq, Repr

/-- `PaymentDetail`, pallets/payments/src/types.rs:34-48. -/
structure Payment where
  asset : Asset
  amount : Nat
  beneficiary : Acct
  incentive : Nat
  state : PState
  fees : Fees
deriving DecidableEq, Repr

/-- `Role`, pallets/payments/src/types.rs:160-164. -/
inductive Role
  | sender
  | beneficiary
deriving DecidableEq, Repr

/-- `DisputeResult`, pallets/payments/src/types.rs:167-170; `pct` is `percent_beneficiary` in percent (0..100). -/
structure DisputeResult where
  pct : Nat
  inFavorOf : Role
deriving DecidableEq, Repr

/-- Errors, pallets/payments/src/lib.rs:220-249, plus the propagated ones: bad origin, failed lookup, ledger token error,
scheduler error. -/
inductive Err
  | badOrigin | lookup | token | scheduler
  | invalidPayment | paymentAlreadyInProcess | invalidAction | mathError
  | releaseFailed | transferFailed | nonExistentStorageValue | noPaymentIdAvailable
  | invalidBeneficiary
deriving DecidableEq, Repr

/-- Events, pallets/payments/src/lib.rs:185-217 (those the code emits). -/
inductive Event
  | paymentCreated (id : PId) (asset : Asset) (amount : Nat) (remark : Option (List Nat))
  | paymentReleased (id : PId)
  | paymentCancelled (id : PId)
  | paymentCreatorRequestedRefund (id : PId) (expiry : Block)
  | paymentRefunded (id : PId)
  | paymentRefundDisputed (id : PId)
  | paymentRequestCreated (id : PId)
  | paymentRequestCompleted (id : PId)
  | paymentDisputeResolved (id : PId)
deriving DecidableEq, Repr

/-- A named task of the scheduler: `cancel { id }` signed by `who`, due at `due` (pallets/payments/src/lib.rs:337-344). -/
structure Task where
  due : Block
  who : Acct
deriving DecidableEq, Repr

/-- Pallet storage (pallets/payments/src/lib.rs:162-181), the asset ledger, the scheduler's named tasks of this pallet, the
block number and the deposited events. -/
structure St where
  payments : Acct → PId → Option Payment
  parties : PId → Option (Acct × Acct)
  agenda : PId → Option Task
  ledger : Ledger
  now : Block
  events : List Event

/-- Dispatch origins that can reach the pallet on Kreivo. Outside /repo; used at runtime/kreivo/src/payments.rs 83-85. -/
inductive Origin
  | root
  | none
  | signed (a : Acct)
  | community (c : Nat)
  | other (n : Nat)
deriving DecidableEq, Repr

/-- `AccountIdLookupOf<T>`: an account id, a community index or any other address form. pallets/payments/src/types.rs 15,
runtime/kreivo/src/lib.rs 117. -/
inductive Addr
  | id (a : Acct)
  | index (c : Nat)
  | other
deriving DecidableEq, Repr

/-- The parts of `Config` (pallets/payments/src/lib.rs:72-149) the logic depends on. `applyFees` gets the asset minimums
because Kreivo's handler reads them. -/
structure Config where
  incentivePct : Nat
  cancelBuffer : Nat
  blockMax : Nat
  senderOrigin : Origin → Option Acct
  beneficiaryOrigin : Origin → Option Acct
  disputeResolver : Origin → Option Acct
  lookup : Addr → Option Acct
  applyFees : (Asset → Nat) → Asset → Acct → Acct → Nat → Option (List Nat) → Fees

/-- What surrounds one dispatch: the ledger's oracle, `T::PaymentId::next` and whether preimage store and
scheduler agenda accept a new task. Outside /repo; used at pallets/payments/src/lib.rs 50-52 and 106-119. -/
structure Env where
  ledger : LedgerEnv
  nextId : Acct → Acct → Option PId
  schedOk : Bool

/-- `Percent::mul_floor`. Outside /repo; used at pallets/payments/src/lib.rs 517-690. -/
def mulFloor (pct x : Nat) : Nat := pct * x / 100

/-- One round of the loop of `get_summary` on the `BTreeMap` (pallets/payments/src/types.rs:135-139): insert or add to the entry
of the account; the flag of the first entry stays. The map is an association list sorted by account. -/
def addFee : List Fee → Fee → List Fee
  | [], f => [{ f with amt := satAdd 0 f.amt }]
  | g :: gs, f =>
    if f.to < g.to then { f with amt := satAdd 0 f.amt } :: g :: gs
    else if f.to = g.to then { g with amt := satAdd g.amt f.amt } :: gs
    else g :: addFee gs f

/-- Accumulator of `get_summary`: map, total to discount, total to return. pallets/payments/src/types.rs 119-147. -/
structure Summary where
  recipients : List Fee
  discount : Nat
  ret : Nat
deriving DecidableEq, Repr

/-- Body of the loop in `get_summary`, pallets/payments/src/types.rs:124-140. -/
def summaryStep (isDispute : Bool) (acc : Summary) (f : Fee) : Summary :=
  let (d, r) :=
    if isDispute then
      if f.mandatory then (satAdd acc.discount f.amt, acc.ret)
      else (acc.discount, satAdd acc.ret f.amt)
    else (satAdd acc.discount f.amt, acc.ret)
  { recipients := addFee acc.recipients f, discount := d, ret := r }

/-- `Fees::get_summary`, pallets/payments/src/types.rs:119-147. -/
def summary (fees : List Fee) (isDispute : Bool) : Summary :=
  fees.foldl (summaryStep isDispute) ⟨[], 0, 0⟩

/-- `Result`/`?` on an optional ledger. Outside /repo; used at pallets/payments/src/lib.rs 267-706. -/
def orErr {α : Type} (e : Err) : Option α → Except Err α
  | some a => .ok a
  | none => .error e

/-- `try_transfer_fees`, pallets/payments/src/lib.rs:692-705. -/
def tryTransferFees (env : LedgerEnv) (L : Ledger) (asset : Asset) (account : Acct) (isDispute : Bool) :
    List Fee → Except Err Ledger
  | [] => .ok L
  | f :: fs =>
    if !isDispute || f.mandatory then
      match L.transfer env asset account f.to f.amt .preserve with
      | none => .error .transferFailed
      | some L' => tryTransferFees env L' asset account isDispute fs
    else tryTransferFees env L asset account isDispute fs

/-- Total put on hold on the sender by `reserve_payment_amount` (pallets/payments/src/lib.rs:556-561) and given back by
`cancel_payment` (pallets/payments/src/lib.rs:580-585). -/
def senderHold (p : Payment) : Nat :=
  let s := summary p.fees.senderPays false
  satAdd (satAdd s.discount p.incentive) s.ret

/-- `reserve_payment_amount`, pallets/payments/src/lib.rs:555-577. -/
def reservePaymentAmount (env : LedgerEnv) (L : Ledger) (sender : Acct) (p : Payment) : Except Err Ledger := do
  let L1 ← orErr .token (L.hold env p.asset sender (senderHold p))
  orErr .token (L1.transferAndHold env p.asset sender p.beneficiary p.amount)

/-- `cancel_payment`, pallets/payments/src/lib.rs:579-599. -/
def cancelPayment (env : LedgerEnv) (L : Ledger) (sender : Acct) (p : Payment) : Except Err Ledger := do
  let L1 ← orErr .releaseFailed (L.release env p.asset sender (senderHold p))
  let L2 ← orErr .releaseFailed (L1.release env p.asset p.beneficiary p.amount)
  orErr .transferFailed (L2.transfer env p.asset p.beneficiary sender p.amount .expendable)

/-- The dispute part of `settle_payment`, pallets/payments/src/lib.rs:649-685. -/
def settleDispute (env : LedgerEnv) (L : Ledger) (sender beneficiary : Acct) (p : Payment) :
    Option (DisputeResult × Acct) → Except Err Ledger
  | none => .ok L
  | some (r, resolver) =>
    match r.inFavorOf with
    | .sender => do
      let amountToSender := mulFloor r.pct p.amount
      let L1 ← orErr .transferFailed (L.transfer env p.asset beneficiary resolver p.incentive .expendable)
      orErr .transferFailed (L1.transfer env p.asset beneficiary sender amountToSender .expendable)
    | .beneficiary => do
      let amountToBeneficiary := mulFloor r.pct p.amount
      let amountToSender := p.amount - amountToBeneficiary
      let L1 ← orErr .transferFailed (L.transfer env p.asset sender resolver p.incentive .expendable)
      orErr .transferFailed (L1.transfer env p.asset beneficiary sender amountToSender .expendable)

/-- Ledger effect of `settle_payment` on a payment found in storage, pallets/payments/src/lib.rs:610-685. -/
def settleLedger (env : LedgerEnv) (L : Ledger) (sender beneficiary : Acct) (p : Payment)
    (dispute : Option (DisputeResult × Acct)) : Except Err Ledger := do
  let isDispute := dispute.isSome
  let ss := summary p.fees.senderPays isDispute
  let totalSenderRelease := satAdd (satAdd ss.discount p.incentive) ss.ret
  let L1 ← orErr .releaseFailed (L.release env p.asset sender totalSenderRelease)
  let bs := summary p.fees.beneficiaryPays isDispute
  let beneficiaryRelease := if isDispute then satAdd p.amount p.incentive else p.amount
  let L2 ← orErr .releaseFailed (L1.release env p.asset beneficiary beneficiaryRelease)
  let L3 ← tryTransferFees env L2 p.asset sender isDispute ss.recipients
  let L4 ← tryTransferFees env L3 p.asset beneficiary isDispute bs.recipients
  settleDispute env L4 sender beneficiary p dispute

/-- Storage write to the double map `Payment`. pallets/payments/src/lib.rs 162-171. -/
def setPayment (f : Acct → PId → Option Payment) (s : Acct) (i : PId) (v : Option Payment) :
    Acct → PId → Option Payment :=
  fun s' i' => if s' = s ∧ i' = i then v else f s' i'

/-- Storage write to a map keyed by payment id. pallets/payments/src/lib.rs 174-181. -/
def setAt {α : Type} (f : PId → Option α) (i : PId) (v : Option α) : PId → Option α :=
  fun i' => if i' = i then v else f i'

/-- `deposit_event`. pallets/payments/src/lib.rs 183-217. -/
def St.emit (s : St) (e : Event) : St := { s with events := s.events ++ [e] }

/-- `settle_payment`, pallets/payments/src/lib.rs:601-690. -/
def settlePayment (env : Env) (s : St) (sender beneficiary : Acct) (id : PId)
    (dispute : Option (DisputeResult × Acct)) : Except Err St :=
  match s.payments sender id with
  | none => .error .invalidPayment
  | some p => do
    let L ← settleLedger env.ledger s.ledger sender beneficiary p dispute
    .ok { s with ledger := L, payments := setPayment s.payments sender id (some { p with state := .finished }) }

/-- `create_payment`, pallets/payments/src/lib.rs:517-553. Returns the id, the record and the new state. -/
def createPayment (cfg : Config) (env : Env) (s : St) (sender beneficiary : Acct) (asset : Asset)
    (amount : Nat) (st : PState) (remark : Option (List Nat)) : Except Err (PId × Payment × St) :=
  match env.nextId sender beneficiary with
  | none => .error .noPaymentIdAvailable
  | some id =>
    let fresh : Bool :=
      match s.payments sender id with
      | none => true
      | some old => old.state == .paymentRequested
    if fresh then
      let p : Payment :=
        { asset := asset
          amount := amount
          beneficiary := beneficiary
          incentive := mulFloor cfg.incentivePct amount
          state := st
          fees := cfg.applyFees s.ledger.minBal asset sender beneficiary amount remark }
      .ok (id, p, { s with
        payments := setPayment s.payments sender id (some p)
        parties := setAt s.parties id (some (sender, beneficiary)) })
    else .error .paymentAlreadyInProcess

/-- `pay`, pallets/payments/src/lib.rs:267-298. -/
def pay (cfg : Config) (env : Env) (s : St) (o : Origin) (beneficiary : Addr) (asset : Asset) (amount : Nat)
    (remark : Option (List Nat)) : Except Err St :=
  match cfg.senderOrigin o with
  | none => .error .badOrigin
  | some sender =>
    match cfg.lookup beneficiary with
    | none => .error .lookup
    | some b => do
      let (id, p, s1) ← createPayment cfg env s sender b asset amount .created remark
      let L ← reservePaymentAmount env.ledger s1.ledger sender p
      .ok (({ s1 with ledger := L } : St).emit (.paymentCreated id asset amount remark))

/-- `release`, pallets/payments/src/lib.rs:304-314. -/
def release (cfg : Config) (env : Env) (s : St) (o : Origin) (id : PId) : Except Err St :=
  match cfg.senderOrigin o with
  | none => .error .badOrigin
  | some sender =>
    match s.payments sender id with
    | none => .error .invalidPayment
    | some p =>
      if p.state = .created then do
        let s1 ← settlePayment env s sender p.beneficiary id none
        .ok (s1.emit (.paymentReleased id))
      else .error .invalidAction

/-- `request_refund`, pallets/payments/src/lib.rs:321-354, with the scheduler's `schedule_named`: refuses a time that is not in
the future, a name in use, or (oracle) a full agenda / failed preimage. -/
def requestRefund (cfg : Config) (env : Env) (s : St) (o : Origin) (id : PId) : Except Err St :=
  match cfg.senderOrigin o with
  | none => .error .badOrigin
  | some sender =>
    match s.payments sender id with
    | none => .error .invalidPayment
    | some p =>
      if p.state = .created then
        let cancelBlock := s.now + cfg.cancelBuffer
        if cfg.blockMax < cancelBlock then .error .mathError
        else if (s.agenda id).isSome || decide (cancelBlock ≤ s.now) || !env.schedOk then .error .scheduler
        else
          .ok (({ s with
            agenda := setAt s.agenda id (some ⟨cancelBlock, p.beneficiary⟩)
            payments := setPayment s.payments sender id
              (some { p with state := .refundRequested cancelBlock }) } : St).emit
                (.paymentCreatorRequestedRefund id cancelBlock))
      else .error .invalidAction

/-- `accept_and_pay`, pallets/payments/src/lib.rs:358-389. There is no check of the payment's state in the code. -/
def acceptAndPay (cfg : Config) (env : Env) (s : St) (o : Origin) (id : PId) : Except Err St :=
  match cfg.senderOrigin o with
  | none => .error .badOrigin
  | some sender =>
    match s.parties id with
    | none => .error .nonExistentStorageValue
    | some (_, beneficiary) =>
      match s.payments sender id with
      | none => .error .invalidPayment
      | some p => do
        let L1 ← tryTransferFees env.ledger s.ledger p.asset sender false
          (summary p.fees.senderPays false).recipients
        let L2 ← orErr .transferFailed
          (L1.transfer env.ledger p.asset sender beneficiary p.amount .expendable)
        let L3 ← tryTransferFees env.ledger L2 p.asset beneficiary false
          (summary p.fees.beneficiaryPays false).recipients
        .ok (({ s with
          ledger := L3
          payments := setPayment s.payments sender id (some { p with state := .finished }) } : St).emit
            (.paymentRequestCompleted id))

/-- `cancel`, pallets/payments/src/lib.rs:396-419. -/
def cancel (cfg : Config) (env : Env) (s : St) (o : Origin) (id : PId) : Except Err St :=
  match cfg.beneficiaryOrigin o with
  | none => .error .badOrigin
  | some beneficiary =>
    match s.parties id with
    | none => .error .nonExistentStorageValue
    | some (sender, b) =>
      if beneficiary = b then
        match s.payments sender id with
        | none => .error .invalidPayment
        | some p =>
          match p.state with
          | .created => do
            let L ← cancelPayment env.ledger s.ledger sender p
            .ok ({ s.emit (.paymentCancelled id) with
              ledger := L
              payments := setPayment s.payments sender id none
              parties := setAt s.parties id none })
          | .refundRequested _ => do
            let L ← cancelPayment env.ledger s.ledger sender p
            .ok ({ s.emit (.paymentRefunded id) with
              ledger := L
              payments := setPayment s.payments sender id none
              parties := setAt s.parties id none })
          | _ => .error .invalidAction
      else .error .invalidBeneficiary

/-- `dispute_refund`, pallets/payments/src/lib.rs:427-457. The scheduler's `cancel_named` fails when there is no such task, and
then the whole call fails. -/
def disputeRefund (cfg : Config) (env : Env) (s : St) (o : Origin) (id : PId) : Except Err St :=
  match cfg.beneficiaryOrigin o with
  | none => .error .badOrigin
  | some beneficiary =>
    match s.parties id with
    | none => .error .nonExistentStorageValue
    | some (sender, b) =>
      if beneficiary = b then
        match s.payments sender id with
        | none => .error .invalidPayment
        | some p =>
          match p.state with
          | .refundRequested cancelBlock =>
            if s.now < cancelBlock then
              match s.ledger.hold env.ledger p.asset beneficiary p.incentive with
              | none => .error .token
              | some L =>
                if (s.agenda id).isSome then
                  .ok (({ s with
                    ledger := L
                    payments := setPayment s.payments sender id (some { p with state := .needsReview })
                    agenda := setAt s.agenda id none } : St).emit (.paymentRefundDisputed id))
                else .error .scheduler
            else .error .invalidAction
          | _ => .error .invalidAction
      else .error .invalidBeneficiary

/-- `request_payment`, pallets/payments/src/lib.rs:466-488. -/
def requestPayment (cfg : Config) (env : Env) (s : St) (o : Origin) (sender : Addr) (asset : Asset)
    (amount : Nat) : Except Err St :=
  match cfg.beneficiaryOrigin o with
  | none => .error .badOrigin
  | some beneficiary =>
    match cfg.lookup sender with
    | none => .error .lookup
    | some snd => do
      let (id, _, s1) ← createPayment cfg env s snd beneficiary asset amount .paymentRequested none
      .ok (s1.emit (.paymentRequestCreated id))

/-- `resolve_dispute`, pallets/payments/src/lib.rs:492-508. -/
def resolveDispute (cfg : Config) (env : Env) (s : St) (o : Origin) (id : PId) (r : DisputeResult) :
    Except Err St :=
  match cfg.disputeResolver o with
  | none => .error .badOrigin
  | some resolver =>
    match s.parties id with
    | none => .error .nonExistentStorageValue
    | some (sender, beneficiary) =>
      match s.payments sender id with
      | none => .error .invalidPayment
      | some p =>
        if p.state = .needsReview then do
          let s1 ← settlePayment env s sender beneficiary id (some (r, resolver))
          .ok (s1.emit (.paymentDisputeResolved id))
        else .error .invalidAction

/-- The pallet's calls, pallets/payments/src/lib.rs:258-509. -/
inductive Call
  | pay (beneficiary : Addr) (asset : Asset) (amount : Nat) (remark : Option (List Nat))
  | release (id : PId)
  | requestRefund (id : PId)
  | acceptAndPay (id : PId)
  | cancel (id : PId)
  | disputeRefund (id : PId)
  | requestPayment (sender : Addr) (asset : Asset) (amount : Nat)
  | resolveDispute (id : PId) (r : DisputeResult)
deriving DecidableEq, Repr

/-- Dispatch of one call. pallets/payments/src/lib.rs 257-514. -/
def dispatch (cfg : Config) (env : Env) (s : St) (o : Origin) : Call → Except Err St
  | .pay b a n r => pay cfg env s o b a n r
  | .release id => release cfg env s o id
  | .requestRefund id => requestRefund cfg env s o id
  | .acceptAndPay id => acceptAndPay cfg env s o id
  | .cancel id => cancel cfg env s o id
  | .disputeRefund id => disputeRefund cfg env s o id
  | .requestPayment snd a n => requestPayment cfg env s o snd a n
  | .resolveDispute id r => resolveDispute cfg env s o id r

/-- FRAME runs every dispatchable in a storage transaction: an error restores the state. Outside /repo; used at
pallets/payments/src/lib.rs 257-514 (FRAME). -/
def settle (s : St) : Except Err St → St
  | .ok s' => s'
  | .error _ => s

/-- What can happen on chain around this pallet. `tick`: a new block. `fire`: the scheduler runs the task
stored for a payment id (only when due; the task is removed, the call's result ignored). `ext`: anything
else on chain changes a free balance (mint, burn, other transfers); holds of this pallet's reason are
changed by this pallet only. `setMin`: an asset gets another minimum balance (`set_min_balance` or
`force_asset_status` of the assets pallet). Part of the transition system around the code (outside /repo). -/
inductive Act
  | call (env : Env) (o : Origin) (c : Call)
  | tick
  | fire (env : Env) (id : PId)
  | ext (a : Asset) (w : Acct) (free : Nat)
  | setMin (a : Asset) (m : Nat)

/-- One transition. Part of the transition system around the code (outside /repo). -/
def exec (cfg : Config) (s : St) : Act → St
  | .call env o c => settle s (dispatch cfg env s o c)
  | .tick => { s with now := s.now + 1 }
  | .fire env id =>
    match s.agenda id with
    | none => s
    | some t =>
      if t.due ≤ s.now then
        let s1 := { s with agenda := setAt s.agenda id none }
        settle s1 (cancel cfg env s1 (.signed t.who) id)
      else s
  | .ext a w f => { s with ledger := s.ledger.setBal a w ⟨f, (s.ledger.bal a w).held⟩ }
  | .setMin a m => { s with ledger := { s.ledger with minBal := fun a' => if a' = a then m else s.ledger.minBal a' } }

/-- A history. Part of the transition system around the code (outside /repo). -/
def run (cfg : Config) (s : St) (acts : List Act) : St := acts.foldl (exec cfg) s

end Verif.Payments
