import Verif.Payments.Model
import Mathlib.Algebra.BigOperators.Group.Finset.Basic

/-!
# Payments: specification vocabulary

Used in the statements of the payments theorems. Nothing here refers to how the pallet computes things.
-/

namespace Verif.Payments

/-- A movement of money between two accounts. -/
structure Move where
  src : Acct
  dst : Acct
  amt : Nat
deriving DecidableEq, Repr

/-- Net effect of a list of movements on one account. -/
def net (ms : List Move) (w : Acct) : Int :=
  (ms.map fun m => (if m.dst = w then (m.amt : Int) else 0) - (if m.src = w then (m.amt : Int) else 0)).sum

/-- An amount on one account only. -/
def onAcct (w₀ : Acct) (x : Int) (w : Acct) : Int := if w = w₀ then x else 0

/-- Everything an account owns in an asset, spendable or held. -/
def Ledger.total (L : Ledger) (a : Asset) (w : Acct) : Int := (L.bal a w).free + (L.bal a w).held

/-- No dust of this asset was swept or burned between the two ledgers. -/
def NoDust (L L' : Ledger) (a : Asset) : Prop := L'.swept a = L.swept a ∧ L'.burned a = L.burned a

/-- From `L` to `L'`, in asset `a` every account's total changes by exactly the movements `ms`, every
account's held part by exactly `hd`, and no other asset changes. (The free part is total minus held, so it
is determined too.) -/
structure Exactly (L L' : Ledger) (a : Asset) (ms : List Move) (hd : Acct → Int) : Prop where
  other : ∀ a', a' ≠ a → L'.bal a' = L.bal a'
  total : ∀ w, L'.total a w = L.total a w + net ms w
  held : ∀ w, ((L'.bal a w).held : Int) = (L.bal a w).held + hd w

/-- Sum of the amounts of a fee list. -/
def feeTotal (fees : List Fee) : Nat := (fees.map (·.amt)).sum

/-- The movements when `payer` pays every entry of a fee list. -/
def feeMoves (payer : Acct) (fees : List Fee) : List Move := fees.map fun f => ⟨payer, f.to, f.amt⟩

/-- The entries of a fee list that may be charged on a dispute. -/
def chargeable (fees : List Fee) : List Fee := fees.filter (·.mandatory)

/-- The entries the fees of which a dispute does charge: all those of a recipient whose first entry may be charged. -/
def chargedOnDispute (fees : List Fee) : List Fee :=
  fees.filter fun f => (fees.find? fun g => g.to == f.to).any (·.mandatory)

/-- No recipient has both chargeable and non-chargeable entries. -/
def UniformFlags (fees : List Fee) : Prop :=
  ∀ f ∈ fees, ∀ g ∈ fees, f.to = g.to → f.mandatory = g.mandatory

/-- What the sender has on hold for an open payment: all sender fees and the incentive (as far as the balance
type can express it). -/
def senderEscrow (p : Payment) : Nat := min (feeTotal p.fees.senderPays + p.incentive) BAL_MAX

/-- What an open payment of `snd` has escrowed on account `w` in asset `a`: fees and incentive on the sender;
the amount, and under review also the incentive, on the beneficiary. Requested and finished payments escrow
nothing. -/
def escrow (snd : Acct) (p : Payment) (a : Asset) (w : Acct) : Nat :=
  if p.asset = a then
    match p.state with
    | .created | .refundRequested _ =>
      (if w = snd then senderEscrow p else 0) + (if w = p.beneficiary then p.amount else 0)
    | .needsReview =>
      (if w = snd then senderEscrow p else 0) + (if w = p.beneficiary then p.amount + p.incentive else 0)
    | .paymentRequested | .finished => 0
  else 0

/-- Escrow of whatever is stored under a key. -/
def escrowAt (s : St) (k : Acct × PId) (a : Asset) (w : Acct) : Nat :=
  match s.payments k.1 k.2 with
  | none => 0
  | some p => escrow k.1 p a w

/-- A payment with funds in escrow. -/
def PState.isOpen : PState → Bool
  | .created | .refundRequested _ | .needsReview => true
  | .paymentRequested | .finished => false

/-- A state before the pallet was ever used: no payments, no tasks, nothing held. -/
structure Initial (s : St) : Prop where
  payments : ∀ a i, s.payments a i = none
  parties : ∀ i, s.parties i = none
  agenda : ∀ i, s.agenda i = none
  held : ∀ a w, (s.ledger.bal a w).held = 0

/-- States reachable from an initial state by histories in which every action taken satisfies `ok` (in the
state where it is taken). -/
inductive Reach (cfg : Config) (ok : St → Act → Prop) : St → Prop
  | init {s : St} : Initial s → Reach cfg ok s
  | step {s : St} (act : Act) : Reach cfg ok s → ok s act → Reach cfg ok (exec cfg s act)

/-- States reachable by any history whatsoever. -/
def Reachable (cfg : Config) : St → Prop := Reach cfg (fun _ _ => True)

/-- Sender and beneficiary of the payment a call creates, if it is a creating call with valid origin and
addresses. -/
def creates (cfg : Config) (o : Origin) : Call → Option (Acct × Acct)
  | .pay bA _ _ _ =>
    match cfg.senderOrigin o, cfg.lookup bA with
    | some snd, some b => some (snd, b)
    | _, _ => none
  | .requestPayment sA _ _ =>
    match cfg.lookup sA, cfg.beneficiaryOrigin o with
    | some snd, some b => some (snd, b)
    | _, _ => none
  | _ => none

/-- The action does not create a payment under an id that is in use by another sender. -/
def FreshIds (cfg : Config) (s : St) (act : Act) : Prop :=
  ∀ env o c snd b id, act = .call env o c → creates cfg o c = some (snd, b) → env.nextId snd b = some id →
    ∀ x, x ≠ snd → s.payments x id = none

/-- The action is not an `accept_and_pay` on a payment whose funds are in escrow. -/
def AcceptsNoOpen (cfg : Config) (s : St) (act : Act) : Prop :=
  ∀ env o id snd p, act = .call env o (.acceptAndPay id) → cfg.senderOrigin o = some snd →
    s.payments snd id = some p → p.state.isOpen = false

/-- The action is not a manual `cancel` of a payment id with a scheduled cancellation. -/
def NoManualCancelOfRefund (s : St) (act : Act) : Prop :=
  ∀ env o id, act = .call env o (.cancel id) → s.agenda id = none

/-- Money of an asset over a set of accounts. -/
def sumTotal (L : Ledger) (a : Asset) (F : Finset Acct) : Int := ∑ w ∈ F, L.total a w

end Verif.Payments
