import Verif.Governance.Tracks

/-!
# The deposits of referenda

What the two instances of pallet_referenda reserve from accounts, give back and slash
(runtime/kreivo/src/collective/governance.rs 10-28, runtime/kreivo/src/communities/governance.rs 12-16, 92-113). The pallet is
outside `/repo`; the amounts, who kills and cancels, and where slashed deposits go are configured there. Both instances
reserve in the same balances, without names, so that what one gives back is not told from what the other or another pallet
reserved.

Simplifications: what a referendum comes to is chosen freely here (C110–C115 and C137 are about that); the least balance of an
account is not kept apart (the environment may refuse any reservation).
-/

namespace Verif.Governance

open Verif Verif.Accounts Verif.Communities

/-- Which instance of pallet_referenda: runtime/kreivo/src/collective/governance.rs 10,
runtime/kreivo/src/communities/governance.rs 93. -/
inductive House
  | collective
  | community
  deriving DecidableEq

/-- `Deposit`: who it is from and how much it is. Outside /repo; used at runtime/kreivo/src/collective/governance.rs 10-28 and
runtime/kreivo/src/communities/governance.rs 92-113 (pallet_referenda). -/
structure Bond where
  who : AccountId
  amount : Nat
  deriving DecidableEq

/-- What a referendum has come to: the variants of `ReferendumInfo`. Outside /repo; used at
runtime/kreivo/src/collective/governance.rs 10-28 and runtime/kreivo/src/communities/governance.rs 92-113
(pallet_referenda). -/
inductive Stage
  | ongoing
  | approved
  | rejected
  | timedOut
  | cancelled
  | killed
  deriving DecidableEq

/-- A referendum as far as its deposits go: its track, and the deposits still kept. Outside /repo; used at
runtime/kreivo/src/collective/governance.rs 10-28 and runtime/kreivo/src/communities/governance.rs 92-113
(pallet_referenda). -/
structure DRef where
  track : Nat
  stage : Stage
  submission : Option Bond
  decision : Option Bond
  deriving DecidableEq

/-- Storage: free and reserved balances, the part of the reserved ones that other pallets reserved, the referenda of both
instances in the order of their numbers, and the decision deposits of the communities' tracks. Outside /repo; used at
runtime/kreivo/src/collective/governance.rs 15, 19 and runtime/kreivo/src/communities/governance.rs 97, 104 (pallet_referenda
and pallet_balances). -/
structure DSt where
  free : AccountId → Nat
  reserved : AccountId → Nat
  elsewhere : AccountId → Nat
  refs : House → List DRef
  communityDeposit : Nat → Option Nat

/-- `SubmissionDeposit`: runtime/kreivo/src/collective/governance.rs 22, runtime/kreivo/src/communities/governance.rs 14, 107. -/
def submissionDeposit : House → Nat
  | .collective => units
  | .community => 0

/-- `decision_deposit` of a track: runtime/kreivo/src/collective/tracks.rs 25, 47, 69, 91; those of communities are in storage
(runtime/kreivo/src/communities/governance.rs 111). -/
def decisionDeposit (s : DSt) : House → Nat → Option Nat
  | .collective, t => (collectiveInfo t).map (·.decisionDeposit)
  | .community, t => s.communityDeposit t

/-- Write one account's number. Outside /repo; used at runtime/kreivo/src/collective/governance.rs 15 (pallet_balances). -/
def put1 (f : AccountId → Nat) (a : AccountId) (n : Nat) : AccountId → Nat := fun b => if b = a then n else f b

/-- Write the referenda of one instance. Outside /repo; used at runtime/kreivo/src/collective/governance.rs 10-28
(pallet_referenda). -/
def DSt.setRefs (s : DSt) (k : House) (l : List DRef) : DSt := { s with refs := fun j => if j = k then l else s.refs j }

/-- `Currency::reserve`: fails without as much free balance. Outside /repo; used at
runtime/kreivo/src/collective/governance.rs 15 (pallet_balances). -/
def reserve (s : DSt) (b : Bond) : Option DSt :=
  if s.free b.who < b.amount then none
  else some { s with free := put1 s.free b.who (s.free b.who - b.amount)
                     reserved := put1 s.reserved b.who (s.reserved b.who + b.amount) }

/-- `Currency::unreserve`, with `refund_deposit`: as much as is reserved. Outside /repo; used at
runtime/kreivo/src/collective/governance.rs 15 (pallet_balances). -/
def unreserve (s : DSt) : Option Bond → DSt
  | none => s
  | some b =>
    let n := min b.amount (s.reserved b.who)
    { s with free := put1 s.free b.who (s.free b.who + n)
             reserved := put1 s.reserved b.who (s.reserved b.who - n) }

/-- `slash_deposit`: `Currency::slash_reserved`, and `Slash = Treasury` (runtime/kreivo/src/collective/governance.rs 19,
runtime/kreivo/src/communities/governance.rs 104). -/
def slash (s : DSt) : Option Bond → DSt
  | none => s
  | some b =>
    let n := min b.amount (s.reserved b.who)
    { s with free := put1 s.free treasuryAccount (s.free treasuryAccount + n)
             reserved := put1 s.reserved b.who (s.reserved b.who - n) }

/-- Who a proposal is from: `SubmitOrigin`, runtime/kreivo/src/collective/governance.rs 16,
runtime/kreivo/src/communities/governance.rs 98-101; root proposes to communities as the treasury. -/
def submitter : House → Origin → Option AccountId
  | _, .signed who => some who
  | .community, .root => some treasuryAccount
  | _, _ => none

/-- `CancelOrigin`: runtime/kreivo/src/collective/governance.rs 17, runtime/kreivo/src/communities/governance.rs 102. -/
def cancels : House → Origin → Bool
  | .collective, o => mayCancel o
  | .community, .root => true
  | .community, _ => false

/-- `KillOrigin`: runtime/kreivo/src/collective/governance.rs 18, runtime/kreivo/src/communities/governance.rs 103. -/
def kills : House → Origin → Bool
  | .collective, o => mayKill o
  | .community, .root => true
  | .community, _ => false

/-- The calls about deposits. Outside /repo; used at runtime/kreivo/src/collective/governance.rs 10-28 and
runtime/kreivo/src/communities/governance.rs 92-113 (pallet_referenda). -/
inductive DCall
  /-- `submit` on a track; whether the account may propose there is left out (C83) -/
  | submit (k : House) (t : Nat)
  /-- `place_decision_deposit` -/
  | place (k : House) (p : Nat)
  /-- `refund_decision_deposit` -/
  | refundDecision (k : House) (p : Nat)
  /-- `refund_submission_deposit` -/
  | refundSubmission (k : House) (p : Nat)
  /-- `cancel` -/
  | cancel (k : House) (p : Nat)
  /-- `kill` -/
  | kill (k : House) (p : Nat)

/-- `take_decision_deposit`: `none` is an error. Outside /repo; used at runtime/kreivo/src/collective/governance.rs 10-28
(pallet_referenda). -/
def takeDecision (r : DRef) : Option (Option Bond × DRef) :=
  match r.stage with
  | .ongoing => if r.decision = none then some (none, r) else none
  | .killed => some (none, r)
  | _ => some (r.decision, { r with decision := none })

/-- `take_submission_deposit`: only of approved and cancelled referenda; `none` is an error. Outside /repo; used at
runtime/kreivo/src/collective/governance.rs 10-28 (pallet_referenda). -/
def takeSubmission (r : DRef) : Option (Option Bond × DRef) :=
  match r.stage with
  | .approved => some (r.submission, { r with submission := none })
  | .cancelled => some (r.submission, { r with submission := none })
  | _ => none

/-- `ensure_signed_or_root`. Outside /repo; used at runtime/kreivo/src/collective/governance.rs 10-28 (frame_system). -/
def signedOrRoot : Origin → Bool
  | .signed _ => true
  | .root => true
  | _ => false

/-- Dispatch; `none` is an error, which changes nothing. Outside /repo; used at runtime/kreivo/src/collective/governance.rs
10-28 and runtime/kreivo/src/communities/governance.rs 92-113 (pallet_referenda). -/
def ddispatch (s : DSt) (o : Origin) : DCall → Option DSt
  | .submit k t =>
    match submitter k o, decisionDeposit s k t with
    | some who, some _ =>
      (reserve s ⟨who, submissionDeposit k⟩).map fun s' =>
        s'.setRefs k (s.refs k ++ [⟨t, .ongoing, some ⟨who, submissionDeposit k⟩, none⟩])
    | _, _ => none
  | .place k p =>
    match o, (s.refs k)[p]? with
    | .signed who, some r =>
      match r.stage, r.decision, decisionDeposit s k r.track with
      | .ongoing, none, some n =>
        (reserve s ⟨who, n⟩).map fun s' => s'.setRefs k ((s.refs k).set p { r with decision := some ⟨who, n⟩ })
      | _, _, _ => none
    | _, _ => none
  | .refundDecision k p =>
    if signedOrRoot o then
      match (s.refs k)[p]? with
      | some r => (takeDecision r).map fun x => (unreserve s x.1).setRefs k ((s.refs k).set p x.2)
      | none => none
    else none
  | .refundSubmission k p =>
    if signedOrRoot o then
      match (s.refs k)[p]? with
      | some r => (takeSubmission r).map fun x => (unreserve s x.1).setRefs k ((s.refs k).set p x.2)
      | none => none
    else none
  | .cancel k p =>
    match (s.refs k)[p]? with
    | some r =>
      if cancels k o ∧ r.stage = .ongoing then some (s.setRefs k ((s.refs k).set p { r with stage := .cancelled })) else none
    | none => none
  | .kill k p =>
    match (s.refs k)[p]? with
    | some r =>
      if kills k o ∧ r.stage = .ongoing then
        some ((slash (slash s r.submission) r.decision).setRefs k
          ((s.refs k).set p { r with stage := .killed, submission := none, decision := none }))
      else none
    | none => none

/-- One step of the chain: a call; a referendum that is serviced comes to its end; other pallets change free balances and
reserve and give back, but give back no more than they reserved; tracks of communities change. Part of the transition system
around the code (outside /repo). -/
inductive DStep : DSt → DSt → Prop
  | call {s s' : DSt} (o : Origin) (c : DCall) (h : ddispatch s o c = some s') : DStep s s'
  | ends {s : DSt} (k : House) (p : Nat) (r : DRef) (g : Stage) (hr : (s.refs k)[p]? = some r) (ho : r.stage = .ongoing)
      (hg : g = .approved ∨ g = .rejected ∨ g = .timedOut) :
      DStep s (s.setRefs k ((s.refs k).set p { r with stage := g }))
  | world {s : DSt} (free reserved elsewhere : AccountId → Nat) (tracks : Nat → Option Nat)
      (h : ∀ a, reserved a + s.elsewhere a = s.reserved a + elsewhere a) :
      DStep s { s with free := free, reserved := reserved, elsewhere := elsewhere, communityDeposit := tracks }

/-- States reached from one without referenda, in which everything reserved was reserved by other pallets. Specification only, no
code behind it (outside /repo). -/
inductive DReach : DSt → Prop
  | start (s : DSt) (h : ∀ k, s.refs k = []) (hr : s.reserved = s.elsewhere) : DReach s
  | step {s s' : DSt} (h : DReach s) (st : DStep s s') : DReach s'

end Verif.Governance
