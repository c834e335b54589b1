import Verif.Accounts.Model

/-!
# The treasury pallet

`pallet_treasury` (outside `/repo`) as Kreivo configures it: runtime/kreivo/src/lib.rs 435-475. What is modelled are all
calls of the pallet, the hook that runs at each block, and the native balances they move.
-/

namespace Verif.Runtime.Treasury

open Verif Verif.Accounts Verif.Runtime

/-! ## Configuration -/

/-- `SpendOrigin = NeverEnsureOrigin<Balance>`: how much an origin may spend at once. runtime/kreivo/src/lib.rs 463. -/
def spendOrigin : RtOrigin → Option Nat := fun _ => none

/-- `RejectOrigin = EnsureRoot`: runtime/kreivo/src/lib.rs 454. -/
def rejectOrigin : RtOrigin → Bool
  | .root => true
  | _ => false

/-- `Burn = ()`, the share of what is left that is burnt each period, in millionths: `Permill::default()`.
runtime/kreivo/src/lib.rs 457. -/
def burn : Nat := 0

/-- `SpendPeriod = 6 * DAYS`, for any number of blocks in a day (parachains_common's). runtime/kreivo/src/lib.rs 437. -/
def spendPeriod (day : Nat) : Nat := 6 * day

/-- `PayoutSpendPeriod = 30 * DAYS`. runtime/kreivo/src/lib.rs 449. -/
def payoutPeriod (day : Nat) : Nat := 30 * day

/-- `MaxApprovals`: runtime/kreivo/src/lib.rs 443. -/
def maxApprovals : Nat := 100

/-! ## State -/

/-- `Proposal`, without its bond, which is zero for what `spend_local` makes. Outside /repo; used at
runtime/kreivo/src/lib.rs 452-475 (pallet_treasury). -/
structure Proposal where
  value : Nat
  beneficiary : AccountId
  deriving DecidableEq

/-- `SpendStatus` with `PaymentState`: `attempted` when a payment was made. Outside /repo; used at
runtime/kreivo/src/lib.rs 452-475 (pallet_treasury). -/
structure Spend where
  amount : Nat
  beneficiary : AccountId
  validFrom : Nat
  expireAt : Nat
  attempted : Bool
  deriving DecidableEq

/-- The storage of the pallet, the native balances and the block number. Outside /repo; used at
runtime/kreivo/src/lib.rs 452-475 (pallet_treasury). -/
structure St where
  now : Nat
  proposalCount : Nat
  proposals : Nat → Option Proposal
  approvals : List Nat
  spendCount : Nat
  spends : Nat → Option Spend
  deactivated : Nat
  free : AccountId → Nat
  /-- The existential deposit. -/
  ed : Nat
  /-- The number of blocks in a day. -/
  day : Nat

/-- `m` with another value at `k`. Outside /repo; used at runtime/kreivo/src/lib.rs 452-475 (pallet_treasury). -/
def put {α β : Type} [DecidableEq α] (m : α → β) (k : α) (v : β) : α → β := fun j => if j = k then v else m j

/-- `pot()`: what the treasury may spend, its balance less the existential deposit. Outside /repo; used at
runtime/kreivo/src/lib.rs 452-475 (pallet_treasury). -/
def St.pot (s : St) : Nat := s.free treasuryAccount - s.ed

/-! ## Calls -/

/-- `spend_local(amount, beneficiary)`. Outside /repo; used at runtime/kreivo/src/lib.rs 452-475 (pallet_treasury). -/
def spendLocal (s : St) (o : RtOrigin) (amount : Nat) (to' : AccountId) : Option St :=
  match spendOrigin o with
  | none => none
  | some max =>
    if amount ≤ max ∧ s.approvals.length < maxApprovals then
      some { s with
        proposals := put s.proposals s.proposalCount (some ⟨amount, to'⟩)
        approvals := s.approvals ++ [s.proposalCount]
        proposalCount := s.proposalCount + 1 }
    else none

/-- `remove_approval(proposal_id)`. Outside /repo; used at runtime/kreivo/src/lib.rs 452-475 (pallet_treasury). -/
def removeApproval (s : St) (o : RtOrigin) (id : Nat) : Option St :=
  if rejectOrigin o ∧ id ∈ s.approvals then some { s with approvals := s.approvals.erase id } else none

/-- `spend(asset_kind, amount, beneficiary, valid_from)`; the asset is the native one. Outside /repo; used at
runtime/kreivo/src/lib.rs 452-475 (pallet_treasury). -/
def spend (s : St) (o : RtOrigin) (amount : Nat) (to' : AccountId) (validFrom : Option Nat) : Option St :=
  match spendOrigin o with
  | none => none
  | some max =>
    let from' := validFrom.getD s.now
    let expire := from' + payoutPeriod s.day
    if expire > s.now ∧ amount ≤ max then
      some { s with
        spends := put s.spends s.spendCount (some ⟨amount, to', from', expire, false⟩)
        spendCount := s.spendCount + 1 }
    else none

/-- Moving `n` from the treasury to an account. Outside /repo; used at runtime/kreivo/src/lib.rs 467
(`PayFromAccount<Balances, TreasuryAccount>`). -/
def payFrom (s : St) (who : AccountId) (n : Nat) : Option (AccountId → Nat) :=
  if n ≤ s.free treasuryAccount then
    let f := put s.free treasuryAccount (s.free treasuryAccount - n)
    some (put f who (f who + n))
  else none

/-- `payout(index)`, for any signer. Outside /repo; used at runtime/kreivo/src/lib.rs 452-475 (pallet_treasury). -/
def payout (s : St) (o : RtOrigin) (i : Nat) : Option St :=
  match o with
  | .signed _ =>
    match s.spends i with
    | some sp =>
      if sp.validFrom ≤ s.now ∧ s.now < sp.expireAt ∧ sp.attempted = false then
        match payFrom s sp.beneficiary sp.amount with
        | some f => some { s with free := f, spends := put s.spends i (some { sp with attempted := true }) }
        | none => none
      else none
    | none => none
  | _ => none

/-- `check_status(index)`, for any signer: a spend that was paid or has expired is removed. Outside /repo; used at
runtime/kreivo/src/lib.rs 452-475 (pallet_treasury). -/
def checkStatus (s : St) (o : RtOrigin) (i : Nat) : Option St :=
  match o with
  | .signed _ =>
    match s.spends i with
    | some sp =>
      if sp.attempted = true ∨ s.now > sp.expireAt then some { s with spends := put s.spends i none } else none
    | none => none
  | _ => none

/-- `void_spend(index)`. Outside /repo; used at runtime/kreivo/src/lib.rs 452-475 (pallet_treasury). -/
def voidSpend (s : St) (o : RtOrigin) (i : Nat) : Option St :=
  match s.spends i with
  | some sp => if rejectOrigin o ∧ sp.attempted = false then some { s with spends := put s.spends i none } else none
  | none => none

/-! ## The hook -/

/-- One approved proposal in `spend_funds`: it is paid if the budget suffices, else kept. The arguments are the state, the
budget left and the approvals kept. Outside /repo; used at runtime/kreivo/src/lib.rs 452-475 (pallet_treasury). -/
def spendOne (x : St × Nat × List Nat × Bool) (id : Nat) : St × Nat × List Nat × Bool :=
  let (s, budget, kept, missed) := x
  match s.proposals id with
  | some p =>
    if p.value ≤ budget then
      let f := put s.free treasuryAccount (s.free treasuryAccount - p.value)
      ({ s with proposals := put s.proposals id none, free := put f p.beneficiary (f p.beneficiary + p.value) },
        budget - p.value, kept, missed)
    else (s, budget, kept ++ [id], true)
  | none => (s, budget, kept, missed)

/-- `spend_funds()`: the approved proposals are paid in order, and a share of what is left is burnt if none was missed.
`SpendFunds = ()`. Outside /repo; used at runtime/kreivo/src/lib.rs 452-475 (pallet_treasury). -/
def spendFunds (s : St) : St :=
  let (s1, budget, kept, missed) := s.approvals.foldl spendOne (s, s.pot, [], false)
  let s2 := { s1 with approvals := kept }
  if missed = false ∧ burn ≠ 0 then
    { s2 with free := put s2.free treasuryAccount (s2.free treasuryAccount - budget * burn / 1000000) }
  else s2

/-- `on_initialize(n)`: the pot is taken out of the active issuance, and each period what is approved is paid. Outside
/repo; used at runtime/kreivo/src/lib.rs 452-475 (pallet_treasury). -/
def onInitialize (s : St) (n : Nat) : St :=
  let s1 := { s with now := n, deactivated := s.pot }
  if n % spendPeriod s.day = 0 then spendFunds s1 else s1

/-! ## Histories -/

/-- What happens to the treasury: a call of its pallet by any origin, a block, or a payment into or between accounts by
the rest of the runtime (which may take from the treasury only what other calls let root take; see C100 and C146). Part of
the transition system around the code (outside /repo). -/
inductive Op
  | spendLocal (o : RtOrigin) (amount : Nat) (to' : AccountId)
  | removeApproval (o : RtOrigin) (id : Nat)
  | spend (o : RtOrigin) (amount : Nat) (to' : AccountId) (validFrom : Option Nat)
  | payout (o : RtOrigin) (i : Nat)
  | checkStatus (o : RtOrigin) (i : Nat)
  | voidSpend (o : RtOrigin) (i : Nat)
  | block (n : Nat)
  | payIn (n : Nat)

/-- A failed call changes nothing. Part of the transition system around the code (outside /repo). -/
def step (s : St) : Op → St
  | .spendLocal o n a => (spendLocal s o n a).getD s
  | .removeApproval o i => (removeApproval s o i).getD s
  | .spend o n a v => (spend s o n a v).getD s
  | .payout o i => (payout s o i).getD s
  | .checkStatus o i => (checkStatus s o i).getD s
  | .voidSpend o i => (voidSpend s o i).getD s
  | .block n => onInitialize s n
  | .payIn n => { s with free := put s.free treasuryAccount (s.free treasuryAccount + n) }

/-- What is paid in over a history. Specification only, no code behind it (outside /repo). -/
def paidIn : List Op → Nat
  | [] => 0
  | .payIn n :: l => n + paidIn l
  | _ :: l => paidIn l

/-! ## C147 -/

/-- Nothing is approved or due: the state at genesis. Specification only, no code behind it (outside /repo). -/
def Nothing (s : St) : Prop := s.approvals = [] ∧ ∀ i, s.spends i = none

theorem nothing_block {s : St} (n : Nat) (h : Nothing s) :
    Nothing (onInitialize s n) ∧ (onInitialize s n).free = s.free := by
  unfold onInitialize
  dsimp only
  split
  · unfold spendFunds
    dsimp only
    rw [h.1]
    simp only [List.foldl_nil]
    rw [if_neg (fun hb => hb.2 rfl)]
    exact ⟨⟨rfl, h.2⟩, rfl⟩
  · exact ⟨h, rfl⟩

theorem nothing_step {s : St} (op : Op) (h : Nothing s) : Nothing (step s op) ∧
    (step s op).free = match op with
      | .payIn n => put s.free treasuryAccount (s.free treasuryAccount + n)
      | _ => s.free := by
  cases op with
  | spendLocal o n a => exact ⟨h, rfl⟩
  | removeApproval o i =>
    have : removeApproval s o i = none := by
      unfold removeApproval
      rw [if_neg]
      rintro ⟨_, h1⟩
      rw [h.1] at h1
      cases h1
    simp only [step, this]
    exact ⟨h, rfl⟩
  | spend o n a v => exact ⟨h, rfl⟩
  | payout o i =>
    have : payout s o i = none := by
      unfold payout
      cases o <;> simp [h.2 i]
    simp only [step, this]
    exact ⟨h, rfl⟩
  | checkStatus o i =>
    have : checkStatus s o i = none := by
      unfold checkStatus
      cases o <;> simp [h.2 i]
    simp only [step, this]
    exact ⟨h, rfl⟩
  | voidSpend o i =>
    have : voidSpend s o i = none := by
      unfold voidSpend
      simp [h.2 i]
    simp only [step, this]
    exact ⟨h, rfl⟩
  | block n => exact nothing_block n h
  | payIn n => exact ⟨h, rfl⟩

/-- C147: from genesis on, whatever calls of the treasury's pallet anybody makes, root included, and however many blocks
pass, the treasury holds what it had and all that was paid in, and nobody gets anything from it. -/
theorem C147_keeps_all (ops : List Op) (s : St) (h : Nothing s) :
    (ops.foldl step s).free treasuryAccount = s.free treasuryAccount + paidIn ops ∧
    ∀ a, a ≠ treasuryAccount → (ops.foldl step s).free a = s.free a := by
  suffices hk : ∀ ops s, Nothing s → Nothing (ops.foldl step s) ∧
      (ops.foldl step s).free treasuryAccount = s.free treasuryAccount + paidIn ops ∧
      ∀ a, a ≠ treasuryAccount → (ops.foldl step s).free a = s.free a from (hk ops s h).2
  intro ops
  induction ops with
  | nil => exact fun s h => ⟨h, by simp [paidIn], fun _ _ => rfl⟩
  | cons op ops ih =>
    intro s h
    obtain ⟨h1, h2⟩ := nothing_step op h
    obtain ⟨h3, h4, h5⟩ := ih _ h1
    refine ⟨h3, ?_, ?_⟩
    · rw [List.foldl_cons, h4, h2]
      cases op <;> simp [paidIn, put] <;> omega
    · intro a ha
      rw [List.foldl_cons, h5 a ha, h2]
      cases op <;> simp [put, ha]

/-- C147: no origin, not even root, gets a payment approved. -/
theorem C147_no_spends (s : St) (o : RtOrigin) (n : Nat) (a : AccountId) (v : Option Nat) :
    spendLocal s o n a = none ∧ spend s o n a v = none := ⟨rfl, rfl⟩

/-- C147: if something was approved in another way (by an older runtime, say), it is paid out once and not more than
approved: what anybody has due, in approvals and spends, never grows. -/
theorem C147_nothing_new (s : St) (op : Op) :
    (∀ id ∈ (step s op).approvals, id ∈ s.approvals) ∧
    (∀ id p, (step s op).proposals id = some p → s.proposals id = some p) ∧
    ∀ i sp, (step s op).spends i = some sp → ∃ sp0, s.spends i = some sp0 ∧ sp.amount = sp0.amount ∧
      sp.beneficiary = sp0.beneficiary ∧ (sp0.attempted = true → sp.attempted = true) := by
  have same : (∀ id ∈ s.approvals, id ∈ s.approvals) ∧ (∀ id p, s.proposals id = some p → s.proposals id = some p) ∧
      ∀ i sp, s.spends i = some sp → ∃ sp0, s.spends i = some sp0 ∧ sp.amount = sp0.amount ∧
        sp.beneficiary = sp0.beneficiary ∧ (sp0.attempted = true → sp.attempted = true) :=
    ⟨fun _ h => h, fun _ _ h => h, fun i sp h => ⟨sp, h, rfl, rfl, id⟩⟩
  have remove : ∀ i0, ∀ i sp, put s.spends i0 none i = some sp → ∃ sp0, s.spends i = some sp0 ∧ sp.amount = sp0.amount ∧
        sp.beneficiary = sp0.beneficiary ∧ (sp0.attempted = true → sp.attempted = true) := by
    intro i0 i sp hi
    unfold put at hi
    split at hi
    · cases hi
    · exact ⟨sp, hi, rfl, rfl, id⟩
  cases op with
  | spendLocal o n a => exact same
  | spend o n a v => exact same
  | payIn n => exact same
  | removeApproval o id =>
    simp only [step, removeApproval]
    split
    · exact ⟨fun j hj => List.mem_of_mem_erase hj, same.2⟩
    · exact same
  | payout o i =>
    simp only [step, payout]
    cases o <;> try exact same
    dsimp only
    cases hi : s.spends i with
    | none => exact same
    | some sp =>
      dsimp only
      split
      · cases hp : payFrom s sp.beneficiary sp.amount with
        | none => exact same
        | some f =>
          refine ⟨same.1, same.2.1, ?_⟩
          intro j sp' hj
          simp only [Option.getD_some, put] at hj
          split at hj
          · rename_i he
            subst he
            cases hj
            exact ⟨sp, hi, rfl, rfl, fun _ => rfl⟩
          · exact ⟨sp', hj, rfl, rfl, id⟩
      · exact same
  | checkStatus o i =>
    simp only [step, checkStatus]
    cases o <;> try exact same
    dsimp only
    cases hi : s.spends i with
    | none => exact same
    | some sp =>
      dsimp only
      split
      · exact ⟨same.1, same.2.1, remove i⟩
      · exact same
  | voidSpend o i =>
    simp only [step, voidSpend]
    cases hi : s.spends i with
    | none => exact same
    | some sp =>
      dsimp only
      split
      · exact ⟨same.1, same.2.1, remove i⟩
      · exact same
  | block n =>
    simp only [step, onInitialize]
    split
    · have fold : ∀ (l : List Nat) (x : St × Nat × List Nat × Bool),
          (∀ id p, (l.foldl spendOne x).1.proposals id = some p → x.1.proposals id = some p) ∧
          (l.foldl spendOne x).1.spends = x.1.spends ∧
          ∀ id ∈ (l.foldl spendOne x).2.2.1, id ∈ x.2.2.1 ∨ id ∈ l := by
        intro l
        induction l with
        | nil => exact fun x => ⟨fun _ _ h => h, rfl, fun _ h => .inl h⟩
        | cons id l ih =>
          intro x
          obtain ⟨h1, h2, h3⟩ := ih (spendOne x id)
          rw [List.foldl_cons]
          obtain ⟨s0, b, k, m⟩ := x
          have key : (∀ j p, (spendOne (s0, b, k, m) id).1.proposals j = some p → s0.proposals j = some p) ∧
              (spendOne (s0, b, k, m) id).1.spends = s0.spends ∧
              ∀ j ∈ (spendOne (s0, b, k, m) id).2.2.1, j ∈ k ∨ j = id := by
            unfold spendOne
            dsimp only
            split
            · split
              · refine ⟨fun j p hj => ?_, rfl, fun j hj => .inl hj⟩
                simp only [put] at hj
                split at hj
                · cases hj
                · exact hj
              · refine ⟨fun j p hj => hj, rfl, fun j hj => ?_⟩
                rcases List.mem_append.1 hj with hj | hj
                · exact .inl hj
                · exact .inr (List.mem_singleton.1 hj)
            · exact ⟨fun j p hj => hj, rfl, fun j hj => .inl hj⟩
          refine ⟨fun j p hj => key.1 j p (h1 j p hj), h2.trans key.2.1, fun j hj => ?_⟩
          rcases h3 j hj with hj | hj
          · rcases key.2.2 j hj with hj | rfl
            · exact .inl hj
            · exact .inr List.mem_cons_self
          · exact .inr (List.mem_cons_of_mem _ hj)
      obtain ⟨h1, h2, h3⟩ := fold s.approvals ({ s with now := n, deactivated := s.pot },
        St.pot { s with now := n, deactivated := s.pot }, [], false)
      unfold spendFunds
      dsimp only at h1 h2 h3 ⊢
      rw [if_neg (fun hb => hb.2 rfl)]
      refine ⟨fun j hj => ?_, h1, fun i sp hi => ?_⟩
      · rcases h3 j hj with hj | hj
        · cases hj
        · exact hj
      · exact ⟨sp, by rw [← hi]; exact (congrFun h2 i).symm, rfl, rfl, id⟩
    · exact same

/-- C147: a spend that was paid is not paid again. -/
theorem C147_paid_once (s : St) (o : RtOrigin) (i : Nat) {sp : Spend} (h : s.spends i = some sp)
    (ha : sp.attempted = true) : payout s o i = none := by
  unfold payout
  cases o <;> simp [h, ha]

/-- The amount of a proposal, and the part of it that goes to an account. Specification only, no code behind it (outside
/repo). -/
def St.due (s : St) (id : Nat) : Nat := match s.proposals id with
  | some p => p.value
  | none => 0

/-- See `St.due`. Specification only, no code behind it (outside /repo). -/
def St.dueTo (s : St) (a : AccountId) (id : Nat) : Nat := match s.proposals id with
  | some p => if p.beneficiary = a then p.value else 0
  | none => 0

theorem spend_fold : ∀ (l : List Nat) (s : St) (b : Nat) (k : List Nat) (m : Bool), b ≤ s.free treasuryAccount →
    ∃ paid : List Nat, paid.Nodup ∧
      (∀ i ∈ paid, i ∈ l ∧ s.proposals i ≠ none ∧ (l.foldl spendOne (s, b, k, m)).1.proposals i = none) ∧
      (∀ i, i ∉ paid → (l.foldl spendOne (s, b, k, m)).1.proposals i = s.proposals i) ∧
      (l.foldl spendOne (s, b, k, m)).2.1 + (paid.map s.due).sum = b ∧
      (∀ a, (l.foldl spendOne (s, b, k, m)).1.free a + (if a = treasuryAccount then (paid.map s.due).sum else 0) =
        s.free a + (paid.map (s.dueTo a)).sum) ∧
      (∀ i ∈ l, s.proposals i ≠ none → i ∈ paid ∨ i ∈ (l.foldl spendOne (s, b, k, m)).2.2.1) ∧
      ∀ i ∈ k, i ∈ (l.foldl spendOne (s, b, k, m)).2.2.1 := by
  intro l
  induction l with
  | nil =>
    intro s b k m hb
    exact ⟨[], List.nodup_nil, fun i hi => absurd hi List.not_mem_nil, fun i _ => rfl, by simp, fun a => by simp,
      fun i hi => absurd hi List.not_mem_nil, fun i hi => hi⟩
  | cons id l ih =>
    intro s b k m hb
    rw [List.foldl_cons]
    cases hp : s.proposals id with
    | none =>
      have he : spendOne (s, b, k, m) id = (s, b, k, m) := by simp only [spendOne, hp]
      rw [he]
      obtain ⟨paid, h1, h2, h3, h4, h5, h6, h7⟩ := ih s b k m hb
      refine ⟨paid, h1, fun i hi => ⟨List.mem_cons_of_mem _ (h2 i hi).1, (h2 i hi).2⟩, h3, h4, h5, fun i hi hn => ?_, h7⟩
      rcases List.mem_cons.1 hi with rfl | hi
      · exact absurd hp hn
      · exact h6 i hi hn
    | some p =>
      by_cases hv : p.value ≤ b
      · have he : spendOne (s, b, k, m) id =
            ({ s with
              proposals := put s.proposals id none,
              free := put (put s.free treasuryAccount (s.free treasuryAccount - p.value)) p.beneficiary
                (put s.free treasuryAccount (s.free treasuryAccount - p.value) p.beneficiary + p.value) },
              b - p.value, k, m) := by simp only [spendOne, hp, if_pos hv]
        rw [he]
        obtain ⟨paid, h1, h2, h3, h4, h5, h6, h7⟩ := ih
          { s with
            proposals := put s.proposals id none,
            free := put (put s.free treasuryAccount (s.free treasuryAccount - p.value)) p.beneficiary
              (put s.free treasuryAccount (s.free treasuryAccount - p.value) p.beneficiary + p.value) }
          (b - p.value) k m (by
            dsimp only [put]
            by_cases hx : treasuryAccount = p.beneficiary
            · rw [if_pos hx, if_pos hx.symm]; omega
            · rw [if_neg hx, if_pos rfl]; omega)
        have hni : id ∉ paid := fun hi => (h2 id hi).2.1 (by simp [put])
        have hne : ∀ i ∈ paid, i ≠ id := fun i hi e => hni (e ▸ hi)
        have e1 : paid.map (St.due { s with
            proposals := put s.proposals id none,
            free := put (put s.free treasuryAccount (s.free treasuryAccount - p.value)) p.beneficiary
              (put s.free treasuryAccount (s.free treasuryAccount - p.value) p.beneficiary + p.value) }) = paid.map s.due :=
          List.map_congr_left fun i hi => by simp only [St.due, put, if_neg (hne i hi)]
        have e2 : ∀ a, paid.map (St.dueTo { s with
            proposals := put s.proposals id none,
            free := put (put s.free treasuryAccount (s.free treasuryAccount - p.value)) p.beneficiary
              (put s.free treasuryAccount (s.free treasuryAccount - p.value) p.beneficiary + p.value) } a) =
            paid.map (s.dueTo a) := fun a =>
          List.map_congr_left fun i hi => by simp only [St.dueTo, put, if_neg (hne i hi)]
        have d1 : s.due id = p.value := by simp only [St.due, hp]
        rw [e1] at h4
        refine ⟨id :: paid, List.nodup_cons.2 ⟨hni, h1⟩, ?_, ?_, ?_, ?_, ?_, h7⟩
        · intro i hi
          rcases List.mem_cons.1 hi with rfl | hi
          · refine ⟨List.mem_cons_self, by rw [hp]; exact Option.some_ne_none _, ?_⟩
            rw [h3 i hni]
            simp [put]
          · refine ⟨List.mem_cons_of_mem _ (h2 i hi).1, ?_, (h2 i hi).2.2⟩
            have := (h2 i hi).2.1
            simpa only [put, if_neg (hne i hi)] using this
        · intro i hi
          rw [List.mem_cons, not_or] at hi
          rw [h3 i hi.2]
          simp only [put, if_neg hi.1]
        · rw [List.map_cons, List.sum_cons, d1]
          omega
        · intro a
          have := h5 a
          rw [e1, e2] at this
          rw [List.map_cons, List.sum_cons, List.map_cons, List.sum_cons, d1]
          have d2 : s.dueTo a id = if p.beneficiary = a then p.value else 0 := by simp only [St.dueTo, hp]
          rw [d2]
          have hf : put (put s.free treasuryAccount (s.free treasuryAccount - p.value)) p.beneficiary
              (put s.free treasuryAccount (s.free treasuryAccount - p.value) p.beneficiary + p.value) a =
              if a = p.beneficiary then (if p.beneficiary = treasuryAccount then s.free treasuryAccount - p.value
                else s.free p.beneficiary) + p.value
              else if a = treasuryAccount then s.free treasuryAccount - p.value else s.free a := rfl
          dsimp only at this
          rw [hf] at this
          by_cases hx : a = treasuryAccount
          · subst hx
            rw [if_pos rfl] at this ⊢
            by_cases hy : treasuryAccount = p.beneficiary
            · rw [if_pos hy, if_pos hy.symm] at this
              rw [if_pos hy.symm]
              omega
            · rw [if_neg hy, if_pos rfl] at this
              rw [if_neg (fun e => hy e.symm)]
              omega
          · rw [if_neg hx] at this ⊢
            by_cases hy : a = p.beneficiary
            · rw [if_pos hy, if_neg (fun e => hx (hy.trans e))] at this
              rw [if_pos hy.symm]
              have hs : s.free p.beneficiary = s.free a := by rw [hy]
              omega
            · rw [if_neg hy, if_neg hx] at this
              rw [if_neg (fun e => hy e.symm)]
              omega
        · intro i hi hn
          by_cases hx : i = id
          · exact .inl (hx ▸ List.mem_cons_self)
          · rcases List.mem_cons.1 hi with hi | hi
            · exact absurd hi hx
            · rcases h6 i hi (by simpa only [put, if_neg hx] using hn) with h | h
              · exact .inl (List.mem_cons_of_mem _ h)
              · exact .inr h
      · have he : spendOne (s, b, k, m) id = (s, b, k ++ [id], true) := by simp only [spendOne, hp, if_neg hv]
        rw [he]
        obtain ⟨paid, h1, h2, h3, h4, h5, h6, h7⟩ := ih s b (k ++ [id]) true hb
        refine ⟨paid, h1, fun i hi => ⟨List.mem_cons_of_mem _ (h2 i hi).1, (h2 i hi).2⟩, h3, h4, h5, fun i hi hn => ?_,
          fun i hi => h7 i (List.mem_append_left _ hi)⟩
        rcases List.mem_cons.1 hi with rfl | hi
        · exact .inr (h7 i (List.mem_append_right _ List.mem_cons_self))
        · exact h6 i hi hn

/-- C147: if payments were approved by an older runtime, then a block pays some of them, each in the approved amount to the
approved beneficiary, out of the treasury, and together no more than the treasury can spare above the existential deposit. What
was paid is gone, the rest stays approved as it was. -/
theorem C147_approved (s : St) (n : Nat) : ∃ paid : List Nat, paid.Nodup ∧
    (∀ i ∈ paid, i ∈ s.approvals ∧ s.proposals i ≠ none ∧ (onInitialize s n).proposals i = none) ∧
    (∀ i, i ∉ paid → (onInitialize s n).proposals i = s.proposals i) ∧
    (∀ i ∈ s.approvals, s.proposals i ≠ none → i ∈ paid ∨ i ∈ (onInitialize s n).approvals) ∧
    (paid.map s.due).sum ≤ s.free treasuryAccount - s.ed ∧
    ∀ a, (onInitialize s n).free a + (if a = treasuryAccount then (paid.map s.due).sum else 0) =
      s.free a + (paid.map (s.dueTo a)).sum := by
  unfold onInitialize
  dsimp only
  split
  · have hl : s.pot ≤ s.free treasuryAccount := Nat.sub_le _ _
    obtain ⟨paid, h1, h2, h3, h4, h5, h6, -⟩ := spend_fold s.approvals { s with now := n, deactivated := s.pot }
      s.pot [] false hl
    unfold spendFunds
    dsimp only
    rw [if_neg (fun hb => hb.2 rfl)]
    refine ⟨paid, h1, h2, h3, h6, ?_, h5⟩
    have e : paid.map (St.due { s with now := n, deactivated := s.pot }) = paid.map s.due := rfl
    rw [e] at h4
    have : s.pot = s.free treasuryAccount - s.ed := rfl
    omega
  · exact ⟨[], List.nodup_nil, fun i hi => absurd hi List.not_mem_nil, fun i _ => rfl, fun i hi _ => .inr hi, Nat.zero_le _,
      fun a => by simp⟩

/-- C147: what is approved is taken back by root alone, before it is paid. -/
theorem C147_rejects (s : St) (o : RtOrigin) (i : Nat) :
    (removeApproval s o i ≠ none → o = .root) ∧ (voidSpend s o i ≠ none → o = .root) := by
  have key : rejectOrigin o = true → o = .root := by cases o <;> simp [rejectOrigin]
  constructor
  · intro h
    unfold removeApproval at h
    by_cases hc : rejectOrigin o = true ∧ i ∈ s.approvals
    · exact key hc.1
    · rw [if_neg hc] at h; exact absurd rfl h
  · intro h
    unfold voidSpend at h
    split at h
    · rename_i sp hsp
      by_cases hc : rejectOrigin o = true ∧ sp.attempted = false
      · exact key hc.1
      · rw [if_neg hc] at h; exact absurd rfl h
    · exact absurd rfl h

/-- An empty treasury with 1000 in it. Example for non-vacuity (outside /repo). -/
def s0 : St := ⟨1, 0, fun _ => none, [], 0, fun _ => none, 0, fun a => if a = treasuryAccount then 1000 else 0, 1, 14400⟩

/-- The same with a spend of 300 to the account of community 1 due. Example for non-vacuity (outside /repo). -/
def s1 : St := { s0 with spends := fun i => if i = 0 then some ⟨300, communityAccount 1, 0, 500000, false⟩ else none }

example : Nothing s0 := ⟨rfl, fun _ => rfl⟩
example : (([Op.payIn 5, .spendLocal .root 10 (communityAccount 1), .block 86400, .spend .root 1 (communityAccount 2) none,
    .payout (.signed (communityAccount 1)) 0].foldl step s0).free treasuryAccount) = 1005 := by
  rw [(C147_keeps_all _ s0 ⟨rfl, fun _ => rfl⟩).1]
  decide +kernel
-- What was due is paid, once.
example : ((step s1 (.payout (.signed (communityAccount 1)) 0)).free treasuryAccount = 700 ∧
    (step s1 (.payout (.signed (communityAccount 1)) 0)).free (communityAccount 1) = 300) := by decide +kernel
example : ((step (step s1 (.payout (.signed (communityAccount 1)) 0)) (.payout (.signed (communityAccount 1)) 0)).free
    treasuryAccount = 700) := by decide +kernel

/-- Three proposals approved, of which the treasury can pay two. Example for non-vacuity (outside /repo). -/
def s2 : St := { s0 with
  approvals := [0, 1, 2],
  proposals := fun i => if i = 0 then some ⟨300, communityAccount 1⟩ else if i = 1 then some ⟨800, communityAccount 2⟩
    else if i = 2 then some ⟨600, communityAccount 1⟩ else none }

example : (onInitialize s2 86400).free treasuryAccount = 100 ∧ (onInitialize s2 86400).free (communityAccount 1) = 900 ∧
    (onInitialize s2 86400).approvals = [1] := by decide +kernel
example : ((removeApproval s2 .root 1).map fun s => s.approvals) = some [0, 2] ∧
    (removeApproval s2 (.signed (communityAccount 2)) 1).isNone := by decide +kernel

end Verif.Runtime.Treasury
