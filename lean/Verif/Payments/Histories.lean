import Verif.Payments.Steps

/-! # Payments: invariants of restricted histories (helper lemmas) -/

namespace Verif.Payments

theorem Reach.mono {cfg ok ok' s} (h : Reach cfg ok s) (hle : ∀ s a, ok s a → ok' s a) : Reach cfg ok' s := by
  induction h with
  | init h => exact .init h
  | step act _ ho ih => exact .step act ih (hle _ _ ho)

theorem Reach.reachable {cfg ok s} (h : Reach cfg ok s) : Reachable cfg s := h.mono fun _ _ _ => trivial

/-! ### exact backing -/

theorem review_no_saturation {s : St} (hi : Inv s) {snd id p} (hp : s.payments snd id = some p)
    (hst : p.state = .needsReview) : p.amount + p.incentive ≤ BAL_MAX := by
  have h1 := hi.backed p.asset p.beneficiary {(snd, id)}
  rw [Finset.sum_singleton, escrowAt_eq] at h1
  simp only [hp, escO] at h1
  have h2 := hi.bound p.asset p.beneficiary
  have h3 := escrow_review hst snd p.beneficiary
  simp only [onAcct, if_true] at h3
  split_ifs at h3 <;> omega

theorem ExactlyBacked.congr {s s' : St} (h : ExactlyBacked s) (hp : s'.payments = s.payments)
    (hl : ∀ a w, (s'.ledger.bal a w).held = (s.ledger.bal a w).held) : ExactlyBacked s' := by
  obtain ⟨ks, h1, h2⟩ := h
  refine ⟨ks, by rw [hp]; exact h1, ?_⟩
  intro a w
  rw [hl, ← h2 a w]
  exact Finset.sum_congr rfl fun k _ => by rw [escrowAt_eq, hp, ← escrowAt_eq]

theorem cancel_exactlyBacked {cfg env s o id s'} (h : cancel cfg env s o id = .ok s') (he : ExactlyBacked s) :
    ExactlyBacked s' := by
  obtain ⟨snd, b, p, L, _, hpar, hp, hl, hs⟩ := cancel_ok h
  have e := cancelPayment_eff hl
  have hst : p.state = .created ∨ ∃ cb, p.state = .refundRequested cb := by tauto
  have hp' : s'.payments = setPayment s.payments snd id none := by rcases hs with ⟨_, rfl⟩ | ⟨_, rfl⟩ <;> rfl
  have hl' : s'.ledger = L := by rcases hs with ⟨_, rfl⟩ | ⟨_, rfl⟩ <;> rfl
  refine exactlyBacked_delta hp' he (hl' ▸ e.heldDelta) ?_ ?_
  · intro w
    rw [hp]
    simp only [escO, cancel_escrow hst, onAcct_neg]; push_cast; omega
  · intro a' w ha; rw [hp]; simp only [escO]; rw [escrow_other ha]

theorem dispatch_exactlyBacked {cfg env s o c s'} (h : dispatch cfg env s o c = .ok s') (hi : Inv s)
    (hok : AcceptsNoOpen cfg s (.call env o c)) (he : ExactlyBacked s) : ExactlyBacked s' := by
  cases c with
  | pay bA a n r =>
    obtain ⟨snd, b, id, L, _, _, _, hf, hr, rfl⟩ := pay_ok h
    obtain ⟨e, _⟩ := reserve_eff hr
    refine exactlyBacked_delta (s := s) rfl he e.heldDelta ?_ ?_
    · intro w
      rw [escO_fresh hf]
      have := escrow_created (p := newPayment cfg s snd b a n .created r) rfl snd w
      simp only [escO]; rw [this]; simp
    · intro a' w ha
      rw [escO_fresh hf]; simp only [escO]; rw [escrow_other ha]
  | release id =>
    obtain ⟨snd, p, L, _, hp, hst, hl, rfl⟩ := release_ok h
    have e := settleLedger_eff hl
    refine exactlyBacked_delta (s := s) rfl he e.heldDelta ?_ ?_
    · intro w
      rw [hp]
      simp only [escO, escrow_created hst, onAcct_neg, benRelease, Option.isSome]
      rw [escrow_finished rfl]; simp only [Bool.false_eq_true, if_false]; push_cast; omega
    · intro a' w ha
      rw [hp]; simp only [escO]; rw [escrow_finished rfl, escrow_other ha]
  | requestRefund id =>
    obtain ⟨snd, p, _, hp, hst, _, _, _, _, rfl⟩ := requestRefund_ok h
    refine exactlyBacked_upd (s := s) rfl he ?_
    intro a' w
    rw [escrowAt_eq, hp]
    simp only [escO, escrow, hst, senderEscrow]; omega
  | acceptAndPay id =>
    obtain ⟨snd, s0, b, p, L1, L2, L3, ho, _, hp, h1, h2, h3, rfl⟩ := acceptAndPay_ok h
    have e := accept_eff h1 h2 h3
    have hno := hok env o id snd p rfl ho hp
    have hz : ∀ a w, escrow snd p a w = 0 := by
      intro a w; unfold escrow; cases hs : p.state <;> simp_all [PState.isOpen]
    refine exactlyBacked_delta (s := s) rfl he e.heldDelta ?_ ?_
    · intro w
      rw [hp]; simp only [escO]; rw [escrow_finished rfl, hz]; simp
    · intro a' w ha
      rw [hp]; simp only [escO]; rw [escrow_finished rfl, hz]
  | cancel id => exact cancel_exactlyBacked h he
  | disputeRefund id =>
    obtain ⟨snd, b, p, cb, L, _, hpar, hp, hst, _, hh, _, rfl⟩ := disputeRefund_ok h
    obtain ⟨q, hq, hqb⟩ := hi.parties id snd b hpar
    obtain rfl : p = q := by rw [hp] at hq; simpa using hq
    obtain ⟨e, _⟩ := hold_eff hh
    refine exactlyBacked_delta (s := s) rfl he e.heldDelta ?_ ?_
    · intro w
      rw [hp]
      have h1 := escrow_review (p := { p with state := .needsReview }) rfl snd w
      have h2 := escrow_refund hst snd w
      simp only [escO]
      rw [h1, h2, hqb]
      simp only [onAcct, senderEscrow]; split_ifs <;> push_cast <;> omega
    · intro a' w ha
      have := escrow_other (p := { p with state := .needsReview }) ha snd w
      rw [hp]; simp only [escO]; rw [this, escrow_other ha]
  | requestPayment sA a n =>
    obtain ⟨snd, b, id, _, _, _, hf, rfl⟩ := requestPayment_ok h
    refine exactlyBacked_upd (s := s) rfl he ?_
    intro a' w
    rw [escrowAt_eq, escO_fresh hf]
    simp only [escO]; rw [escrow_requested rfl]; omega
  | resolveDispute id r =>
    obtain ⟨resolver, snd, b, p, L, _, hpar, hp, hst, hl, rfl⟩ := resolveDispute_ok h
    obtain ⟨q, hq, hqb⟩ := hi.parties id snd b hpar
    obtain rfl : p = q := by rw [hp] at hq; simpa using hq
    have e := settleLedger_eff hl
    have hsat := review_no_saturation hi hp hst
    refine exactlyBacked_delta (s := s) rfl he e.heldDelta ?_ ?_
    · intro w
      rw [hp]
      have h2 := escrow_review hst snd w
      have h3 : benRelease p true = p.amount + p.incentive := by
        simp only [benRelease, satAdd, if_true]; omega
      simp only [escO]
      rw [escrow_finished rfl, h2, hqb]
      simp only [Option.isSome, onAcct_neg, h3]; push_cast; omega
    · intro a' w ha
      rw [hp]; simp only [escO]; rw [escrow_finished rfl, escrow_other ha]

theorem exec_exactlyBacked {cfg s} (act : Act) (hi : Inv s) (hok : AcceptsNoOpen cfg s act)
    (he : ExactlyBacked s) : ExactlyBacked (exec cfg s act) := by
  cases act with
  | call env o c =>
    simp only [exec]
    cases h : dispatch cfg env s o c with
    | error e => exact he
    | ok s' => exact dispatch_exactlyBacked h hi hok he
  | tick => exact he.congr rfl (fun _ _ => rfl)
  | fire env id =>
    simp only [exec]
    cases ht : s.agenda id with
    | none => exact he
    | some t =>
      simp only
      split_ifs
      · have he1 : ExactlyBacked { s with agenda := setAt s.agenda id none } := he.congr rfl (fun _ _ => rfl)
        cases h : cancel cfg env { s with agenda := setAt s.agenda id none } (.signed t.who) id with
        | error e => exact he1
        | ok s' => exact cancel_exactlyBacked h he1
      · exact he
  | ext a w f => exact he.congr rfl (ext_held s.ledger a w f)
  | setMin a m => exact he.congr rfl (fun _ _ => rfl)

theorem Reach.exactlyBacked {cfg s} (h : Reach cfg (AcceptsNoOpen cfg) s) : ExactlyBacked s := by
  induction h with
  | init h => exact ⟨∅, fun k _ => h.payments _ _, fun a w => by simp [h.held]⟩
  | step act h hok ih => exact exec_exactlyBacked act h.inv hok ih

/-! ### every record is indexed by its id -/

/-- Every record is found through the parties index. Specification only, no code behind it (outside /repo). -/
def Found (s : St) : Prop :=
  ∀ snd id p, s.payments snd id = some p → s.parties id = some (snd, p.beneficiary)

theorem found_upd {s s' : St} {snd id p p'} (hf : Found s) (hpar : s'.parties = s.parties)
    (hp : s'.payments = setPayment s.payments snd id (some p')) (hold : s.payments snd id = some p)
    (hb : p'.beneficiary = p.beneficiary) : Found s' := by
  intro x i q hq
  rw [hp] at hq
  rw [hpar]
  rcases setPayment_cases s.payments snd id (some p') x i with ⟨e, _⟩ | ⟨rfl, rfl, e⟩
  · rw [e] at hq; exact hf x i q hq
  · rw [e] at hq; cases hq; rw [hb]; exact hf _ _ _ hold

theorem found_new {s s' : St} {snd b id p'} (hf : Found s)
    (hpar : s'.parties = setAt s.parties id (some (snd, b)))
    (hp : s'.payments = setPayment s.payments snd id (some p')) (hb : p'.beneficiary = b)
    (hfresh : ∀ x, x ≠ snd → s.payments x id = none) : Found s' := by
  intro x i q hq
  rw [hp] at hq
  rw [hpar]
  unfold setAt
  rcases setPayment_cases s.payments snd id (some p') x i with ⟨e, hne⟩ | ⟨rfl, rfl, e⟩
  · rw [e] at hq
    by_cases hi : i = id
    · subst hi
      have hx : x ≠ snd := fun e => hne (by rw [e])
      rw [hfresh x hx] at hq; cases hq
    · rw [if_neg hi]; exact hf x i q hq
  · rw [e] at hq; cases hq; rw [if_pos rfl, hb]

theorem cancel_found {cfg env s o id s'} (h : cancel cfg env s o id = .ok s') (hf : Found s) : Found s' := by
  obtain ⟨snd, b, p, L, _, hpar, hp, hl, hs⟩ := cancel_ok h
  have hp' : s'.payments = setPayment s.payments snd id none := by rcases hs with ⟨_, rfl⟩ | ⟨_, rfl⟩ <;> rfl
  have hpar' : s'.parties = setAt s.parties id none := by rcases hs with ⟨_, rfl⟩ | ⟨_, rfl⟩ <;> rfl
  intro x i q hq
  rw [hp'] at hq
  rw [hpar']
  unfold setAt
  rcases setPayment_cases s.payments snd id none x i with ⟨e, hne⟩ | ⟨rfl, rfl, e⟩
  · rw [e] at hq
    by_cases hi : i = id
    · subst hi
      have := hf x i q hq
      rw [hpar] at this
      simp only [Option.some.injEq, Prod.mk.injEq] at this
      exact absurd (by rw [this.1]) hne
    · rw [if_neg hi]; exact hf x i q hq
  · rw [e] at hq; cases hq

theorem dispatch_found {cfg env s o c s'} (h : dispatch cfg env s o c = .ok s')
    (hok : FreshIds cfg s (.call env o c)) (hf : Found s) : Found s' := by
  cases c with
  | pay bA a n r =>
    obtain ⟨snd, b, id, L, h1, h2, h3, _, hr, rfl⟩ := pay_ok h
    exact found_new hf rfl rfl rfl (hok env o _ snd b id rfl (by simp [creates, h1, h2]) h3)
  | release id =>
    obtain ⟨snd, p, L, _, hp, hst, hl, rfl⟩ := release_ok h
    exact found_upd (s := s) hf rfl rfl hp rfl
  | requestRefund id =>
    obtain ⟨snd, p, _, hp, hst, _, _, _, _, rfl⟩ := requestRefund_ok h
    exact found_upd (s := s) hf rfl rfl hp rfl
  | acceptAndPay id =>
    obtain ⟨snd, s0, b, p, L1, L2, L3, ho, _, hp, h1, h2, h3, rfl⟩ := acceptAndPay_ok h
    exact found_upd (s := s) hf rfl rfl hp rfl
  | cancel id => exact cancel_found h hf
  | disputeRefund id =>
    obtain ⟨snd, b, p, cb, L, _, hpar, hp, hst, _, hh, _, rfl⟩ := disputeRefund_ok h
    exact found_upd (s := s) hf rfl rfl hp rfl
  | requestPayment sA a n =>
    obtain ⟨snd, b, id, h1, h2, h3, _, rfl⟩ := requestPayment_ok h
    exact found_new hf rfl rfl rfl (hok env o _ snd b id rfl (by simp [creates, h1, h2]) h3)
  | resolveDispute id r =>
    obtain ⟨resolver, snd, b, p, L, _, hpar, hp, hst, hl, rfl⟩ := resolveDispute_ok h
    exact found_upd (s := s) hf rfl rfl hp rfl

theorem exec_found {cfg s} (act : Act) (hok : FreshIds cfg s act) (hf : Found s) : Found (exec cfg s act) := by
  cases act with
  | call env o c =>
    simp only [exec]
    cases h : dispatch cfg env s o c with
    | error e => exact hf
    | ok s' => exact dispatch_found h hok hf
  | tick => exact hf
  | fire env id =>
    simp only [exec]
    cases ht : s.agenda id with
    | none => exact hf
    | some t =>
      simp only
      split_ifs
      · have he1 : Found { s with agenda := setAt s.agenda id none } := hf
        cases h : cancel cfg env { s with agenda := setAt s.agenda id none } (.signed t.who) id with
        | error e => exact he1
        | ok s' => exact cancel_found h he1
      · exact hf
  | ext a w f => exact hf
  | setMin a m => exact hf

theorem Reach.found {cfg ok s} (h : Reach cfg ok s) (hle : ∀ s a, ok s a → FreshIds cfg s a) : Found s := by
  induction h with
  | init h => intro x i p hp; rw [h.payments] at hp; cases hp
  | step act h hok ih => exact exec_found act (hle _ _ hok) ih

/-! ### every scheduled cancellation belongs to the pending refund it was made for -/

/-- Tasks belong to pending refunds. Specification only, no code behind it (outside /repo). -/
def Tasks (s : St) : Prop :=
  ∀ id t, s.agenda id = some t → ∃ snd p, s.parties id = some (snd, t.who) ∧ s.payments snd id = some p ∧
    p.state = .refundRequested t.due

/-- An update of a record that is not a pending refund, and of its index entry, keeps tasks. -/
theorem tasks_upd {s s' : St} {snd id v} (ht : Tasks s) (hp : s'.payments = setPayment s.payments snd id v)
    (hag : s'.agenda = s.agenda) (hpar : ∀ i, i ≠ id → s'.parties i = s.parties i) (hnone : s.agenda id = none) :
    Tasks s' := by
  intro i t hi
  rw [hag] at hi
  obtain ⟨x, p, h1, h2, h3⟩ := ht i t hi
  have hne : i ≠ id := by intro e; subst e; rw [hnone] at hi; cases hi
  refine ⟨x, p, by rw [hpar i hne]; exact h1, ?_, h3⟩
  rw [hp, setPayment_ne _ _ _ _ _ _ (by simp [hne])]; exact h2

/-- Under `Found`, if the record of `(snd, id)` is not a pending refund, no task exists for `id`. -/
theorem agenda_none {s : St} (hf : Found s) (ht : Tasks s) {snd id p} (hp : s.payments snd id = some p)
    (hst : ∀ cb, p.state ≠ .refundRequested cb) : s.agenda id = none := by
  cases ha : s.agenda id with
  | none => rfl
  | some t =>
    obtain ⟨x, q, h1, h2, h3⟩ := ht id t ha
    have := hf snd id p hp
    rw [h1] at this
    simp only [Option.some.injEq, Prod.mk.injEq] at this
    rw [this.1, hp] at h2; cases h2
    exact absurd h3 (hst _)

theorem agenda_none_fresh {s : St} (ht : Tasks s) {snd : Acct} {id}
    (hfresh : ∀ x, x ≠ snd → s.payments x id = none)
    (hreq : ∀ old, s.payments snd id = some old → old.state = .paymentRequested) : s.agenda id = none := by
  cases ha : s.agenda id with
  | none => rfl
  | some t =>
    obtain ⟨x, q, h1, h2, h3⟩ := ht id t ha
    by_cases hx : x = snd
    · subst hx; have := hreq q h2; rw [h3] at this; cases this
    · rw [hfresh x hx] at h2; cases h2

theorem cancel_tasks {cfg env s o id s'} (h : cancel cfg env s o id = .ok s') (ht : Tasks s)
    (hnone : s.agenda id = none) : Tasks s' := by
  obtain ⟨snd, b, p, L, _, hpar, hp, hl, hs⟩ := cancel_ok h
  have hp' : s'.payments = setPayment s.payments snd id none := by rcases hs with ⟨_, rfl⟩ | ⟨_, rfl⟩ <;> rfl
  have hpar' : s'.parties = setAt s.parties id none := by rcases hs with ⟨_, rfl⟩ | ⟨_, rfl⟩ <;> rfl
  have hag : s'.agenda = s.agenda := by rcases hs with ⟨_, rfl⟩ | ⟨_, rfl⟩ <;> rfl
  exact tasks_upd ht hp' hag (fun i hi => by rw [hpar']; simp [setAt, hi]) hnone

theorem dispatch_tasks {cfg env s o c s'} (h : dispatch cfg env s o c = .ok s')
    (hok : FreshIds cfg s (.call env o c)) (hacc : AcceptsNoOpen cfg s (.call env o c))
    (hman : NoManualCancelOfRefund s (.call env o c)) (hf : Found s) (ht : Tasks s) : Tasks s' := by
  cases c with
  | pay bA a n r =>
    obtain ⟨snd, b, id, L, h1, h2, h3, hreq, hr, rfl⟩ := pay_ok h
    have hfresh := hok env o _ snd b id rfl (by simp [creates, h1, h2]) h3
    exact tasks_upd (s := s) ht rfl rfl (fun i hi => by simp [setAt, hi]) (agenda_none_fresh ht hfresh hreq)
  | release id =>
    obtain ⟨snd, p, L, _, hp, hst, hl, rfl⟩ := release_ok h
    exact tasks_upd (s := s) ht rfl rfl (fun i hi => rfl) (agenda_none hf ht hp (by simp [hst]))
  | requestRefund id =>
    obtain ⟨snd, p, _, hp, hst, _, hnone, _, _, rfl⟩ := requestRefund_ok h
    intro i t hi
    simp only [setAt] at hi
    split_ifs at hi with e
    · subst e; cases hi
      exact ⟨snd, _, hf _ _ _ hp, setPayment_same _ _ _ _, rfl⟩
    · obtain ⟨x, q, h1, h2, h3⟩ := ht i t hi
      exact ⟨x, q, h1, by simp only; rw [setPayment_ne _ _ _ _ _ _ (by simp [e])]; exact h2, h3⟩
  | acceptAndPay id =>
    obtain ⟨snd, s0, b, p, L1, L2, L3, ho, _, hp, h1, h2, h3, rfl⟩ := acceptAndPay_ok h
    refine tasks_upd (s := s) ht rfl rfl (fun i hi => rfl) (agenda_none hf ht hp ?_)
    intro cb hc
    have := hacc env o id snd p rfl ho hp
    rw [hc] at this; cases this
  | cancel id => exact cancel_tasks h ht (hman env o id rfl)
  | disputeRefund id =>
    obtain ⟨snd, b, p, cb, L, _, hpar, hp, hst, _, hh, _, rfl⟩ := disputeRefund_ok h
    intro i t hi
    simp only [setAt] at hi
    split_ifs at hi with e
    obtain ⟨x, q, h1, h2, h3⟩ := ht i t hi
    exact ⟨x, q, h1, by simp only; rw [setPayment_ne _ _ _ _ _ _ (by simp [e])]; exact h2, h3⟩
  | requestPayment sA a n =>
    obtain ⟨snd, b, id, h1, h2, h3, hreq, rfl⟩ := requestPayment_ok h
    have hfresh := hok env o _ snd b id rfl (by simp [creates, h1, h2]) h3
    exact tasks_upd (s := s) ht rfl rfl (fun i hi => by simp [setAt, hi]) (agenda_none_fresh ht hfresh hreq)
  | resolveDispute id r =>
    obtain ⟨resolver, snd, b, p, L, _, hpar, hp, hst, hl, rfl⟩ := resolveDispute_ok h
    exact tasks_upd (s := s) ht rfl rfl (fun i hi => rfl) (agenda_none hf ht hp (by simp [hst]))

theorem exec_tasks {cfg s} (act : Act) (hok : FreshIds cfg s act) (hacc : AcceptsNoOpen cfg s act)
    (hman : NoManualCancelOfRefund s act) (hf : Found s) (ht : Tasks s) : Tasks (exec cfg s act) := by
  cases act with
  | call env o c =>
    simp only [exec]
    cases h : dispatch cfg env s o c with
    | error e => exact ht
    | ok s' => exact dispatch_tasks h hok hacc hman hf ht
  | tick => exact ht
  | fire env id =>
    simp only [exec]
    cases hta : s.agenda id with
    | none => exact ht
    | some t =>
      simp only
      split_ifs
      · have he1 : Tasks { s with agenda := setAt s.agenda id none } := by
          intro i t' hi
          simp only [setAt] at hi
          split_ifs at hi with e
          exact ht i t' hi
        cases h : cancel cfg env { s with agenda := setAt s.agenda id none } (.signed t.who) id with
        | error e => exact he1
        | ok s' => exact cancel_tasks h he1 (by simp [setAt])
      · exact ht
  | ext a w f => exact ht
  | setMin a m => exact ht

theorem Reach.tasks {cfg s}
    (h : Reach cfg (fun s a => FreshIds cfg s a ∧ AcceptsNoOpen cfg s a ∧ NoManualCancelOfRefund s a) s) :
    Tasks s := by
  induction h with
  | init h => intro i t hi; rw [h.agenda] at hi; cases hi
  | step act h hok ih =>
    exact exec_tasks act hok.1 hok.2.1 hok.2.2 (h.found fun _ _ h => h.1) ih

end Verif.Payments
