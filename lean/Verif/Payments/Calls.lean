import Verif.Payments.FeeLemmas

/-! # Payments: what a successful call must have done (inversion lemmas) -/

namespace Verif.Payments

theorem orErr_ok {α : Type} {e : Err} {o : Option α} {x : α} : orErr e o = .ok x ↔ o = some x := by
  cases o <;> simp [orErr]

theorem bind_ok {α β : Type} {x : Except Err α} {f : α → Except Err β} {b : β} :
    (x >>= f) = .ok b ↔ ∃ a, x = .ok a ∧ f a = .ok b := by
  cases x <;> simp [bind, Except.bind]

theorem reserve_ok {env L snd p L'} (h : reservePaymentAmount env L snd p = .ok L') :
    ∃ L1, L.hold env p.asset snd (senderEscrow p) = some L1 ∧
      L1.transferAndHold env p.asset snd p.beneficiary p.amount = some L' := by
  unfold reservePaymentAmount at h
  simp only [bind_ok, orErr_ok, senderHold_eq] at h
  exact h

theorem reserve_eff {env L snd p L'} (h : reservePaymentAmount env L snd p = .ok L') :
    Eff L L' p.asset [⟨snd, p.beneficiary, p.amount⟩]
      (fun w => onAcct snd (senderEscrow p) w + onAcct p.beneficiary p.amount w) ∧ NoDust L L' p.asset := by
  obtain ⟨L1, h1, h2⟩ := reserve_ok h
  obtain ⟨e1, n1⟩ := hold_eff h1
  obtain ⟨e2, n2⟩ := tah_eff h2
  exact ⟨e1.trans e2, n2.1.trans n1.1, n2.2.trans n1.2⟩

theorem reserve_cons {env L snd p L'} (h : reservePaymentAmount env L snd p = .ok L') (a : Asset) :
    Cons L L' a := by
  obtain ⟨L1, h1, h2⟩ := reserve_ok h
  exact (hold_cons h1 a).trans (tah_cons h2 a)

theorem reserve_spares {env L snd p L'} (h : reservePaymentAmount env L snd p = .ok L') (S : Acct → Prop)
    (hS : S snd) : Spares L L' S := by
  obtain ⟨L1, h1, h2⟩ := reserve_ok h
  exact (hold_spares h1 S hS).trans (tah_spares h2 S hS)

theorem cancelPayment_ok {env L snd p L'} (h : cancelPayment env L snd p = .ok L') :
    ∃ L1 L2, L.release env p.asset snd (senderEscrow p) = some L1 ∧
      L1.release env p.asset p.beneficiary p.amount = some L2 ∧
      L2.transfer env p.asset p.beneficiary snd p.amount .expendable = some L' := by
  unfold cancelPayment at h
  simp only [bind_ok, orErr_ok, senderHold_eq] at h
  obtain ⟨L1, h1, L2, h2, h3⟩ := h
  exact ⟨L1, L2, h1, h2, h3⟩

theorem cancelPayment_eff {env L snd p L'} (h : cancelPayment env L snd p = .ok L') :
    Eff L L' p.asset [⟨p.beneficiary, snd, p.amount⟩]
      (fun w => onAcct snd (-senderEscrow p) w + onAcct p.beneficiary (-p.amount) w) := by
  obtain ⟨L1, L2, h1, h2, h3⟩ := cancelPayment_ok h
  exact (((release_eff h1).1.trans (release_eff h2).1).trans (transfer_eff h3)).congr (by simp) (by simp)

theorem cancelPayment_cons {env L snd p L'} (h : cancelPayment env L snd p = .ok L') (a : Asset) :
    Cons L L' a := by
  obtain ⟨L1, L2, h1, h2, h3⟩ := cancelPayment_ok h
  exact ((release_cons h1 a).trans (release_cons h2 a)).trans (transfer_cons h3 a)

theorem cancelPayment_spares {env L snd p L'} (h : cancelPayment env L snd p = .ok L') (S : Acct → Prop)
    (hS : S snd) (hB : S p.beneficiary) : Spares L L' S := by
  obtain ⟨L1, L2, h1, h2, h3⟩ := cancelPayment_ok h
  exact ((release_spares h1 S hS).trans (release_spares h2 S hB)).trans (transfer_spares h3 S hB)

/-- Movements of the dispute part of a settlement. pallets/payments/src/lib.rs 601-690, as a list of movements. -/
def disputeMoves (snd ben : Acct) (p : Payment) : Option (DisputeResult × Acct) → List Move
  | none => []
  | some (r, resolver) =>
    match r.inFavorOf with
    | .sender => [⟨ben, resolver, p.incentive⟩, ⟨ben, snd, mulFloor r.pct p.amount⟩]
    | .beneficiary => [⟨snd, resolver, p.incentive⟩, ⟨ben, snd, p.amount - mulFloor r.pct p.amount⟩]

theorem settleDispute_eff {env L snd ben p d L'} (h : settleDispute env L snd ben p d = .ok L') :
    Eff L L' p.asset (disputeMoves snd ben p d) (fun _ => 0) := by
  rcases d with _ | ⟨r, resolver⟩
  · simp only [settleDispute, Except.ok.injEq] at h; subst h; exact Eff.refl _ _
  · unfold settleDispute at h
    cases hr : r.inFavorOf <;> simp only [hr, bind_ok, orErr_ok] at h <;> obtain ⟨L1, h1, h2⟩ := h
    · simp only [disputeMoves, hr]
      exact ((transfer_eff h1).trans (transfer_eff h2)).congr (by simp) (by simp)
    · simp only [disputeMoves, hr]
      exact ((transfer_eff h1).trans (transfer_eff h2)).congr (by simp) (by simp)

theorem settleDispute_cons {env L snd ben p d L'} (h : settleDispute env L snd ben p d = .ok L') (a : Asset) :
    Cons L L' a := by
  rcases d with _ | ⟨r, resolver⟩
  · simp only [settleDispute, Except.ok.injEq] at h; subst h; exact Cons.refl _ _
  · unfold settleDispute at h
    cases hr : r.inFavorOf <;> simp only [hr, bind_ok, orErr_ok] at h <;> obtain ⟨L1, h1, h2⟩ := h <;>
      exact (transfer_cons h1 a).trans (transfer_cons h2 a)

theorem settleDispute_spares {env L snd ben p d L'} (h : settleDispute env L snd ben p d = .ok L')
    (S : Acct → Prop) (hS : S snd) (hB : S ben) : Spares L L' S := by
  rcases d with _ | ⟨r, resolver⟩
  · simp only [settleDispute, Except.ok.injEq] at h; subst h; exact Spares.refl _ _
  · unfold settleDispute at h
    cases hr : r.inFavorOf <;> simp only [hr, bind_ok, orErr_ok] at h <;> obtain ⟨L1, h1, h2⟩ := h
    · exact (transfer_spares h1 S hB).trans (transfer_spares h2 S hB)
    · exact (transfer_spares h1 S hS).trans (transfer_spares h2 S hB)

/-- What is released from the beneficiary's hold. pallets/payments/src/lib.rs 601-690. -/
def benRelease (p : Payment) (isDispute : Bool) : Nat :=
  if isDispute then satAdd p.amount p.incentive else p.amount

theorem settleLedger_ok {env L snd ben p d L'} (h : settleLedger env L snd ben p d = .ok L') :
    ∃ L1 L2 L3 L4, L.release env p.asset snd (senderEscrow p) = some L1 ∧
      L1.release env p.asset ben (benRelease p d.isSome) = some L2 ∧
      tryTransferFees env L2 p.asset snd d.isSome (agg p.fees.senderPays) = .ok L3 ∧
      tryTransferFees env L3 p.asset ben d.isSome (agg p.fees.beneficiaryPays) = .ok L4 ∧
      settleDispute env L4 snd ben p d = .ok L' := by
  unfold settleLedger at h
  simp only [bind_ok, orErr_ok, holdTotal_eq, summary_recipients] at h
  obtain ⟨L1, h1, L2, h2, L3, h3, L4, h4, h5⟩ := h
  exact ⟨L1, L2, L3, L4, h1, h2, h3, h4, h5⟩

/-- Entries charged. pallets/payments/src/types.rs 119-147. -/
def charged (isDispute : Bool) (fs : List Fee) : List Fee := if isDispute then chargeable fs else fs

theorem settleLedger_eff {env L snd ben p d L'} (h : settleLedger env L snd ben p d = .ok L') :
    Eff L L' p.asset (feeMoves snd (charged d.isSome (agg p.fees.senderPays)) ++
        feeMoves ben (charged d.isSome (agg p.fees.beneficiaryPays)) ++ disputeMoves snd ben p d)
      (fun w => onAcct snd (-senderEscrow p) w + onAcct ben (-benRelease p d.isSome) w) := by
  obtain ⟨L1, L2, L3, L4, h1, h2, h3, h4, h5⟩ := settleLedger_ok h
  have e := ((((release_eff h1).1.trans (release_eff h2).1).trans (tryTransferFees_eff h3).1).trans
    (tryTransferFees_eff h4).1).trans (settleDispute_eff h5)
  exact e.congr (by intro w; simp [net_append, charged]) (by simp)

theorem settleLedger_nodust_release {env L snd ben p L'} (h : settleLedger env L snd ben p none = .ok L') :
    NoDust L L' p.asset := by
  obtain ⟨L1, L2, L3, L4, h1, h2, h3, h4, h5⟩ := settleLedger_ok h
  simp only [settleDispute, Except.ok.injEq] at h5
  subst h5
  have n1 := (release_eff h1).2
  have n2 := (release_eff h2).2
  have n3 := (tryTransferFees_eff h3).2
  have n4 := (tryTransferFees_eff h4).2
  exact ⟨by rw [n4.1, n3.1, n2.1, n1.1], by rw [n4.2, n3.2, n2.2, n1.2]⟩

theorem settleLedger_cons {env L snd ben p d L'} (h : settleLedger env L snd ben p d = .ok L') (a : Asset) :
    Cons L L' a := by
  obtain ⟨L1, L2, L3, L4, h1, h2, h3, h4, h5⟩ := settleLedger_ok h
  exact ((((release_cons h1 a).trans (release_cons h2 a)).trans (tryTransferFees_cons h3 a)).trans
    (tryTransferFees_cons h4 a)).trans (settleDispute_cons h5 a)

theorem settleLedger_spares {env L snd ben p d L'} (h : settleLedger env L snd ben p d = .ok L')
    (S : Acct → Prop) (hS : S snd) (hB : S ben) : Spares L L' S := by
  obtain ⟨L1, L2, L3, L4, h1, h2, h3, h4, h5⟩ := settleLedger_ok h
  exact ((((release_spares h1 S hS).trans (release_spares h2 S hB)).trans (tryTransferFees_spares h3 S hS)).trans
    (tryTransferFees_spares h4 S hB)).trans (settleDispute_spares h5 S hS hB)

/-! ### calls -/

/-- The record a creation stores. pallets/payments/src/lib.rs 517-553. -/
def newPayment (cfg : Config) (s : St) (snd ben : Acct) (a : Asset) (n : Nat) (st : PState)
    (r : Option (List Nat)) : Payment :=
  { asset := a, amount := n, beneficiary := ben, incentive := mulFloor cfg.incentivePct n, state := st,
    fees := cfg.applyFees s.ledger.minBal a snd ben n r }

theorem createPayment_ok {cfg env s snd ben a n st r id p s1}
    (h : createPayment cfg env s snd ben a n st r = .ok (id, p, s1)) :
    env.nextId snd ben = some id ∧
    (∀ old, s.payments snd id = some old → old.state = .paymentRequested) ∧
    p = newPayment cfg s snd ben a n st r ∧
    s1 = { s with payments := setPayment s.payments snd id (some p)
                  parties := setAt s.parties id (some (snd, ben)) } := by
  unfold createPayment at h
  cases hn : env.nextId snd ben with
  | none => rw [hn] at h; cases h
  | some i =>
    simp only [hn] at h
    split_ifs at h with hf
    simp only [Except.ok.injEq, Prod.mk.injEq] at h
    obtain ⟨rfl, rfl, rfl⟩ := h
    refine ⟨rfl, ?_, rfl, rfl⟩
    intro old ho
    simpa [ho] using hf

theorem pay_ok {cfg env s o bA a n r s'} (h : pay cfg env s o bA a n r = .ok s') :
    ∃ snd b id L, cfg.senderOrigin o = some snd ∧ cfg.lookup bA = some b ∧ env.nextId snd b = some id ∧
      (∀ old, s.payments snd id = some old → old.state = .paymentRequested) ∧
      reservePaymentAmount env.ledger s.ledger snd (newPayment cfg s snd b a n .created r) = .ok L ∧
      s' = { s with
        payments := setPayment s.payments snd id (some (newPayment cfg s snd b a n .created r))
        parties := setAt s.parties id (some (snd, b))
        ledger := L
        events := s.events ++ [.paymentCreated id a n r] } := by
  unfold pay at h
  cases hs : cfg.senderOrigin o with
  | none => rw [hs] at h; cases h
  | some snd =>
    cases hb : cfg.lookup bA with
    | none => simp only [hs, hb] at h; cases h
    | some b =>
      simp only [hs, hb, bind_ok] at h
      obtain ⟨⟨id, p, s1⟩, h1, L, h2, h3⟩ := h
      obtain ⟨e1, e2, rfl, rfl⟩ := createPayment_ok h1
      simp only [Except.ok.injEq] at h3
      exact ⟨snd, b, id, L, rfl, rfl, e1, e2, h2, h3.symm⟩

theorem requestPayment_ok {cfg env s o sA a n s'} (h : requestPayment cfg env s o sA a n = .ok s') :
    ∃ snd b id, cfg.beneficiaryOrigin o = some b ∧ cfg.lookup sA = some snd ∧ env.nextId snd b = some id ∧
      (∀ old, s.payments snd id = some old → old.state = .paymentRequested) ∧
      s' = { s with
        payments := setPayment s.payments snd id (some (newPayment cfg s snd b a n .paymentRequested none))
        parties := setAt s.parties id (some (snd, b))
        events := s.events ++ [.paymentRequestCreated id] } := by
  unfold requestPayment at h
  cases hs : cfg.beneficiaryOrigin o with
  | none => rw [hs] at h; cases h
  | some b =>
    cases hb : cfg.lookup sA with
    | none => simp only [hs, hb] at h; cases h
    | some snd =>
      simp only [hs, hb, bind_ok] at h
      obtain ⟨⟨id, p, s1⟩, h1, h3⟩ := h
      obtain ⟨e1, e2, rfl, rfl⟩ := createPayment_ok h1
      simp only [Except.ok.injEq] at h3
      exact ⟨snd, b, id, rfl, rfl, e1, e2, h3.symm⟩

theorem settlePayment_ok {env s snd ben id d s'} (h : settlePayment env s snd ben id d = .ok s') :
    ∃ p L, s.payments snd id = some p ∧ settleLedger env.ledger s.ledger snd ben p d = .ok L ∧
      s' = { s with ledger := L
                    payments := setPayment s.payments snd id (some { p with state := .finished }) } := by
  unfold settlePayment at h
  cases hp : s.payments snd id with
  | none => rw [hp] at h; cases h
  | some p =>
    simp only [hp, bind_ok, Except.ok.injEq] at h
    obtain ⟨L, h1, h2⟩ := h
    exact ⟨p, L, rfl, h1, h2.symm⟩

theorem release_ok {cfg env s o id s'} (h : release cfg env s o id = .ok s') :
    ∃ snd p L, cfg.senderOrigin o = some snd ∧ s.payments snd id = some p ∧ p.state = .created ∧
      settleLedger env.ledger s.ledger snd p.beneficiary p none = .ok L ∧
      s' = { s with ledger := L
                    payments := setPayment s.payments snd id (some { p with state := .finished })
                    events := s.events ++ [.paymentReleased id] } := by
  unfold release at h
  cases hs : cfg.senderOrigin o with
  | none => rw [hs] at h; cases h
  | some snd =>
    cases hp : s.payments snd id with
    | none => simp only [hs, hp] at h; cases h
    | some p =>
      simp only [hs, hp] at h
      split_ifs at h with hst
      simp only [bind_ok, Except.ok.injEq] at h
      obtain ⟨s1, h1, h2⟩ := h
      obtain ⟨p', L, e1, e2, rfl⟩ := settlePayment_ok h1
      obtain rfl : p = p' := by rw [hp] at e1; simpa using e1
      exact ⟨snd, p, L, rfl, hp, hst, e2, h2.symm⟩

theorem requestRefund_ok {cfg env s o id s'} (h : requestRefund cfg env s o id = .ok s') :
    ∃ snd p, cfg.senderOrigin o = some snd ∧ s.payments snd id = some p ∧ p.state = .created ∧
      s.now + cfg.cancelBuffer ≤ cfg.blockMax ∧ s.agenda id = none ∧ 0 < cfg.cancelBuffer ∧
      env.schedOk = true ∧
      s' = { s with
        agenda := setAt s.agenda id (some ⟨s.now + cfg.cancelBuffer, p.beneficiary⟩)
        payments := setPayment s.payments snd id
          (some { p with state := .refundRequested (s.now + cfg.cancelBuffer) })
        events := s.events ++ [.paymentCreatorRequestedRefund id (s.now + cfg.cancelBuffer)] } := by
  unfold requestRefund at h
  cases hs : cfg.senderOrigin o with
  | none => rw [hs] at h; cases h
  | some snd =>
    cases hp : s.payments snd id with
    | none => simp only [hs, hp] at h; cases h
    | some p =>
      simp only [hs, hp] at h
      split_ifs at h with hst h1 h2
      simp only [Except.ok.injEq] at h
      simp at h2
      exact ⟨snd, p, rfl, hp, hst, Nat.le_of_not_lt h1, h2.1.1, Nat.pos_of_ne_zero h2.1.2, h2.2, h.symm⟩

theorem acceptAndPay_ok {cfg env s o id s'} (h : acceptAndPay cfg env s o id = .ok s') :
    ∃ snd s0 b p L1 L2 L3, cfg.senderOrigin o = some snd ∧ s.parties id = some (s0, b) ∧
      s.payments snd id = some p ∧
      tryTransferFees env.ledger s.ledger p.asset snd false (agg p.fees.senderPays) = .ok L1 ∧
      L1.transfer env.ledger p.asset snd b p.amount .expendable = some L2 ∧
      tryTransferFees env.ledger L2 p.asset b false (agg p.fees.beneficiaryPays) = .ok L3 ∧
      s' = { s with ledger := L3
                    payments := setPayment s.payments snd id (some { p with state := .finished })
                    events := s.events ++ [.paymentRequestCompleted id] } := by
  unfold acceptAndPay at h
  cases hs : cfg.senderOrigin o with
  | none => rw [hs] at h; cases h
  | some snd =>
    cases hq : s.parties id with
    | none => simp only [hs, hq] at h; cases h
    | some q =>
      obtain ⟨s0, b⟩ := q
      cases hp : s.payments snd id with
      | none => simp only [hs, hq, hp] at h; cases h
      | some p =>
        simp only [hs, hq, hp, bind_ok, orErr_ok, summary_recipients, Except.ok.injEq] at h
        obtain ⟨L1, h1, L2, h2, L3, h3, h4⟩ := h
        exact ⟨snd, s0, b, p, L1, L2, L3, rfl, rfl, hp, h1, h2, h3, h4.symm⟩

theorem cancel_ok {cfg env s o id s'} (h : cancel cfg env s o id = .ok s') :
    ∃ snd b p L, cfg.beneficiaryOrigin o = some b ∧ s.parties id = some (snd, b) ∧
      s.payments snd id = some p ∧
      cancelPayment env.ledger s.ledger snd p = .ok L ∧
      ((p.state = .created ∧ s' = { s with
          ledger := L, payments := setPayment s.payments snd id none, parties := setAt s.parties id none
          events := s.events ++ [.paymentCancelled id] }) ∨
       ((∃ cb, p.state = .refundRequested cb) ∧ s' = { s with
          ledger := L, payments := setPayment s.payments snd id none, parties := setAt s.parties id none
          events := s.events ++ [.paymentRefunded id] })) := by
  unfold cancel at h
  cases hs : cfg.beneficiaryOrigin o with
  | none => rw [hs] at h; cases h
  | some b =>
    cases hq : s.parties id with
    | none => simp only [hs, hq] at h; cases h
    | some q =>
      obtain ⟨snd, b'⟩ := q
      simp only [hs, hq] at h
      split_ifs at h with hb
      subst hb
      cases hp : s.payments snd id with
      | none => simp only [hp] at h; cases h
      | some p =>
        simp only [hp] at h
        cases hst : p.state with
        | created =>
          simp only [hst, bind_ok, Except.ok.injEq] at h
          obtain ⟨L, h1, h2⟩ := h
          exact ⟨snd, b, p, L, rfl, rfl, hp, h1, Or.inl ⟨hst, h2.symm⟩⟩
        | refundRequested cb =>
          simp only [hst, bind_ok, Except.ok.injEq] at h
          obtain ⟨L, h1, h2⟩ := h
          exact ⟨snd, b, p, L, rfl, rfl, hp, h1, Or.inr ⟨⟨cb, hst⟩, h2.symm⟩⟩
        | needsReview => simp only [hst] at h; cases h
        | paymentRequested => simp only [hst] at h; cases h
        | finished => simp only [hst] at h; cases h

theorem disputeRefund_ok {cfg env s o id s'} (h : disputeRefund cfg env s o id = .ok s') :
    ∃ snd b p cb L, cfg.beneficiaryOrigin o = some b ∧ s.parties id = some (snd, b) ∧
      s.payments snd id = some p ∧ p.state = .refundRequested cb ∧ s.now < cb ∧
      s.ledger.hold env.ledger p.asset b p.incentive = some L ∧ (s.agenda id).isSome ∧
      s' = { s with
        ledger := L
        payments := setPayment s.payments snd id (some { p with state := .needsReview })
        agenda := setAt s.agenda id none
        events := s.events ++ [.paymentRefundDisputed id] } := by
  unfold disputeRefund at h
  cases hs : cfg.beneficiaryOrigin o with
  | none => rw [hs] at h; cases h
  | some b =>
    cases hq : s.parties id with
    | none => simp only [hs, hq] at h; cases h
    | some q =>
      obtain ⟨snd, b'⟩ := q
      simp only [hs, hq] at h
      by_cases hb : b = b'
      swap
      · rw [if_neg hb] at h; cases h
      rw [if_pos hb] at h
      subst hb
      cases hp : s.payments snd id with
      | none => simp only [hp] at h; cases h
      | some p =>
        simp only [hp] at h
        cases hst : p.state with
        | refundRequested cb =>
          simp only [hst] at h
          by_cases hn : s.now < cb
          swap
          · rw [if_neg hn] at h; cases h
          rw [if_pos hn] at h
          cases hh : s.ledger.hold env.ledger p.asset b p.incentive with
          | none => simp only [hh] at h; cases h
          | some L =>
            simp only [hh] at h
            split_ifs at h with ha
            simp only [Except.ok.injEq] at h
            exact ⟨snd, b, p, cb, L, rfl, rfl, hp, hst, hn, hh, ha, h.symm⟩
        | created => simp only [hst] at h; cases h
        | needsReview => simp only [hst] at h; cases h
        | paymentRequested => simp only [hst] at h; cases h
        | finished => simp only [hst] at h; cases h

theorem resolveDispute_ok {cfg env s o id r s'} (h : resolveDispute cfg env s o id r = .ok s') :
    ∃ resolver snd b p L, cfg.disputeResolver o = some resolver ∧ s.parties id = some (snd, b) ∧
      s.payments snd id = some p ∧ p.state = .needsReview ∧
      settleLedger env.ledger s.ledger snd b p (some (r, resolver)) = .ok L ∧
      s' = { s with ledger := L
                    payments := setPayment s.payments snd id (some { p with state := .finished })
                    events := s.events ++ [.paymentDisputeResolved id] } := by
  unfold resolveDispute at h
  cases hs : cfg.disputeResolver o with
  | none => rw [hs] at h; cases h
  | some resolver =>
    cases hq : s.parties id with
    | none => simp only [hs, hq] at h; cases h
    | some q =>
      obtain ⟨snd, b⟩ := q
      cases hp : s.payments snd id with
      | none => simp only [hs, hq, hp] at h; cases h
      | some p =>
        simp only [hs, hq, hp] at h
        split_ifs at h with hst
        simp only [bind_ok, Except.ok.injEq] at h
        obtain ⟨s1, h1, h2⟩ := h
        obtain ⟨p', L, e1, e2, rfl⟩ := settlePayment_ok h1
        obtain rfl : p = p' := by rw [hp] at e1; simpa using e1
        exact ⟨resolver, snd, b, p, L, rfl, rfl, hp, hst, e2, h2.symm⟩

end Verif.Payments
