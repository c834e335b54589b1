import Verif.Payments.Calls

/-! # Payments: invariants of all histories (helper lemmas) -/

namespace Verif.Payments

/-- Escrow of an optional record. -/
def escO (snd : Acct) (v : Option Payment) (a : Asset) (w : Acct) : Nat :=
  match v with
  | none => 0
  | some p => escrow snd p a w

theorem escrowAt_eq (s : St) (k : Acct × PId) (a w) : escrowAt s k a w = escO k.1 (s.payments k.1 k.2) a w := by
  unfold escrowAt escO; split <;> simp_all

/-- Every finite set of payments is covered by holds. -/
def Backed (s : St) : Prop :=
  ∀ a w (ks : Finset (Acct × PId)), ∑ k ∈ ks, escrowAt s k a w ≤ (s.ledger.bal a w).held

/-- Holds are exactly the escrows. -/
def ExactlyBacked (s : St) : Prop :=
  ∃ ks : Finset (Acct × PId), (∀ k, k ∉ ks → s.payments k.1 k.2 = none) ∧
    ∀ a w, ∑ k ∈ ks, escrowAt s k a w = (s.ledger.bal a w).held

theorem setPayment_same (f : Acct → PId → Option Payment) (x i v) : setPayment f x i v x i = v := by
  simp [setPayment]

theorem setPayment_ne (f : Acct → PId → Option Payment) (x i v x' i') (h : (x', i') ≠ (x, i)) :
    setPayment f x i v x' i' = f x' i' := by
  simp only [ne_eq, Prod.mk.injEq, not_and] at h
  simp only [setPayment]
  rw [if_neg (by rintro ⟨a, b⟩; exact h a b)]

theorem escrowAt_upd_ne {s s' : St} {snd id v} (hp : s'.payments = setPayment s.payments snd id v)
    (k : Acct × PId) (hk : k ≠ (snd, id)) (a w) : escrowAt s' k a w = escrowAt s k a w := by
  rw [escrowAt_eq, escrowAt_eq, hp, setPayment_ne _ _ _ _ _ _ (by simpa using hk)]

theorem escrowAt_upd_same {s s' : St} {snd id v} (hp : s'.payments = setPayment s.payments snd id v) (a w) :
    escrowAt s' (snd, id) a w = escO snd v a w := by
  rw [escrowAt_eq, hp]; simp [setPayment_same]

theorem backed_upd {s s' : St} {snd id v} (hp : s'.payments = setPayment s.payments snd id v) (hb : Backed s)
    (hd : ∀ a w, escO snd v a w + (s.ledger.bal a w).held ≤ (s'.ledger.bal a w).held + escrowAt s (snd, id) a w) :
    Backed s' := by
  intro a w ks
  have h1 := hb a w (insert (snd, id) (ks.erase (snd, id)))
  rw [Finset.sum_insert (Finset.notMem_erase _ _)] at h1
  have h2 : ∑ k ∈ ks.erase (snd, id), escrowAt s' k a w = ∑ k ∈ ks.erase (snd, id), escrowAt s k a w :=
    Finset.sum_congr rfl fun k hk => escrowAt_upd_ne hp k (Finset.ne_of_mem_erase hk) a w
  have h3 := hd a w
  by_cases hm : (snd, id) ∈ ks
  · rw [← Finset.add_sum_erase ks _ hm, h2, escrowAt_upd_same hp]; omega
  · rw [Finset.erase_eq_of_notMem hm] at h1 h2
    rw [h2]; omega

theorem exactlyBacked_upd {s s' : St} {snd id v} (hp : s'.payments = setPayment s.payments snd id v)
    (hb : ExactlyBacked s)
    (hd : ∀ a w, escO snd v a w + (s.ledger.bal a w).held = (s'.ledger.bal a w).held + escrowAt s (snd, id) a w) :
    ExactlyBacked s' := by
  obtain ⟨ks, hn, he⟩ := hb
  refine ⟨insert (snd, id) ks, ?_, ?_⟩
  · intro k hk
    simp only [Finset.mem_insert, not_or] at hk
    rw [hp, setPayment_ne _ _ _ _ _ _ (by simpa using hk.1)]
    exact hn k hk.2
  · intro a w
    have h0 : ∑ k ∈ insert (snd, id) ks, escrowAt s k a w = (s.ledger.bal a w).held := by
      by_cases hm : (snd, id) ∈ ks
      · rw [Finset.insert_eq_of_mem hm, he]
      · rw [Finset.sum_insert hm, he, escrowAt_eq, hn _ hm]; simp [escO]
    have h3 := hd a w
    rw [← Finset.add_sum_erase _ _ (Finset.mem_insert_self (snd, id) ks)] at h0 ⊢
    rw [Finset.sum_congr rfl fun k hk => escrowAt_upd_ne hp k (Finset.ne_of_mem_erase hk) a w,
      escrowAt_upd_same hp]
    omega

/-! ### one successful call as an update of one record -/

/-- A change of the held balances in one asset. -/
def HeldDelta (L L' : Ledger) (a : Asset) (hd : Acct → Int) : Prop :=
  (∀ a', a' ≠ a → L'.bal a' = L.bal a') ∧ ∀ w, ((L'.bal a w).held : Int) = (L.bal a w).held + hd w

theorem Eff.heldDelta {L L' a ms h} (e : Eff L L' a ms h) : HeldDelta L L' a h :=
  ⟨fun a' ha => (e.other a' ha).1, e.held⟩

theorem backed_delta {s s' : St} {snd id v} (hp : s'.payments = setPayment s.payments snd id v) (hb : Backed s)
    {a₀ hd} (hl : HeldDelta s.ledger s'.ledger a₀ hd)
    (h1 : ∀ w, (escO snd v a₀ w : Int) ≤ escO snd (s.payments snd id) a₀ w + hd w)
    (h2 : ∀ a w, a ≠ a₀ → escO snd v a w ≤ escO snd (s.payments snd id) a w) : Backed s' := by
  refine backed_upd hp hb ?_
  intro a w
  rw [escrowAt_eq]
  by_cases ha : a = a₀
  · subst ha; have := hl.2 w; have := h1 w; simp only; omega
  · rw [hl.1 a ha]; have := h2 a w ha; simp only; omega

theorem exactlyBacked_delta {s s' : St} {snd id v} (hp : s'.payments = setPayment s.payments snd id v)
    (hb : ExactlyBacked s) {a₀ hd} (hl : HeldDelta s.ledger s'.ledger a₀ hd)
    (h1 : ∀ w, (escO snd v a₀ w : Int) = escO snd (s.payments snd id) a₀ w + hd w)
    (h2 : ∀ a w, a ≠ a₀ → escO snd v a w = escO snd (s.payments snd id) a w) : ExactlyBacked s' := by
  refine exactlyBacked_upd hp hb ?_
  intro a w
  rw [escrowAt_eq]
  by_cases ha : a = a₀
  · subst ha; have := hl.2 w; have := h1 w; simp only; omega
  · rw [hl.1 a ha]; have := h2 a w ha; simp only; omega

/-- The invariants of every history. -/
structure Inv (s : St) : Prop where
  backed : Backed s
  bound : ∀ a w, (s.ledger.bal a w).held ≤ BAL_MAX
  parties : ∀ id snd b, s.parties id = some (snd, b) → ∃ p, s.payments snd id = some p ∧ p.beneficiary = b

theorem Initial.inv {s : St} (h : Initial s) : Inv s := by
  refine ⟨?_, ?_, ?_⟩
  · intro a w ks
    rw [Finset.sum_eq_zero]
    · exact Nat.zero_le _
    · intro k _; rw [escrowAt_eq, h.payments]; rfl
  · intro a w; rw [h.held]; exact Nat.zero_le _
  · intro id snd b hb; rw [h.parties] at hb; cases hb

/-! held bound -/

theorem hold_bound {env L a who amt L'} (h : Ledger.hold env L a who amt = some L')
    (hb : ∀ a w, (L.bal a w).held ≤ BAL_MAX) : ∀ a w, (L'.bal a w).held ≤ BAL_MAX := by
  obtain ⟨_, h1, rfl⟩ := hold_some h
  intro a' w; rw [setBal_bal]; split_ifs
  · exact h1
  · exact hb _ _

theorem bound_of_le {L L' : Ledger} (hb : ∀ a w, (L.bal a w).held ≤ BAL_MAX)
    (h : ∀ a w, (L'.bal a w).held ≤ (L.bal a w).held) : ∀ a w, (L'.bal a w).held ≤ BAL_MAX :=
  fun a w => (h a w).trans (hb a w)

theorem HeldDelta.bound {L L' a hd} (h : HeldDelta L L' a hd) (hb : ∀ a w, (L.bal a w).held ≤ BAL_MAX)
    (hneg : ∀ w, hd w ≤ 0) : ∀ a w, (L'.bal a w).held ≤ BAL_MAX := by
  refine bound_of_le hb ?_
  intro a' w
  by_cases ha : a' = a
  · subst ha; have := h.2 w; have := hneg w; omega
  · rw [h.1 a' ha]

theorem tah_bound {env L a src dst amt L'} (h : Ledger.transferAndHold env L a src dst amt = some L')
    (hb : ∀ a w, (L.bal a w).held ≤ BAL_MAX) : ∀ a w, (L'.bal a w).held ≤ BAL_MAX := by
  rcases tah_some h with ⟨_, rfl⟩ | ⟨_, _, h1, rfl⟩
  · exact hb
  · intro a' w
    simp only [setBal_bal, true_and]
    by_cases e1 : a' = a ∧ w = dst <;> by_cases e2 : a' = a ∧ w = src <;> by_cases e3 : dst = src <;>
      simp [e1, e2, e3, hb] <;> simp_all

theorem reserve_bound {env L snd p L'} (h : reservePaymentAmount env L snd p = .ok L')
    (hb : ∀ a w, (L.bal a w).held ≤ BAL_MAX) : ∀ a w, (L'.bal a w).held ≤ BAL_MAX := by
  obtain ⟨L1, h1, h2⟩ := reserve_ok h
  exact tah_bound h2 (hold_bound h1 hb)

/-! escrow values -/

theorem escrow_other {p : Payment} {a : Asset} (h : a ≠ p.asset) (snd w) : escrow snd p a w = 0 := by
  simp [escrow, Ne.symm h]

theorem escrow_created {p : Payment} (h : p.state = .created) (snd w) :
    (escrow snd p p.asset w : Int) = onAcct snd (senderEscrow p) w + onAcct p.beneficiary p.amount w := by
  simp only [escrow, h, onAcct]; simp only [if_true]; split_ifs <;> simp

theorem escrow_refund {p : Payment} {cb} (h : p.state = .refundRequested cb) (snd w) :
    (escrow snd p p.asset w : Int) = onAcct snd (senderEscrow p) w + onAcct p.beneficiary p.amount w := by
  simp only [escrow, h, onAcct]; simp only [if_true]; split_ifs <;> simp

theorem escrow_review {p : Payment} (h : p.state = .needsReview) (snd w) :
    (escrow snd p p.asset w : Int) =
      onAcct snd (senderEscrow p) w + onAcct p.beneficiary (p.amount + p.incentive : Nat) w := by
  simp only [escrow, h, onAcct]; simp only [if_true]; split_ifs <;> simp

theorem escrow_requested {p : Payment} (h : p.state = .paymentRequested) (snd a w) : escrow snd p a w = 0 := by
  simp [escrow, h]

theorem escrow_finished {p : Payment} (h : p.state = .finished) (snd a w) : escrow snd p a w = 0 := by
  simp [escrow, h]

theorem escO_fresh {s : St} {snd id} (h : ∀ old, s.payments snd id = some old → old.state = .paymentRequested)
    (a w) : escO snd (s.payments snd id) a w = 0 := by
  unfold escO
  cases hp : s.payments snd id with
  | none => rfl
  | some p => exact escrow_requested (h p hp) _ _ _

theorem benRelease_le (p : Payment) (d : Bool) :
    benRelease p d ≤ p.amount + (if d then p.incentive else 0) := by
  unfold benRelease satAdd; split_ifs <;> omega

theorem onAcct_nonpos {w₀ : Acct} {x : Int} (h : x ≤ 0) (w : Acct) : onAcct w₀ x w ≤ 0 := by
  unfold onAcct; split_ifs <;> omega

theorem onAcct_neg (w₀ : Acct) (x : Int) (w : Acct) : onAcct w₀ (-x) w = - onAcct w₀ x w := by
  unfold onAcct; split_ifs <;> omega

theorem onAcct_mono {w₀ : Acct} {x y : Int} (h : x ≤ y) (w : Acct) : onAcct w₀ x w ≤ onAcct w₀ y w := by
  unfold onAcct; split_ifs <;> omega

theorem accept_eff {env L a snd b n sp bp L1 L2 L3}
    (h1 : tryTransferFees env L a snd false sp = .ok L1)
    (h2 : L1.transfer env a snd b n .expendable = some L2)
    (h3 : tryTransferFees env L2 a b false bp = .ok L3) :
    Eff L L3 a (feeMoves snd sp ++ [⟨snd, b, n⟩] ++ feeMoves b bp) (fun _ => 0) :=
  (((tryTransferFees_eff h1).1.trans (transfer_eff h2)).trans (tryTransferFees_eff h3).1).congr
    (by intro w; simp [net_append]) (by simp)

/-! parties -/

theorem parties_upd_some {s s' : St} {snd id p p'}
    (h : ∀ id snd b, s.parties id = some (snd, b) → ∃ p, s.payments snd id = some p ∧ p.beneficiary = b)
    (hpar : s'.parties = s.parties) (hp : s'.payments = setPayment s.payments snd id (some p'))
    (hold : s.payments snd id = some p) (hb : p'.beneficiary = p.beneficiary) :
    ∀ id snd b, s'.parties id = some (snd, b) → ∃ p, s'.payments snd id = some p ∧ p.beneficiary = b := by
  intro i x b hi
  rw [hpar] at hi
  obtain ⟨q, hq, hqb⟩ := h i x b hi
  by_cases e : (x, i) = (snd, id)
  · obtain ⟨rfl, rfl⟩ := Prod.mk.inj e
    rw [hold] at hq; cases hq
    exact ⟨p', by rw [hp, setPayment_same], by rw [hb, hqb]⟩
  · exact ⟨q, by rw [hp, setPayment_ne _ _ _ _ _ _ e]; exact hq, hqb⟩

theorem parties_upd_new {s s' : St} {snd id b p'}
    (h : ∀ id snd b, s.parties id = some (snd, b) → ∃ p, s.payments snd id = some p ∧ p.beneficiary = b)
    (hpar : s'.parties = setAt s.parties id (some (snd, b)))
    (hp : s'.payments = setPayment s.payments snd id (some p')) (hb : p'.beneficiary = b) :
    ∀ id snd b, s'.parties id = some (snd, b) → ∃ p, s'.payments snd id = some p ∧ p.beneficiary = b := by
  intro i x c hi
  rw [hpar] at hi
  unfold setAt at hi
  split_ifs at hi with e
  · cases hi; subst e
    exact ⟨p', by rw [hp, setPayment_same], hb⟩
  · obtain ⟨q, hq, hqb⟩ := h i x c hi
    exact ⟨q, by rw [hp, setPayment_ne _ _ _ _ _ _ (by simp [e])]; exact hq, hqb⟩

theorem parties_upd_del {s s' : St} {snd id}
    (h : ∀ id snd b, s.parties id = some (snd, b) → ∃ p, s.payments snd id = some p ∧ p.beneficiary = b)
    (hpar : s'.parties = setAt s.parties id none) (hp : s'.payments = setPayment s.payments snd id none) :
    ∀ id snd b, s'.parties id = some (snd, b) → ∃ p, s'.payments snd id = some p ∧ p.beneficiary = b := by
  intro i x c hi
  rw [hpar] at hi
  unfold setAt at hi
  split_ifs at hi with e
  obtain ⟨q, hq, hqb⟩ := h i x c hi
  exact ⟨q, by rw [hp, setPayment_ne _ _ _ _ _ _ (by simp [e])]; exact hq, hqb⟩

/-! preservation -/

theorem pay_inv {cfg env s o bA a n r s'} (h : pay cfg env s o bA a n r = .ok s') (hi : Inv s) : Inv s' := by
  obtain ⟨snd, b, id, L, _, _, _, hf, hr, rfl⟩ := pay_ok h
  obtain ⟨e, _⟩ := reserve_eff hr
  refine ⟨?_, reserve_bound hr hi.bound, parties_upd_new hi.parties rfl rfl rfl⟩
  refine backed_delta (s := s) rfl hi.backed e.heldDelta ?_ ?_
  · intro w
    rw [escO_fresh hf]
    have := escrow_created (p := newPayment cfg s snd b a n .created r) rfl snd w
    simp only [escO]; rw [this]; simp
  · intro a' w ha
    simp only [escO]; rw [escrow_other ha]; exact Nat.zero_le _

theorem requestPayment_inv {cfg env s o sA a n s'} (h : requestPayment cfg env s o sA a n = .ok s')
    (hi : Inv s) : Inv s' := by
  obtain ⟨snd, b, id, _, _, _, hf, rfl⟩ := requestPayment_ok h
  refine ⟨?_, hi.bound, parties_upd_new hi.parties rfl rfl rfl⟩
  refine backed_upd (s := s) rfl hi.backed ?_
  intro a' w
  simp only [escO]; rw [escrow_requested rfl]; omega

theorem release_inv {cfg env s o id s'} (h : release cfg env s o id = .ok s') (hi : Inv s) : Inv s' := by
  obtain ⟨snd, p, L, _, hp, hst, hl, rfl⟩ := release_ok h
  have e := settleLedger_eff hl
  refine ⟨?_, e.heldDelta.bound hi.bound ?_, parties_upd_some hi.parties rfl rfl hp rfl⟩
  · refine backed_delta (s := s) rfl hi.backed e.heldDelta ?_ ?_
    · intro w
      rw [hp]
      simp only [escO, escrow_created hst, onAcct_neg, benRelease, Option.isSome]
      rw [escrow_finished rfl]; simp only [Bool.false_eq_true, if_false]; push_cast; omega
    · intro a' w ha
      simp only [escO]; rw [escrow_finished rfl]; exact Nat.zero_le _
  · intro w
    have := onAcct_nonpos (w₀ := snd) (x := -(senderEscrow p : Int)) (by omega) w
    have := onAcct_nonpos (w₀ := p.beneficiary) (x := -(benRelease p false : Int)) (by omega) w
    simp only [Option.isSome]; omega

theorem requestRefund_inv {cfg env s o id s'} (h : requestRefund cfg env s o id = .ok s') (hi : Inv s) :
    Inv s' := by
  obtain ⟨snd, p, _, hp, hst, _, _, _, _, rfl⟩ := requestRefund_ok h
  refine ⟨?_, hi.bound, parties_upd_some hi.parties rfl rfl hp rfl⟩
  refine backed_upd (s := s) rfl hi.backed ?_
  intro a' w
  rw [escrowAt_eq, hp]
  simp only [escO, escrow, hst, senderEscrow]; omega

theorem acceptAndPay_inv {cfg env s o id s'} (h : acceptAndPay cfg env s o id = .ok s') (hi : Inv s) :
    Inv s' := by
  obtain ⟨snd, s0, b, p, L1, L2, L3, _, _, hp, h1, h2, h3, rfl⟩ := acceptAndPay_ok h
  have e := accept_eff h1 h2 h3
  refine ⟨?_, e.heldDelta.bound hi.bound (by simp), parties_upd_some hi.parties rfl rfl hp rfl⟩
  refine backed_delta (s := s) rfl hi.backed e.heldDelta ?_ ?_
  · intro w
    simp only [escO]; rw [escrow_finished rfl]; simp
  · intro a' w ha
    simp only [escO]; rw [escrow_finished rfl]; exact Nat.zero_le _

theorem cancel_escrow {snd : Acct} {p : Payment} (h : p.state = .created ∨ ∃ cb, p.state = .refundRequested cb) (w) :
    (escrow snd p p.asset w : Int) = onAcct snd (senderEscrow p) w + onAcct p.beneficiary p.amount w := by
  rcases h with h | ⟨cb, h⟩
  · exact escrow_created h _ _
  · exact escrow_refund h _ _

theorem cancel_inv {cfg env s o id s'} (h : cancel cfg env s o id = .ok s') (hi : Inv s) : Inv s' := by
  obtain ⟨snd, b, p, L, _, hpar, hp, hl, hs⟩ := cancel_ok h
  have e := cancelPayment_eff hl
  have hst : p.state = .created ∨ ∃ cb, p.state = .refundRequested cb := by tauto
  have hneg : ∀ w, onAcct snd (-(senderEscrow p : Int)) w + onAcct p.beneficiary (-(p.amount : Int)) w ≤ 0 := by
    intro w
    have := onAcct_nonpos (w₀ := snd) (x := -(senderEscrow p : Int)) (by omega) w
    have := onAcct_nonpos (w₀ := p.beneficiary) (x := -(p.amount : Int)) (by omega) w
    omega
  have hp' : s'.payments = setPayment s.payments snd id none := by rcases hs with ⟨_, rfl⟩ | ⟨_, rfl⟩ <;> rfl
  have hl' : s'.ledger = L := by rcases hs with ⟨_, rfl⟩ | ⟨_, rfl⟩ <;> rfl
  have hpar' : s'.parties = setAt s.parties id none := by rcases hs with ⟨_, rfl⟩ | ⟨_, rfl⟩ <;> rfl
  refine ⟨?_, ?_, parties_upd_del hi.parties hpar' hp'⟩
  · refine backed_delta hp' hi.backed (hl' ▸ e.heldDelta) ?_ ?_
    · intro w
      rw [hp]
      simp only [escO, cancel_escrow hst, onAcct_neg]; push_cast; omega
    · intro a' w ha; simp [escO]
  · rw [hl']; exact e.heldDelta.bound hi.bound hneg

theorem disputeRefund_inv {cfg env s o id s'} (h : disputeRefund cfg env s o id = .ok s') (hi : Inv s) :
    Inv s' := by
  obtain ⟨snd, b, p, cb, L, _, hpar, hp, hst, _, hh, _, rfl⟩ := disputeRefund_ok h
  obtain ⟨q, hq, hqb⟩ := hi.parties id snd b hpar
  obtain rfl : p = q := by rw [hp] at hq; simpa using hq
  obtain ⟨e, _⟩ := hold_eff hh
  refine ⟨?_, hold_bound hh hi.bound, parties_upd_some hi.parties rfl rfl hp rfl⟩
  refine backed_delta (s := s) rfl hi.backed e.heldDelta ?_ ?_
  · intro w
    rw [hp]
    have h1 := escrow_review (p := { p with state := .needsReview }) rfl snd w
    have h2 := escrow_refund hst snd w
    simp only [escO]
    rw [h1, h2, hqb]
    simp only [onAcct, senderEscrow]; split_ifs <;> push_cast <;> omega
  · intro a' w ha
    have := escrow_other (p := { p with state := .needsReview }) ha snd w
    simp only [escO]; rw [this]; exact Nat.zero_le _

theorem resolveDispute_inv {cfg env s o id r s'} (h : resolveDispute cfg env s o id r = .ok s') (hi : Inv s) :
    Inv s' := by
  obtain ⟨resolver, snd, b, p, L, _, hpar, hp, hst, hl, rfl⟩ := resolveDispute_ok h
  obtain ⟨q, hq, hqb⟩ := hi.parties id snd b hpar
  obtain rfl : p = q := by rw [hp] at hq; simpa using hq
  have e := settleLedger_eff hl
  refine ⟨?_, e.heldDelta.bound hi.bound ?_, parties_upd_some hi.parties rfl rfl hp rfl⟩
  · refine backed_delta (s := s) rfl hi.backed e.heldDelta ?_ ?_
    · intro w
      rw [hp]
      have h2 := escrow_review hst snd w
      have h3 := benRelease_le p true
      simp only [escO]
      rw [escrow_finished rfl, h2, hqb]
      have h4 := onAcct_mono (w₀ := b) (x := (benRelease p true : Int)) (y := (p.amount + p.incentive : Nat))
        (by simp at h3; omega) w
      simp only [Option.isSome, onAcct_neg]; push_cast at h4 ⊢; omega
    · intro a' w ha
      simp only [escO]; rw [escrow_finished rfl]; exact Nat.zero_le _
  · intro w
    have := onAcct_nonpos (w₀ := snd) (x := -(senderEscrow p : Int)) (by omega) w
    have := onAcct_nonpos (w₀ := b) (x := -(benRelease p true : Int)) (by omega) w
    simp only [Option.isSome]; omega

theorem dispatch_inv {cfg env s o c s'} (h : dispatch cfg env s o c = .ok s') (hi : Inv s) : Inv s' := by
  cases c with
  | pay => exact pay_inv h hi
  | release => exact release_inv h hi
  | requestRefund => exact requestRefund_inv h hi
  | acceptAndPay => exact acceptAndPay_inv h hi
  | cancel => exact cancel_inv h hi
  | disputeRefund => exact disputeRefund_inv h hi
  | requestPayment => exact requestPayment_inv h hi
  | resolveDispute => exact resolveDispute_inv h hi

theorem Inv.congr {s s' : St} (h : Inv s) (hp : s'.payments = s.payments) (hpar : s'.parties = s.parties)
    (hl : ∀ a w, (s'.ledger.bal a w).held = (s.ledger.bal a w).held) : Inv s' := by
  refine ⟨?_, ?_, ?_⟩
  · intro a w ks
    rw [hl, Finset.sum_congr rfl fun k _ => by rw [escrowAt_eq, hp, ← escrowAt_eq]]
    exact h.backed a w ks
  · intro a w; rw [hl]; exact h.bound a w
  · intro id snd b; rw [hp, hpar]; exact h.parties id snd b

theorem ext_held (L : Ledger) (a : Asset) (w : Acct) (f : Nat) (a' w') :
    ((L.setBal a w ⟨f, (L.bal a w).held⟩).bal a' w').held = (L.bal a' w').held := by
  rw [setBal_bal]; split_ifs with h
  · obtain ⟨rfl, rfl⟩ := h; rfl
  · rfl

theorem exec_inv {cfg s} (act : Act) (hi : Inv s) : Inv (exec cfg s act) := by
  cases act with
  | call env o c =>
    simp only [exec]
    cases h : dispatch cfg env s o c with
    | error e => exact hi
    | ok s' => exact dispatch_inv h hi
  | tick => exact hi.congr rfl rfl (fun _ _ => rfl)
  | fire env id =>
    simp only [exec]
    cases ht : s.agenda id with
    | none => exact hi
    | some t =>
      simp only
      split_ifs
      · have hi1 : Inv { s with agenda := setAt s.agenda id none } := hi.congr rfl rfl (fun _ _ => rfl)
        cases h : cancel cfg env { s with agenda := setAt s.agenda id none } (.signed t.who) id with
        | error e => exact hi1
        | ok s' => exact cancel_inv h hi1
      · exact hi
  | ext a w f => exact hi.congr rfl rfl (ext_held s.ledger a w f)
  | setMin a m => exact hi.congr rfl rfl (fun _ _ => rfl)

theorem Reach.inv {cfg ok s} (h : Reach cfg ok s) : Inv s := by
  induction h with
  | init h => exact h.inv
  | step act _ _ ih => exact exec_inv act ih

end Verif.Payments
