import Verif.Payments.Histories

/-! # Payments: success conditions of ledger sequences, bounds on burned dust (helper lemmas) -/

namespace Verif.Payments

/-- The ledger environment refuses nothing. Specification only, no code behind it (outside /repo). -/
def Accepting (env : LedgerEnv) : Prop := ∀ L op, env.deny L op = false

theorem release_succeeds {env L a who amt} (he : Accepting env) (h : amt ≤ (L.bal a who).held) :
    ∃ L', Ledger.release env L a who amt = some L' := by
  unfold Ledger.release; simp [he _ _, h]

theorem transfer_exp_succeeds {env L a src dst amt} (he : Accepting env) (h : amt ≤ (L.bal a src).free) :
    ∃ L', Ledger.transfer env L a src dst amt .expendable = some L' := by
  unfold Ledger.transfer
  simp only [he _ _]
  simp only [Bool.false_eq_true, if_false]
  split_ifs with h1 h2 h3 h4 h5
  · exact ⟨_, rfl⟩
  · omega
  · simp at h3
  · exact ⟨_, rfl⟩
  · cases env.dust L (LOp.transfer a src dst amt .expendable) <;> exact ⟨_, rfl⟩
  · exact ⟨_, rfl⟩

theorem cancelPayment_succeeds {env L snd p} (he : Accepting env)
    (h : ∀ w, onAcct snd (senderEscrow p) w + onAcct p.beneficiary p.amount w ≤ (L.bal p.asset w).held) :
    ∃ L', cancelPayment env L snd p = .ok L' := by
  have hs := h snd
  have hb := h p.beneficiary
  simp only [onAcct, if_true] at hs hb
  obtain ⟨L1, h1⟩ := release_succeeds (env := env) (L := L) (a := p.asset) (who := snd) (amt := senderEscrow p)
    he (by split_ifs at hs <;> omega)
  have e1 := (release_eff h1).1.held p.beneficiary
  obtain ⟨L2, h2⟩ := release_succeeds (env := env) (L := L1) (a := p.asset) (who := p.beneficiary)
    (amt := p.amount) he (by simp only [onAcct] at e1; split_ifs at e1 hb <;> omega)
  have hfree : p.amount ≤ (L2.bal p.asset p.beneficiary).free := by
    obtain ⟨_, rfl⟩ := release_some h2
    simp
  obtain ⟨L3, h3⟩ := transfer_exp_succeeds (dst := snd) he hfree
  refine ⟨L3, ?_⟩
  unfold cancelPayment
  simp only [bind_ok, orErr_ok, senderHold_eq]
  exact ⟨L1, h1, L2, h2, h3⟩

theorem transfer_preserve_succeeds {env L a src dst amt} (he : Accepting env)
    (h : amt + L.minBal a ≤ (L.bal a src).free) :
    ∃ L', Ledger.transfer env L a src dst amt .preserve = some L' := by
  unfold Ledger.transfer
  simp only [he _ _]
  simp only [Bool.false_eq_true, if_false]
  split_ifs with h1 h2 h3 h4 h5
  · exact ⟨_, rfl⟩
  · omega
  · omega
  · exact ⟨_, rfl⟩
  · simp at h5
  · exact ⟨_, rfl⟩

/-- Free balances after a `preserve` transfer: the source loses at most the amount, nobody else loses. -/
theorem transfer_preserve_free {env L a src dst amt L'}
    (h : Ledger.transfer env L a src dst amt .preserve = some L') (w : Acct) :
    (L.bal a w).free ≤ (L'.bal a w).free + (if w = src then amt else 0) := by
  rcases transfer_some h with ⟨_, rfl⟩ | ⟨hne, _, h1, _, rfl | ⟨_, _, _, hk, _⟩⟩
  · omega
  · rw [moveFree_bal _ _ _ _ _ _ hne]
    simp only [true_and]
    by_cases e1 : w = dst
    · subst e1; simp; omega
    · by_cases e2 : w = src
      · subst e2; simp [e1]; omega
      · simp [e1, e2]
  · cases hk

theorem tryTransferFees_succeeds {env a acct fs d} (he : Accepting env) :
    ∀ {L : Ledger}, feeTotal fs + L.minBal a ≤ (L.bal a acct).free →
    ∃ L', tryTransferFees env L a acct d fs = .ok L' ∧
      ∀ w, (L.bal a w).free ≤ (L'.bal a w).free + (if w = acct then feeTotal fs else 0) := by
  induction fs with
  | nil => intro L _; exact ⟨L, rfl, fun w => by omega⟩
  | cons f fs ih =>
    intro L h
    rw [feeTotal_cons] at h
    unfold tryTransferFees
    split_ifs with hc
    · obtain ⟨L1, h1⟩ := transfer_preserve_succeeds (dst := f.to) (amt := f.amt) he
        (show f.amt + L.minBal a ≤ (L.bal a acct).free by omega)
      have hf := transfer_preserve_free h1
      have hm := (transfer_eff h1).minBal
      obtain ⟨L2, h2, h3⟩ := ih (L := L1) (by
        have := hf acct
        simp only [if_true] at this
        rw [hm]; omega)
      refine ⟨L2, by rw [h1]; exact h2, fun w => ?_⟩
      have e1 := hf w
      have e2 := h3 w
      rw [feeTotal_cons]
      split_ifs at e1 e2 ⊢ <;> omega
    · obtain ⟨L2, h2, h3⟩ := ih (L := L) (by omega)
      refine ⟨L2, h2, fun w => ?_⟩
      have e2 := h3 w
      rw [feeTotal_cons]
      split_ifs at e2 ⊢ <;> omega

theorem addFee_total_le (l : List Fee) (f : Fee) : feeTotal (addFee l f) ≤ feeTotal l + f.amt := by
  induction l with
  | nil => simp [addFee, feeTotal, satAdd]
  | cons g gs ih =>
    unfold addFee
    split_ifs <;> simp only [feeTotal_cons, satAdd]
    · omega
    · omega
    · omega

theorem agg_total_le (fees : List Fee) : feeTotal (agg fees) ≤ feeTotal fees := by
  have : ∀ acc, feeTotal (fees.foldl addFee acc) ≤ feeTotal acc + feeTotal fees := by
    induction fees with
    | nil => intro acc; simp
    | cons f fs ih =>
      intro acc
      have h1 := addFee_total_le acc f
      have h2 := ih (addFee acc f)
      simp only [List.foldl_cons, feeTotal_cons]; omega
  simpa [agg] using this []

/-! ### burned dust -/

/-- At most `n` times the minimum of `a` was burned, nothing of other assets. Specification only, no code behind it
(outside /repo). -/
def BurnLe (L L' : Ledger) (n : Nat) : Prop :=
  L'.minBal = L.minBal ∧ ∀ a, L'.burned a ≤ L.burned a + n * L.minBal a

theorem BurnLe.trans {L1 L2 L3 n m} (h1 : BurnLe L1 L2 n) (h2 : BurnLe L2 L3 m) : BurnLe L1 L3 (n + m) := by
  refine ⟨h2.1.trans h1.1, fun a => ?_⟩
  have e1 := h1.2 a
  have e2 := h2.2 a
  rw [h1.1] at e2
  rw [Nat.add_mul]; omega

theorem BurnLe.mono {L1 L2 n m} (h1 : BurnLe L1 L2 n) (h : n ≤ m) : BurnLe L1 L2 m :=
  ⟨h1.1, fun a => (h1.2 a).trans (Nat.add_le_add_left (Nat.mul_le_mul_right _ h) _)⟩

theorem burnLe_of_eff {L L' a ms hd} (e : Eff L L' a ms hd) (n : NoDust L L' a) : BurnLe L L' 0 := by
  refine ⟨e.minBal, fun a' => ?_⟩
  by_cases ha : a' = a
  · subst ha; rw [n.2]; omega
  · rw [(e.other a' ha).2.2]; omega

theorem transfer_burn {env L a src dst amt k L'} (h : Ledger.transfer env L a src dst amt k = some L') :
    BurnLe L L' 1 := by
  rcases transfer_some h with ⟨_, rfl⟩ | ⟨_, _, _, _, rfl | ⟨rest, _, hr, _, _, rfl | rfl⟩⟩
  · exact ⟨rfl, fun a => by omega⟩
  · exact ⟨rfl, fun a => by simp [Ledger.moveFree, Ledger.setBal]⟩
  · exact ⟨rfl, fun a => by simp [Ledger.moveFree, Ledger.setBal]⟩
  · refine ⟨rfl, fun a' => ?_⟩
    simp only
    split_ifs with e
    · subst e; omega
    · omega

theorem settleDispute_burn {env L snd ben p d L'} (h : settleDispute env L snd ben p d = .ok L') :
    BurnLe L L' 2 := by
  rcases d with _ | ⟨r, resolver⟩
  · simp only [settleDispute, Except.ok.injEq] at h; subst h; exact ⟨rfl, fun a => by omega⟩
  · unfold settleDispute at h
    cases hr : r.inFavorOf <;> simp only [hr, bind_ok, orErr_ok] at h <;> obtain ⟨L1, h1, h2⟩ := h <;>
      exact (transfer_burn h1).trans (transfer_burn h2)

theorem settleLedger_burn {env L snd ben p d L'} (h : settleLedger env L snd ben p d = .ok L') :
    BurnLe L L' 2 := by
  obtain ⟨L1, L2, L3, L4, h1, h2, h3, h4, h5⟩ := settleLedger_ok h
  have b1 := burnLe_of_eff (release_eff h1).1 (release_eff h1).2
  have b2 := burnLe_of_eff (release_eff h2).1 (release_eff h2).2
  have b3 := burnLe_of_eff (tryTransferFees_eff h3).1 (tryTransferFees_eff h3).2
  have b4 := burnLe_of_eff (tryTransferFees_eff h4).1 (tryTransferFees_eff h4).2
  exact ((((b1.trans b2).trans b3).trans b4).trans (settleDispute_burn h5)).mono (by omega)

theorem cancelPayment_burn {env L snd p L'} (h : cancelPayment env L snd p = .ok L') : BurnLe L L' 2 := by
  obtain ⟨L1, L2, h1, h2, h3⟩ := cancelPayment_ok h
  have b1 := burnLe_of_eff (release_eff h1).1 (release_eff h1).2
  have b2 := burnLe_of_eff (release_eff h2).1 (release_eff h2).2
  exact ((b1.trans b2).trans (transfer_burn h3)).mono (by omega)

theorem cancel_burn {cfg env s o id s'} (h : cancel cfg env s o id = .ok s') : BurnLe s.ledger s'.ledger 2 := by
  obtain ⟨snd, b, p, L, _, hpar, hp, hl, hs⟩ := cancel_ok h
  have hl' : s'.ledger = L := by rcases hs with ⟨_, rfl⟩ | ⟨_, rfl⟩ <;> rfl
  rw [hl']; exact cancelPayment_burn hl

theorem dispatch_burn {cfg env s o c s'} (h : dispatch cfg env s o c = .ok s') : BurnLe s.ledger s'.ledger 2 := by
  cases c with
  | pay bA a n r =>
    obtain ⟨snd, b, id, L, h1, h2, h3, hreq, hr, rfl⟩ := pay_ok h
    exact (burnLe_of_eff (reserve_eff hr).1 (reserve_eff hr).2).mono (by omega)
  | release id =>
    obtain ⟨snd, p, L, _, hp, hst, hl, rfl⟩ := release_ok h
    exact settleLedger_burn hl
  | requestRefund id =>
    obtain ⟨snd, p, _, hp, hst, _, hnone, _, _, rfl⟩ := requestRefund_ok h
    exact ⟨rfl, fun a => by simp⟩
  | acceptAndPay id =>
    obtain ⟨snd, s0, b, p, L1, L2, L3, ho, _, hp, h1, h2, h3, rfl⟩ := acceptAndPay_ok h
    have b1 := burnLe_of_eff (tryTransferFees_eff h1).1 (tryTransferFees_eff h1).2
    have b3 := burnLe_of_eff (tryTransferFees_eff h3).1 (tryTransferFees_eff h3).2
    exact ((b1.trans (transfer_burn h2)).trans b3).mono (by omega)
  | cancel id => exact cancel_burn h
  | disputeRefund id =>
    obtain ⟨snd, b, p, cb, L, _, hpar, hp, hst, _, hh, _, rfl⟩ := disputeRefund_ok h
    exact (burnLe_of_eff (hold_eff hh).1 (hold_eff hh).2).mono (by omega)
  | requestPayment sA a n =>
    obtain ⟨snd, b, id, h1, h2, h3, hreq, rfl⟩ := requestPayment_ok h
    exact ⟨rfl, fun a => by simp⟩
  | resolveDispute id r =>
    obtain ⟨resolver, snd, b, p, L, _, hpar, hp, hst, hl, rfl⟩ := resolveDispute_ok h
    exact settleLedger_burn hl

/-! ### conservation and third parties, all calls -/

theorem cancel_cons {cfg env s o id s'} (h : cancel cfg env s o id = .ok s') (a : Asset) :
    Cons s.ledger s'.ledger a := by
  obtain ⟨snd, b, p, L, _, hpar, hp, hl, hs⟩ := cancel_ok h
  have hl' : s'.ledger = L := by rcases hs with ⟨_, rfl⟩ | ⟨_, rfl⟩ <;> rfl
  rw [hl']; exact cancelPayment_cons hl a

theorem dispatch_cons {cfg env s o c s'} (h : dispatch cfg env s o c = .ok s') (a : Asset) :
    Cons s.ledger s'.ledger a := by
  cases c with
  | pay bA a n r =>
    obtain ⟨snd, b, id, L, h1, h2, h3, hreq, hr, rfl⟩ := pay_ok h
    exact reserve_cons hr _
  | release id =>
    obtain ⟨snd, p, L, _, hp, hst, hl, rfl⟩ := release_ok h
    exact settleLedger_cons hl _
  | requestRefund id =>
    obtain ⟨snd, p, _, hp, hst, _, hnone, _, _, rfl⟩ := requestRefund_ok h
    exact Cons.refl _ _
  | acceptAndPay id =>
    obtain ⟨snd, s0, b, p, L1, L2, L3, ho, _, hp, h1, h2, h3, rfl⟩ := acceptAndPay_ok h
    exact ((tryTransferFees_cons h1 a).trans (transfer_cons h2 a)).trans (tryTransferFees_cons h3 a)
  | cancel id => exact cancel_cons h a
  | disputeRefund id =>
    obtain ⟨snd, b, p, cb, L, _, hpar, hp, hst, _, hh, _, rfl⟩ := disputeRefund_ok h
    exact hold_cons hh a
  | requestPayment sA a n =>
    obtain ⟨snd, b, id, h1, h2, h3, hreq, rfl⟩ := requestPayment_ok h
    exact Cons.refl _ _
  | resolveDispute id r =>
    obtain ⟨resolver, snd, b, p, L, _, hpar, hp, hst, hl, rfl⟩ := resolveDispute_ok h
    exact settleLedger_cons hl a

end Verif.Payments
