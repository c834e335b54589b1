import Verif.Payments.KreivoMore

/-!
# When the free balance of a community's account falls (helper lemmas for C184)
-/

namespace Verif.Payments

/-- The free balance of `w` does not fall, in any asset. Specification only, no code behind it (outside /repo). -/
def Up (L L' : Ledger) (w : Acct) : Prop := ∀ a, (L.bal a w).free ≤ (L'.bal a w).free

theorem Up.trans {L1 L2 L3 : Ledger} {w : Acct} (h : Up L1 L2 w) (h' : Up L2 L3 w) : Up L1 L3 w :=
  fun a => (h a).trans (h' a)

theorem release_up {env L a who amt L'} (h : Ledger.release env L a who amt = some L') (w : Acct) : Up L L' w := by
  obtain ⟨_, rfl⟩ := release_some h
  intro b
  rw [setBal_bal]
  split
  · rename_i e
    obtain ⟨rfl, rfl⟩ := e
    exact Nat.le_add_right _ _
  · exact le_rfl

theorem spares_up {L L' : Ledger} {S : Acct → Prop} (h : Spares L L' S) {w : Acct} (hw : ¬ S w) : Up L L' w :=
  fun a => (h a w hw).1

theorem transfer_keeps_up {env L a src dst amt k L'} (h : Ledger.transfer env L a src dst amt k = some L') {w : Acct}
    (hw : w ≠ src) : Up L L' w := spares_up (transfer_spares h (· = src) rfl) hw

theorem fees_up {env L a acct d fs L'} (h : tryTransferFees env L a acct d (agg fs) = .ok L') {w : Acct}
    (hw : w = acct → fs = []) : Up L L' w := by
  by_cases e : w = acct
  · rw [hw e] at h
    have : L = L' := by
      have e0 : tryTransferFees env L a acct d (agg []) = .ok L := rfl
      rw [e0] at h
      cases h
      rfl
    exact this ▸ fun _ => le_rfl
  · exact spares_up (tryTransferFees_spares h (· = acct) rfl) e

/-- Giving back lowers no free balance that is not below the asset's minimum. -/
theorem cancelPayment_up {env L snd p L'} (h : cancelPayment env L snd p = .ok L') (w : Acct) (a : Asset) :
    (L.bal a w).free ≤ (L'.bal a w).free ∨ (L.bal a w).free < L.minBal a := by
  obtain ⟨L1, L2, h1, h2, h3⟩ := cancelPayment_ok h
  by_cases hw : w = p.beneficiary
  · subst hw
    by_cases ha : a = p.asset
    · subst ha
      rcases transfer_some h3 with ⟨_, e⟩ | ⟨hne, h0, hle, _, h4⟩
      · rw [e]
        exact .inl (((release_up h1 _).trans (release_up h2 _)) _)
      · have e2 : (L2.bal p.asset p.beneficiary).free = (L.bal p.asset p.beneficiary).free + p.amount := by
          obtain ⟨_, rfl⟩ := release_some h1
          obtain ⟨_, rfl⟩ := release_some h2
          rw [setBal_same]
          simp [setBal_bal, hne]
        have em : L2.minBal = L.minBal := by
          obtain ⟨_, rfl⟩ := release_some h1
          obtain ⟨_, rfl⟩ := release_some h2
          rfl
        rw [em] at h4
        rcases h4 with rfl | ⟨rest, r0, r1, hk, hr, rfl | rfl⟩
        · left
          rw [moveFree_bal _ _ _ _ _ _ hne]
          simp only [e2, true_and, if_true, hne, if_false]
          omega
        · right
          rw [e2] at hr
          have : rest = (L.bal p.asset p.beneficiary).free := by omega
          rw [← this]
          exact r1
        · right
          rw [e2] at hr
          have : rest = (L.bal p.asset p.beneficiary).free := by omega
          rw [← this]
          exact r1
    · left
      have := (cancelPayment_eff h).other a ha
      rw [this.1]
  · exact .inl ((((release_up h1 w).trans (release_up h2 w)).trans (transfer_keeps_up h3 hw)) a)

end Verif.Payments

namespace Verif.Payments.Kreivo

open Verif.Payments

theorem no_sender_fees {s : St} (hr : Reachable config s) {snd id p} (hp : s.payments snd id = some p)
    (hc : isCommunity snd = true) : p.fees.senderPays = [] := by
  rw [(record_ok hr hp).choose_spec.1]
  simp [applyFees, hc]

theorem no_beneficiary_fees {s : St} (hr : Reachable config s) {snd id p} (hp : s.payments snd id = some p)
    (hc : isCommunity p.beneficiary = true) : p.fees.beneficiaryPays = [] := by
  rw [(record_ok hr hp).choose_spec.1]
  simp [applyFees, hc]

/-- A call lowers the free balance of a community's account only if it is made by that account or by root, or takes a rest below
the asset's minimum. -/
theorem dispatch_free {env : Env} {s s' : St} {o : Origin} {c : Call} (hr : Reachable config s)
    (hid : ∀ id x y p q, s.payments x id = some p → s.payments y id = some q → x = y)
    (h : dispatch config env s o c = .ok s') {w : Acct} (hc : isCommunity w = true) {a : Asset}
    (hlt : (s'.ledger.bal a w).free < (s.ledger.bal a w).free) :
    config.senderOrigin o = some w ∨ config.beneficiaryOrigin o = some w ∨ o = .root ∨
      (s.ledger.bal a w).free < s.ledger.minBal a := by
  by_contra hn
  simp only [not_or] at hn
  obtain ⟨n1, n2, n3, n4⟩ := hn
  refine absurd hlt (Nat.not_lt.2 ?_)
  cases c with
  | pay bA b n r =>
    obtain ⟨snd, b, id, L, h1, h2, h3, hreq, hrs, rfl⟩ := pay_ok h
    exact spares_up (reserve_spares hrs (· = snd) rfl) (by rintro rfl; exact n1 h1) a
  | release id =>
    obtain ⟨snd, p, L, h1, hp, hst, hl, rfl⟩ := release_ok h
    obtain ⟨L1, L2, L3, L4, g1, g2, g3, g4, g5⟩ := settleLedger_ok hl
    simp only [settleDispute, Except.ok.injEq] at g5
    subst g5
    exact ((((release_up g1 w).trans (release_up g2 w)).trans (fees_up g3 (by rintro rfl; exact absurd h1 n1))).trans
      (fees_up g4 (by rintro rfl; exact no_beneficiary_fees hr hp hc))) a
  | requestRefund id =>
    obtain ⟨snd, p, _, hp, hst, _, hnone, _, _, rfl⟩ := requestRefund_ok h
    exact le_rfl
  | acceptAndPay id =>
    obtain ⟨snd, s0, b, p, L1, L2, L3, ho, hpar, hp, h1, h2, h3, rfl⟩ := acceptAndPay_ok h
    obtain ⟨q, hq, hqb⟩ := hr.inv.parties _ _ _ hpar
    have := hid id _ _ _ _ hp hq
    subst this
    rw [hp] at hq
    cases hq
    have hw : w ≠ snd := by rintro rfl; exact n1 ho
    refine (((fees_up h1 fun e => absurd e hw).trans (transfer_keeps_up h2 hw)).trans (fees_up h3 ?_)) a
    rintro rfl
    exact no_beneficiary_fees hr hp (hqb ▸ hc)
  | cancel id =>
    obtain ⟨snd, b, p, L, _, hpar, hp, hl, hs⟩ := cancel_ok h
    have hl' : s'.ledger = L := by rcases hs with ⟨_, rfl⟩ | ⟨_, rfl⟩ <;> rfl
    rw [hl']
    rcases cancelPayment_up hl w a with h | h
    · exact h
    · exact absurd h n4
  | disputeRefund id =>
    obtain ⟨snd, b, p, cb, L, h1, hpar, hp, hst, _, hh, _, rfl⟩ := disputeRefund_ok h
    exact spares_up (hold_spares hh (· = b) rfl) (by rintro rfl; exact n2 h1) a
  | requestPayment sA b n =>
    obtain ⟨snd, b, id, h1, h2, h3, hf, rfl⟩ := requestPayment_ok h
    exact le_rfl
  | resolveDispute id r =>
    exfalso
    have := C96_only_root env s o id r n3
    rw [this] at h
    cases h

/-- A refund the scheduler carries out takes at most a rest below the asset's minimum. -/
theorem fire_free {env : Env} {s : St} {id : PId} {w : Acct} {a : Asset}
    (hlt : ((exec config s (.fire env id)).ledger.bal a w).free < (s.ledger.bal a w).free) :
    (s.ledger.bal a w).free < s.ledger.minBal a := by
  by_contra hn
  refine absurd hlt (Nat.not_lt.2 ?_)
  simp only [exec]
  cases ht : s.agenda id with
  | none => exact le_rfl
  | some t =>
    dsimp only
    split
    · cases h : cancel config env { s with agenda := setAt s.agenda id none } (.signed t.who) id with
      | error e => exact le_rfl
      | ok s' =>
        obtain ⟨snd, b, p, L, _, hpar, hp, hl, hs⟩ := cancel_ok h
        have hl' : s'.ledger = L := by rcases hs with ⟨_, rfl⟩ | ⟨_, rfl⟩ <;> rfl
        show (s.ledger.bal a w).free ≤ (s'.ledger.bal a w).free
        rw [hl']
        rcases cancelPayment_up hl w a with h | h
        · exact h
        · exact absurd h hn
    · exact le_rfl

end Verif.Payments.Kreivo
