import Verif.Payments.OwnId

/-! # Payments: exactly how much stays held for good (C23), and C13 over histories without id collisions -/

namespace Verif.Payments

open Demo

/-- What an action leaves held with no payment behind it, in asset `a` on account `w`: the escrow of the payment that a
successful `accept_and_pay` marks as finished. Specification only, no code behind it (outside /repo). -/
def strands (cfg : Config) (s : St) (act : Act) (a : Asset) (w : Acct) : Nat :=
  match act with
  | .call env o (.acceptAndPay id) =>
    match dispatch cfg env s o (.acceptAndPay id), cfg.senderOrigin o with
    | .ok _, some snd => escrowAt s (snd, id) a w
    | _, _ => 0
  | _ => 0

/-- What a whole history leaves held with no payment behind it. Specification only, no code behind it (outside /repo). -/
def strandedBy (cfg : Config) : St → List Act → Asset → Acct → Nat
  | _, [], _, _ => 0
  | s, act :: acts, a, w => strands cfg s act a w + strandedBy cfg (exec cfg s act) acts a w

/-- What is held is the escrow of the recorded payments plus `f`. Specification only, no code behind it (outside
/repo). -/
def BackedPlus (s : St) (f : Asset → Acct → Nat) : Prop :=
  ∃ ks : Finset (Acct × PId), (∀ k, k ∉ ks → s.payments k.1 k.2 = none) ∧
    ∀ a w, ∑ k ∈ ks, escrowAt s k a w + f a w = (s.ledger.bal a w).held

theorem backedPlus_step {s s' : St} {snd id v} {f f' : Asset → Acct → Nat}
    (hp : s'.payments = setPayment s.payments snd id v) (hb : BackedPlus s f)
    (hd : ∀ a w, escO snd v a w + f' a w + (s.ledger.bal a w).held =
      (s'.ledger.bal a w).held + escrowAt s (snd, id) a w + f a w) :
    BackedPlus s' f' := by
  obtain ⟨ks, hn, he⟩ := hb
  refine ⟨insert (snd, id) ks, ?_, ?_⟩
  · intro k hk
    simp only [Finset.mem_insert, not_or] at hk
    rw [hp, setPayment_ne _ _ _ _ _ _ (by simpa using hk.1)]
    exact hn k hk.2
  · intro a w
    have h0 : ∑ k ∈ insert (snd, id) ks, escrowAt s k a w + f a w = (s.ledger.bal a w).held := by
      by_cases hm : (snd, id) ∈ ks
      · rw [Finset.insert_eq_of_mem hm, he]
      · rw [Finset.sum_insert hm, Nat.add_assoc, he, escrowAt_eq, hn _ hm]; simp [escO]
    have h3 := hd a w
    rw [← Finset.add_sum_erase _ _ (Finset.mem_insert_self (snd, id) ks)] at h0 ⊢
    rw [Finset.sum_congr rfl fun k hk => escrowAt_upd_ne hp k (Finset.ne_of_mem_erase hk) a w,
      escrowAt_upd_same hp]
    omega

theorem backedPlus_upd {s s' : St} {snd id v} {f : Asset → Acct → Nat}
    (hp : s'.payments = setPayment s.payments snd id v) (hb : BackedPlus s f)
    (hd : ∀ a w, escO snd v a w + (s.ledger.bal a w).held = (s'.ledger.bal a w).held + escrowAt s (snd, id) a w) :
    BackedPlus s' f :=
  backedPlus_step hp hb fun a w => by have := hd a w; omega

theorem backedPlus_delta {s s' : St} {snd id v} {f : Asset → Acct → Nat}
    (hp : s'.payments = setPayment s.payments snd id v) (hb : BackedPlus s f)
    {a₀ hd} (hl : HeldDelta s.ledger s'.ledger a₀ hd)
    (h1 : ∀ w, (escO snd v a₀ w : Int) = escO snd (s.payments snd id) a₀ w + hd w)
    (h2 : ∀ a w, a ≠ a₀ → escO snd v a w = escO snd (s.payments snd id) a w) : BackedPlus s' f := by
  refine backedPlus_upd hp hb ?_
  intro a w
  rw [escrowAt_eq]
  by_cases ha : a = a₀
  · subst ha; have := hl.2 w; have := h1 w; simp only; omega
  · rw [hl.1 a ha]; have := h2 a w ha; simp only; omega

theorem BackedPlus.congr {s s' : St} {f} (h : BackedPlus s f) (hp : s'.payments = s.payments)
    (hl : ∀ a w, (s'.ledger.bal a w).held = (s.ledger.bal a w).held) : BackedPlus s' f := by
  obtain ⟨ks, h1, h2⟩ := h
  refine ⟨ks, by rw [hp]; exact h1, ?_⟩
  intro a w
  rw [hl, ← h2 a w]
  congr 1
  exact Finset.sum_congr rfl fun k _ => by rw [escrowAt_eq, hp, ← escrowAt_eq]

theorem cancel_backedPlus {cfg env s o id s'} (h : cancel cfg env s o id = .ok s') {f} (he : BackedPlus s f) :
    BackedPlus s' f := by
  obtain ⟨snd, b, p, L, _, hpar, hp, hl, hs⟩ := cancel_ok h
  have e := cancelPayment_eff hl
  have hst : p.state = .created ∨ ∃ cb, p.state = .refundRequested cb := by tauto
  have hp' : s'.payments = setPayment s.payments snd id none := by rcases hs with ⟨_, rfl⟩ | ⟨_, rfl⟩ <;> rfl
  have hl' : s'.ledger = L := by rcases hs with ⟨_, rfl⟩ | ⟨_, rfl⟩ <;> rfl
  refine backedPlus_delta hp' he (hl' ▸ e.heldDelta) ?_ ?_
  · intro w
    rw [hp]
    simp only [escO, cancel_escrow hst, onAcct_neg]; push_cast; omega
  · intro a' w ha; rw [hp]; simp only [escO]; rw [escrow_other ha]

theorem dispatch_backedPlus {cfg env s o c s'} (h : dispatch cfg env s o c = .ok s') (hi : Inv s)
    {f} (he : BackedPlus s f) :
    BackedPlus s' (fun a w => f a w + strands cfg s (.call env o c) a w) := by
  cases c with
  | pay bA a n r =>
    obtain ⟨snd, b, id, L, _, _, _, hf, hr, rfl⟩ := pay_ok h
    obtain ⟨e, _⟩ := reserve_eff hr
    refine backedPlus_delta (s := s) rfl he e.heldDelta ?_ ?_
    · intro w
      rw [escO_fresh hf]
      have := escrow_created (p := newPayment cfg s snd b a n .created r) rfl snd w
      simp only [escO]; rw [this]; simp
    · intro a' w ha
      rw [escO_fresh hf]; simp only [escO]; rw [escrow_other ha]
  | release id =>
    obtain ⟨snd, p, L, _, hp, hst, hl, rfl⟩ := release_ok h
    have e := settleLedger_eff hl
    refine backedPlus_delta (s := s) rfl he e.heldDelta ?_ ?_
    · intro w
      rw [hp]
      simp only [escO, escrow_created hst, onAcct_neg, benRelease, Option.isSome]
      rw [escrow_finished rfl]; simp only [Bool.false_eq_true, if_false]; push_cast; omega
    · intro a' w ha
      rw [hp]; simp only [escO]; rw [escrow_finished rfl, escrow_other ha]
  | requestRefund id =>
    obtain ⟨snd, p, _, hp, hst, _, _, _, _, rfl⟩ := requestRefund_ok h
    refine backedPlus_upd (s := s) rfl he ?_
    intro a' w
    rw [escrowAt_eq, hp]
    simp only [escO, escrow, hst, senderEscrow]; omega
  | acceptAndPay id =>
    obtain ⟨snd, s0, b, p, L1, L2, L3, ho, _, hp, h1, h2, h3, rfl⟩ := acceptAndPay_ok h
    have e := accept_eff h1 h2 h3
    refine backedPlus_step (s := s) rfl he ?_
    intro a w
    have hz : strands cfg s (.call env o (.acceptAndPay id)) a w = escrowAt s (snd, id) a w := by
      simp only [strands, h, ho]
    have hl := e.heldDelta
    have hh : (L3.bal a w).held = (s.ledger.bal a w).held := by
      by_cases ha : a = p.asset
      · subst ha; have := hl.2 w; simp only at this; omega
      · rw [hl.1 a ha]
    rw [hz]
    simp only [escO]; rw [escrow_finished rfl, hh]; omega
  | cancel id => exact cancel_backedPlus h he
  | disputeRefund id =>
    obtain ⟨snd, b, p, cb, L, _, hpar, hp, hst, _, hh, _, rfl⟩ := disputeRefund_ok h
    obtain ⟨q, hq, hqb⟩ := hi.parties id snd b hpar
    obtain rfl : p = q := by rw [hp] at hq; simpa using hq
    obtain ⟨e, _⟩ := hold_eff hh
    refine backedPlus_delta (s := s) rfl he e.heldDelta ?_ ?_
    · intro w
      rw [hp]
      have h1 := escrow_review (p := { p with state := .needsReview }) rfl snd w
      have h2 := escrow_refund hst snd w
      simp only [escO]
      rw [h1, h2, hqb]
      simp only [onAcct, senderEscrow]; split_ifs <;> push_cast <;> omega
    · intro a' w ha
      have := escrow_other (p := { p with state := .needsReview }) ha snd w
      rw [hp]; simp only [escO]; rw [this, escrow_other ha]
  | requestPayment sA a n =>
    obtain ⟨snd, b, id, _, _, _, hf, rfl⟩ := requestPayment_ok h
    refine backedPlus_upd (s := s) rfl he ?_
    intro a' w
    rw [escrowAt_eq, escO_fresh hf]
    simp only [escO]; rw [escrow_requested rfl]; omega
  | resolveDispute id r =>
    obtain ⟨resolver, snd, b, p, L, _, hpar, hp, hst, hl, rfl⟩ := resolveDispute_ok h
    obtain ⟨q, hq, hqb⟩ := hi.parties id snd b hpar
    obtain rfl : p = q := by rw [hp] at hq; simpa using hq
    have e := settleLedger_eff hl
    have hsat := review_no_saturation hi hp hst
    refine backedPlus_delta (s := s) rfl he e.heldDelta ?_ ?_
    · intro w
      rw [hp]
      have h2 := escrow_review hst snd w
      have h3 : benRelease p true = p.amount + p.incentive := by
        simp only [benRelease, satAdd, if_true]; omega
      simp only [escO]
      rw [escrow_finished rfl, h2, hqb]
      simp only [Option.isSome, onAcct_neg, h3]; push_cast; omega
    · intro a' w ha
      rw [hp]; simp only [escO]; rw [escrow_finished rfl, escrow_other ha]

theorem exec_backedPlus {cfg s} (act : Act) (hi : Inv s) {f} (he : BackedPlus s f) :
    BackedPlus (exec cfg s act) (fun a w => f a w + strands cfg s act a w) := by
  cases act with
  | call env o c =>
    simp only [exec]
    cases h : dispatch cfg env s o c with
    | error e =>
      have hz : ∀ a w, strands cfg s (.call env o c) a w = 0 := by
        intro a w
        cases c <;> simp only [strands]
        rw [h]
      simpa only [settle, hz, Nat.add_zero] using he
    | ok s' => exact dispatch_backedPlus h hi he
  | tick => exact he.congr rfl (fun _ _ => rfl)
  | fire env id =>
    simp only [exec]
    cases ht : s.agenda id with
    | none => exact he
    | some t =>
      simp only
      split_ifs
      · have he1 : BackedPlus { s with agenda := setAt s.agenda id none } f := he.congr rfl (fun _ _ => rfl)
        cases h : cancel cfg env { s with agenda := setAt s.agenda id none } (.signed t.who) id with
        | error e => exact he1
        | ok s' => exact cancel_backedPlus h he1
      · exact he
  | ext a w f => exact he.congr rfl (ext_held s.ledger a w f)
  | setMin a m => exact he.congr rfl (fun _ _ => rfl)


/-- C23, over all histories: what is held on any account is exactly the escrow of the payments on record plus the
escrows of those payments that `accept_and_pay` closed while their funds were in escrow. -/
theorem C23_held_exactly (cfg : Config) (s : St) (hs : Initial s) (acts : List Act) :
    ∃ ks : Finset (Acct × PId), (∀ k, k ∉ ks → (run cfg s acts).payments k.1 k.2 = none) ∧
      ∀ a w, ((run cfg s acts).ledger.bal a w).held =
        ∑ k ∈ ks, escrowAt (run cfg s acts) k a w + strandedBy cfg s acts a w := by
  have key : ∀ (acts : List Act) (s : St) (f : Asset → Acct → Nat), Inv s → BackedPlus s f →
      BackedPlus (run cfg s acts) (fun a w => f a w + strandedBy cfg s acts a w) := by
    intro acts
    induction acts with
    | nil => intro s f _ h; exact h
    | cons act acts ih =>
      intro s f hi h
      have := ih (exec cfg s act) _ (exec_inv act hi) (exec_backedPlus act hi h)
      simpa only [strandedBy, Nat.add_assoc, run, List.foldl_cons] using this
  obtain ⟨ks, h1, h2⟩ := key acts s (fun _ _ => 0) hs.inv ⟨∅, fun k _ => hs.payments _ _, fun a w => by simp [hs.held]⟩
  exact ⟨ks, h1, fun a w => by rw [← h2 a w]; simp only [Nat.zero_add]⟩

/-- C23: what a history has left behind in this way is never freed by any continuation. -/
theorem C23_stranded_for_good (cfg : Config) (s : St) (hs : Initial s) (acts later : List Act) (a : Asset) (w : Acct) :
    strandedBy cfg s acts a w ≤ ((run cfg s (acts ++ later)).ledger.bal a w).held := by
  obtain ⟨ks, _, h⟩ := C23_held_exactly cfg s hs (acts ++ later)
  have mono : ∀ (acts : List Act) (s : St), strandedBy cfg s acts a w ≤ strandedBy cfg s (acts ++ later) a w := by
    intro acts
    induction acts with
    | nil => intro s; exact Nat.zero_le _
    | cons act acts ih => intro s; exact Nat.add_le_add_left (ih _) _
  rw [h a w]
  exact Nat.le_trans (mono acts s) (Nat.le_add_left _ _)

example : strandedBy cfg s0 [aPay 7 1 2 1000, aCall 1 (.acceptAndPay 7)] 0 2 = 1000 ∧
    strandedBy cfg s0 [aPay 7 1 2 1000, aCall 1 (.acceptAndPay 7)] 0 1 = 103 ∧
    strandedBy cfg s0 [aRequest 7 1 2 1000, aCall 1 (.acceptAndPay 7)] 0 2 = 0 := by decide

/-- C13, over histories without id collisions (partial: see `C13_wrong_beneficiary_fails` for the rest): whoever
successfully accepts, the fees of both sides and the amount of the record under their name move, the amount to that
record's beneficiary, and the record is finished. -/
theorem C13_no_collision_partial {cfg : Config} {env : Env} {s s' : St} {o : Origin} {id : PId}
    (hr : Reach cfg (FreshIds cfg) s) (h : dispatch cfg env s o (.acceptAndPay id) = .ok s') :
    ∃ snd p, cfg.senderOrigin o = some snd ∧ s.payments snd id = some p ∧
      s'.payments snd id = some { p with state := .finished } ∧
      (FeesFit p → NoDust s.ledger s'.ledger p.asset →
        Exactly s.ledger s'.ledger p.asset
          (feeMoves snd p.fees.senderPays ++ [⟨snd, p.beneficiary, p.amount⟩] ++
            feeMoves p.beneficiary p.fees.beneficiaryPays) (fun _ => 0)) := by
  obtain ⟨snd, _, _, p, _, _, _, ho, _, hp, _, _, _, hs'⟩ := acceptAndPay_ok h
  refine ⟨snd, p, ho, hp, ?_, fun hf hd => ?_⟩
  · rw [hs']; exact setPayment_same _ _ _ _
  · exact (C13_accept_exact_partial hr.reachable h ho (C22_found_by_id_partial hr hp) hp hf hd).1

/-- C13 for one sender and id (partial: only while no other sender is given the id), whatever ids others are given. -/
theorem C13_own_id_partial {cfg : Config} {env : Env} {s s' : St} {o : Origin} {snd : Acct} {id : PId}
    (hr : Reach cfg (IdKept cfg snd id) s) (ho : cfg.senderOrigin o = some snd)
    (h : dispatch cfg env s o (.acceptAndPay id) = .ok s') :
    ∃ p, s.payments snd id = some p ∧ s'.payments snd id = some { p with state := .finished } ∧
      (FeesFit p → NoDust s.ledger s'.ledger p.asset →
        Exactly s.ledger s'.ledger p.asset
          (feeMoves snd p.fees.senderPays ++ [⟨snd, p.beneficiary, p.amount⟩] ++
            feeMoves p.beneficiary p.fees.beneficiaryPays) (fun _ => 0)) := by
  obtain ⟨x, _, _, p, _, _, _, hx, _, hp, _, _, _, hs'⟩ := acceptAndPay_ok h
  rw [ho] at hx; cases hx
  refine ⟨p, hp, ?_, fun hf hd => ?_⟩
  · rw [hs']; exact setPayment_same _ _ _ _
  · exact (C13_accept_exact_partial hr.reachable h ho (C22_own_id_partial hr hp) hp hf hd).1

-- The hypotheses met where another id is given to two senders.
example : Reach cfg (IdKept cfg 1 7) (run cfg s0 [aPay 8 3 4 50, aPay 8 5 6 50, aRequest 7 1 2 1000]) ∧
    stateAt (exec cfg (run cfg s0 [aPay 8 3 4 50, aPay 8 5 6 50, aRequest 7 1 2 1000]) (aCall 1 (.acceptAndPay 7))) 1 7 =
      some .finished := by
  refine ⟨?_, by decide⟩
  have h1 := Reach.step (cfg := cfg) (ok := IdKept cfg 1 7) (aPay 8 3 4 50) (.init s0_initial)
    (kept_pay _ _ _ _ _ _ _ fun h => by cases h)
  have h2 := h1.step (aPay 8 5 6 50) (kept_pay _ _ _ _ _ _ _ fun h => by cases h)
  refine h2.step (aRequest 7 1 2 1000) fun _ _ _ x b e hc _ hx => ?_
  cases e
  simp only [creates, Demo.cfg, Option.some.injEq, Prod.mk.injEq] at hc
  exact absurd hc.1.symm hx

example : Reach cfg (FreshIds cfg) requested ∧
    ∃ s', dispatch cfg (env 0) requested (.signed 1) (.acceptAndPay 7) = .ok s' :=
  ⟨.step (s := s0) (aRequest 7 1 2 1000) (.init s0_initial) (fun _ _ _ _ _ _ _ _ _ _ _ => rfl), _, rfl⟩

end Verif.Payments
