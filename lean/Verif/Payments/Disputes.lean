import Verif.Payments.KreivoTheorems

/-! # Payments: whether disputes can be resolved, and what calls announce (C94, C95) -/

namespace Verif.Payments

open Demo

/-! ## C94 -/

/-- What the sender gets of the amount when a dispute is resolved. Specification only, no code behind it (outside /repo).
-/
def senderShare (p : Payment) (r : DisputeResult) : Nat :=
  match r.inFavorOf with
  | .sender => r.pct * p.amount / 100
  | .beneficiary => p.amount - r.pct * p.amount / 100

theorem transfer_exp_free {env L a src dst amt L'}
    (h : Ledger.transfer env L a src dst amt .expendable = some L') (w : Acct)
    (hk : w = src → amt + L.minBal a ≤ (L.bal a src).free) :
    (L.bal a w).free ≤ (L'.bal a w).free + (if w = src then amt else 0) := by
  rcases transfer_some h with ⟨_, rfl⟩ | ⟨hne, _, h1, _, rfl | ⟨rest, hrest, hr0, hk', hpos, rfl | rfl⟩⟩
  · omega
  · rw [moveFree_bal _ _ _ _ _ _ hne]
    simp only [true_and]
    by_cases e1 : w = dst
    · subst e1; simp; omega
    · by_cases e2 : w = src
      · subst e2; simp [e1]; omega
      · simp [e1, e2]
  all_goals
    by_cases e2 : w = src
    · have := hk e2; omega
    · simp only
      rw [moveFree_bal _ _ _ _ _ _ hne]
      simp only [true_and]
      by_cases e1 : w = dst
      · subst e1; simp; omega
      · simp [e1, e2]

/-- C94, what holds (between different parties): in every reachable state the resolver can resolve a disputed payment
any way they decide, if the ledger refuses nothing, the sender can pay its fees, and the beneficiary can pay its fees
**on top of** the sender's share and keep the asset minimum, counting what the resolution gives back. -/
theorem C94_resolvable_partial {cfg : Config} {s : St} (hr : Reachable cfg s) {snd b resolver : Acct} {id : PId}
    {p : Payment} {env : Env} {o : Origin} {r : DisputeResult} (ho : cfg.disputeResolver o = some resolver)
    (hpar : s.parties id = some (snd, b)) (hp : s.payments snd id = some p) (hst : p.state = .needsReview)
    (hne : snd ≠ b) (he : Accepting env.ledger)
    (hs : feeTotal p.fees.senderPays + max (s.ledger.minBal p.asset) p.incentive ≤
      (s.ledger.bal p.asset snd).free + senderEscrow p)
    (hb : feeTotal p.fees.beneficiaryPays + s.ledger.minBal p.asset + senderShare p r ≤
      (s.ledger.bal p.asset b).free + p.amount) :
    ∃ s', dispatch cfg env s o (.resolveDispute id r) = .ok s' := by
  obtain ⟨p', hp', hpb⟩ := hr.inv.parties _ _ _ hpar
  rw [hp] at hp'; cases hp'
  subst hpb
  have hsat := review_no_saturation hr.inv hp hst
  have hheld : ∀ w, (if w = snd then senderEscrow p else 0) + (if w = p.beneficiary then p.amount + p.incentive else 0) ≤
      (s.ledger.bal p.asset w).held := by
    intro w
    have h1 := hr.inv.backed p.asset w {(snd, id)}
    rw [Finset.sum_singleton, escrowAt_eq] at h1
    simp only [hp, escO] at h1
    simpa [escrow, hst] using h1
  have hhs := hheld snd
  have hhb := hheld p.beneficiary
  simp only [if_true, if_neg hne, if_neg (Ne.symm hne)] at hhs hhb
  obtain ⟨L1, h1⟩ := release_succeeds (env := env.ledger) (L := s.ledger) (a := p.asset) (who := snd)
    (amt := senderEscrow p) he (by omega)
  obtain ⟨_, r1⟩ := release_some h1
  have e1 := (release_eff h1).1
  have e1h := e1.held p.beneficiary
  simp only [onAcct, if_neg (Ne.symm hne)] at e1h
  have hben : benRelease p true = p.amount + p.incentive := by
    simp only [benRelease, satAdd, if_true]; omega
  obtain ⟨L2, h2⟩ := release_succeeds (env := env.ledger) (L := L1) (a := p.asset) (who := p.beneficiary)
    (amt := benRelease p true) he (by rw [hben]; omega)
  obtain ⟨_, r2⟩ := release_some h2
  have hf1 : ∀ w, (L1.bal p.asset w).free = (s.ledger.bal p.asset w).free + (if w = snd then senderEscrow p else 0) := by
    intro w; rw [r1]; simp only [setBal_bal]; by_cases hw : w = snd
    · subst hw; simp
    · simp [hw]
  have hf2 : ∀ w, (L2.bal p.asset w).free =
      (L1.bal p.asset w).free + (if w = p.beneficiary then p.amount + p.incentive else 0) := by
    intro w; rw [r2, hben]; simp only [setBal_bal]; by_cases hw : w = p.beneficiary
    · subst hw; simp
    · simp [hw]
  have hm : L2.minBal = s.ledger.minBal := by rw [(release_eff h2).1.minBal, e1.minBal]
  have a1 := agg_total_le p.fees.senderPays
  have a2 := agg_total_le p.fees.beneficiaryPays
  have s1 := hf1 snd
  have s2 := hf2 snd
  have b1 := hf1 p.beneficiary
  have b2 := hf2 p.beneficiary
  simp only [if_true, if_neg hne, if_neg (Ne.symm hne)] at s1 s2 b1 b2
  obtain ⟨L3, h3, h3f⟩ := tryTransferFees_succeeds (d := true) (fs := agg p.fees.senderPays) (a := p.asset)
    (acct := snd) (L := L2) he (by rw [hm]; omega)
  have hm3 : L3.minBal = s.ledger.minBal := by rw [(tryTransferFees_eff h3).1.minBal, hm]
  have s3 := h3f snd
  have b3 := h3f p.beneficiary
  simp only [if_true, if_neg (Ne.symm hne)] at s3 b3
  obtain ⟨L4, h4, h4f⟩ := tryTransferFees_succeeds (d := true) (fs := agg p.fees.beneficiaryPays) (a := p.asset)
    (acct := p.beneficiary) (L := L3) he (by rw [hm3]; omega)
  have hm4 : L4.minBal = s.ledger.minBal := by rw [(tryTransferFees_eff h4).1.minBal, hm3]
  have s4 := h4f snd
  have b4 := h4f p.beneficiary
  simp only [if_true, if_neg hne] at s4 b4
  have hfin : ∃ L6, settleDispute env.ledger L4 snd p.beneficiary p (some (r, resolver)) = .ok L6 := by
    unfold settleDispute senderShare at *
    cases hw : r.inFavorOf with
    | sender =>
      simp only [hw] at hb ⊢
      simp only [bind_ok, orErr_ok, mulFloor]
      obtain ⟨L5, h5⟩ := transfer_exp_succeeds (env := env.ledger) (L := L4) (a := p.asset) (src := p.beneficiary)
        (dst := resolver) (amt := p.incentive) he (by omega)
      have b5 := transfer_exp_free h5 p.beneficiary (fun _ => by rw [hm4]; omega)
      simp only [if_true] at b5
      obtain ⟨L6, h6⟩ := transfer_exp_succeeds (env := env.ledger) (L := L5) (a := p.asset) (src := p.beneficiary)
        (dst := snd) (amt := r.pct * p.amount / 100) he (by omega)
      exact ⟨L6, L5, h5, h6⟩
    | beneficiary =>
      simp only [hw] at hb ⊢
      simp only [bind_ok, orErr_ok, mulFloor]
      obtain ⟨L5, h5⟩ := transfer_exp_succeeds (env := env.ledger) (L := L4) (a := p.asset) (src := snd)
        (dst := resolver) (amt := p.incentive) he (by omega)
      have b5 := transfer_exp_free h5 p.beneficiary (fun h => absurd h.symm hne)
      simp only [if_neg (Ne.symm hne)] at b5
      obtain ⟨L6, h6⟩ := transfer_exp_succeeds (env := env.ledger) (L := L5) (a := p.asset) (src := p.beneficiary)
        (dst := snd) (amt := p.amount - r.pct * p.amount / 100) he (by omega)
      exact ⟨L6, L5, h5, h6⟩
  obtain ⟨L6, h6⟩ := hfin
  have hset : settleLedger env.ledger s.ledger snd p.beneficiary p (some (r, resolver)) = .ok L6 := by
    unfold settleLedger
    simp only [bind_ok, orErr_ok, holdTotal_eq, summary_recipients, Option.isSome]
    exact ⟨L1, h1, L2, by simpa [benRelease] using h2, L3, h3, L4, h4, h6⟩
  simp only [dispatch, resolveDispute, ho, hpar, hp, hst, if_true, settlePayment, hset]
  exact ⟨_, rfl⟩

theorem net_feeMoves_out (payer w : Acct) (fs : List Fee) (h : ∀ f ∈ fs, f.to ≠ w) :
    net (feeMoves payer fs) w = if payer = w then -(feeTotal fs : Int) else 0 := by
  induction fs with
  | nil => simp [feeMoves, net, feeTotal]
  | cons f fs ih =>
    have h1 := ih (fun g hg => h g (List.mem_cons_of_mem _ hg))
    have h2 := h f (List.mem_cons_self ..)
    rw [feeMoves_cons, feeTotal_cons]
    rw [show (⟨payer, f.to, f.amt⟩ :: feeMoves payer fs : List Move) = [⟨payer, f.to, f.amt⟩] ++ feeMoves payer fs from rfl,
      net_append, h1]
    simp only [net, List.map_cons, List.map_nil, List.sum_cons, List.sum_nil, if_neg h2]
    split_ifs <;> push_cast <;> omega

theorem transfer_drains {env L a src dst amt k L'} (h : Ledger.transfer env L a src dst amt k = some L')
    (hne : src ≠ dst) : amt + (L'.bal a src).free ≤ (L.bal a src).free := by
  rcases transfer_some h with ⟨h0 | h0, rfl⟩ | ⟨hne', _, h1, _, rfl | ⟨rest, hrest, hr0, hk', hpos, rfl | rfl⟩⟩
  · omega
  · exact absurd h0 hne
  all_goals
    try simp only
    rw [moveFree_bal _ _ _ _ _ _ hne]
    simp [hne]
    omega

theorem transfer_up {env L a src dst amt k L'} (h : Ledger.transfer env L a src dst amt k = some L') {w : Acct}
    (hw : w ≠ dst) : (L'.bal a w).free ≤ (L.bal a w).free := by
  rcases transfer_some h with ⟨h0 | h0, rfl⟩ | ⟨hne, _, h1, _, rfl | ⟨rest, hrest, hr0, hk', hpos, rfl | rfl⟩⟩
  · omega
  · omega
  all_goals
    try simp only
    rw [moveFree_bal _ _ _ _ _ _ hne]
    by_cases e : w = src
    · subst e; simp [hw]
    · simp [hw, e]

/-- C94, what is needed: a resolution succeeds only if the beneficiary's free balance covers whatever its chargeable
fees exceed its own part of the amount by. The holds do not cover those fees. -/
theorem C94_needed {cfg : Config} {s s' : St} (hr : Reachable cfg s) {snd b resolver : Acct} {id : PId}
    {p : Payment} {env : Env} {o : Origin} {r : DisputeResult} (ho : cfg.disputeResolver o = some resolver)
    (h : dispatch cfg env s o (.resolveDispute id r) = .ok s')
    (hpar : s.parties id = some (snd, b)) (hp : s.payments snd id = some p) (hne : snd ≠ b) (hres : resolver ≠ b)
    (hs : ∀ f ∈ p.fees.senderPays, f.to ≠ b) (hb : ∀ f ∈ p.fees.beneficiaryPays, f.to ≠ b)
    (hfit : FeesFit p) :
    senderShare p r + feeTotal (chargedOnDispute p.fees.beneficiaryPays) ≤
      (s.ledger.bal p.asset b).free + p.amount + (if r.inFavorOf = .sender then 0 else p.incentive) := by
  obtain ⟨resolver', snd', b', p', L, h1, hpar', hp', hst, hl, rfl⟩ := resolveDispute_ok h
  rw [ho] at h1; cases h1
  rw [hpar] at hpar'; cases hpar'
  rw [hp] at hp'; cases hp'
  have hsat := review_no_saturation hr.inv hp hst
  obtain ⟨L1, L2, L3, L4, g1, g2, g3, g4, g5⟩ := settleLedger_ok hl
  have e := (((release_eff g1).1.trans (release_eff g2).1).trans (tryTransferFees_eff g3).1).trans
    (tryTransferFees_eff g4).1
  have d1 := (release_eff g1).2
  have d2 := (release_eff g2).2
  have d3 := (tryTransferFees_eff g3).2
  have d4 := (tryTransferFees_eff g4).2
  have ex := e.exactly ⟨d4.1.trans (d3.1.trans (d2.1.trans d1.1)), d4.2.trans (d3.2.trans (d2.2.trans d1.2))⟩
  have t := ex.total b
  have hh := ex.held b
  simp only [Option.isSome, if_true, net_append, net_nil, agg_net_disputed _ hfit.1,
    agg_net_disputed _ hfit.2] at t
  rw [net_feeMoves_out snd b (chargedOnDispute _) (fun f hf => hs f (List.mem_of_mem_filter hf)),
    net_feeMoves_out b b (chargedOnDispute _) (fun f hf => hb f (List.mem_of_mem_filter hf)), if_neg hne, if_pos rfl] at t
  have h3 : benRelease p true = p.amount + p.incentive := by
    simp only [benRelease, satAdd, if_true]; omega
  simp only [onAcct, Option.isSome, h3, if_neg (Ne.symm hne), if_true] at hh
  simp only [Ledger.total] at t
  have f4 : ((L4.bal p.asset b).free : Int) =
      (s.ledger.bal p.asset b).free + p.amount + p.incentive - feeTotal (chargedOnDispute p.fees.beneficiaryPays) := by
    push_cast at hh; omega
  unfold settleDispute at g5
  unfold senderShare
  cases hw : r.inFavorOf with
  | sender =>
    simp only [hw, bind_ok, orErr_ok, mulFloor] at g5 ⊢
    obtain ⟨L5, k1, k2⟩ := g5
    have := transfer_drains k1 (Ne.symm hres)
    have := transfer_drains k2 (Ne.symm hne)
    simp only [if_true]; omega
  | beneficiary =>
    simp only [hw, bind_ok, orErr_ok, mulFloor] at g5 ⊢
    obtain ⟨L5, k1, k2⟩ := g5
    have := transfer_up k1 (Ne.symm hres)
    have := transfer_drains k2 (Ne.symm hne)
    simp only [reduceCtorEq, if_false]; omega

namespace Kreivo

/-- The id `env` gives to a payment from 1 to 2. Example for non-vacuity (outside /repo). -/
def pid : PId := (env.nextId 1 2).getD 0

/-- 1 pays 5000 to 2, asks for a refund, 2 disputes, and then spends the rest of its balance. Example for non-vacuity
(outside /repo). -/
def drained : St := run config s0
  [.call env (.signed 1) (.pay (.id 2) 0 5000 none), .call env (.signed 1) (.requestRefund pid),
   .call env (.signed 2) (.disputeRefund pid), .ext 0 2 10]

theorem drained_reachable : Reachable config drained := reach_run (.init s0_initial) _

theorem drained_facts : drained.parties pid = some (1, 2) ∧
    drained.payments 1 pid = some ⟨0, 5000, 2, 500, .needsReview, ⟨[⟨treasury, 50, true⟩], [⟨treasury, 150, true⟩]⟩⟩ ∧
    (drained.ledger.bal 0 2) = ⟨10, 5500⟩ := by decide +kernel

theorem treasury_ne_two : treasury ≠ 2 := by decide +kernel

/-- C94 as stated fails on Kreivo: a beneficiary that lost the dispute can keep it from being resolved. In this
reachable state 1's 5000 are held on 2 and under review, and no origin, under no circumstances of the ledger, can
give them all back to 1, because 2 has spent the 150 it would owe in fees. -/
theorem C94_stuck_fails : Reachable config drained ∧
    (∃ p, drained.payments 1 pid = some p ∧ p.state = .needsReview ∧ p.amount = 5000) ∧
    ∀ env o s', dispatch config env drained o (.resolveDispute pid ⟨100, .sender⟩) ≠ .ok s' := by
  obtain ⟨h1, h2, h3⟩ := drained_facts
  refine ⟨drained_reachable, ⟨_, h2, rfl, rfl⟩, ?_⟩
  intro env o s' h
  have hne := treasury_ne_two
  obtain ⟨resolver, _, _, _, _, ho, _⟩ :=
    resolveDispute_ok (show resolveDispute config env drained o pid _ = .ok s' from h)
  have hres : resolver = treasury := by
    unfold config at ho
    cases o <;> simp_all
  subst hres
  have := C94_needed drained_reachable ho h h1 h2 (by decide) hne (by simp [hne]) (by simp [hne])
    (by constructor <;> simp [feeTotal, BAL_MAX])
  simp only [senderShare, h3, if_true, feeTotal, chargedOnDispute] at this
  simp at this

end Kreivo

-- The partial theorem's conditions are met in an ordinary dispute.
example : ∃ s', dispatch cfg (Demo.env 0) disputed .root (.resolveDispute 7 ⟨100, .sender⟩) = .ok s' :=
  C94_resolvable_partial (resolver := 99) (snd := 1) (b := 2) (Demo.reachable _) rfl rfl rfl rfl (by decide)
    (fun _ _ => rfl) (by decide) (by decide)

/-! ## C95 -/

/-- The event a call must announce, given who may call and what is stored before the call. Specification only, no code
behind it (outside /repo). -/
def announces (cfg : Config) (env : Env) (s : St) (o : Origin) : Call → Event → Prop
  | .pay bA a n r, e => ∃ snd b id, cfg.senderOrigin o = some snd ∧ cfg.lookup bA = some b ∧
      env.nextId snd b = some id ∧ e = .paymentCreated id a n r
  | .release id, e => e = .paymentReleased id
  | .requestRefund id, e => e = .paymentCreatorRequestedRefund id (s.now + cfg.cancelBuffer)
  | .acceptAndPay id, e => e = .paymentRequestCompleted id
  | .cancel id, e => ∃ snd b p, s.parties id = some (snd, b) ∧ s.payments snd id = some p ∧
      ((p.state = .created ∧ e = .paymentCancelled id) ∨ (∃ n, p.state = .refundRequested n) ∧ e = .paymentRefunded id)
  | .disputeRefund id, e => e = .paymentRefundDisputed id
  | .requestPayment sA _ _, e => ∃ snd b id, cfg.lookup sA = some snd ∧ cfg.beneficiaryOrigin o = some b ∧
      env.nextId snd b = some id ∧ e = .paymentRequestCreated id
  | .resolveDispute id _, e => e = .paymentDisputeResolved id

/-- C95: every successful call adds exactly one event, the one that describes it. -/
theorem C95_one_event {cfg : Config} {env : Env} {s s' : St} {o : Origin} {c : Call}
    (h : dispatch cfg env s o c = .ok s') : ∃ e, s'.events = s.events ++ [e] ∧ announces cfg env s o c e := by
  cases c with
  | pay bA a n r =>
    obtain ⟨snd, b, id, L, h1, h2, h3, hf, hr, rfl⟩ := pay_ok h
    exact ⟨_, rfl, snd, b, id, h1, h2, h3, rfl⟩
  | release id => obtain ⟨_, _, _, _, _, _, _, rfl⟩ := release_ok h; exact ⟨_, rfl, rfl⟩
  | requestRefund id =>
    simp only [dispatch, requestRefund] at h
    split at h
    · cases h
    split at h
    · cases h
    split at h
    · split at h
      · cases h
      split at h
      · cases h
      · cases h; exact ⟨_, rfl, rfl⟩
    · cases h
  | acceptAndPay id =>
    obtain ⟨e, he⟩ : ∃ e, s'.events = s.events ++ [e] ∧ e = .paymentRequestCompleted id := by
      simp only [dispatch, acceptAndPay] at h
      split at h
      · cases h
      split at h
      · cases h
      split at h
      · cases h
      simp only [bind_ok] at h
      obtain ⟨_, _, _, _, _, _, h⟩ := h
      cases h; exact ⟨_, rfl, rfl⟩
    exact ⟨e, he⟩
  | cancel id =>
    obtain ⟨snd, b, p, L, h1, hpar, hp, hl, hs⟩ := cancel_ok h
    rcases hs with ⟨hst, rfl⟩ | ⟨hst, rfl⟩
    · exact ⟨_, rfl, snd, b, p, hpar, hp, Or.inl ⟨hst, rfl⟩⟩
    · exact ⟨_, rfl, snd, b, p, hpar, hp, Or.inr ⟨hst, rfl⟩⟩
  | disputeRefund id => obtain ⟨_, _, _, _, _, _, _, _, _, _, _, _, rfl⟩ := disputeRefund_ok h; exact ⟨_, rfl, rfl⟩
  | requestPayment sA a n =>
    obtain ⟨snd, b, id, h1, h2, h3, hf, rfl⟩ := requestPayment_ok h
    exact ⟨_, rfl, snd, b, id, h2, h1, h3, rfl⟩
  | resolveDispute id r =>
    obtain ⟨_, _, _, _, _, _, _, _, _, _, rfl⟩ := resolveDispute_ok h; exact ⟨_, rfl, rfl⟩

/-- C95: nothing else adds events, except a scheduled refund that goes through, which announces itself; and events
are never taken back. -/
theorem C95_history {cfg : Config} (s : St) (act : Act) :
    (exec cfg s act).events = s.events ∨
    (∃ env o c s' e, act = .call env o c ∧ dispatch cfg env s o c = .ok s' ∧
      (exec cfg s act).events = s.events ++ [e] ∧ announces cfg env s o c e) ∨
    (∃ env id e t, act = .fire env id ∧ s.agenda id = some t ∧ t.due ≤ s.now ∧
      (exec cfg s act).events = s.events ++ [e] ∧ announces cfg env s (.signed t.who) (.cancel id) e) := by
  cases act with
  | call env o c =>
    cases h : dispatch cfg env s o c with
    | error e => left; simp [exec, h, settle]
    | ok s' =>
      obtain ⟨e, h1, h2⟩ := C95_one_event h
      exact Or.inr (Or.inl ⟨env, o, c, s', e, rfl, h, by simpa [exec, h, settle] using h1, h2⟩)
  | tick => left; rfl
  | ext a w n => left; rfl
  | setMin a m => left; rfl
  | fire env id =>
    cases ha : s.agenda id with
    | none => left; simp [exec, ha]
    | some t =>
      by_cases hd : t.due ≤ s.now
      · cases h : cancel cfg env { s with agenda := setAt s.agenda id none } (.signed t.who) id with
        | error e => left; simp [exec, ha, hd, h, settle]
        | ok s' =>
          obtain ⟨e, h1, h2⟩ := C95_one_event (c := .cancel id) (cfg := cfg) h
          exact Or.inr (Or.inr ⟨env, id, e, t, rfl, ha, hd, by simpa [exec, ha, hd, h, settle] using h1, h2⟩)
      · left; simp [exec, ha, hd]

example : (run cfg refunding [.tick, .tick, .tick, .tick, .tick, aFire 7]).events =
    [.paymentCreated 7 0 1000 none, .paymentCreatorRequestedRefund 7 15, .paymentRefunded 7] := by decide

end Verif.Payments
