import Verif.Payments.RefundTheorems
import Verif.Payments.KreivoTheorems

/-!
# C185: what the events tell about payments
-/

namespace Verif.Payments

/-! ## Specification -/

/-- What somebody who follows the events believes about each payment id: how the payment stands, and its asset and amount if
these were told. Specification only, no code behind it (outside /repo). -/
abbrev Beliefs := PId → Option (PState × Option (Asset × Nat))

/-- What one makes of an event, in the sense of pallets/payments/src/lib.rs 186-216. Specification only, no code behind it
(outside /repo). -/
def learn (k : Beliefs) : Event → Beliefs
  | .paymentCreated id a n _ => setAt k id (some (.created, some (a, n)))
  | .paymentRequestCreated id => setAt k id (some (.paymentRequested, none))
  | .paymentCreatorRequestedRefund id expiry => setAt k id ((k id).map fun x => (.refundRequested expiry, x.2))
  | .paymentRefundDisputed id => setAt k id ((k id).map fun x => (.needsReview, x.2))
  | .paymentReleased id | .paymentRequestCompleted id | .paymentDisputeResolved id =>
    setAt k id ((k id).map fun x => (.finished, x.2))
  | .paymentCancelled id | .paymentRefunded id => setAt k id none

/-- What one believes after all the events. Specification only, no code behind it (outside /repo). -/
def told (es : List Event) : Beliefs := es.foldl learn fun _ => none

/-- The beliefs are right about a payment id. Specification only, no code behind it (outside /repo). -/
def RightAbout (s : St) (id : PId) : Option (PState × Option (Asset × Nat)) → Prop
  | none => ∀ snd, s.payments snd id = none
  | some (st, terms) => ∃ snd p, s.payments snd id = some p ∧ (∀ x, x ≠ snd → s.payments x id = none) ∧ p.state = st ∧
      (∀ a n, terms = some (a, n) → p.asset = a ∧ p.amount = n) ∧ (terms = none → p.state.isOpen = true → False)

/-! ## Helper lemmas -/

/-- The beliefs about an id stay right when one payment is written and one event tells of it. -/
theorem right_step {s s' : St} {snd : Acct} {i id : PId} {new : Option Payment} {e : Event}
    {b : Option (PState × Option (Asset × Nat))} (hr : RightAbout s i (told s.events i))
    (hp : s'.payments = setPayment s.payments snd id new) (he : s'.events = s.events ++ [e])
    (hl : ∀ k, k id = told s.events id → learn k e = setAt k id b) (hb : i = id → RightAbout s' id b) :
    RightAbout s' i (told s'.events i) := by
  have ht : told s'.events i = if i = id then b else told s.events i := by
    rw [he, told, List.foldl_append]
    show learn (told s.events) e i = _
    rw [hl _ rfl]; rfl
  rw [ht]
  by_cases hi : i = id
  · rw [if_pos hi, hi]; exact hb hi
  · rw [if_neg hi]
    have hs : ∀ x, s'.payments x i = s.payments x i := fun x => by
      rw [hp]; unfold setPayment; rw [if_neg fun h => hi h.2]
    revert hr
    cases told s.events i with
    | none => intro h x; rw [hs]; exact h x
    | some y =>
      rintro ⟨z, p, h1, h2, h3⟩
      exact ⟨z, p, by rw [hs]; exact h1, fun x hx => by rw [hs]; exact h2 x hx, h3⟩

/-- Changing the state of the stored payment. -/
theorem right_move {s s' : St} {snd : Acct} {i id : PId} {p : Payment} {st : PState} {e : Event} (hf : FoundId i s)
    (hr : RightAbout s i (told s.events i)) (hold : s.payments snd id = some p)
    (hp : s'.payments = setPayment s.payments snd id (some { p with state := st }))
    (he : s'.events = s.events ++ [e])
    (hl : ∀ k : Beliefs, learn k e = setAt k id ((k id).map fun x => (st, x.2)))
    (hopen : st.isOpen = true → p.state.isOpen = true) : RightAbout s' i (told s'.events i) := by
  refine right_step (b := (told s.events id).map fun x => (st, x.2)) hr hp he (fun k h => by rw [hl, h]) fun hi => ?_
  subst hi
  cases hk : told s.events i with
  | none => rw [hk] at hr; rw [hr snd] at hold; cases hold
  | some y =>
    obtain ⟨y1, y2⟩ := y
    rw [hk] at hr
    obtain ⟨z, q, h1, h2, h3, h4, h5⟩ := hr
    have hz : snd = z := by
      by_contra hne
      rw [h2 _ hne] at hold; cases hold
    subst hz
    rw [hold] at h1; cases h1
    refine ⟨snd, { p with state := st }, by rw [hp]; exact setPayment_same _ _ _ _, fun x hx => ?_, rfl, h4,
      fun hy ho => h5 hy (hopen ho)⟩
    rw [hp]; unfold setPayment; rw [if_neg fun h => hx h.1]; exact hf.only hold hx

/-- A new payment. -/
theorem right_new {s s' : St} {snd : Acct} {i id : PId} {p : Payment} {e : Event} {t : Option (Asset × Nat)}
    (hr : RightAbout s i (told s.events i)) (hp : s'.payments = setPayment s.payments snd id (some p))
    (hn : i = id → ∀ x, x ≠ snd → s.payments x id = none) (he : s'.events = s.events ++ [e])
    (hl : ∀ k : Beliefs, learn k e = setAt k id (some (p.state, t)))
    (ht : ∀ a n, t = some (a, n) → p.asset = a ∧ p.amount = n) (hopen : t = none → p.state.isOpen = true → False) :
    RightAbout s' i (told s'.events i) := by
  refine right_step hr hp he (fun k _ => hl k) fun hi => ?_
  refine ⟨snd, p, by rw [hp]; exact setPayment_same _ _ _ _, fun x hx => ?_, rfl, ht, hopen⟩
  rw [hp]; unfold setPayment; rw [if_neg fun h => hx h.1]; exact hn hi x hx

theorem cancel_right {cfg env s o id s'} {i : PId} (h : cancel cfg env s o id = .ok s') (hf : FoundId i s)
    (hr : RightAbout s i (told s.events i)) : RightAbout s' i (told s'.events i) := by
  obtain ⟨snd, b, p, L, _, _, hp, _, h⟩ := cancel_ok h
  have gone : i = id → ∀ x, setPayment s.payments snd id none x id = none := fun hi x => by
    subst hi
    unfold setPayment
    split
    · rfl
    · rename_i hx; exact hf.only hp fun e => hx ⟨e, rfl⟩
  rcases h with ⟨_, rfl⟩ | ⟨_, rfl⟩
  · exact right_step (s := s) (b := none) hr rfl rfl (fun k _ => rfl) gone
  · exact right_step (s := s) (b := none) hr rfl rfl (fun k _ => rfl) gone

theorem dispatch_right {cfg env s o c s'} {i : PId} (h : dispatch cfg env s o c = .ok s')
    (hok : IdOnce cfg i s (.call env o c)) (hf : FoundId i s) (hr : RightAbout s i (told s.events i)) :
    RightAbout s' i (told s'.events i) := by
  cases c with
  | pay bA a n r =>
    obtain ⟨snd, b, id, L, h1, h2, h3, _, _, rfl⟩ := pay_ok h
    refine right_new (s := s) (t := some (a, n)) hr rfl
      (fun e => by subst e; exact hok.others (by simp [creates, h1, h2]) h3) rfl
      (fun k => rfl) (fun a' n' e => ?_) (fun e => by cases e)
    cases e; exact ⟨rfl, rfl⟩
  | release id =>
    obtain ⟨snd, p, L, _, hp, hst, hl, rfl⟩ := release_ok h
    exact right_move (s := s) hf hr hp rfl rfl (fun k => rfl) (by intro h; cases h)
  | requestRefund id =>
    obtain ⟨snd, p, _, hp, hst, _, _, _, _, rfl⟩ := requestRefund_ok h
    exact right_move (s := s) hf hr hp rfl rfl (fun k => rfl) (fun _ => by rw [hst]; rfl)
  | acceptAndPay id =>
    obtain ⟨snd, s0, b, p, L1, L2, L3, ho, _, hp, h1, h2, h3, rfl⟩ := acceptAndPay_ok h
    exact right_move (s := s) hf hr hp rfl rfl (fun k => rfl) (by intro h; cases h)
  | cancel id => exact cancel_right h hf hr
  | disputeRefund id =>
    obtain ⟨snd, b, p, cb, L, _, hpar, hp, hst, _, hh, _, rfl⟩ := disputeRefund_ok h
    exact right_move (s := s) hf hr hp rfl rfl (fun k => rfl) (fun _ => by rw [hst]; rfl)
  | requestPayment sA a n =>
    obtain ⟨snd, b, id, h1, h2, h3, _, rfl⟩ := requestPayment_ok h
    exact right_new (s := s) (t := none) hr rfl
      (fun e => by subst e; exact hok.others (by simp [creates, h1, h2]) h3) rfl
      (fun k => rfl) (fun a' n' e => by cases e) (fun _ e => by cases e)
  | resolveDispute id r =>
    obtain ⟨resolver, snd, b, p, L, _, hpar, hp, hst, hl, rfl⟩ := resolveDispute_ok h
    exact right_move (s := s) hf hr hp rfl rfl (fun k => rfl) (by intro h; cases h)

theorem exec_right {cfg s} {i : PId} (act : Act) (hok : IdOnce cfg i s act) (hf : FoundId i s)
    (hr : RightAbout s i (told s.events i)) : RightAbout (exec cfg s act) i (told (exec cfg s act).events i) := by
  cases act with
  | call env o c =>
    simp only [exec]
    cases h : dispatch cfg env s o c with
    | error e => exact hr
    | ok s' => exact dispatch_right h hok hf hr
  | tick => exact hr
  | fire env id =>
    simp only [exec]
    cases ht : s.agenda id with
    | none => exact hr
    | some t =>
      simp only
      split_ifs
      · have he1 : FoundId i { s with agenda := setAt s.agenda id none } := hf
        cases h : cancel cfg env { s with agenda := setAt s.agenda id none } (.signed t.who) id with
        | error e => exact hr
        | ok s' => exact cancel_right h he1 hr
      · exact hr
  | ext a w f => exact hr
  | setMin a m => exact hr

theorem along_right {cfg : Config} {i : PId} (acts : List Act) : ∀ s, Along cfg (IdOnce cfg i) s acts → FoundId i s →
    RightAbout s i (told s.events i) → RightAbout (run cfg s acts) i (told (run cfg s acts).events i) := by
  induction acts with
  | nil => intro s _ _ h; exact h
  | cons a as ih =>
    intro s h hf hr
    exact ih _ h.2 (exec_foundId a h.1 hf) (exec_right a h.1 hf hr)

/-! ## C185 -/

/-- C185 (partial: not between whom, nor what was asked for, nor how a dispute ended): from a start without payments, in every
history in which an id is not given to two senders, whatever ids others are given, whoever follows the events knows whether
the id is in use, how its payment stands, and its asset and amount if it has funds in escrow. -/
theorem C185_standing_partial (cfg : Config) (z : St) (hz : Initial z) (he : z.events = []) (acts : List Act) (id : PId)
    (h : Along cfg (IdOnce cfg id) z acts) : RightAbout (run cfg z acts) id (told (run cfg z acts).events id) :=
  along_right acts z h (fun x p hp => by rw [hz.payments] at hp; cases hp)
    (by rw [he]; exact fun snd => hz.payments snd id)

namespace Kreivo

/-- A payment from one account to another, in block 10. Example for non-vacuity (outside /repo). -/
def payBetween (x y : Acct) : List Act := [.call env (.signed x) (.pay (.id y) 0 5000 none)]

/-- Account 2 asks account 1 for an amount. Example for non-vacuity (outside /repo). -/
def askFor (n : Nat) : List Act := [.call env (.signed 2) (.requestPayment (.id 1) 0 n)]

/-- A payment whose refund is disputed, and root's decision. Example for non-vacuity (outside /repo). -/
def decided (r : DisputeResult) : List Act :=
  [.call env (.signed 1) (.pay (.id 2) 0 5000 none), .call env (.signed 1) (.requestRefund theId),
   .call env (.signed 2) (.disputeRefund theId), .call env .root (.resolveDispute theId r)]

/-- C185 is false of the code: on Kreivo the events of two histories are the same, although the payment is from and to
different accounts; or the amount asked for is different; or root decided the dispute in favour of the one party and of the
other. -/
theorem C185_events_fails :
    (let s := run config s0 (payBetween 1 2); let s' := run config s0 (payBetween 3 4)
     s.events = s'.events ∧ s.events.length = 1 ∧ s.parties theId = some (1, 2) ∧ s'.parties theId = some (3, 4)) ∧
    (let s := run config s0 (askFor 10); let s' := run config s0 (askFor 1000000)
     s.events = s'.events ∧ s.events.length = 1 ∧ (s.payments 1 theId).map (·.amount) = some 10 ∧
       (s'.payments 1 theId).map (·.amount) = some 1000000) ∧
    (let s := run config s0 (decided ⟨100, .sender⟩); let s' := run config s0 (decided ⟨100, .beneficiary⟩)
     s.events = s'.events ∧ s.events.length = 4 ∧
       (s.ledger.bal 0 2).free < 1000000 ∧ 1000000 < (s'.ledger.bal 0 2).free) := by
  refine ⟨⟨?_, ?_, ?_, ?_⟩, ⟨?_, ?_, ?_, ?_⟩, ⟨?_, ?_, ?_, ?_⟩⟩ <;> decide +kernel

/-- A history meeting the hypotheses: the beliefs after a payment whose refund is asked for. -/
example : Along config (IdOnce config theId) s0 [.call env (.signed 1) (.pay (.id 2) 0 5000 none),
      .call env (.signed 1) (.requestRefund theId)] ∧
    told (run config s0 [.call env (.signed 1) (.pay (.id 2) 0 5000 none),
      .call env (.signed 1) (.requestRefund theId)]).events theId = some (.refundRequested 14410, some (0, 5000)) := by
  refine ⟨⟨fun _ _ _ _ _ _ _ _ _ _ => rfl, fun _ _ _ _ _ _ e hc => ?_, trivial⟩, by decide +kernel⟩
  cases e; cases hc

end Kreivo

end Verif.Payments
