import Verif.Payments.Funds

/-! # Payments: theorems about the life cycle (C08-C12, C15-C22, C24, C25) -/

namespace Verif.Payments

open Demo

/-! ## C08 -/

/-- The documented moves of a payment record's state (`none`: no record). Specification only, no code behind it (outside
/repo). -/
def Documented : Option PState → Option PState → Prop
  | none, some .created => True
  | none, some .paymentRequested => True
  | some .paymentRequested, some .created => True
  | some .paymentRequested, some .paymentRequested => True
  | some .paymentRequested, some .finished => True
  | some .created, some (.refundRequested _) => True
  | some .created, some .finished => True
  | some .created, none => True
  | some (.refundRequested _), some .needsReview => True
  | some (.refundRequested _), none => True
  | some .needsReview, some .finished => True
  | _, _ => False

/-- State stored under a key. Specification only, no code behind it (outside /repo). -/
def stateAt (s : St) (snd : Acct) (id : PId) : Option PState := (s.payments snd id).map (·.state)

/-- C08 (partial: one undocumented move exists, see `C08_undocumented_edge_fails`): every step leaves a record
as it was, or moves it along a documented edge, or is `accept_and_pay` finishing a payment whose refund was
requested. -/
theorem C08_state_machine_partial (cfg : Config) (s : St) (act : Act) (snd : Acct) (id : PId) :
    (exec cfg s act).payments snd id = s.payments snd id ∨
    Documented (stateAt s snd id) (stateAt (exec cfg s act) snd id) ∨
    (∃ cb env o, stateAt s snd id = some (.refundRequested cb) ∧
      stateAt (exec cfg s act) snd id = some .finished ∧ act = .call env o (.acceptAndPay id)) := by
  rcases exec_record_key cfg s act snd id with h | h
  · exact Or.inl h
  · unfold stateAt
    generalize s.payments snd id = old at h
    generalize (exec cfg s act).payments snd id = new at h
    cases h with
    | pay _ _ _ _ _ _ _ _ _ _ _ _ _ hf =>
      refine Or.inr (Or.inl ?_)
      cases old with
      | none => trivial
      | some q => simp only [Option.map_some, hf q rfl, newPayment]; trivial
    | request _ _ _ _ _ _ _ _ _ _ _ _ hf =>
      refine Or.inr (Or.inl ?_)
      cases old with
      | none => trivial
      | some q => simp only [Option.map_some, hf q rfl, newPayment]; trivial
    | release _ _ _ _ p _ hs => refine Or.inr (Or.inl ?_); simp only [Option.map_some, hs]; trivial
    | refund _ _ _ _ p _ hs => refine Or.inr (Or.inl ?_); simp only [Option.map_some, hs]; trivial
    | accept env o _ _ p _ =>
      cases hs : p.state with
      | created => refine Or.inr (Or.inl ?_); simp only [Option.map_some, hs]; trivial
      | needsReview => refine Or.inr (Or.inl ?_); simp only [Option.map_some, hs]; trivial
      | refundRequested cb =>
        exact Or.inr (Or.inr ⟨cb, env, o, by simp [hs], by simp, rfl⟩)
      | paymentRequested => refine Or.inr (Or.inl ?_); simp only [Option.map_some, hs]; trivial
      | finished => exact Or.inl (by rw [← hs])
    | cancel _ _ _ _ _ p _ _ hs =>
      refine Or.inr (Or.inl ?_)
      rcases hs with hs | ⟨cb, hs⟩ <;> simp only [Option.map_some, Option.map_none, hs] <;> trivial
    | fire _ _ _ _ p _ _ _ _ _ hs =>
      refine Or.inr (Or.inl ?_)
      rcases hs with hs | ⟨cb, hs⟩ <;> simp only [Option.map_some, Option.map_none, hs] <;> trivial
    | dispute _ _ _ _ _ p _ _ _ hs => refine Or.inr (Or.inl ?_); simp only [Option.map_some, hs]; trivial
    | resolve _ _ _ _ _ p _ _ _ _ hs => refine Or.inr (Or.inl ?_); simp only [Option.map_some, hs]; trivial

/-- C08: once funds are escrowed, asset, amount, beneficiary, incentive and fees of the record never change: at
every point of every later history at which the record was never removed, they are the original ones. -/
theorem C08_terms_never_change {cfg : Config} {s : St} {snd : Acct} {id : PId} {p : Payment} (acts : List Act)
    (hp : s.payments snd id = some p) (hst : p.state ≠ .paymentRequested)
    (hex : ∀ k, (run cfg s (acts.take k)).payments snd id ≠ none) :
    ∃ st, (run cfg s acts).payments snd id = some { p with state := st } := by
  obtain ⟨q, hq, h⟩ := core_along acts hp hst hex
  refine ⟨q.state, ?_⟩
  rw [hq]
  obtain ⟨h1, h2, h3, h4, h5⟩ := h
  cases p; cases q; simp_all

example : stateAt (run cfg paid [aCall 1 (.requestRefund 7), .tick, aCall 2 (.disputeRefund 7)]) 1 7 =
    some .needsReview := by decide

/-- C08 fails in general: `accept_and_pay` takes a payment from RefundRequested to Finished. -/
theorem C08_undocumented_edge_fails : Reachable cfg refunding ∧
    stateAt refunding 1 7 = some (.refundRequested 15) ∧
    stateAt (exec cfg refunding (aCall 1 (.acceptAndPay 7))) 1 7 = some .finished :=
  ⟨reachable _, by decide, by decide⟩

/-! ## C09 -/

/-- The acting party may change the record `(snd, id)`. Specification only, no code behind it (outside /repo). -/
def Entitled (cfg : Config) (s : St) (snd : Acct) (id : PId) (new : Option Payment) : Act → Prop
  | .call _ o (.pay _ _ _ _) => cfg.senderOrigin o = some snd
  | .call _ o (.release i) | .call _ o (.requestRefund i) | .call _ o (.acceptAndPay i) =>
    i = id ∧ cfg.senderOrigin o = some snd
  | .call _ o (.cancel i) | .call _ o (.disputeRefund i) =>
    i = id ∧ ∃ p, s.payments snd id = some p ∧ cfg.beneficiaryOrigin o = some p.beneficiary
  | .call _ o (.requestPayment _ _ _) => ∃ p, new = some p ∧ cfg.beneficiaryOrigin o = some p.beneficiary
  | .call _ o (.resolveDispute i _) => i = id ∧ ∃ resolver, cfg.disputeResolver o = some resolver
  | .fire _ i => i = id ∧ ∃ t p, s.agenda id = some t ∧ t.due ≤ s.now ∧ s.payments snd id = some p ∧
      cfg.beneficiaryOrigin (.signed t.who) = some p.beneficiary
  | .tick => False
  | .ext _ _ _ => False
  | .setMin _ _ => False

/-- C09: a step that changes the record of a payment was made by the party entitled to do so. -/
theorem C09_only_entitled_party {cfg : Config} {s : St} (hr : Reachable cfg s) (act : Act) (snd : Acct)
    (id : PId) (hne : (exec cfg s act).payments snd id ≠ s.payments snd id) :
    Entitled cfg s snd id ((exec cfg s act).payments snd id) act := by
  rcases exec_record_key cfg s act snd id with h | h
  · exact absurd h hne
  · generalize hn : (exec cfg s act).payments snd id = new at h
    generalize ho : s.payments snd id = old at h
    have party : ∀ b p, s.parties id = some (snd, b) → s.payments snd id = some p → b = p.beneficiary := by
      intro b p h1 h2
      obtain ⟨q, hq, hqb⟩ := hr.inv.parties _ _ _ h1
      rw [h2] at hq; cases hq; exact hqb.symm
    cases h with
    | pay _ _ _ _ _ _ _ _ _ _ h1 => exact h1
    | request _ _ _ _ _ _ _ _ _ h1 => exact ⟨_, rfl, h1⟩
    | release _ _ _ _ _ h1 => exact ⟨rfl, h1⟩
    | refund _ _ _ _ _ h1 => exact ⟨rfl, h1⟩
    | accept _ _ _ _ _ h1 => exact ⟨rfl, h1⟩
    | cancel _ _ _ _ b p h1 h2 => exact ⟨rfl, p, ho, by rw [h1, party b p h2 ho]⟩
    | fire _ _ _ b p t h1 h2 h3 h4 => exact ⟨rfl, t, p, h1, h2, ho, by rw [h3, party b p h4 ho]⟩
    | dispute _ _ _ _ b p _ h1 h2 => exact ⟨rfl, p, ho, by rw [h1, party b p h2 ho]⟩
    | resolve _ _ _ _ _ _ _ resolver h1 => exact ⟨rfl, resolver, h1⟩

example : (exec cfg refunding (aCall 2 (.cancel 7))).payments 1 7 ≠ refunding.payments 1 7 := by decide
/-- A stranger's attempts change nothing. -/
example : (exec cfg refunding (aCall 3 (.cancel 7))).payments 1 7 = refunding.payments 1 7 ∧
    (exec cfg paid (aCall 2 (.release 7))).payments 1 7 = paid.payments 1 7 := by decide

/-! ## C10 -/

/-- The payment id a call names. Specification only, no code behind it (outside /repo). -/
def Call.named : Call → Option PId
  | .release id | .requestRefund id | .acceptAndPay id | .cancel id | .disputeRefund id
  | .resolveDispute id _ => some id
  | .pay _ _ _ _ | .requestPayment _ _ _ => none

/-- C10: every step changes the record of at most one payment; every other key, same id or not, is untouched. -/
theorem C10_at_most_one_payment (cfg : Config) (s : St) (act : Act) :
    ∃ key : Acct × PId, ∀ snd id, (snd, id) ≠ key → (exec cfg s act).payments snd id = s.payments snd id := by
  rcases exec_record cfg s act with h | ⟨snd, id, new, h, _⟩
  · exact ⟨(0, 0), fun _ _ _ => by rw [h]⟩
  · exact ⟨(snd, id), fun x i hne => by rw [h, setPayment_ne _ _ _ _ _ _ hne]⟩

/-- C10: a call that names an id changes no record, party entry or scheduled task of another id. -/
theorem C10_only_named_id {cfg : Config} {env : Env} {s : St} {o : Origin} {c : Call} {i : PId}
    (hn : c.named = some i) (id : PId) (hne : id ≠ i) :
    (∀ snd, (exec cfg s (.call env o c)).payments snd id = s.payments snd id) ∧
    (exec cfg s (.call env o c)).parties id = s.parties id ∧
    (exec cfg s (.call env o c)).agenda id = s.agenda id := by
  have ne : ∀ (snd x : Acct) (v : Option Payment), setPayment s.payments snd i v x id = s.payments x id :=
    fun snd x v => setPayment_ne _ _ _ _ _ _ (by simp [hne])
  simp only [exec]
  cases h : dispatch cfg env s o c with
  | error e => exact ⟨fun _ => rfl, rfl, rfl⟩
  | ok s' =>
    simp only [settle]
    cases c with
    | pay => cases hn
    | requestPayment => cases hn
    | release j =>
      cases hn
      obtain ⟨snd, p, L, _, _, _, _, rfl⟩ := release_ok h
      exact ⟨fun x => ne snd x _, rfl, rfl⟩
    | requestRefund j =>
      cases hn
      obtain ⟨snd, p, _, _, _, _, _, _, _, rfl⟩ := requestRefund_ok h
      exact ⟨fun x => ne snd x _, rfl, by simp [setAt, hne]⟩
    | acceptAndPay j =>
      cases hn
      obtain ⟨snd, _, _, p, _, _, L, _, _, _, _, _, _, rfl⟩ := acceptAndPay_ok h
      exact ⟨fun x => ne snd x _, rfl, rfl⟩
    | cancel j =>
      cases hn
      obtain ⟨snd, b, p, L, _, _, _, _, ⟨_, rfl⟩ | ⟨_, rfl⟩⟩ := cancel_ok h
      · exact ⟨fun x => ne snd x _, by simp [setAt, hne], rfl⟩
      · exact ⟨fun x => ne snd x _, by simp [setAt, hne], rfl⟩
    | disputeRefund j =>
      cases hn
      obtain ⟨snd, b, p, cb, L, _, _, _, _, _, _, _, rfl⟩ := disputeRefund_ok h
      exact ⟨fun x => ne snd x _, rfl, by simp [setAt, hne]⟩
    | resolveDispute j r =>
      cases hn
      obtain ⟨_, snd, b, p, L, _, _, _, _, _, rfl⟩ := resolveDispute_ok h
      exact ⟨fun x => ne snd x _, rfl, rfl⟩

example : (exec cfg (run cfg s0 [aPay 7 1 2 1000, aPay 7 3 4 500]) (aCall 3 (.release 7))).payments 1 7 =
    some ⟨0, 1000, 2, 100, .created, ⟨[⟨50, 2, true⟩, ⟨50, 1, true⟩], [⟨51, 3, false⟩]⟩⟩ := by decide

/-! ## C11 -/

/-- C11 (partial: the record is final, but `accept_and_pay` can move funds again, see
`C11_paid_twice_fails`): in every history after a payment is finished its record never changes. -/
theorem C11_finished_record_final_partial {cfg : Config} {s : St} {snd : Acct} {id : PId} {p : Payment}
    (hp : s.payments snd id = some p) (hst : p.state = .finished) (acts : List Act) :
    (run cfg s acts).payments snd id = some p := by
  induction acts generalizing s with
  | nil => exact hp
  | cons act acts ih =>
    refine ih (s := exec cfg s act) ?_
    rcases exec_record_key cfg s act snd id with h | h
    · rw [h, hp]
    · rw [hp] at h
      generalize hn : (exec cfg s act).payments snd id = new at h
      cases h with
      | pay _ _ _ _ _ _ _ _ _ _ _ _ _ hf => have := hf p rfl; rw [hst] at this; cases this
      | request _ _ _ _ _ _ _ _ _ _ _ _ hf => have := hf p rfl; rw [hst] at this; cases this
      | release _ _ _ _ _ _ hs => rw [hst] at hs; cases hs
      | refund _ _ _ _ _ _ hs => rw [hst] at hs; cases hs
      | accept => rw [← hst]
      | cancel _ _ _ _ _ _ _ _ hs => rw [hst] at hs; rcases hs with hs | ⟨_, hs⟩ <;> cases hs
      | fire _ _ _ _ _ _ _ _ _ _ hs => rw [hst] at hs; rcases hs with hs | ⟨_, hs⟩ <;> cases hs
      | dispute _ _ _ _ _ _ _ _ _ hs => rw [hst] at hs; cases hs
      | resolve _ _ _ _ _ _ _ _ _ _ hs => rw [hst] at hs; cases hs

/-- C11 (partial): every call on a finished payment other than `accept_and_pay` fails. -/
theorem C11_finished_calls_fail_partial {cfg : Config} {env : Env} {s s' : St} {o : Origin} {snd b : Acct}
    {id : PId} {p : Payment} {c : Call} (hp : s.payments snd id = some p) (hst : p.state = .finished)
    (hpar : s.parties id = some (snd, b))
    (hc : (c = .release id ∧ cfg.senderOrigin o = some snd) ∨
      (c = .requestRefund id ∧ cfg.senderOrigin o = some snd) ∨
      c = .cancel id ∨ c = .disputeRefund id ∨ ∃ r, c = .resolveDispute id r) :
    dispatch cfg env s o c ≠ .ok s' := by
  intro h
  rcases hc with ⟨rfl, ho⟩ | ⟨rfl, ho⟩ | rfl | rfl | ⟨r, rfl⟩
  · obtain ⟨_, q, _, h1, hq, hs, _, _⟩ := release_ok h
    rw [ho] at h1; cases h1; rw [hp] at hq; cases hq; rw [hst] at hs; cases hs
  · obtain ⟨_, q, h1, hq, hs, _⟩ := requestRefund_ok h
    rw [ho] at h1; cases h1; rw [hp] at hq; cases hq; rw [hst] at hs; cases hs
  · obtain ⟨_, _, q, _, _, h1, hq, _, hs⟩ := cancel_ok h
    rw [hpar] at h1; cases h1; rw [hp] at hq; cases hq; rw [hst] at hs
    rcases hs with ⟨hs, _⟩ | ⟨⟨_, hs⟩, _⟩ <;> cases hs
  · obtain ⟨_, _, q, _, _, _, h1, hq, hs, _⟩ := disputeRefund_ok h
    rw [hpar] at h1; cases h1; rw [hp] at hq; cases hq; rw [hst] at hs; cases hs
  · obtain ⟨_, _, _, q, _, _, h1, hq, hs, _⟩ := resolveDispute_ok h
    rw [hpar] at h1; cases h1; rw [hp] at hq; cases hq; rw [hst] at hs; cases hs

example : stateAt released 1 7 = some .finished ∧ released.parties 7 = some (1, 2) := by decide

/-- C11 fails in general: after a payment of 1000 is released, `accept_and_pay` on it pays another 1000. -/
theorem C11_paid_twice_fails : Reachable cfg released ∧ stateAt released 1 7 = some .finished ∧
    ∃ s', dispatch cfg (env 0) released (.signed 1) (.acceptAndPay 7) = .ok s' ∧
      s'.ledger.total 0 1 = released.ledger.total 0 1 - 1003 ∧
      s'.ledger.total 0 2 = released.ledger.total 0 2 + 997 :=
  ⟨reachable _, by decide, _, rfl, by decide, by decide⟩

/-! ## C12 -/

/-- C12 (partial: the state is not checked, see `C12_accepts_any_state_fails`): `accept_and_pay` succeeds only
for a recorded payment of the caller, changes no hold of anyone and leaves that record finished. -/
theorem C12_accept_partial {cfg : Config} {env : Env} {s s' : St} {o : Origin} {id : PId}
    (h : dispatch cfg env s o (.acceptAndPay id) = .ok s') :
    ∃ snd p, cfg.senderOrigin o = some snd ∧ s.payments snd id = some p ∧
      s'.payments snd id = some { p with state := .finished } ∧
      ∀ a w, (s'.ledger.bal a w).held = (s.ledger.bal a w).held := by
  obtain ⟨snd, s0', b', p, L1, L2, L3, h1, hpar', hp, e1, e2, e3, rfl⟩ := acceptAndPay_ok h
  refine ⟨snd, p, h1, hp, setPayment_same _ _ _ _, ?_⟩
  have e := accept_eff e1 e2 e3
  intro a w
  by_cases ha : a = p.asset
  · subst ha; have := e.held w; dsimp only; omega
  · rw [(e.other a ha).1]

/-- C12 fails: `accept_and_pay` succeeds on a payment in escrow, with a refund pending, under review and
already settled. -/
theorem C12_accepts_any_state_fails :
    (∃ s', Reachable cfg paid ∧ stateAt paid 1 7 = some .created ∧
      dispatch cfg (env 0) paid (.signed 1) (.acceptAndPay 7) = .ok s') ∧
    (∃ s', Reachable cfg refunding ∧ stateAt refunding 1 7 = some (.refundRequested 15) ∧
      dispatch cfg (env 0) refunding (.signed 1) (.acceptAndPay 7) = .ok s') ∧
    (∃ s', Reachable cfg disputed ∧ stateAt disputed 1 7 = some .needsReview ∧
      dispatch cfg (env 0) disputed (.signed 1) (.acceptAndPay 7) = .ok s') ∧
    (∃ s', Reachable cfg released ∧ stateAt released 1 7 = some .finished ∧
      dispatch cfg (env 0) released (.signed 1) (.acceptAndPay 7) = .ok s') :=
  ⟨⟨_, reachable _, by decide, rfl⟩, ⟨_, reachable _, by decide, rfl⟩, ⟨_, reachable _, by decide, rfl⟩,
    ⟨_, reachable _, by decide, rfl⟩⟩

/-! ## C15, C16 -/

/-- C15: a successful `request_refund` sets the deadline to now plus the buffer, announces it, and schedules
one cancellation in the beneficiary's name for exactly that block; no balance changes. -/
theorem C15_refund_deadline {cfg : Config} {env : Env} {s s' : St} {o : Origin} {id : PId}
    (h : dispatch cfg env s o (.requestRefund id) = .ok s') :
    ∃ snd p, cfg.senderOrigin o = some snd ∧ s.payments snd id = some p ∧ p.state = .created ∧
      s'.payments snd id = some { p with state := .refundRequested (s.now + cfg.cancelBuffer) } ∧
      s.agenda id = none ∧ s'.agenda id = some ⟨s.now + cfg.cancelBuffer, p.beneficiary⟩ ∧
      s'.events = s.events ++ [.paymentCreatorRequestedRefund id (s.now + cfg.cancelBuffer)] ∧
      s.now < s.now + cfg.cancelBuffer ∧ s'.ledger = s.ledger ∧ s'.now = s.now := by
  obtain ⟨snd, p, h1, hp, hst, hb, hn, hpos, _, rfl⟩ := requestRefund_ok h
  exact ⟨snd, p, h1, hp, hst, setPayment_same _ _ _ _, hn, by simp [setAt], rfl,
    Nat.lt_add_of_pos_right hpos, rfl, rfl⟩

/-- C15: if the deadline overflows the block number type the call fails and changes nothing. -/
theorem C15_overflow_fails_cleanly {cfg : Config} {env : Env} {s : St} {o : Origin} {id : PId}
    (h : cfg.blockMax < s.now + cfg.cancelBuffer) :
    (∃ e, dispatch cfg env s o (.requestRefund id) = .error e) ∧
    exec cfg s (.call env o (.requestRefund id)) = s := by
  cases hd : dispatch cfg env s o (.requestRefund id) with
  | error e => exact ⟨⟨e, rfl⟩, by simp [exec, hd, settle]⟩
  | ok s' =>
    obtain ⟨_, _, _, _, _, hb, _⟩ := requestRefund_ok hd
    exact absurd hb (Nat.not_le.2 h)

example : ∃ s', dispatch cfg (env 0) paid (.signed 1) (.requestRefund 7) = .ok s' ∧
    s'.agenda 7 = some ⟨15, 2⟩ := ⟨_, rfl, by decide⟩
example : dispatch cfg (env 0) { paid with now := 996 } (.signed 1) (.requestRefund 7) = .error .mathError := rfl

/-- C16: a successful `dispute_refund` happens strictly before the deadline, by the beneficiary of record; it
moves the payment to review, holds exactly the incentive on the beneficiary and removes the scheduled
cancellation. -/
theorem C16_dispute_before_deadline {cfg : Config} {env : Env} {s s' : St} {o : Origin} {id : PId}
    (hr : Reachable cfg s) (h : dispatch cfg env s o (.disputeRefund id) = .ok s') :
    ∃ snd p cb, s.payments snd id = some p ∧ cfg.beneficiaryOrigin o = some p.beneficiary ∧
      p.state = .refundRequested cb ∧ s.now < cb ∧
      s'.payments snd id = some { p with state := .needsReview } ∧ s'.agenda id = none ∧
      Exactly s.ledger s'.ledger p.asset [] (onAcct p.beneficiary p.incentive) := by
  obtain ⟨snd, b, p, cb, L, h1, hpar, hp, hst, hn, hh, _, rfl⟩ := disputeRefund_ok h
  obtain ⟨q, hq, hqb⟩ := hr.inv.parties _ _ _ hpar
  rw [hp] at hq; cases hq
  obtain ⟨e, d⟩ := hold_eff hh
  exact ⟨snd, p, cb, hp, by rw [h1, hqb], hst, hn, setPayment_same _ _ _ _, by simp [setAt],
    by rw [hqb]; exact e.exactly d⟩

/-- C16: from the deadline on, `dispute_refund` fails. -/
theorem C16_no_dispute_after_deadline {cfg : Config} {env : Env} {s s' : St} {o : Origin} {id : PId}
    {snd b : Acct} {p : Payment} {cb : Block} (hpar : s.parties id = some (snd, b))
    (hp : s.payments snd id = some p) (hst : p.state = .refundRequested cb) (hn : cb ≤ s.now) :
    dispatch cfg env s o (.disputeRefund id) ≠ .ok s' := by
  intro h
  obtain ⟨_, _, q, cb', _, _, hpar', hq, hst', hn', _⟩ := disputeRefund_ok h
  rw [hpar] at hpar'; cases hpar'
  rw [hp] at hq; cases hq
  rw [hst] at hst'; cases hst'
  exact absurd hn' (Nat.not_lt.2 hn)

/-- C16: strictly before the deadline the beneficiary of record can dispute whenever the ledger accepts the
hold of the incentive: the scheduled cancellation it must remove is always still there. -/
theorem C16_can_dispute {cfg : Config} {env : Env} {s : St} {o : Origin} {id : PId} {snd b : Acct}
    {p : Payment} {cb : Block} {L : Ledger} (hr : Reachable cfg s) (hpar : s.parties id = some (snd, b))
    (hp : s.payments snd id = some p) (hst : p.state = .refundRequested cb) (hn : s.now < cb)
    (ho : cfg.beneficiaryOrigin o = some b)
    (hh : s.ledger.hold env.ledger p.asset b p.incentive = some L) :
    ∃ s', dispatch cfg env s o (.disputeRefund id) = .ok s' := by
  have hag : s.agenda id = some ⟨cb, b⟩ := by
    rcases hr.agInv.live _ _ _ _ _ hpar hp hst with h | h
    · exact h
    · exact absurd h (Nat.not_le.2 hn)
  simp only [dispatch, disputeRefund, ho, hpar, hp, hst, hh, hag, hn, if_true, Option.isSome]
  exact ⟨_, rfl⟩

example : ∃ L, refunding.ledger.hold (env 0).ledger 0 2 100 = some L := ⟨_, rfl⟩
example : stateAt (exec cfg (run cfg refunding (List.replicate 4 .tick)) (aCall 2 (.disputeRefund 7))) 1 7 =
    some .needsReview ∧
  stateAt (exec cfg (run cfg refunding (List.replicate 5 .tick)) (aCall 2 (.disputeRefund 7))) 1 7 =
    some (.refundRequested 15) := by decide

/-! ## C17, C18, C19 -/

/-- The action can end a review of payment id `id`. Specification only, no code behind it (outside /repo). -/
def EndsReview (id : PId) : Act → Prop
  | .call _ _ (.resolveDispute i _) | .call _ _ (.acceptAndPay i) => i = id
  | _ => False

/-- C17: a payment under review stays exactly as it is in every later history without `resolve_dispute` or
`accept_and_pay` on its id; in particular no scheduled or manual cancellation can touch it. -/
theorem C17_review_only_ends_by_resolution {cfg : Config} {snd : Acct} {id : PId} {p : Payment}
    (acts : List Act) : ∀ {s : St}, s.payments snd id = some p → p.state = .needsReview →
    (∀ act ∈ acts, ¬ EndsReview id act) → (run cfg s acts).payments snd id = some p := by
  induction acts with
  | nil => intro s hp _ _; exact hp
  | cons act acts ih =>
    intro s hp hst hno
    refine ih (s := exec cfg s act) ?_ hst (fun a ha => hno a (List.mem_cons_of_mem _ ha))
    have h0 := hno act (by simp)
    rcases exec_record_key cfg s act snd id with h | h
    · rw [h, hp]
    · rw [hp] at h
      generalize hn : (exec cfg s act).payments snd id = new at h
      cases h with
      | pay _ _ _ _ _ _ _ _ _ _ _ _ _ hf => have := hf p rfl; rw [hst] at this; cases this
      | request _ _ _ _ _ _ _ _ _ _ _ _ hf => have := hf p rfl; rw [hst] at this; cases this
      | release _ _ _ _ _ _ hs => rw [hst] at hs; cases hs
      | refund _ _ _ _ _ _ hs => rw [hst] at hs; cases hs
      | accept => exact absurd rfl h0
      | cancel _ _ _ _ _ _ _ _ hs => rw [hst] at hs; rcases hs with hs | ⟨_, hs⟩ <;> cases hs
      | fire _ _ _ _ _ _ _ _ _ _ hs => rw [hst] at hs; rcases hs with hs | ⟨_, hs⟩ <;> cases hs
      | dispute _ _ _ _ _ _ _ _ _ hs => rw [hst] at hs; cases hs
      | resolve => exact absurd rfl h0

/-- C17: right after a successful dispute no scheduled cancellation exists for the id. -/
theorem C17_dispute_removes_task {cfg : Config} {env : Env} {s s' : St} {o : Origin} {id : PId}
    (h : dispatch cfg env s o (.disputeRefund id) = .ok s') : (s.agenda id).isSome ∧ s'.agenda id = none := by
  obtain ⟨snd, b, p, cb, L, _, _, _, _, _, _, ha, rfl⟩ := disputeRefund_ok h
  exact ⟨ha, by simp [setAt]⟩

example : stateAt (run cfg disputed [.tick, .tick, .tick, .tick, .tick, aFire 7, aCall 2 (.cancel 7)]) 1 7 =
    some .needsReview := by decide

/-- C18: in every reachable state, a payment whose refund deadline has not come is not touched by the
scheduler. -/
theorem C18_no_early_refund {cfg : Config} {s : St} (hr : Reachable cfg s) {snd : Acct} {id i : PId}
    {p : Payment} {d : Block} {env : Env} (hp : s.payments snd id = some p)
    (hst : p.state = .refundRequested d) (hn : s.now < d) :
    (exec cfg s (.fire env i)).payments snd id = some p := by
  rcases exec_record_key cfg s (.fire env i) snd id with h | h
  · rw [h, hp]
  · generalize hnew : (exec cfg s (.fire env i)).payments snd id = new at h
    generalize hold : s.payments snd id = old at h
    cases h with
    | fire _ _ _ b q t ht hdue =>
      have := hr.agInv.due _ _ _ _ _ hp hst ht
      exact absurd (lt_of_lt_of_le hn (this.trans hdue)) (lt_irrefl _)

example : stateAt (run cfg refunding [.tick, .tick, .tick, .tick, aFire 7]) 1 7 = some (.refundRequested 15) ∧
    stateAt (run cfg refunding [.tick, .tick, .tick, .tick, .tick, aFire 7]) 1 7 = none := by decide

/-- C19: before the deadline of a pending refund its cancellation is always scheduled, for exactly the deadline
and in the beneficiary's name. -/
theorem C19_cancellation_is_scheduled {cfg : Config} {s : St} (hr : Reachable cfg s) {snd b : Acct} {id : PId}
    {p : Payment} {d : Block} (hpar : s.parties id = some (snd, b)) (hp : s.payments snd id = some p)
    (hst : p.state = .refundRequested d) (hn : s.now < d) : s.agenda id = some ⟨d, b⟩ := by
  rcases hr.agInv.live _ _ _ _ _ hpar hp hst with h | h
  · exact h
  · exact absurd h (Nat.not_le.2 hn)

/-- C19: when the scheduler runs that cancellation at or after the deadline, and the ledger refuses nothing, it
succeeds: the record is gone, the sender has the amount and the fees and incentive back, nothing stays held. -/
theorem C19_refund_completes {cfg : Config} {s : St} (hr : Reachable cfg s) {snd b : Acct} {id : PId}
    {p : Payment} {d : Block} {env : Env} (hpar : s.parties id = some (snd, b))
    (hp : s.payments snd id = some p) (hst : p.state = .refundRequested d) (hag : s.agenda id = some ⟨d, b⟩)
    (hn : d ≤ s.now) (he : Accepting env.ledger) (ho : cfg.beneficiaryOrigin (.signed b) = some b) :
    let s' := exec cfg s (.fire env id)
    s'.payments snd id = none ∧ s'.parties id = none ∧ s'.agenda id = none ∧
    (NoDust s.ledger s'.ledger p.asset → Exactly s.ledger s'.ledger p.asset [⟨b, snd, p.amount⟩]
      (fun w => - onAcct snd (senderEscrow p) w - onAcct b p.amount w)) := by
  obtain ⟨q, hq, hqb⟩ := hr.inv.parties _ _ _ hpar
  rw [hp] at hq; cases hq
  have hheld : ∀ w, onAcct snd (senderEscrow p) w + onAcct p.beneficiary p.amount w ≤
      (s.ledger.bal p.asset w).held := by
    intro w
    have h1 := hr.inv.backed p.asset w {(snd, id)}
    rw [Finset.sum_singleton, escrowAt_eq] at h1
    simp only [hp, escO] at h1
    rw [← escrow_refund hst]; exact_mod_cast h1
  obtain ⟨L, hL⟩ := cancelPayment_succeeds he hheld
  have hex : exec cfg s (.fire env id) = { s with
      agenda := setAt s.agenda id none, ledger := L, payments := setPayment s.payments snd id none
      parties := setAt s.parties id none, events := s.events ++ [.paymentRefunded id] } := by
    simp only [exec, hag, hn, if_true, cancel, ho, hpar, hp, hst, hL, settle]
    rfl
  simp only [hex]
  refine ⟨setPayment_same _ _ _ _, by simp [setAt], by simp [setAt], ?_⟩
  intro hd
  refine ((cancelPayment_eff hL).congr ?_ ?_).exactly hd
  · intro w; rw [hqb]
  · intro w; simp only [onAcct_neg, hqb]; omega

theorem run_ticks (cfg : Config) (s : St) (k : Nat) :
    run cfg s (List.replicate k .tick) = { s with now := s.now + k } := by
  induction k generalizing s with
  | zero => rfl
  | succ k ih =>
    rw [List.replicate_succ]
    change run cfg { s with now := s.now + 1 } _ = _
    rw [ih]
    simp only [Nat.add_assoc, Nat.add_comm 1 k]

/-- C19 end to end: from any reachable state before the deadline, if nothing but blocks pass until the deadline
and the scheduler then runs, the refund happens. -/
theorem C19_undisputed_refund_happens {cfg : Config} {s : St} (hr : Reachable cfg s) {snd b : Acct} {id : PId}
    {p : Payment} {d : Block} {env : Env} (hpar : s.parties id = some (snd, b))
    (hp : s.payments snd id = some p) (hst : p.state = .refundRequested d) (hn : s.now < d)
    (he : Accepting env.ledger) (ho : cfg.beneficiaryOrigin (.signed b) = some b) :
    (run cfg s (List.replicate (d - s.now) .tick ++ [.fire env id])).payments snd id = none := by
  have hag := C19_cancellation_is_scheduled hr hpar hp hst hn
  have hrt := reach_run hr (List.replicate (d - s.now) .tick)
  have hrun : run cfg s (List.replicate (d - s.now) .tick ++ [.fire env id]) =
      exec cfg (run cfg s (List.replicate (d - s.now) .tick)) (.fire env id) := by
    simp only [run, List.foldl_append, List.foldl_cons, List.foldl_nil]
  rw [hrun]
  rw [run_ticks] at hrt ⊢
  exact (C19_refund_completes hrt (s := { s with now := s.now + (d - s.now) }) hpar hp hst hag
    (show d ≤ s.now + (d - s.now) from le_add_tsub) he ho).1

example : refunding.parties 7 = some (1, 2) ∧ refunding.agenda 7 = some ⟨15, 2⟩ ∧
    cfg.beneficiaryOrigin (.signed 2) = some 2 := by decide
example : Accepting (env 0).ledger := fun _ _ => rfl

/-! ## C20 -/

/-- C20: in every reachable state the sender of a created payment can release it if the ledger refuses nothing
and each party can pay its fees and keep the asset minimum, counting what the release gives back. -/
theorem C20_release_possible {cfg : Config} {s : St} (hr : Reachable cfg s) {snd : Acct} {id : PId}
    {p : Payment} {env : Env} {o : Origin} (ho : cfg.senderOrigin o = some snd)
    (hp : s.payments snd id = some p) (hst : p.state = .created) (he : Accepting env.ledger)
    (hs : feeTotal p.fees.senderPays + s.ledger.minBal p.asset ≤
      (s.ledger.bal p.asset snd).free + senderEscrow p)
    (hb : feeTotal p.fees.beneficiaryPays + s.ledger.minBal p.asset +
        (if p.beneficiary = snd then feeTotal p.fees.senderPays else 0) ≤
      (s.ledger.bal p.asset p.beneficiary).free + p.amount +
        (if p.beneficiary = snd then senderEscrow p else 0)) :
    ∃ s', dispatch cfg env s o (.release id) = .ok s' := by
  have hheld : ∀ w, onAcct snd (senderEscrow p) w + onAcct p.beneficiary p.amount w ≤
      (s.ledger.bal p.asset w).held := by
    intro w
    have h1 := hr.inv.backed p.asset w {(snd, id)}
    rw [Finset.sum_singleton, escrowAt_eq] at h1
    simp only [hp, escO] at h1
    rw [← escrow_created hst]; exact_mod_cast h1
  have hhs := hheld snd
  have hhb := hheld p.beneficiary
  simp only [onAcct, if_true] at hhs hhb
  obtain ⟨L1, h1⟩ := release_succeeds (env := env.ledger) (L := s.ledger) (a := p.asset) (who := snd)
    (amt := senderEscrow p) he (by split_ifs at hhs <;> omega)
  obtain ⟨_, r1⟩ := release_some h1
  have e1 := (release_eff h1).1
  have e1h := e1.held p.beneficiary
  obtain ⟨L2, h2⟩ := release_succeeds (env := env.ledger) (L := L1) (a := p.asset) (who := p.beneficiary)
    (amt := p.amount) he (by simp only [onAcct] at e1h; split_ifs at e1h hhb <;> omega)
  obtain ⟨_, r2⟩ := release_some h2
  have hf1 : ∀ w, (L1.bal p.asset w).free = (s.ledger.bal p.asset w).free + (if w = snd then senderEscrow p else 0) := by
    intro w; rw [r1]; simp only [setBal_bal]; by_cases hw : w = snd
    · subst hw; simp
    · simp [hw]
  have hf2 : ∀ w, (L2.bal p.asset w).free = (L1.bal p.asset w).free + (if w = p.beneficiary then p.amount else 0) := by
    intro w; rw [r2]; simp only [setBal_bal]; by_cases hw : w = p.beneficiary
    · subst hw; simp
    · simp [hw]
  have hm : L2.minBal = s.ledger.minBal := by rw [(release_eff h2).1.minBal, e1.minBal]
  obtain ⟨L3, h3, h3f⟩ := tryTransferFees_succeeds (d := false) (fs := agg p.fees.senderPays) (a := p.asset)
    (acct := snd) (L := L2) he (by
      have := agg_total_le p.fees.senderPays
      have g1 := hf1 snd
      have g2 := hf2 snd
      rw [hm]; simp only [if_true] at g1; omega)
  have hm3 : L3.minBal = s.ledger.minBal := by rw [(tryTransferFees_eff h3).1.minBal, hm]
  obtain ⟨L4, h4, _⟩ := tryTransferFees_succeeds (d := false) (fs := agg p.fees.beneficiaryPays) (a := p.asset)
    (acct := p.beneficiary) (L := L3) he (by
      have a1 := agg_total_le p.fees.senderPays
      have a2 := agg_total_le p.fees.beneficiaryPays
      have g1 := hf1 p.beneficiary
      have g2 := hf2 p.beneficiary
      have g3 := h3f p.beneficiary
      rw [hm3]; simp only [if_true] at g2
      split_ifs at g1 g3 hb <;> omega)
  have hset : settleLedger env.ledger s.ledger snd p.beneficiary p none = .ok L4 := by
    unfold settleLedger
    simp only [bind_ok, orErr_ok, holdTotal_eq, summary_recipients]
    exact ⟨L1, h1, L2, by simpa using h2, L3, h3, L4, h4, rfl⟩
  simp only [dispatch, release, ho, hp, hst, if_true, settlePayment, hset]
  exact ⟨_, rfl⟩

example : feeTotal [⟨50, 2, true⟩, ⟨50, 1, true⟩] + paid.ledger.minBal 0 ≤ (paid.ledger.bal 0 1).free + 103 := by
  decide

/-! ## C21, C22 -/

/-- C21: in every reachable state the parties recorded for an id are those of an existing payment record. -/
theorem C21_parties_agree {cfg : Config} {s : St} (hr : Reachable cfg s) {id : PId} {snd b : Acct}
    (h : s.parties id = some (snd, b)) : ∃ p, s.payments snd id = some p ∧ p.beneficiary = b :=
  hr.inv.parties _ _ _ h

example : disputed.parties 7 = some (1, 2) := by decide

/-- C22 (partial: for histories in which no payment is created under an id in use by another sender): every
payment is found through its id. -/
theorem C22_found_by_id_partial {cfg : Config} {s : St} (hr : Reach cfg (FreshIds cfg) s) {snd : Acct}
    {id : PId} {p : Payment} (hp : s.payments snd id = some p) : s.parties id = some (snd, p.beneficiary) :=
  hr.found (fun _ _ h => h) snd id p hp

example : Reach cfg (FreshIds cfg) paid :=
  .step (s := s0) (aPay 7 1 2 1000) (.init s0_initial) (fun _ _ _ _ _ _ _ _ _ _ _ => rfl)

/-- C22 fails in general: when a second payment gets the same id, the first one's beneficiary can no longer
cancel it, although its 1000 are still held on them. -/
theorem C22_orphaned_fails :
    let s := run cfg s0 [aPay 7 1 2 1000, aPay 7 3 4 500]
    Reachable cfg s ∧ stateAt s 1 7 = some .created ∧ s.parties 7 = some (3, 4) ∧
    (∀ env, dispatch cfg env s (.signed 2) (.cancel 7) = .error .invalidBeneficiary) ∧
    (s.ledger.bal 0 2).held = 1000 :=
  ⟨reachable _, by decide, by decide, fun _ => rfl, by decide⟩

/-! ## C24, C25 -/

/-- C24 (partial: for histories with no id collision between senders, no `accept_and_pay` on escrowed payments
and no manual cancellation while a refund is pending): whatever record the scheduler changes is a pending
refund with exactly the deadline of the executed task, in whose beneficiary's name the task was made. -/
theorem C24_task_matches_refund_partial {cfg : Config} {s : St}
    (hr : Reach cfg (fun s a => FreshIds cfg s a ∧ AcceptsNoOpen cfg s a ∧ NoManualCancelOfRefund s a) s)
    {env : Env} {i id : PId} {snd : Acct}
    (hne : (exec cfg s (.fire env i)).payments snd id ≠ s.payments snd id) :
    i = id ∧ ∃ t p, s.agenda id = some t ∧ s.payments snd id = some p ∧ p.state = .refundRequested t.due ∧
      p.beneficiary = t.who := by
  rcases exec_record_key cfg s (.fire env i) snd id with h | h
  · exact absurd h hne
  · generalize hnew : (exec cfg s (.fire env i)).payments snd id = new at h
    generalize hold : s.payments snd id = old at h
    cases h with
    | fire _ _ _ b q t ht hdue ho hpar hst =>
      obtain ⟨x, p, h1, h2, h3⟩ := hr.tasks _ t ht
      have hf := hr.found (fun _ _ h => h.1) _ _ _ h2
      rw [h1] at hf
      rw [hpar] at h1
      simp only [Option.some.injEq, Prod.mk.injEq] at h1 hf
      obtain ⟨rfl, rfl⟩ := h1
      rw [hold] at h2; cases h2
      exact ⟨rfl, t, q, ht, rfl, h3, hf.2.symm⟩

/-- C24 fails in general: payment 7 is refunded early by its beneficiary, which leaves the task scheduled; a
new payment gets id 7; at the old deadline the scheduler cancels the new payment, for which nobody requested a
refund. -/
theorem C24_stale_task_fails :
    let s := run cfg s0 [aPay 7 1 2 1000, aCall 1 (.requestRefund 7), aCall 2 (.cancel 7), aPay 7 1 2 500,
      .tick, .tick, .tick, .tick, .tick]
    Reachable cfg s ∧ stateAt s 1 7 = some .created ∧ stateAt (exec cfg s (aFire 7)) 1 7 = none :=
  ⟨reachable _, by decide, by decide⟩

/-- C25: a creating call fails with `PaymentAlreadyInProcess`, changing nothing, if the sender already has a
payment with that id that is not a mere request. -/
theorem C25_no_overwrite {cfg : Config} {env : Env} {s : St} {o : Origin} {c : Call} {snd b : Acct} {id : PId}
    {p : Payment} (hc : creates cfg o c = some (snd, b)) (hid : env.nextId snd b = some id)
    (hp : s.payments snd id = some p) (hst : p.state ≠ .paymentRequested) :
    dispatch cfg env s o c = .error .paymentAlreadyInProcess ∧ exec cfg s (.call env o c) = s := by
  have key : dispatch cfg env s o c = .error .paymentAlreadyInProcess := by
    cases c with
    | pay bA a n r =>
      simp only [creates] at hc
      cases h1 : cfg.senderOrigin o with
      | none => simp [h1] at hc
      | some x =>
        cases h2 : cfg.lookup bA with
        | none => simp [h1, h2] at hc
        | some y =>
          simp only [h1, h2, Option.some.injEq, Prod.mk.injEq] at hc
          obtain ⟨rfl, rfl⟩ := hc
          simp [dispatch, pay, h1, h2, createPayment, hid, hp, hst, bind, Except.bind]
    | requestPayment sA a n =>
      simp only [creates] at hc
      cases h1 : cfg.lookup sA with
      | none => simp [h1] at hc
      | some x =>
        cases h2 : cfg.beneficiaryOrigin o with
        | none => simp [h1, h2] at hc
        | some y =>
          simp only [h1, h2, Option.some.injEq, Prod.mk.injEq] at hc
          obtain ⟨rfl, rfl⟩ := hc
          simp [dispatch, requestPayment, h1, h2, createPayment, hid, hp, hst, bind, Except.bind]
    | _ => simp [creates] at hc
  exact ⟨key, by simp [exec, key, settle]⟩

example : creates cfg (.signed 1) (.pay (.id 2) 0 5 none) = some (1, 2) ∧ (env 7).nextId 1 2 = some 7 ∧
    stateAt paid 1 7 = some .created := by decide

end Verif.Payments
