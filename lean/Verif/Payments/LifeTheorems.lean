import Verif.Payments.EventTheorems
import Verif.Payments.Stranded

/-!
# Payments: what a payment moves over its whole life (C191)

C03 to C06 say what each call on its own moves. Here the calls about one payment are added up, from the `pay` that makes it
to the step that ends it, whatever else happens in between (other payments, other transfers, new blocks). The sum depends
only on how the payment ends.
-/

namespace Verif.Payments

open Demo

/-! ## Specification -/

/-- The action is about the payment id: a call that names it, or the scheduler running its task. Specification only, no
code behind it (outside /repo). -/
def about (id : PId) : Act → Bool
  | .call _ _ c => c.named == some id
  | .fire _ i => i == id
  | .tick | .ext _ _ _ | .setMin _ _ => false

/-- How much the actions about a payment id, in a history from `s`, changed a quantity of the ledger altogether.
Specification only, no code behind it (outside /repo). -/
def changedBy (cfg : Config) (id : PId) (f : Ledger → Int) : St → List Act → Int
  | _, [] => 0
  | s, act :: acts =>
    (if about id act then f (exec cfg s act).ledger - f s.ledger else 0) + changedBy cfg id f (exec cfg s act) acts

/-- How a payment may end. Specification only, no code behind it (outside /repo). -/
inductive Outcome
  /-- Cancelled by the beneficiary, or refunded when nobody disputed. -/
  | returned
  /-- Released by the sender. -/
  | released
  /-- Decided by a resolver. -/
  | resolved (r : DisputeResult) (resolver : Acct)
  /-- Paid a second time by `accept_and_pay` while its funds were in escrow, in state `st`. -/
  | again (st : PState)

/-- What the whole life of a payment moves, by how it ends. Specification only, no code behind it (outside /repo). -/
def Outcome.moves (snd : Acct) (p : Payment) : Outcome → List Move
  | .returned => []
  | .released => ⟨snd, p.beneficiary, p.amount⟩ ::
      (feeMoves snd p.fees.senderPays ++ feeMoves p.beneficiary p.fees.beneficiaryPays)
  | .resolved r resolver => ⟨snd, p.beneficiary, p.amount⟩ ::
      (feeMoves snd (chargedOnDispute p.fees.senderPays) ++ feeMoves p.beneficiary (chargedOnDispute p.fees.beneficiaryPays)
        ++ resolutionMoves snd p.beneficiary resolver p r)
  | .again _ => ⟨snd, p.beneficiary, p.amount⟩ :: ⟨snd, p.beneficiary, p.amount⟩ ::
      (feeMoves snd p.fees.senderPays ++ feeMoves p.beneficiary p.fees.beneficiaryPays)

/-- What stays held when a payment ends. Specification only, no code behind it (outside /repo). -/
def Outcome.left (snd : Acct) (p : Payment) (w : Acct) : Outcome → Int
  | .again st => escrow snd { p with state := st } p.asset w
  | .returned | .released | .resolved _ _ => 0

/-- Which actions lead to which end. Specification only, no code behind it (outside /repo). -/
inductive EndsIn (cfg : Config) (snd b : Acct) (id : PId) : Act → Outcome → Prop
  | cancel (env : Env) (o : Origin) : cfg.beneficiaryOrigin o = some b → EndsIn cfg snd b id (.call env o (.cancel id)) .returned
  | refund (env : Env) : EndsIn cfg snd b id (.fire env id) .returned
  | release (env : Env) (o : Origin) : cfg.senderOrigin o = some snd → EndsIn cfg snd b id (.call env o (.release id)) .released
  | resolve (env : Env) (o : Origin) (r : DisputeResult) (resolver : Acct) : cfg.disputeResolver o = some resolver →
      EndsIn cfg snd b id (.call env o (.resolveDispute id r)) (.resolved r resolver)
  | again (env : Env) (o : Origin) (st : PState) : cfg.senderOrigin o = some snd →
      EndsIn cfg snd b id (.call env o (.acceptAndPay id)) (.again st)

/-! ## Helper lemmas -/

theorem SameCore.rfl' (p : Payment) : SameCore p p := ⟨rfl, rfl, rfl, rfl, rfl⟩

theorem SameCore.eq {p q : Payment} (h : SameCore p q) : q = { p with state := q.state } := by
  obtain ⟨h1, h2, h3, h4, h5⟩ := h
  cases p; cases q; simp_all

/-- One step of an open payment that goes on. Specification only, no code behind it (outside /repo). -/
def Stays (cfg : Config) (s : St) (act : Act) (snd : Acct) (id : PId) (p : Payment) : Prop :=
  ∃ q, (exec cfg s act).payments snd id = some q ∧ q.state.isOpen = true ∧ SameCore p q ∧
    (about id act = false → q = p) ∧
    (about id act = true → ∀ a w, (exec cfg s act).ledger.total a w = s.ledger.total a w ∧
      (((exec cfg s act).ledger.bal a w).held : Int) = (s.ledger.bal a w).held + (escrow snd q a w - escrow snd p a w))

/-- One step that ends an open payment. Specification only, no code behind it (outside /repo). -/
def Stops (cfg : Config) (s : St) (act : Act) (snd : Acct) (id : PId) (p : Payment) : Prop :=
  about id act = true ∧ (∀ q, (exec cfg s act).payments snd id = some q → q.state.isOpen = false) ∧
    ∃ out, EndsIn cfg snd p.beneficiary id act out ∧ (∀ st, out = .again st → st = p.state) ∧
      (∀ a, a ≠ p.asset → (exec cfg s act).ledger.bal a = s.ledger.bal a) ∧
      (∀ w, (((exec cfg s act).ledger.bal p.asset w).held : Int) =
        (s.ledger.bal p.asset w).held + (out.left snd p w - escrow snd p p.asset w)) ∧
      (FeesFit p → NoDust s.ledger (exec cfg s act).ledger p.asset → ∀ w,
        (exec cfg s act).ledger.total p.asset w + net [⟨snd, p.beneficiary, p.amount⟩] w =
          s.ledger.total p.asset w + net (out.moves snd p) w)

theorem stays_same {cfg : Config} {s : St} {act : Act} {snd : Acct} {id : PId} {p : Payment}
    (hp : (exec cfg s act).payments snd id = some p) (ho : p.state.isOpen = true)
    (hl : about id act = true → (exec cfg s act).ledger = s.ledger) : Stays cfg s act snd id p :=
  ⟨p, hp, ho, .rfl' p, fun _ => rfl, fun h a w => by rw [hl h]; exact ⟨rfl, by omega⟩⟩

theorem stops_cancel {cfg : Config} {env : Env} {s s1 s' : St} {o : Origin} {act : Act} {snd : Acct} {id : PId} {p : Payment}
    (hf : FoundId id s1) (h : cancel cfg env s1 o id = .ok s') (he : exec cfg s act = s') (hl : s1.ledger = s.ledger)
    (hp : s1.payments snd id = some p) (hab : about id act = true)
    (hen : cfg.beneficiaryOrigin o = some p.beneficiary → EndsIn cfg snd p.beneficiary id act .returned) :
    Stops cfg s act snd id p := by
  obtain ⟨snd', b', p', L, h1, hpar', hp', hc, hs⟩ := cancel_ok h
  rw [hf _ _ hp] at hpar'; cases hpar'
  rw [hp] at hp'; cases hp'
  have hst : p.state = .created ∨ ∃ cb, p.state = .refundRequested cb := by tauto
  have hl' : s'.ledger = L := by rcases hs with ⟨_, rfl⟩ | ⟨_, rfl⟩ <;> rfl
  have hn : s'.payments snd id = none := by rcases hs with ⟨_, rfl⟩ | ⟨_, rfl⟩ <;> exact setPayment_same _ _ _ _
  have e := cancelPayment_eff hc
  rw [hl] at e
  refine ⟨hab, ?_, .returned, hen h1, fun _ h => (nomatch h), ?_, ?_, ?_⟩
  · rw [he, hn]; intro q hq; cases hq
  · intro a ha; rw [he, hl']; exact (e.other a ha).1
  · intro w; rw [he, hl', e.held w, cancel_escrow hst w]; simp only [Outcome.left, onAcct_neg]; omega
  · intro _ hd w
    rw [he, hl'] at hd ⊢
    rw [e.total hd w]
    simp only [net_cons, net_nil, mvAt, Outcome.moves]; omega

/-- An open payment either goes on or stops, in every step. -/
theorem life_step {cfg : Config} {s : St} (hi : Inv s) (act : Act) {snd : Acct} {id : PId} {p : Payment} (hf : FoundId id s)
    (hp : s.payments snd id = some p) (ho : p.state.isOpen = true) :
    Stays cfg s act snd id p ∨ Stops cfg s act snd id p := by
  cases act with
  | tick => exact .inl (stays_same hp ho fun h => by cases h)
  | ext a w f => exact .inl (stays_same hp ho fun h => by cases h)
  | setMin a m => exact .inl (stays_same hp ho fun h => by cases h)
  | fire env i =>
    by_cases hid : i = id
    · subst hid
      cases ht : s.agenda i with
      | none => exact .inl (stays_same (by simp [exec, ht, hp]) ho fun _ => by simp [exec, ht])
      | some t =>
        by_cases hdue : t.due ≤ s.now
        · cases h : cancel cfg env { s with agenda := setAt s.agenda i none } (.signed t.who) i with
          | error e =>
            exact .inl (stays_same (by simp [exec, ht, hdue, h, settle, hp]) ho fun _ => by simp [exec, ht, hdue, h, settle])
          | ok s' =>
            exact .inr (stops_cancel (s1 := { s with agenda := setAt s.agenda i none }) hf h
              (by simp [exec, ht, hdue, h, settle]) rfl hp (by simp [about]) fun _ => .refund env)
        · exact .inl (stays_same (by simp [exec, ht, hdue, hp]) ho fun _ => by simp [exec, ht, hdue])
    · refine .inl (stays_same ?_ ho fun h => by simp [about, hid] at h)
      simp only [exec]
      cases ht : s.agenda i with
      | none => exact hp
      | some t =>
        simp only
        split_ifs
        · have := (C10_only_named_id (cfg := cfg) (env := env) (s := { s with agenda := setAt s.agenda i none })
            (o := .signed t.who) (c := .cancel i) rfl id (Ne.symm hid)).1 snd
          exact this.trans hp
        · exact hp
  | call env o c =>
    cases h : dispatch cfg env s o c with
    | error e =>
      have he : exec cfg s (.call env o c) = s := by simp [exec, h, settle]
      exact .inl (stays_same (by rw [he]; exact hp) ho fun _ => by rw [he])
    | ok s' =>
      have he : exec cfg s (.call env o c) = s' := by simp [exec, h, settle]
      by_cases hn : c.named = some id
      · have hab : about id (.call env o c) = true := by simp [about, hn]
        have hpar := hf _ _ hp
        have only : ∀ x q, s.payments x id = some q → x = snd ∧ q = p := by
          intro x q hq
          by_cases hx : x = snd
          · subst hx; rw [hp] at hq; cases hq; exact ⟨rfl, rfl⟩
          · rw [hf.only hp hx] at hq; cases hq
        cases c with
        | pay => cases hn
        | requestPayment => cases hn
        | release j =>
          cases hn
          obtain ⟨x, q, L, h1, hq, hst, hl, hs⟩ := release_ok h
          obtain ⟨rfl, rfl⟩ := only _ _ hq
          have hl' : s'.ledger = L := by rw [hs]
          have e := settleLedger_eff hl
          refine .inr ⟨hab, ?_, .released, .release env o h1, fun _ h => (nomatch h), ?_, ?_, ?_⟩
          · rw [he, hs]; intro q' hq'
            simp only [setPayment_same] at hq'; cases hq'; rfl
          · intro a ha; rw [he, hl']; exact (e.other a ha).1
          · intro w
            rw [he, hl', e.held w, escrow_created hst _ w]
            simp only [Outcome.left, onAcct_neg, benRelease, Option.isSome, Bool.false_eq_true, if_false]; omega
          · intro hfit hd w
            rw [he, hl'] at hd ⊢
            rw [e.total hd w]
            simp only [charged, Option.isSome, disputeMoves, net_append, agg_net _ hfit.1, agg_net _ hfit.2, Outcome.moves,
              net_cons, net_nil, Bool.false_eq_true, if_false]; omega
        | requestRefund j =>
          cases hn
          obtain ⟨x, q, h1, hq, hst, _, _, _, _, hs⟩ := requestRefund_ok h
          obtain ⟨rfl, rfl⟩ := only _ _ hq
          refine .inl ⟨{ q with state := .refundRequested (s.now + cfg.cancelBuffer) }, ?_, rfl, ⟨rfl, rfl, rfl, rfl, rfl⟩,
            fun h => ?_, fun _ a w => ?_⟩
          · rw [he, hs]; exact setPayment_same _ _ _ _
          · rw [hab] at h; cases h
          · rw [he, hs]
            refine ⟨rfl, ?_⟩
            simp only [escrow, hst, senderEscrow]; omega
        | acceptAndPay j =>
          cases hn
          obtain ⟨x, s0, b, q, L1, L2, L3, h1, hpar', hq, e1, e2, e3, hs⟩ := acceptAndPay_ok h
          obtain ⟨rfl, rfl⟩ := only _ _ hq
          rw [hpar] at hpar'; cases hpar'
          have hl' : s'.ledger = L3 := by rw [hs]
          have e := accept_eff e1 e2 e3
          refine .inr ⟨hab, ?_, .again q.state, .again env o _ h1, fun _ h => by cases h; rfl, ?_, ?_, ?_⟩
          · rw [he, hs]; intro q' hq'
            simp only [setPayment_same] at hq'; cases hq'; rfl
          · intro a ha; rw [he, hl']; exact (e.other a ha).1
          · intro w; rw [he, hl', e.held w]; simp [Outcome.left]
          · intro hfit hd w
            rw [he, hl'] at hd ⊢
            rw [e.total hd w]
            simp only [net_append, agg_net _ hfit.1, agg_net _ hfit.2, Outcome.moves, net_cons, net_nil]; omega
        | cancel j =>
          cases hn
          exact .inr (stops_cancel hf h he rfl hp hab fun h1 => .cancel env o h1)
        | disputeRefund j =>
          cases hn
          obtain ⟨x, b, q, cb, L, h1, hpar', hq, hst, _, hh, _, hs⟩ := disputeRefund_ok h
          obtain ⟨rfl, rfl⟩ := only _ _ hq
          rw [hpar] at hpar'; cases hpar'
          obtain ⟨e, nd⟩ := hold_eff hh
          refine .inl ⟨{ q with state := .needsReview }, ?_, rfl, ⟨rfl, rfl, rfl, rfl, rfl⟩, fun h => ?_, fun _ a w => ?_⟩
          · rw [he, hs]; exact setPayment_same _ _ _ _
          · rw [hab] at h; cases h
          · rw [he, hs]
            by_cases ha : a = q.asset
            · subst ha
              refine ⟨by have := e.total nd w; simpa using this, ?_⟩
              have h2 := escrow_review (p := { q with state := .needsReview }) rfl x w
              simp only at h2
              simp only
              rw [e.held w, h2, escrow_refund hst x w]
              simp only [senderEscrow, onAcct]; split_ifs <;> push_cast <;> omega
            · have h2 := (e.other a ha).1
              simp only [Ledger.total, h2, true_and]
              simp [escrow, Ne.symm ha]
        | resolveDispute j r =>
          cases hn
          obtain ⟨resolver, x, b, q, L, h1, hpar', hq, hst, hl, hs⟩ := resolveDispute_ok h
          obtain ⟨rfl, rfl⟩ := only _ _ hq
          rw [hpar] at hpar'; cases hpar'
          have hl' : s'.ledger = L := by rw [hs]
          have e := settleLedger_eff hl
          have hsat := review_no_saturation hi hp hst
          refine .inr ⟨hab, ?_, .resolved r resolver, .resolve env o r resolver h1, fun _ h => (nomatch h), ?_, ?_, ?_⟩
          · rw [he, hs]; intro q' hq'
            simp only [setPayment_same] at hq'; cases hq'; rfl
          · intro a ha; rw [he, hl']; exact (e.other a ha).1
          · intro w
            have h3 : benRelease q true = q.amount + q.incentive := by
              simp only [benRelease, satAdd, if_true]; omega
            rw [he, hl', e.held w, escrow_review hst _ w]
            simp only [Outcome.left, onAcct_neg, Option.isSome, h3]; push_cast; omega
          · intro hfit hd w
            rw [he, hl'] at hd ⊢
            rw [e.total hd w]
            have hm : disputeMoves x q.beneficiary q (some (r, resolver)) = resolutionMoves x q.beneficiary resolver q r := by
              simp only [disputeMoves, resolutionMoves, mulFloor]
              cases r.inFavorOf <;> rfl
            simp only [charged, Option.isSome, if_true, hm, net_append, agg_net_disputed _ hfit.1,
              agg_net_disputed _ hfit.2, Outcome.moves, net_cons, net_nil]; omega
      · refine .inl (stays_same ?_ ho fun h => absurd (by simpa [about] using h) hn)
        rcases hc : c.named with _ | i
        · rw [he]
          cases c with
          | pay bA a n r =>
            obtain ⟨x, b, i, L, h1, h2, h3, hold, hr, rfl⟩ := pay_ok h
            show setPayment s.payments x i _ snd id = _
            rcases setPayment_cases s.payments x i (some (newPayment cfg s x b a n .created r)) snd id with
              ⟨e, _⟩ | ⟨rfl, rfl, _⟩
            · rw [e, hp]
            · have := hold _ hp; rw [this] at ho; cases ho
          | requestPayment sA a n =>
            obtain ⟨x, b, i, h1, h2, h3, hold, rfl⟩ := requestPayment_ok h
            show setPayment s.payments x i _ snd id = _
            rcases setPayment_cases s.payments x i (some (newPayment cfg s x b a n .paymentRequested none)) snd id with
              ⟨e, _⟩ | ⟨rfl, rfl, _⟩
            · rw [e, hp]
            · have := hold _ hp; rw [this] at ho; cases ho
          | _ => cases hc
        · have hne : id ≠ i := fun e => hn (by rw [hc, e])
          exact ((C10_only_named_id hc id hne).1 snd).trans hp

theorem changedBy_append (cfg : Config) (id : PId) (f : Ledger → Int) (acts bs : List Act) : ∀ s,
    changedBy cfg id f s (acts ++ bs) = changedBy cfg id f s acts + changedBy cfg id f (run cfg s acts) bs := by
  induction acts with
  | nil => intro s; simp [changedBy, run]
  | cons a acts ih => intro s; simp only [List.cons_append, changedBy, ih, run, List.foldl_cons]; omega

theorem along_append {cfg : Config} {ok : St → Act → Prop} (acts bs : List Act) : ∀ s,
    Along cfg ok s (acts ++ bs) ↔ Along cfg ok s acts ∧ Along cfg ok (run cfg s acts) bs := by
  induction acts with
  | nil => intro s; simp [Along, run]
  | cons a acts ih => intro s; simp only [List.cons_append, Along, ih, run, List.foldl_cons, and_assoc]

theorem reach_along {cfg : Config} {ok : St → Act → Prop} (acts : List Act) : ∀ {s}, Reach cfg ok s → Along cfg ok s acts →
    Reach cfg ok (run cfg s acts) := by
  induction acts with
  | nil => intro s h _; exact h
  | cons a acts ih => intro s h hal; exact ih (.step a h hal.1) hal.2

/-- While a payment stays open, the actions about it move nothing between accounts; what they hold follows its record. -/
theorem open_along {cfg : Config} {snd : Acct} {id : PId} (acts : List Act) : ∀ {s : St} {p : Payment},
    Reach cfg (IdOnce cfg id) s → Along cfg (IdOnce cfg id) s acts → s.payments snd id = some p → p.state.isOpen = true →
    (∀ k, k ≤ acts.length → ∃ q, (run cfg s (acts.take k)).payments snd id = some q ∧ q.state.isOpen = true) →
    ∃ q, (run cfg s acts).payments snd id = some q ∧ q.state.isOpen = true ∧ SameCore p q ∧ ∀ a w,
      changedBy cfg id (fun L => L.total a w) s acts = 0 ∧
      changedBy cfg id (fun L => (L.bal a w).held) s acts = (escrow snd q a w : Int) - escrow snd p a w := by
  induction acts with
  | nil => intro s p _ _ hp ho _; exact ⟨p, hp, ho, .rfl' p, fun a w => ⟨rfl, by simp [changedBy]⟩⟩
  | cons act acts ih =>
    intro s p hr hal hp ho hopen
    have hi := (hr.mono (ok' := fun _ _ => True) fun _ _ _ => trivial).inv
    rcases life_step (cfg := cfg) hi act (hr.foundId fun _ _ h => h) hp ho with ⟨q, hq, hqo, hc, hna, hab⟩ | ⟨_, hst, _⟩
    · obtain ⟨q', h1, h2, h3, h4⟩ := ih (.step act hr hal.1) hal.2 hq hqo fun k hk => hopen (k + 1) (by simp; omega)
      refine ⟨q', h1, h2, hc.trans h3, fun a w => ?_⟩
      obtain ⟨h5, h6⟩ := h4 a w
      simp only [changedBy, h5, h6]
      cases hb : about id act with
      | false => rw [hna hb]; simp
      | true =>
        obtain ⟨h7, h8⟩ := hab hb a w
        simp only [if_true, h7, h8]; omega
    · obtain ⟨q, hq, hqo⟩ := hopen 1 (by simp)
      have := hst q (by simpa [run] using hq)
      rw [this] at hqo; cases hqo

/-! ## C191 -/

/-- C191, while the payment lasts: whatever happens after a `pay` while the payment stays open, the `pay` and all actions
about the payment together have moved exactly the amount from sender to beneficiary, in that asset only, and hold exactly
the escrow of the payment as it is recorded now. -/
theorem C191_meanwhile {cfg : Config} {env : Env} {s s1 : St} {o : Origin} {bA : Addr} {a : Asset} {n : Nat}
    {r : Option (List Nat)} {snd b : Acct} {id : PId} {p : Payment} {acts : List Act} (hr : Reach cfg (IdOnce cfg id) s)
    (hfr : IdOnce cfg id s (.call env o (.pay bA a n r))) (hpay : dispatch cfg env s o (.pay bA a n r) = .ok s1)
    (ho : cfg.senderOrigin o = some snd) (hlk : cfg.lookup bA = some b) (hid : env.nextId snd b = some id)
    (hp : s1.payments snd id = some p) (hal : Along cfg (IdOnce cfg id) s1 acts)
    (hopen : ∀ k, k ≤ acts.length →
      ∃ q, (run cfg s1 (acts.take k)).payments snd id = some q ∧ q.state.isOpen = true) :
    ∃ q, (run cfg s1 acts).payments snd id = some q ∧ q = { p with state := q.state } ∧
      q.asset = a ∧ q.amount = n ∧ q.beneficiary = b ∧ ∀ a' w,
      (s1.ledger.total a' w - s.ledger.total a' w) + changedBy cfg id (fun L => L.total a' w) s1 acts =
        (if a' = a then net [⟨snd, b, n⟩] w else 0) ∧
      (((s1.ledger.bal a' w).held : Int) - (s.ledger.bal a' w).held) +
        changedBy cfg id (fun L => (L.bal a' w).held) s1 acts = escrow snd q a' w := by
  obtain ⟨snd', b', id', h1, h2, h3, hex, hrec, _, _⟩ := C03_pay_escrows_exactly hpay
  rw [ho] at h1; cases h1
  rw [hlk] at h2; cases h2
  rw [hid] at h3; cases h3
  have hr1 : Reach cfg (IdOnce cfg id) s1 := by
    have := Reach.step (.call env o (.pay bA a n r)) hr hfr
    simp only [exec, hpay, settle] at this
    exact this
  obtain ⟨q, hq, _, hcore, hsum⟩ := open_along acts hr1 hal hrec rfl hopen
  rw [hp] at hrec; cases hrec
  refine ⟨q, hq, hcore.eq, hcore.1.symm, hcore.2.1.symm, hcore.2.2.1.symm, fun a' w => ?_⟩
  obtain ⟨h5, h6⟩ := hsum a' w
  rw [h5, h6]
  by_cases ha : a' = a
  · subst ha
    have h7 := hex.total w
    have h8 := hex.held w
    have h9 := escrow_created (p := ⟨a', n, b, cfg.incentivePct * n / 100, .created,
      cfg.applyFees s.ledger.minBal a' snd b n r⟩) rfl snd w
    simp only [senderEscrow] at h9
    refine ⟨by rw [if_pos rfl]; omega, ?_⟩
    rw [h9]; omega
  · have h7 := hex.other a' ha
    refine ⟨by rw [if_neg ha]; simp [Ledger.total, h7], ?_⟩
    rw [h7, escrow_other (p := ⟨a, n, b, cfg.incentivePct * n / 100, .created,
      cfg.applyFees s.ledger.minBal a snd b n r⟩) ha]
    omega

/-- C191 (partial: `accept_and_pay` on a payment already in escrow pays it a second time and leaves the first escrow held,
see `C191_whole_life_fails`): a payment made by `pay` that is later ended, with anything in between, has over its whole life
moved exactly what its end says: nothing if it was cancelled or refunded; the amount and all fees if it was released; the
amount, the fees due on disputes and the decision's shares if it was resolved. Nothing stays held, and no other asset is
touched. -/
theorem C191_whole_life_partial {cfg : Config} {env : Env} {s s1 : St} {o : Origin} {bA : Addr} {a : Asset} {n : Nat}
    {r : Option (List Nat)} {snd b : Acct} {id : PId} {p : Payment} {mid : List Act} {last : Act}
    (hr : Reach cfg (IdOnce cfg id) s)
    (hfr : IdOnce cfg id s (.call env o (.pay bA a n r))) (hpay : dispatch cfg env s o (.pay bA a n r) = .ok s1)
    (ho : cfg.senderOrigin o = some snd) (hlk : cfg.lookup bA = some b) (hid : env.nextId snd b = some id)
    (hp : s1.payments snd id = some p) (hal : Along cfg (IdOnce cfg id) s1 (mid ++ [last]))
    (hopen : ∀ k, k ≤ mid.length →
      ∃ q, (run cfg s1 (mid.take k)).payments snd id = some q ∧ q.state.isOpen = true)
    (hend : ∀ q, (run cfg s1 (mid ++ [last])).payments snd id = some q → q.state.isOpen = false) :
    ∃ out, EndsIn cfg snd b id last out ∧
      (∀ st, out = .again st → (run cfg s1 mid).payments snd id = some { p with state := st }) ∧
      (∀ w, (((s1.ledger.bal a w).held : Int) - (s.ledger.bal a w).held) +
        changedBy cfg id (fun L => (L.bal a w).held) s1 (mid ++ [last]) = out.left snd p w) ∧
      (FeesFit p → NoDust (run cfg s1 mid).ledger (run cfg s1 (mid ++ [last])).ledger a → ∀ w,
        (s1.ledger.total a w - s.ledger.total a w) +
          changedBy cfg id (fun L => L.total a w) s1 (mid ++ [last]) = net (out.moves snd p) w) ∧
      (∀ a' w, a' ≠ a → s1.ledger.bal a' w = s.ledger.bal a' w ∧
        changedBy cfg id (fun L => L.total a' w) s1 (mid ++ [last]) = 0 ∧
        changedBy cfg id (fun L => (L.bal a' w).held) s1 (mid ++ [last]) = 0) := by
  obtain ⟨hal1, hal2⟩ := (along_append _ _ _).1 hal
  obtain ⟨q, hq, _, hqa, hqn, hqb, hsum⟩ := C191_meanwhile hr hfr hpay ho hlk hid hp hal1 hopen
  obtain ⟨snd', b', id', h1, h2, h3, hex, hrec, _, _⟩ := C03_pay_escrows_exactly hpay
  rw [ho] at h1; cases h1
  rw [hlk] at h2; cases h2
  rw [hid] at h3; cases h3
  have hr1 : Reach cfg (IdOnce cfg id) s1 := by
    have := Reach.step (.call env o (.pay bA a n r)) hr hfr
    simp only [exec, hpay, settle] at this
    exact this
  have hpo : p.state.isOpen = true := by rw [hp] at hrec; cases hrec; rfl
  obtain ⟨q', hq', hqo, hcore, _⟩ := open_along mid hr1 hal1 hp hpo hopen
  rw [hq] at hq'; cases hq'
  have hr2 := reach_along mid hr1 hal1
  have hi := (hr2.mono (ok' := fun _ _ => True) fun _ _ _ => trivial).inv
  have hrun : run cfg s1 (mid ++ [last]) = exec cfg (run cfg s1 mid) last := by simp [run]
  rw [hrun] at hend ⊢
  have hone : ∀ f : Ledger → Int, about id last = true → changedBy cfg id f s1 (mid ++ [last]) =
      changedBy cfg id f s1 mid + (f (exec cfg (run cfg s1 mid) last).ledger - f (run cfg s1 mid).ledger) := by
    intro f hb; rw [changedBy_append]; simp [changedBy, hb]
  rcases life_step (cfg := cfg) hi last (hr2.foundId fun _ _ h => h) hq hqo with ⟨q1, hq1, hqo1, _⟩ | ⟨hab, _, out, he, hag, hot, hh, ht⟩
  · rw [hend q1 hq1] at hqo1; cases hqo1
  · have hpq : ∀ st, ({ q with state := st } : Payment) = { p with state := st } := by
      intro st; rw [hcore.eq]
    have hmv : out.moves snd q = out.moves snd p := by
      obtain ⟨_, h2, h3, h4, h5⟩ := hcore
      cases out <;> simp only [Outcome.moves, resolutionMoves, h2, h3, h4, h5]
    have hlf : ∀ w, out.left snd q w = out.left snd p w := by
      intro w; cases out <;> simp only [Outcome.left, hpq, hcore.1]
    rw [hqb] at he
    rw [hqa] at hot hh ht
    refine ⟨out, he, ?_, ?_, ?_, ?_⟩
    · intro st hst
      rw [hq, hag st hst, ← hpq]
    · intro w
      rw [hone _ hab, hh w, hlf w]
      have := (hsum a w).2
      omega
    · intro hfit hd w
      have hfq : FeesFit q := by unfold FeesFit; rw [← hcore.2.2.2.2]; exact hfit
      have h5 := ht hfq hd w
      have h6 := (hsum a w).1
      rw [if_pos rfl] at h6
      rw [hone _ hab]
      rw [hmv, hqb, hqn] at h5
      omega
    · intro a' w ha
      have h5 := hsum a' w
      rw [if_neg ha] at h5
      have h6 := hex.other a' ha
      have h7 := hot a' ha
      rw [hone _ hab, hone _ hab]
      simp only [Ledger.total, h6, h7] at h5 ⊢
      have h8 : escrow snd q a' w = 0 := escrow_other (by rw [hqa]; exact ha) _ _
      rw [h8] at h5
      refine ⟨trivial, ?_, ?_⟩ <;> omega

/-- C191 as stated, for histories in which nobody calls `accept_and_pay` on a payment in escrow: the end is one of the three
proper ones, and nothing stays held. -/
theorem C191_whole_life_without_accept {cfg : Config} {env : Env} {s s1 : St} {o : Origin} {bA : Addr} {a : Asset} {n : Nat}
    {r : Option (List Nat)} {snd b : Acct} {id : PId} {p : Payment} {mid : List Act} {last : Act}
    (hr : Reach cfg (IdOnce cfg id) s)
    (hfr : IdOnce cfg id s (.call env o (.pay bA a n r))) (hpay : dispatch cfg env s o (.pay bA a n r) = .ok s1)
    (ho : cfg.senderOrigin o = some snd) (hlk : cfg.lookup bA = some b) (hid : env.nextId snd b = some id)
    (hp : s1.payments snd id = some p) (hal : Along cfg (IdOnce cfg id) s1 (mid ++ [last]))
    (hopen : ∀ k, k ≤ mid.length →
      ∃ q, (run cfg s1 (mid.take k)).payments snd id = some q ∧ q.state.isOpen = true)
    (hend : ∀ q, (run cfg s1 (mid ++ [last])).payments snd id = some q → q.state.isOpen = false)
    (hacc : AcceptsNoOpen cfg (run cfg s1 mid) last) (hfit : FeesFit p)
    (hd : NoDust (run cfg s1 mid).ledger (run cfg s1 (mid ++ [last])).ledger a) :
    (∀ w, (((s1.ledger.bal a w).held : Int) - (s.ledger.bal a w).held) +
        changedBy cfg id (fun L => (L.bal a w).held) s1 (mid ++ [last]) = 0) ∧
      ((∀ w, (s1.ledger.total a w - s.ledger.total a w) +
          changedBy cfg id (fun L => L.total a w) s1 (mid ++ [last]) = 0) ∨
       (∀ w, (s1.ledger.total a w - s.ledger.total a w) + changedBy cfg id (fun L => L.total a w) s1 (mid ++ [last]) =
          net (⟨snd, b, n⟩ :: (feeMoves snd p.fees.senderPays ++ feeMoves b p.fees.beneficiaryPays)) w) ∨
       ∃ d resolver, ∀ w,
          (s1.ledger.total a w - s.ledger.total a w) + changedBy cfg id (fun L => L.total a w) s1 (mid ++ [last]) =
            net (⟨snd, b, n⟩ :: (feeMoves snd (chargedOnDispute p.fees.senderPays) ++
              feeMoves b (chargedOnDispute p.fees.beneficiaryPays) ++ resolutionMoves snd b resolver p d)) w) := by
  obtain ⟨out, he, hag, hh, ht, _⟩ := C191_whole_life_partial hr hfr hpay ho hlk hid hp hal hopen hend
  have ht' := ht hfit hd
  obtain ⟨snd', b', id', h1, h2, h3, _, hrec, _, _⟩ := C03_pay_escrows_exactly hpay
  rw [ho] at h1; cases h1
  rw [hlk] at h2; cases h2
  rw [hid] at h3; cases h3
  rw [hp] at hrec
  have hpn : p.amount = n ∧ p.beneficiary = b := by cases hrec; exact ⟨rfl, rfl⟩
  cases he with
  | cancel => exact ⟨hh, .inl ht'⟩
  | refund => exact ⟨hh, .inl ht'⟩
  | release =>
    refine ⟨hh, .inr (.inl ?_)⟩
    simpa only [Outcome.moves, hpn.1, hpn.2] using ht'
  | resolve env o d resolver =>
    refine ⟨hh, .inr (.inr ⟨d, resolver, ?_⟩)⟩
    simpa only [Outcome.moves, hpn.1, hpn.2] using ht'
  | again env o st ho' =>
    have h5 := hag st rfl
    have h6 := hacc env o id snd _ rfl ho' h5
    obtain ⟨q, hq, hqo⟩ := hopen mid.length le_rfl
    rw [List.take_length, h5] at hq
    cases hq
    rw [h6] at hqo; cases hqo

/-- What happens to the payment of 1000 under id 7 in the example: a refund is asked for, another payment is made and money
comes in from elsewhere, the refund is disputed. Example for non-vacuity (outside /repo). -/
def troubles : List Act :=
  [aCall 1 (.requestRefund 7), aPay 8 1 2 500, .ext 0 2 20000, .tick, aCall 2 (.disputeRefund 7)]

/-- Root decides for the sender, who gets half of the amount back. Example for non-vacuity (outside /repo). -/
def decision : Act := aRoot (.resolveDispute 7 ⟨50, .sender⟩)

theorem fresh_pay (i : PId) (a b : Acct) (n : Nat) (s : St) (id : PId) (h : i = id → ∀ x, x ≠ a → s.payments x id = none) :
    IdOnce cfg id s (aPay i a b n) :=
  fun snd => kept_pay _ _ _ _ _ _ _ fun e hx => h e snd (Ne.symm hx)

theorem fresh_call (act : Act) (s : St) (id : PId) (h : ∀ env o c, act = .call env o c → c.named.isSome) :
    IdOnce cfg id s act := by
  intro _ env o c _ _ e hc
  have := h env o c e
  cases c <;> simp [creates, Call.named] at hc this

/-- The hypotheses of C191 met by a history with all of this, and what it comes to: account 1 is poorer by 500, its fees of
3 and nothing else; account 2 richer by 500 less the incentive of 100 paid to account 99; account 51 gets nothing. -/
example : Reach cfg (IdOnce cfg 7) s0 ∧ IdOnce cfg 7 s0 (aPay 7 1 2 1000) ∧
    dispatch cfg (env 7) s0 (.signed 1) (.pay (.id 2) 0 1000 none) = .ok paid ∧
    Along cfg (IdOnce cfg 7) paid (troubles ++ [decision]) ∧
    (∀ k, k ≤ troubles.length →
      ∃ q, (run cfg paid (troubles.take k)).payments 1 7 = some q ∧ q.state.isOpen = true) ∧
    (∀ q, (run cfg paid (troubles ++ [decision])).payments 1 7 = some q → q.state.isOpen = false) ∧
    NoDust (run cfg paid troubles).ledger (run cfg paid (troubles ++ [decision])).ledger 0 ∧
    (∀ p, paid.payments 1 7 = some p → FeesFit p) ∧
    ([1, 2, 50, 51, 99].map fun w => (paid.ledger.total 0 w - s0.ledger.total 0 w) +
      changedBy cfg 7 (fun L => L.total 0 w) paid (troubles ++ [decision])) = [-503, 400, 3, 0, 100] := by
  refine ⟨.init s0_initial, fresh_pay _ _ _ _ _ _ fun _ _ _ => rfl, rfl, ⟨?_, ?_, ?_, ?_, ?_, ?_, trivial⟩, ?_, ?_, ⟨by decide, by decide⟩, ?_,
    by decide⟩
  · exact fresh_call _ _ _ (by rintro _ _ _ e; cases e; rfl)
  · exact fresh_pay _ _ _ _ _ _ fun h => by cases h
  · exact fresh_call _ _ _ (by rintro _ _ _ e; cases e)
  · exact fresh_call _ _ _ (by rintro _ _ _ e; cases e)
  · exact fresh_call _ _ _ (by rintro _ _ _ e; cases e; rfl)
  · exact fresh_call _ _ _ (by rintro _ _ _ e; cases e; rfl)
  · intro k hk
    have : k = 0 ∨ k = 1 ∨ k = 2 ∨ k = 3 ∨ k = 4 ∨ k = 5 := by simp [troubles] at hk; omega
    rcases this with rfl | rfl | rfl | rfl | rfl | rfl <;> exact ⟨_, rfl, rfl⟩
  · intro q hq; cases hq; rfl
  · intro p hp; cases hp; exact ⟨by decide, by decide⟩

/-- C191 is false of the code as stated: account 1 pays 1000 to account 2 and then, by mistake, accepts that same payment;
over its life the payment has taken 2003 from account 1 and leaves 103 of theirs and 1000 of account 2 held with no payment
behind it. -/
theorem C191_whole_life_fails : Reach cfg (IdOnce cfg 7) s0 ∧ IdOnce cfg 7 s0 (aPay 7 1 2 1000) ∧
    dispatch cfg (env 7) s0 (.signed 1) (.pay (.id 2) 0 1000 none) = .ok paid ∧
    IdOnce cfg 7 paid (aCall 1 (.acceptAndPay 7)) ∧
    stateOf paid 1 7 = some .created ∧ stateOf (exec cfg paid (aCall 1 (.acceptAndPay 7))) 1 7 = some .finished ∧
    ([1, 2].map fun w => (paid.ledger.total 0 w - s0.ledger.total 0 w) +
      changedBy cfg 7 (fun L => L.total 0 w) paid [aCall 1 (.acceptAndPay 7)]) = [-2003, 1997] ∧
    ([1, 2].map fun w => ((paid.ledger.bal 0 w).held - (s0.ledger.bal 0 w).held : Int) +
      changedBy cfg 7 (fun L => (L.bal 0 w).held) paid [aCall 1 (.acceptAndPay 7)]) = [103, 1000] :=
  ⟨.init s0_initial, fresh_pay _ _ _ _ _ _ fun _ _ _ => rfl, rfl, fresh_call _ _ _ (by rintro _ _ _ e; cases e; rfl),
    by decide, by decide, by decide, by decide⟩

end Verif.Payments
