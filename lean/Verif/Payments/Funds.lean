import Verif.Payments.Live
import Verif.Payments.Demo

/-!
# Payments: theorems about money (C01-C07, C13, C14, C23, C26-C28, C31-C33)

`Exactly L L' a ms hd` (Spec.lean) says that totals change by exactly the movements `ms`, held parts by exactly
`hd`, and other assets not at all. `NoDust` says no account was left with a remainder below the asset minimum
that the asset pallet swept or burned.
-/

namespace Verif.Payments

open Demo

/-! ## C01 -/

/-- C01: in every reachable state, on every account, the escrows of any finite set of payments are covered by
the amount held there. -/
theorem C01_open_payments_backed {cfg : Config} {s : St} (h : Reachable cfg s) (a : Asset) (w : Acct)
    (ks : Finset (Acct × PId)) : ∑ k ∈ ks, escrowAt s k a w ≤ (s.ledger.bal a w).held :=
  h.inv.backed a w ks

example : Reachable cfg disputed ∧ escrowAt disputed (1, 7) 0 1 = 103 ∧ escrowAt disputed (1, 7) 0 2 = 1100 :=
  ⟨reachable _, by decide, by decide⟩

/-! ## C02 -/

/-- C02: a successful call changes only finitely many accounts in each asset, and the total over them (and any
larger set) is unchanged except for burned dust. -/
theorem C02_calls_conserve_money {cfg : Config} {env : Env} {s s' : St} {o : Origin} {c : Call}
    (h : dispatch cfg env s o c = .ok s') (a : Asset) :
    ∃ F : Finset Acct, (∀ w, w ∉ F → s'.ledger.bal a w = s.ledger.bal a w) ∧
      ∀ G : Finset Acct, F ⊆ G →
        sumTotal s'.ledger a G + s'.ledger.burned a = sumTotal s.ledger a G + s.ledger.burned a :=
  dispatch_cons h a

/-- C02: the dust burned by one call is at most twice the asset's minimum balance. -/
theorem C02_burn_is_only_dust {cfg : Config} {env : Env} {s s' : St} {o : Origin} {c : Call}
    (h : dispatch cfg env s o c = .ok s') (a : Asset) :
    s'.ledger.burned a ≤ s.ledger.burned a + 2 * s.ledger.minBal a :=
  (dispatch_burn h).2 a

/-- C02: a failed call changes nothing. -/
theorem C02_failed_call_changes_nothing {cfg : Config} {env : Env} {s : St} {o : Origin} {c : Call} {e : Err}
    (h : dispatch cfg env s o c = .error e) : exec cfg s (.call env o c) = s := by
  simp [exec, h, settle]

/-- C02 for the scheduler: running a scheduled cancellation conserves money as well. -/
theorem C02_scheduler_conserves_money (cfg : Config) (s : St) (env : Env) (id : PId) (a : Asset) :
    ∃ F : Finset Acct, (∀ w, w ∉ F → (exec cfg s (.fire env id)).ledger.bal a w = s.ledger.bal a w) ∧
      ∀ G : Finset Acct, F ⊆ G → sumTotal (exec cfg s (.fire env id)).ledger a G +
        (exec cfg s (.fire env id)).ledger.burned a = sumTotal s.ledger a G + s.ledger.burned a := by
  change Cons s.ledger (exec cfg s (.fire env id)).ledger a
  simp only [exec]
  cases ht : s.agenda id with
  | none => exact Cons.refl _ _
  | some t =>
    simp only
    split_ifs
    · cases h : cancel cfg env { s with agenda := setAt s.agenda id none } (.signed t.who) id with
      | error e => exact Cons.refl _ _
      | ok s' => exact cancel_cons h a
    · exact Cons.refl _ _

example : ∃ s', dispatch cfg (env 0) disputed .root (.resolveDispute 7 ⟨30, .sender⟩) = .ok s' ∧
    s'.ledger.bal 0 99 ≠ disputed.ledger.bal 0 99 := ⟨_, rfl, by decide⟩

/-! ## C03 -/

/-- C03: a successful `pay` moves exactly `n` from sender to beneficiary, where it is held, holds exactly the
sender's fees plus incentive on the sender, stores the record and announces it. -/
theorem C03_pay_escrows_exactly {cfg : Config} {env : Env} {s s' : St} {o : Origin} {bA : Addr} {a : Asset}
    {n : Nat} {r : Option (List Nat)} (h : dispatch cfg env s o (.pay bA a n r) = .ok s') :
    ∃ snd b id, cfg.senderOrigin o = some snd ∧ cfg.lookup bA = some b ∧ env.nextId snd b = some id ∧
      let fees := cfg.applyFees s.ledger.minBal a snd b n r
      let incentive := cfg.incentivePct * n / 100
      Exactly s.ledger s'.ledger a [⟨snd, b, n⟩] (fun w =>
        onAcct snd (min (feeTotal fees.senderPays + incentive) BAL_MAX : Nat) w + onAcct b n w) ∧
      s'.payments snd id = some ⟨a, n, b, incentive, .created, fees⟩ ∧
      s'.parties id = some (snd, b) ∧ s'.events = s.events ++ [.paymentCreated id a n r] := by
  obtain ⟨snd, b, id, L, h1, h2, h3, hf, hr, rfl⟩ := pay_ok h
  obtain ⟨e, d⟩ := reserve_eff hr
  exact ⟨snd, b, id, h1, h2, h3, e.exactly d, setPayment_same _ _ _ _, by simp [setAt], rfl⟩

example : ∃ s', dispatch cfg (env 7) s0 (.signed 1) (.pay (.id 2) 0 1000 none) = .ok s' ∧
    s'.ledger.bal 0 1 = ⟨8897, 103⟩ ∧ s'.ledger.bal 0 2 = ⟨10000, 1000⟩ := ⟨_, rfl, by decide, by decide⟩
/-- Paying oneself is covered too. -/
example : ∃ s', dispatch cfg (env 7) s0 (.signed 1) (.pay (.id 1) 0 1000 none) = .ok s' ∧
    s'.ledger.bal 0 1 = ⟨8897, 1103⟩ := ⟨_, rfl, by decide⟩

/-! ## C04 -/

/-- Both fee totals of a payment fit the balance type. Specification only, no code behind it (outside /repo). -/
def FeesFit (p : Payment) : Prop :=
  feeTotal p.fees.senderPays ≤ BAL_MAX ∧ feeTotal p.fees.beneficiaryPays ≤ BAL_MAX

/-- C04: a successful `release` by sender `snd` unholds exactly what `pay` held and then moves exactly every
sender fee entry from the sender and every beneficiary fee entry from the beneficiary. -/
theorem C04_release_exact {cfg : Config} {env : Env} {s s' : St} {o : Origin} {id : PId} {snd : Acct}
    {p : Payment} (h : dispatch cfg env s o (.release id) = .ok s') (ho : cfg.senderOrigin o = some snd)
    (hp : s.payments snd id = some p) (hfit : FeesFit p) :
    Exactly s.ledger s'.ledger p.asset
      (feeMoves snd p.fees.senderPays ++ feeMoves p.beneficiary p.fees.beneficiaryPays)
      (fun w => - onAcct snd (senderEscrow p) w - onAcct p.beneficiary p.amount w) ∧
    s'.payments snd id = some { p with state := .finished } := by
  obtain ⟨snd', p', L, h1, hp', hst, hl, rfl⟩ := release_ok h
  rw [ho] at h1; cases h1
  rw [hp] at hp'; cases hp'
  refine ⟨?_, setPayment_same _ _ _ _⟩
  refine ((settleLedger_eff hl).congr ?_ ?_).exactly (settleLedger_nodust_release hl)
  · intro w
    simp only [charged, Option.isSome, disputeMoves, net_append, net_nil]
    simp [agg_net _ hfit.1, agg_net _ hfit.2]
  · intro w; simp only [onAcct_neg, benRelease, Option.isSome]; simp; omega

example : ∃ s', dispatch cfg (env 0) paid (.signed 1) (.release 7) = .ok s' ∧
    s'.ledger.bal 0 2 = ⟨10997, 0⟩ := ⟨_, rfl, by decide⟩

/-! ## C05 -/

/-- C05: a successful `cancel` moves exactly the amount back from beneficiary to sender and unholds exactly
what `pay` held; the record disappears. -/
theorem C05_cancel_exact {cfg : Config} {env : Env} {s s' : St} {o : Origin} {id : PId} {snd b : Acct}
    {p : Payment} (hr : Reachable cfg s) (h : dispatch cfg env s o (.cancel id) = .ok s')
    (hpar : s.parties id = some (snd, b)) (hp : s.payments snd id = some p)
    (hd : NoDust s.ledger s'.ledger p.asset) :
    Exactly s.ledger s'.ledger p.asset [⟨b, snd, p.amount⟩]
      (fun w => - onAcct snd (senderEscrow p) w - onAcct b p.amount w) ∧
    s'.payments snd id = none ∧ s'.parties id = none := by
  obtain ⟨snd', b', p', L, h1, hpar', hp', hl, hs⟩ := cancel_ok h
  rw [hpar] at hpar'; cases hpar'
  rw [hp] at hp'; cases hp'
  obtain ⟨q, hq, hqb⟩ := hr.inv.parties _ _ _ hpar
  rw [hp] at hq; cases hq
  have hl' : s'.ledger = L := by rcases hs with ⟨_, rfl⟩ | ⟨_, rfl⟩ <;> rfl
  refine ⟨?_, ?_, ?_⟩
  · rw [hl'] at hd ⊢
    refine ((cancelPayment_eff hl).congr ?_ ?_).exactly hd
    · intro w; rw [hqb]
    · intro w; simp only [onAcct_neg, hqb]; omega
  · rcases hs with ⟨_, rfl⟩ | ⟨_, rfl⟩ <;> exact setPayment_same _ _ _ _
  · rcases hs with ⟨_, rfl⟩ | ⟨_, rfl⟩ <;> simp [setAt]

/-- C05: the no-dust condition always holds when the beneficiary's free balance is zero or at least the asset
minimum, so in that case cancelling is exact without further assumption. -/
theorem C05_cancel_leaves_no_dust {cfg : Config} {env : Env} {s s' : St} {o : Origin} {id : PId} {snd b : Acct}
    {p : Payment} (hr : Reachable cfg s) (h : dispatch cfg env s o (.cancel id) = .ok s')
    (hpar : s.parties id = some (snd, b)) (hp : s.payments snd id = some p)
    (hw : (s.ledger.bal p.asset b).free = 0 ∨ s.ledger.minBal p.asset ≤ (s.ledger.bal p.asset b).free) :
    NoDust s.ledger s'.ledger p.asset := by
  obtain ⟨snd', b', p', L, h1, hpar', hp', hl, hs⟩ := cancel_ok h
  rw [hpar] at hpar'; cases hpar'
  rw [hp] at hp'; cases hp'
  obtain ⟨q, hq, hqb⟩ := hr.inv.parties _ _ _ hpar
  rw [hp] at hq; cases hq
  have hl' : s'.ledger = L := by rcases hs with ⟨_, rfl⟩ | ⟨_, rfl⟩ <;> rfl
  rw [hl']
  obtain ⟨L1, L2, r1, r2, t⟩ := cancelPayment_ok hl
  have n1 := (release_eff r1).2
  have n2 := (release_eff r2).2
  have hm : L2.minBal = s.ledger.minBal := by rw [(release_eff r2).1.minBal, (release_eff r1).1.minBal]
  rcases transfer_some t with ⟨_, rfl⟩ | ⟨hne, _, _, _, rfl | ⟨rest, c1, c2, _, c3, _⟩⟩
  · exact ⟨n2.1.trans n1.1, n2.2.trans n1.2⟩
  · exact ⟨n2.1.trans n1.1, n2.2.trans n1.2⟩
  · exfalso
    have hfree : (L2.bal p.asset p.beneficiary).free = (s.ledger.bal p.asset p.beneficiary).free + p.amount := by
      obtain ⟨_, rfl⟩ := release_some r1
      obtain ⟨_, rfl⟩ := release_some r2
      simp [setBal_bal, hne]
    rw [hm] at c2
    rw [hqb] at c3 hfree
    rw [hfree] at c3
    omega

theorem core_along {cfg : Config} {snd : Acct} {id : PId} (acts : List Act) :
    ∀ {s : St} {p : Payment}, s.payments snd id = some p → p.state ≠ .paymentRequested →
      (∀ k, (run cfg s (acts.take k)).payments snd id ≠ none) →
      ∃ q, (run cfg s acts).payments snd id = some q ∧ SameCore p q := by
  induction acts with
  | nil => intro s p hp _ _; exact ⟨p, hp, rfl, rfl, rfl, rfl, rfl⟩
  | cons act acts ih =>
    intro s p hp hst hex
    rcases exec_core cfg s act snd id p hp hst with h | ⟨q, h1, h2, h3⟩
    · exact absurd h (hex 1)
    · obtain ⟨q', h4, h5⟩ := ih h1 h3 (fun k => hex (k + 1))
      exact ⟨q', h4, h2.trans h5⟩

/-- C05 across a history: `pay`, then any history in which the payment is never removed, then `cancel`. The
cancellation moves exactly the opposite of what `pay` moved: totals by the reverse movement, holds by the
negated deltas. -/
theorem C05_cancel_undoes_pay {cfg : Config} {env env' : Env} {s s1 s3 : St} {o o' : Origin} {bA : Addr}
    {a : Asset} {n : Nat} {r : Option (List Nat)} {snd b : Acct} {id : PId} {acts : List Act}
    (hr : Reachable cfg s)
    (hpay : dispatch cfg env s o (.pay bA a n r) = .ok s1)
    (ho : cfg.senderOrigin o = some snd) (hlk : cfg.lookup bA = some b) (hid : env.nextId snd b = some id)
    (hopen : ∀ k, (run cfg s1 (acts.take k)).payments snd id ≠ none)
    (hpar : (run cfg s1 acts).parties id = some (snd, b))
    (hcan : dispatch cfg env' (run cfg s1 acts) o' (.cancel id) = .ok s3)
    (hd : NoDust (run cfg s1 acts).ledger s3.ledger a) :
    ∃ hold : Acct → Int,
      Exactly s.ledger s1.ledger a [⟨snd, b, n⟩] hold ∧
      Exactly (run cfg s1 acts).ledger s3.ledger a [⟨b, snd, n⟩] (fun w => - hold w) := by
  obtain ⟨snd', b', id', h1, h2, h3, hex, hrec, hpar1, _⟩ := C03_pay_escrows_exactly hpay
  rw [ho] at h1; cases h1
  rw [hlk] at h2; cases h2
  rw [hid] at h3; cases h3
  refine ⟨_, hex, ?_⟩
  have hr1 : Reachable cfg s1 := by
    have := Reach.step (.call env o (.pay bA a n r)) hr (trivial : (fun _ _ => True) _ _)
    simp only [exec, hpay, settle] at this
    exact this
  obtain ⟨q, hq, hcore⟩ := core_along acts hrec (by simp) hopen
  have hqa : q.asset = a := hcore.1.symm
  have := (C05_cancel_exact (reach_run hr1 acts) hcan hpar hq (by rw [hqa]; exact hd)).1
  have hse : senderEscrow q =
      min (feeTotal (cfg.applyFees s.ledger.minBal a snd b n r).senderPays + cfg.incentivePct * n / 100)
        BAL_MAX := by
    unfold senderEscrow; rw [← hcore.2.2.2.2, ← hcore.2.2.2.1]
  have hqn : q.amount = n := hcore.2.1.symm
  rw [hqa, hqn, hse] at this
  refine ⟨this.other, this.total, ?_⟩
  intro w
  rw [this.held w]; omega

example : ∃ s', dispatch cfg (env 0) refunding (.signed 2) (.cancel 7) = .ok s' ∧
    s'.ledger.bal 0 1 = ⟨10000, 0⟩ ∧ s'.ledger.bal 0 2 = ⟨10000, 0⟩ ∧ s'.payments 1 7 = none ∧
    NoDust refunding.ledger s'.ledger 0 :=
  ⟨_, rfl, by decide, by decide, by decide, by decide, by decide⟩

/-! ## C06 -/

/-- What is moved to whom when a dispute is resolved, apart from fees. Specification only, no code behind it (outside
/repo). -/
def resolutionMoves (snd b resolver : Acct) (p : Payment) (r : DisputeResult) : List Move :=
  match r.inFavorOf with
  | .sender => [⟨b, resolver, p.incentive⟩, ⟨b, snd, r.pct * p.amount / 100⟩]
  | .beneficiary => [⟨snd, resolver, p.incentive⟩, ⟨b, snd, p.amount - r.pct * p.amount / 100⟩]

/-- C06: a successful `resolve_dispute` unholds exactly the sender's fees and incentive and the beneficiary's
amount and incentive, charges all fees of every recipient whose first entry is chargeable on disputes and no others, moves
one incentive to the resolver, and the sender's share. -/
theorem C06_resolve_any_fees {cfg : Config} {env : Env} {s s' : St} {o : Origin} {id : PId} {snd b resolver : Acct}
    {p : Payment} {r : DisputeResult} (hr : Reachable cfg s)
    (h : dispatch cfg env s o (.resolveDispute id r) = .ok s') (ho : cfg.disputeResolver o = some resolver)
    (hpar : s.parties id = some (snd, b)) (hp : s.payments snd id = some p) (hfit : FeesFit p)
    (hd : NoDust s.ledger s'.ledger p.asset) :
    Exactly s.ledger s'.ledger p.asset
      (feeMoves snd (chargedOnDispute p.fees.senderPays) ++ feeMoves b (chargedOnDispute p.fees.beneficiaryPays) ++
        resolutionMoves snd b resolver p r)
      (fun w => - onAcct snd (senderEscrow p) w - onAcct b (p.amount + p.incentive) w) ∧
    s'.payments snd id = some { p with state := .finished } := by
  obtain ⟨resolver', snd', b', p', L, h1, hpar', hp', hst, hl, rfl⟩ := resolveDispute_ok h
  rw [ho] at h1; cases h1
  rw [hpar] at hpar'; cases hpar'
  rw [hp] at hp'; cases hp'
  refine ⟨?_, setPayment_same _ _ _ _⟩
  have hsat := review_no_saturation hr.inv hp hst
  refine ((settleLedger_eff hl).congr ?_ ?_).exactly hd
  · intro w
    have hm : disputeMoves snd b p (some (r, resolver)) = resolutionMoves snd b resolver p r := by
      simp only [disputeMoves, resolutionMoves, mulFloor]
      cases r.inFavorOf <;> rfl
    simp only [charged, Option.isSome, if_true, hm, net_append, agg_net_disputed _ hfit.1,
      agg_net_disputed _ hfit.2]
  · intro w
    have h3 : benRelease p true = p.amount + p.incentive := by
      simp only [benRelease, satAdd, if_true]; omega
    simp only [onAcct_neg, Option.isSome, h3]; push_cast; omega

/-- C06, if no recipient has entries of both kinds (as on Kreivo): a successful `resolve_dispute` unholds exactly the
sender's fees and incentive and the beneficiary's amount and incentive, moves the chargeable fee entries, one incentive to
the resolver, and the sender's share. -/
theorem C06_resolve_exact {cfg : Config} {env : Env} {s s' : St} {o : Origin} {id : PId} {snd b resolver : Acct}
    {p : Payment} {r : DisputeResult} (hr : Reachable cfg s)
    (h : dispatch cfg env s o (.resolveDispute id r) = .ok s') (ho : cfg.disputeResolver o = some resolver)
    (hpar : s.parties id = some (snd, b)) (hp : s.payments snd id = some p) (hfit : FeesFit p)
    (hu : UniformFlags p.fees.senderPays) (hv : UniformFlags p.fees.beneficiaryPays)
    (hd : NoDust s.ledger s'.ledger p.asset) :
    Exactly s.ledger s'.ledger p.asset
      (feeMoves snd (chargeable p.fees.senderPays) ++ feeMoves b (chargeable p.fees.beneficiaryPays) ++
        resolutionMoves snd b resolver p r)
      (fun w => - onAcct snd (senderEscrow p) w - onAcct b (p.amount + p.incentive) w) ∧
    s'.payments snd id = some { p with state := .finished } := by
  have := C06_resolve_any_fees hr h ho hpar hp hfit hd
  rwa [chargedOnDispute_uniform _ hu, chargedOnDispute_uniform _ hv] at this

example : ∃ s', dispatch cfg (env 0) disputed .root (.resolveDispute 7 ⟨30, .beneficiary⟩) = .ok s' ∧
    s'.ledger.bal 0 1 = ⟨8897 + 103 - 3 - 100 + 700, 0⟩ ∧ s'.ledger.bal 0 2 = ⟨10000 + 300, 0⟩ ∧
    s'.ledger.bal 0 99 = ⟨10100, 0⟩ ∧ s'.ledger.bal 0 51 = ⟨10000, 0⟩ ∧
    NoDust disputed.ledger s'.ledger 0 :=
  ⟨_, rfl, by decide, by decide, by decide, by decide, by decide, by decide⟩

/-! ## C07 -/

/-- C07: for every fee list and incentive, the sender amount computed for a hold (`pay`), for a cancellation,
for a release and for a dispute is the same number, the capped sum of all entries and the incentive. -/
theorem C07_hold_equals_release (fees : List Fee) (incentive : Nat) (isDispute : Bool) :
    satAdd (satAdd (summary fees isDispute).discount incentive) (summary fees isDispute).ret =
      min (feeTotal fees + incentive) BAL_MAX := by
  have := holdTotal_eq ⟨0, 0, 0, incentive, .created, ⟨fees, []⟩⟩ isDispute
  simpa [senderEscrow] using this

example : satAdd (satAdd (summary [⟨1, BAL_MAX, true⟩, ⟨2, 5, false⟩] true).discount 7)
    (summary [⟨1, BAL_MAX, true⟩, ⟨2, 5, false⟩] true).ret = BAL_MAX := by decide

/-- The call ends payment `id` of `snd`: it cancels it, its sender releases it, or a dispute about it is resolved.
Specification only, no code behind it (outside /repo). -/
def Ends (cfg : Config) (snd : Acct) (id : PId) (o : Origin) (c : Call) : Prop :=
  c = .cancel id ∨ (c = .release id ∧ cfg.senderOrigin o = some snd) ∨ ∃ r, c = .resolveDispute id r

/-- The call resolves a dispute. Specification only, no code behind it (outside /repo). -/
def Call.resolves : Call → Bool
  | .resolveDispute _ _ => true
  | _ => false

/-- C07 in terms of the calls: what a call that ends a payment takes off the holds is, account by account, exactly what
`pay` put on hold, whatever the fees and their flags, also if their sum saturates, and whatever happened in between; a
dispute takes off the beneficiary's incentive as well, which `dispute_refund` put there. -/
theorem C07_every_end {cfg : Config} {env env' : Env} {s s1 s3 : St} {o o' : Origin} {bA : Addr}
    {a : Asset} {n : Nat} {r : Option (List Nat)} {snd b : Acct} {id : PId} {acts : List Act} {c : Call}
    (hr : Reachable cfg s)
    (hpay : dispatch cfg env s o (.pay bA a n r) = .ok s1)
    (ho : cfg.senderOrigin o = some snd) (hlk : cfg.lookup bA = some b) (hid : env.nextId snd b = some id)
    (hopen : ∀ k, (run cfg s1 (acts.take k)).payments snd id ≠ none)
    (hpar : (run cfg s1 acts).parties id = some (snd, b))
    (hend : dispatch cfg env' (run cfg s1 acts) o' c = .ok s3) (hc : Ends cfg snd id o' c) (w : Acct) :
    (((run cfg s1 acts).ledger.bal a w).held : Int) - (s3.ledger.bal a w).held =
      ((s1.ledger.bal a w).held : Int) - (s.ledger.bal a w).held +
        (if c.resolves = true ∧ w = b then ((cfg.incentivePct * n / 100 : Nat) : Int) else 0) := by
  obtain ⟨snd', b', id', h1, h2, h3, hex, hrec, hpar1, _⟩ := C03_pay_escrows_exactly hpay
  rw [ho] at h1; cases h1
  rw [hlk] at h2; cases h2
  rw [hid] at h3; cases h3
  have hr1 : Reachable cfg s1 := by
    have := Reach.step (.call env o (.pay bA a n r)) hr (trivial : (fun _ _ => True) _ _)
    simp only [exec, hpay, settle] at this
    exact this
  obtain ⟨q, hq, hcore⟩ := core_along acts hrec (by simp) hopen
  have hqa : q.asset = a := hcore.1.symm
  have hqn : q.amount = n := hcore.2.1.symm
  have hqb : q.beneficiary = b := hcore.2.2.1.symm
  have hqi : q.incentive = cfg.incentivePct * n / 100 := hcore.2.2.2.1.symm
  have hse : senderEscrow q =
      min (feeTotal (cfg.applyFees s.ledger.minBal a snd b n r).senderPays + cfg.incentivePct * n / 100)
        BAL_MAX := by
    unfold senderEscrow; rw [← hcore.2.2.2.2, ← hcore.2.2.2.1]
  have hh := hex.held w
  rw [← hse] at hh
  rcases hc with rfl | ⟨rfl, hs⟩ | ⟨res, rfl⟩
  · obtain ⟨snd', b', p', L, h1, hpar', hp', hl, hs⟩ := cancel_ok hend
    rw [hpar] at hpar'; cases hpar'
    rw [hq] at hp'; cases hp'
    have hl' : s3.ledger = L := by rcases hs with ⟨_, rfl⟩ | ⟨_, rfl⟩ <;> rfl
    have e := (cancelPayment_eff hl).held w
    rw [hqa, hqb, hqn] at e
    rw [hl', e, hh, if_neg (by simp [Call.resolves])]
    simp only [onAcct_neg]
    omega
  · obtain ⟨snd', p', L, h1, hp', hst, hl, rfl⟩ := release_ok hend
    rw [hs] at h1; cases h1
    rw [hq] at hp'; cases hp'
    have e := (settleLedger_eff hl).held w
    rw [hqa, hqb] at e
    rw [hh, if_neg (by simp [Call.resolves])]
    show _ - ((L.bal a w).held : Int) = _
    rw [e]
    simp only [onAcct_neg, benRelease, Option.isSome, hqn]
    simp
    omega
  · obtain ⟨resolver, snd', b', p', L, h1, hpar', hp', hst, hl, rfl⟩ := resolveDispute_ok hend
    rw [hpar] at hpar'; cases hpar'
    rw [hq] at hp'; cases hp'
    have hsat := review_no_saturation (reach_run hr1 acts).inv hq hst
    have hb : benRelease q true = n + cfg.incentivePct * n / 100 := by
      rw [hqn, hqi] at hsat
      simp only [benRelease, satAdd, if_true, hqn, hqi]; omega
    have e := (settleLedger_eff hl).held w
    rw [hqa] at e
    rw [hh]
    show _ - ((L.bal a w).held : Int) = _
    rw [e]
    have hb' : benRelease q (some (res, resolver)).isSome = n + cfg.incentivePct * n / 100 := hb
    rw [hb']
    by_cases hw : w = b
    · rw [if_pos (⟨rfl, hw⟩ : (Call.resolveDispute id res).resolves = true ∧ w = b)]
      subst hw
      by_cases hs : w = snd
      · simp only [onAcct, hs, if_true]; push_cast; omega
      · simp only [onAcct, hs, if_true, if_false]; push_cast; omega
    · rw [if_neg (fun h => hw h.2 : ¬ ((Call.resolveDispute id res).resolves = true ∧ w = b))]
      simp only [onAcct, hw, if_false]
      by_cases hs : w = snd
      · simp only [hs, if_true]; omega
      · simp only [hs, if_false]; omega

/-- Example for non-vacuity (outside /repo): a payment, a request for a refund and a dispute about it, resolved. -/
example : Ends cfg 1 7 .root (.resolveDispute 7 ⟨30, .beneficiary⟩) ∧
    (∃ s', dispatch cfg (env 0) disputed .root (.resolveDispute 7 ⟨30, .beneficiary⟩) = .ok s') ∧
    disputed.parties 7 = some (1, 2) ∧ (disputed.ledger.bal 0 1).held = 103 ∧ (disputed.ledger.bal 0 2).held = 1100 :=
  ⟨.inr (.inr ⟨_, rfl⟩), ⟨_, rfl⟩, by decide, by decide, by decide⟩

/-! ## C13, C14 -/

/-- C13 (partial: assumes the id's index entry still belongs to this sender, which an id collision can break,
see `C13_wrong_beneficiary_fails`): `accept_and_pay` on a request moves exactly the fees of both sides and the
amount to the requester, uses no hold and leaves the payment finished. -/
theorem C13_accept_exact_partial {cfg : Config} {env : Env} {s s' : St} {o : Origin} {id : PId} {snd b : Acct}
    {p : Payment} (hr : Reachable cfg s) (h : dispatch cfg env s o (.acceptAndPay id) = .ok s')
    (ho : cfg.senderOrigin o = some snd) (hpar : s.parties id = some (snd, b))
    (hp : s.payments snd id = some p) (hfit : FeesFit p) (hd : NoDust s.ledger s'.ledger p.asset) :
    Exactly s.ledger s'.ledger p.asset
      (feeMoves snd p.fees.senderPays ++ [⟨snd, p.beneficiary, p.amount⟩] ++
        feeMoves p.beneficiary p.fees.beneficiaryPays) (fun _ => 0) ∧
    s'.payments snd id = some { p with state := .finished } := by
  obtain ⟨snd', s0', b', p', L1, L2, L3, h1, hpar', hp', e1, e2, e3, rfl⟩ := acceptAndPay_ok h
  rw [ho] at h1; cases h1
  rw [hpar] at hpar'; cases hpar'
  rw [hp] at hp'; cases hp'
  obtain ⟨q, hq, hqb⟩ := hr.inv.parties _ _ _ hpar
  rw [hp] at hq; cases hq
  refine ⟨?_, setPayment_same _ _ _ _⟩
  rw [hqb]
  refine ((accept_eff e1 e2 e3).congr ?_ (fun _ => rfl)).exactly hd
  intro w; simp only [net_append, agg_net _ hfit.1, agg_net _ hfit.2]

example : ∃ s', dispatch cfg (env 0) requested (.signed 1) (.acceptAndPay 7) = .ok s' ∧
    s'.ledger.bal 0 1 = ⟨10000 - 1003, 0⟩ ∧ s'.ledger.bal 0 2 = ⟨10997, 0⟩ ∧
    NoDust requested.ledger s'.ledger 0 := ⟨_, rfl, by decide, by decide, by decide, by decide⟩

/-- C13 fails in general: after two requests that got the same id, the first sender's `accept_and_pay` pays the
second requester (4) instead of the one who asked (2). -/
theorem C13_wrong_beneficiary_fails :
    ∃ s s', Reachable cfg s ∧ (s.payments 1 7).map (·.beneficiary) = some 2 ∧
      dispatch cfg (env 0) s (.signed 1) (.acceptAndPay 7) = .ok s' ∧
      s'.ledger.bal 0 2 = s.ledger.bal 0 2 ∧ (s'.ledger.bal 0 4).free = (s.ledger.bal 0 4).free + 1000 - 3 :=
  ⟨run cfg s0 [aRequest 7 1 2 1000, aRequest 7 3 4 1000], _, reachable _, by decide, rfl, by decide, by decide⟩

/-- C14: `request_payment` changes no balance, hold or scheduled task; it records the request under the named
sender with the caller as beneficiary. -/
theorem C14_request_moves_nothing {cfg : Config} {env : Env} {s s' : St} {o : Origin} {sA : Addr} {a : Asset}
    {n : Nat} (h : dispatch cfg env s o (.requestPayment sA a n) = .ok s') :
    s'.ledger = s.ledger ∧ s'.agenda = s.agenda ∧
    ∃ snd b id, cfg.lookup sA = some snd ∧ cfg.beneficiaryOrigin o = some b ∧ env.nextId snd b = some id ∧
      (∃ p, s'.payments snd id = some p ∧ p.state = .paymentRequested ∧ p.asset = a ∧ p.amount = n ∧
        p.beneficiary = b) ∧
      s'.parties id = some (snd, b) := by
  obtain ⟨snd, b, id, h1, h2, h3, hreq, rfl⟩ := requestPayment_ok h
  exact ⟨rfl, rfl, snd, b, id, h2, h1, h3, ⟨_, setPayment_same _ _ _ _, rfl, rfl, rfl, rfl⟩, by simp [setAt]⟩

/-- C14: only the named sender can fulfil it: if some call or task leaves a requested payment finished, it was
`accept_and_pay` by the origin of that sender. -/
theorem C14_only_sender_fulfils {cfg : Config} {s : St} {act : Act} {snd : Acct} {id : PId} {p q : Payment}
    (hp : s.payments snd id = some p) (hst : p.state = .paymentRequested)
    (hq : (exec cfg s act).payments snd id = some q) (hfin : q.state = .finished) :
    ∃ env o, act = .call env o (.acceptAndPay id) ∧ cfg.senderOrigin o = some snd := by
  rcases exec_record_key cfg s act snd id with h | h
  · rw [h, hp] at hq; cases hq; rw [hst] at hfin; cases hfin
  · rw [hp, hq] at h
    cases h with
    | pay => simp [newPayment] at hfin
    | request => simp [newPayment] at hfin
    | release _ _ _ _ _ _ hc => rw [hst] at hc; cases hc
    | refund => simp at hfin
    | accept env o _ _ _ h1 => exact ⟨env, o, rfl, h1⟩
    | dispute => simp at hfin
    | resolve _ _ _ _ _ _ _ _ _ _ hc => rw [hst] at hc; cases hc

example : stateOf requested 1 7 = some .paymentRequested ∧
    stateOf (exec cfg requested (aCall 1 (.acceptAndPay 7))) 1 7 = some .finished := by decide

/-! ## C23 -/

/-- C23 (partial: for histories in which `accept_and_pay` never hits a payment in escrow): what is held on any
account is exactly the sum of the escrows of the finitely many payments on record. -/
theorem C23_no_stranded_holds_partial {cfg : Config} {s : St} (h : Reach cfg (AcceptsNoOpen cfg) s) :
    ∃ ks : Finset (Acct × PId), (∀ k, k ∉ ks → s.payments k.1 k.2 = none) ∧
      ∀ a w, (s.ledger.bal a w).held = ∑ k ∈ ks, escrowAt s k a w := by
  obtain ⟨ks, h1, h2⟩ := h.exactlyBacked
  exact ⟨ks, h1, fun a w => (h2 a w).symm⟩

example : Reach cfg (AcceptsNoOpen cfg) paid := by
  refine .step (s := s0) (aPay 7 1 2 1000) (.init s0_initial) ?_
  intro env o id snd p h; cases h

/-- The state after `pay` and then `accept_and_pay` on the same payment. Example for non-vacuity (outside /repo). -/
def paidTwice : St := run cfg s0 [aPay 7 1 2 1000, aCall 1 (.acceptAndPay 7)]

/-- C23 fails in general: after `accept_and_pay` on an escrowed payment no open payment is left anywhere but
1000 stay held on the beneficiary and 103 on the sender. -/
theorem C23_stranded_holds_fails : Reachable cfg paidTwice ∧
    (∀ snd id p, paidTwice.payments snd id = some p → p.state.isOpen = false) ∧
    (paidTwice.ledger.bal 0 2).held = 1000 ∧ (paidTwice.ledger.bal 0 1).held = 103 := by
  refine ⟨reachable _, ?_, by decide, by decide⟩
  intro snd id p hp
  have : paidTwice.payments = setPayment (setPayment (fun _ _ => none) 1 7
      (some ⟨0, 1000, 2, 100, .created, ⟨[⟨50, 2, true⟩, ⟨50, 1, true⟩], [⟨51, 3, false⟩]⟩⟩)) 1 7
      (some ⟨0, 1000, 2, 100, .finished, ⟨[⟨50, 2, true⟩, ⟨50, 1, true⟩], [⟨51, 3, false⟩]⟩⟩) := rfl
  rw [this] at hp
  simp only [setPayment] at hp
  split_ifs at hp
  cases hp; rfl

/-! ## C26, C27 -/

/-- C27: summarising a fee list gives recipients in strictly increasing order, exactly the accounts of the
list, each with the (capped) sum of its entries, and the capped total. -/
theorem C27_aggregation_lossless (fees : List Fee) (isDispute : Bool) :
    (summary fees isDispute).recipients.Pairwise (fun f g => f.to < g.to) ∧
    (∀ x, (∃ f ∈ (summary fees isDispute).recipients, f.to = x) ↔ ∃ f ∈ fees, f.to = x) ∧
    (∀ f ∈ (summary fees isDispute).recipients,
      f.amt = min (feeTotal (fees.filter (fun g => g.to == f.to))) BAL_MAX) ∧
    (summary fees false).discount = min (feeTotal fees) BAL_MAX := by
  rw [summary_recipients]
  refine ⟨agg_sorted fees, agg_to_mem fees, ?_, (summary_false_discount fees).1⟩
  intro f hf
  have h1 := agg_amtOf fees f.to
  have h2 : amtOf (agg fees) f.to = f.amt := by
    have : ∀ l : List Fee, l.Pairwise (fun a b => a.to < b.to) → f ∈ l → amtOf l f.to = f.amt := by
      intro l
      induction l with
      | nil => intro _ h; cases h
      | cons g gs ih =>
        intro hs hm
        have hs' := List.pairwise_cons.1 hs
        rw [amtOf_cons]
        rcases List.mem_cons.1 hm with rfl | hm
        · have : amtOf gs f.to = 0 := by
            have : gs.filter (fun x => x.to == f.to) = [] := by
              rw [List.filter_eq_nil_iff]
              intro y hy e
              have := hs'.1 y hy
              rw [beq_iff_eq] at e
              rw [e] at this; exact lt_irrefl _ this
            simp [amtOf, this]
          rw [this]; simp
        · rw [ih hs'.2 hm, if_neg]
          · simp
          · intro e
            have := hs'.1 f hm
            rw [e] at this; exact lt_irrefl _ this
    exact this _ (agg_sorted fees) hf
  rw [← h2, h1]; rfl

/-- C27: paying the aggregated list moves to each account exactly what paying every entry would. -/
theorem C27_aggregation_same_effect (fees : List Fee) (isDispute : Bool) (h : feeTotal fees ≤ BAL_MAX)
    (payer w : Acct) :
    net (feeMoves payer (summary fees isDispute).recipients) w = net (feeMoves payer fees) w := by
  rw [summary_recipients]; exact agg_net fees h payer w

example : (summary [⟨9, 5, true⟩, ⟨3, 1, true⟩, ⟨9, 2, false⟩] false).recipients =
    [⟨3, 1, true⟩, ⟨9, 7, true⟩] := by decide

/-- C26 (partial: for fee lists in which no recipient has both kinds of entries): the fee transfers of a dispute
move exactly the chargeable entries. -/
theorem C26_dispute_charges_flagged_partial {env : LedgerEnv} {L L' : Ledger} {a : Asset} {payer : Acct}
    {fees : List Fee} (hfit : feeTotal fees ≤ BAL_MAX) (hu : UniformFlags fees)
    (h : tryTransferFees env L a payer true (summary fees true).recipients = .ok L') :
    Exactly L L' a (feeMoves payer (chargeable fees)) (fun _ => 0) := by
  rw [summary_recipients] at h
  obtain ⟨e, d⟩ := tryTransferFees_eff h
  refine (e.congr ?_ (fun _ => rfl)).exactly d
  intro w; simp only [if_true]; exact agg_net_chargeable fees hfit hu payer w

/-- C26, for every fee list: the fee transfers of a dispute move exactly the entries of the recipients whose first entry
is chargeable. -/
theorem C26_dispute_charges_by_first {env : LedgerEnv} {L L' : Ledger} {a : Asset} {payer : Acct}
    {fees : List Fee} (hfit : feeTotal fees ≤ BAL_MAX)
    (h : tryTransferFees env L a payer true (summary fees true).recipients = .ok L') :
    Exactly L L' a (feeMoves payer (chargedOnDispute fees)) (fun _ => 0) := by
  rw [summary_recipients] at h
  obtain ⟨e, d⟩ := tryTransferFees_eff h
  refine (e.congr ?_ (fun _ => rfl)).exactly d
  intro w; simp only [if_true]; exact agg_net_disputed fees hfit payer w

example : chargedOnDispute [⟨50, 2, true⟩, ⟨51, 3, false⟩, ⟨50, 5, false⟩, ⟨51, 4, true⟩] =
    [⟨50, 2, true⟩, ⟨50, 5, false⟩] := by decide

/-- Account 50 gets a chargeable fee of 2 and one of 5 that is not chargeable on disputes. Example for non-vacuity
(outside /repo). -/
def mixedCfg : Config := { cfg with applyFees := fun _ _ _ _ _ _ => ⟨[⟨50, 2, true⟩, ⟨50, 5, false⟩], []⟩ }
/-- The same with the entries swapped. Example for non-vacuity (outside /repo). -/
def mixedCfg' : Config := { cfg with applyFees := fun _ _ _ _ _ _ => ⟨[⟨50, 5, false⟩, ⟨50, 2, true⟩], []⟩ }

/-- C26 fails in general: with mixed flags for one recipient a dispute charges either everything (7 instead of
2) or nothing (0 instead of 2), depending on which entry comes first. -/
theorem C26_mixed_flags_fails :
    (∃ s', dispatch mixedCfg (env 0) (run mixedCfg s0 [aPay 7 1 2 1000, aCall 1 (.requestRefund 7),
        aCall 2 (.disputeRefund 7)]) .root (.resolveDispute 7 ⟨100, .beneficiary⟩) = .ok s' ∧
      (s'.ledger.bal 0 50).free = 10007) ∧
    (∃ s', dispatch mixedCfg' (env 0) (run mixedCfg' s0 [aPay 7 1 2 1000, aCall 1 (.requestRefund 7),
        aCall 2 (.disputeRefund 7)]) .root (.resolveDispute 7 ⟨100, .beneficiary⟩) = .ok s' ∧
      (s'.ledger.bal 0 50).free = 10000) :=
  ⟨⟨_, rfl, by decide⟩, ⟨_, rfl, by decide⟩⟩

/-! ## C28 -/

theorem net_feeMoves_ge (payer : Acct) (fees : List Fee) (w : Acct) :
    - (if w = payer then (feeTotal fees : Int) else 0) ≤ net (feeMoves payer fees) w := by
  induction fees with
  | nil => simp [feeMoves]
  | cons f fs ih =>
    rw [feeMoves_cons, net_cons, feeTotal_cons]
    simp only [mvAt]
    push_cast
    split_ifs at ih ⊢ <;> first | omega | (exfalso; simp_all)

/-- C28 (partial: if the beneficiary's fees do not exceed the amount): over `pay` and `release` the beneficiary
never ends up with less than before `pay`. -/
theorem C28_beneficiary_never_loses_partial {cfg : Config} {env : Env} {s s' : St} {o : Origin} {id : PId}
    {snd : Acct} {p : Payment} (h : dispatch cfg env s o (.release id) = .ok s')
    (ho : cfg.senderOrigin o = some snd) (hp : s.payments snd id = some p) (hfit : FeesFit p)
    (hne : snd ≠ p.beneficiary) (hle : feeTotal p.fees.beneficiaryPays ≤ p.amount) :
    s.ledger.total p.asset p.beneficiary - p.amount ≤ s'.ledger.total p.asset p.beneficiary := by
  obtain ⟨e, _⟩ := C04_release_exact h ho hp hfit
  rw [e.total, net_append]
  have h1 := net_feeMoves_ge snd p.fees.senderPays p.beneficiary
  have h2 := net_feeMoves_ge p.beneficiary p.fees.beneficiaryPays p.beneficiary
  rw [if_neg (Ne.symm hne)] at h1
  rw [if_pos rfl] at h2
  omega

example : feeTotal [⟨51, 3, false⟩] ≤ 1000 := by decide

/-- C28 fails in general: a payment of 1 whose beneficiary fee is 3 costs the beneficiary 2, and the beneficiary
cannot prevent it because the sender releases. -/
theorem C28_beneficiary_loses_fails :
    (run cfg s0 [aPay 7 1 2 1, aCall 1 (.release 7)]).ledger.total 0 2 = s0.ledger.total 0 2 - 2 := by decide

/-! ## C31, C32 -/

/-- C31: the loser of a dispute pays exactly one incentive to the resolver, both incentive holds are gone, and
the two payouts of the amount add up to the amount (for parties, resolver and fee recipients all distinct,
the changes of the three totals are spelled out). -/
theorem C31_dispute_incentives {cfg : Config} {env : Env} {s s' : St} {o : Origin} {id : PId}
    {snd b resolver : Acct} {p : Payment} {r : DisputeResult} (hr : Reachable cfg s)
    (h : dispatch cfg env s o (.resolveDispute id r) = .ok s') (ho : cfg.disputeResolver o = some resolver)
    (hpar : s.parties id = some (snd, b)) (hp : s.payments snd id = some p) (hfit : FeesFit p)
    (hd : NoDust s.ledger s'.ledger p.asset) (hpct : r.pct ≤ 100)
    (d1 : snd ≠ b) (d2 : snd ≠ resolver) (d3 : b ≠ resolver)
    (d4 : ∀ f ∈ p.fees.senderPays ++ p.fees.beneficiaryPays, f.to ≠ snd ∧ f.to ≠ b ∧ f.to ≠ resolver) :
    ∃ toSender toBeneficiary : Nat, toSender + toBeneficiary = p.amount ∧
      toSender = (match r.inFavorOf with
        | .sender => r.pct * p.amount / 100
        | .beneficiary => p.amount - r.pct * p.amount / 100) ∧
      s'.ledger.total p.asset resolver = s.ledger.total p.asset resolver + p.incentive ∧
      s'.ledger.total p.asset snd = s.ledger.total p.asset snd - feeTotal (chargedOnDispute p.fees.senderPays)
        + toSender - (if r.inFavorOf = .beneficiary then (p.incentive : Int) else 0) ∧
      s'.ledger.total p.asset b = s.ledger.total p.asset b - p.amount + toBeneficiary
        - feeTotal (chargedOnDispute p.fees.beneficiaryPays)
        - (if r.inFavorOf = .sender then (p.incentive : Int) else 0) := by
  obtain ⟨e, _⟩ := C06_resolve_any_fees hr h ho hpar hp hfit hd
  have key : ∀ (payer x : Acct) (fees : List Fee), (∀ f ∈ fees, f.to ≠ x) →
      net (feeMoves payer fees) x = if payer = x then - (feeTotal fees : Int) else 0 := by
    intro payer x fees hf
    induction fees with
    | nil => simp [feeMoves, feeTotal]
    | cons f fs ih =>
      have ih' := ih (fun g hg => hf g (List.mem_cons_of_mem _ hg))
      split_ifs with hx
      · rw [feeMoves_cons, net_cons, ih', feeTotal_cons]
        simp only [mvAt, hf f (by simp), if_false, hx, if_true]; push_cast; omega
      · rw [feeMoves_cons, net_cons, ih']
        simp only [mvAt, hf f (by simp), if_false, hx]; omega
  have ks := fun x (hx : ∀ f ∈ p.fees.senderPays, f.to ≠ x) => key snd x (chargedOnDispute p.fees.senderPays) fun f hf => hx f (List.mem_of_mem_filter hf)
  have kb := fun x (hx : ∀ f ∈ p.fees.beneficiaryPays, f.to ≠ x) => key b x (chargedOnDispute p.fees.beneficiaryPays) fun f hf => hx f (List.mem_of_mem_filter hf)
  have hs : ∀ f ∈ p.fees.senderPays, f.to ≠ snd ∧ f.to ≠ b ∧ f.to ≠ resolver :=
    fun f hf => d4 f (List.mem_append_left _ hf)
  have hb : ∀ f ∈ p.fees.beneficiaryPays, f.to ≠ snd ∧ f.to ≠ b ∧ f.to ≠ resolver :=
    fun f hf => d4 f (List.mem_append_right _ hf)
  have hle : r.pct * p.amount / 100 ≤ p.amount := by
    calc r.pct * p.amount / 100 ≤ 100 * p.amount / 100 := Nat.div_le_div_right (Nat.mul_le_mul_right _ hpct)
      _ = p.amount := by omega
  have e1 := e.total resolver
  have e2 := e.total snd
  have e3 := e.total b
  rw [net_append, net_append, ks resolver (fun f hf => (hs f hf).2.2), kb resolver (fun f hf => (hb f hf).2.2)] at e1
  rw [net_append, net_append, ks snd (fun f hf => (hs f hf).1), kb snd (fun f hf => (hb f hf).1)] at e2
  rw [net_append, net_append, ks b (fun f hf => (hs f hf).2.1), kb b (fun f hf => (hb f hf).2.1)] at e3
  cases hw : r.inFavorOf with
  | sender =>
    refine ⟨r.pct * p.amount / 100, p.amount - r.pct * p.amount / 100, by omega, rfl, ?_, ?_, ?_⟩
    · rw [e1]; simp only [resolutionMoves, hw, net_cons, net_nil, mvAt]; simp [d1, d2, d3]
    · rw [e2]; simp only [resolutionMoves, hw, net_cons, net_nil, mvAt]; simp [d1.symm, d2.symm]; omega
    · rw [e3]; simp only [resolutionMoves, hw, net_cons, net_nil, mvAt]; simp [d1, d3.symm]; omega
  | beneficiary =>
    refine ⟨p.amount - r.pct * p.amount / 100, r.pct * p.amount / 100, by omega, rfl, ?_, ?_, ?_⟩
    · rw [e1]; simp only [resolutionMoves, hw, net_cons, net_nil, mvAt]; simp [d2, d3]
    · rw [e2]; simp only [resolutionMoves, hw, net_cons, net_nil, mvAt]; simp [d1.symm, d2.symm]; omega
    · rw [e3]; simp only [resolutionMoves, hw, net_cons, net_nil, mvAt]; simp [d1, d3.symm]; omega

example : (50 : Nat) ≠ 1 ∧ (50 : Nat) ≠ 2 ∧ (50 : Nat) ≠ 99 := by decide

/-- C32: a successful release takes exactly the payment's escrow out of the holds of every account, and leaves
no escrow for it. -/
theorem C32_release_empties_escrow {cfg : Config} {env : Env} {s s' : St} {o : Origin} {id : PId} {snd : Acct}
    (h : dispatch cfg env s o (.release id) = .ok s') (ho : cfg.senderOrigin o = some snd) :
    (∀ a w, (s'.ledger.bal a w).held + escrowAt s (snd, id) a w = (s.ledger.bal a w).held) ∧
    (∀ a w, escrowAt s' (snd, id) a w = 0) := by
  obtain ⟨snd', p, L, h1, hp, hst, hl, rfl⟩ := release_ok h
  rw [ho] at h1; cases h1
  have e := settleLedger_eff hl
  refine ⟨?_, ?_⟩
  · intro a w
    rw [escrowAt_eq]
    simp only [hp, escO]
    by_cases ha : a = p.asset
    · subst ha
      have h1 := e.held w
      have h2 := escrow_created hst snd w
      simp only [benRelease, Option.isSome, onAcct_neg] at h1
      simp at h1; omega
    · rw [(e.other a ha).1, escrow_other ha]; rfl
  · intro a w
    rw [escrowAt_eq]; simp only [setPayment_same]
    exact escrow_finished (p := { p with state := .finished }) rfl snd a w

/-- C32: a successful dispute resolution takes exactly the payment's escrow out of the holds. -/
theorem C32_resolve_empties_escrow {cfg : Config} {env : Env} {s s' : St} {o : Origin} {id : PId} {snd b : Acct}
    {r : DisputeResult} (hr : Reachable cfg s) (h : dispatch cfg env s o (.resolveDispute id r) = .ok s')
    (hpar : s.parties id = some (snd, b)) :
    (∀ a w, (s'.ledger.bal a w).held + escrowAt s (snd, id) a w = (s.ledger.bal a w).held) ∧
    (∀ a w, escrowAt s' (snd, id) a w = 0) := by
  obtain ⟨resolver', snd', b', p, L, h1, hpar', hp, hst, hl, rfl⟩ := resolveDispute_ok h
  rw [hpar] at hpar'; cases hpar'
  obtain ⟨q, hq, hqb⟩ := hr.inv.parties _ _ _ hpar
  rw [hp] at hq; cases hq
  have e := settleLedger_eff hl
  have hsat := review_no_saturation hr.inv hp hst
  refine ⟨?_, ?_⟩
  · intro a w
    rw [escrowAt_eq]
    simp only [hp, escO]
    by_cases ha : a = p.asset
    · subst ha
      have h1 := e.held w
      have h2 := escrow_review hst snd w
      have h3 : benRelease p true = p.amount + p.incentive := by
        simp only [benRelease, satAdd, if_true]; omega
      simp only [Option.isSome, onAcct_neg, h3] at h1
      rw [hqb] at h2
      omega
    · rw [(e.other a ha).1, escrow_other ha]; rfl
  · intro a w
    rw [escrowAt_eq]; simp only [setPayment_same]
    exact escrow_finished (p := { p with state := .finished }) rfl snd a w

/-! ## C33 -/

/-- The two parties of the payment a call is about. Specification only, no code behind it (outside /repo). -/
def IsParty (cfg : Config) (s : St) (o : Origin) : Call → Acct → Prop
  | .pay _ _ _ _, w => cfg.senderOrigin o = some w
  | .release id, w =>
    ∃ snd p, cfg.senderOrigin o = some snd ∧ s.payments snd id = some p ∧ (w = snd ∨ w = p.beneficiary)
  | .acceptAndPay id, w => cfg.senderOrigin o = some w ∨ ∃ x, s.parties id = some (x, w)
  | .cancel id, w | .disputeRefund id, w | .resolveDispute id _, w =>
    ∃ snd b, s.parties id = some (snd, b) ∧ (w = snd ∨ w = b)
  | .requestRefund _, _ | .requestPayment _ _ _, _ => False

/-- C33: an account that is not a party of the payment concerned never loses free or held balance in any asset
by a successful call. -/
theorem C33_third_parties_never_lose {cfg : Config} {env : Env} {s s' : St} {o : Origin} {c : Call}
    (hr : Reachable cfg s) (h : dispatch cfg env s o c = .ok s') (a : Asset) (w : Acct)
    (hw : ¬ IsParty cfg s o c w) :
    (s.ledger.bal a w).free ≤ (s'.ledger.bal a w).free ∧ (s.ledger.bal a w).held ≤ (s'.ledger.bal a w).held := by
  suffices Spares s.ledger s'.ledger (IsParty cfg s o c) from this a w hw
  cases c with
  | pay bA a n r =>
    obtain ⟨snd, b, id, L, h1, h2, h3, hreq, hrs, rfl⟩ := pay_ok h
    exact reserve_spares hrs _ h1
  | release id =>
    obtain ⟨snd, p, L, h1, hp, hst, hl, rfl⟩ := release_ok h
    exact settleLedger_spares hl _ ⟨snd, p, h1, hp, Or.inl rfl⟩ ⟨snd, p, h1, hp, Or.inr rfl⟩
  | requestRefund id =>
    obtain ⟨snd, p, _, hp, hst, _, hnone, _, _, rfl⟩ := requestRefund_ok h
    exact Spares.refl _ _
  | acceptAndPay id =>
    obtain ⟨snd, s0, b, p, L1, L2, L3, ho, hpar, hp, h1, h2, h3, rfl⟩ := acceptAndPay_ok h
    exact ((tryTransferFees_spares h1 _ (Or.inl ho)).trans (transfer_spares h2 _ (Or.inl ho))).trans
      (tryTransferFees_spares h3 _ (Or.inr ⟨s0, hpar⟩))
  | cancel id =>
    obtain ⟨snd, b, p, L, _, hpar, hp, hl, hs⟩ := cancel_ok h
    have hl' : s'.ledger = L := by rcases hs with ⟨_, rfl⟩ | ⟨_, rfl⟩ <;> rfl
    obtain ⟨q, hq, hqb⟩ := hr.inv.parties _ _ _ hpar
    rw [hp] at hq; cases hq
    rw [hl']; exact cancelPayment_spares hl _ ⟨snd, b, hpar, Or.inl rfl⟩ ⟨snd, b, hpar, Or.inr hqb⟩
  | disputeRefund id =>
    obtain ⟨snd, b, p, cb, L, _, hpar, hp, hst, _, hh, _, rfl⟩ := disputeRefund_ok h
    exact hold_spares hh _ ⟨snd, b, hpar, Or.inr rfl⟩
  | requestPayment sA a n =>
    obtain ⟨snd, b, id, h1, h2, h3, hreq, rfl⟩ := requestPayment_ok h
    exact Spares.refl _ _
  | resolveDispute id r =>
    obtain ⟨resolver, snd, b, p, L, _, hpar, hp, hst, hl, rfl⟩ := resolveDispute_ok h
    exact settleLedger_spares hl _ ⟨snd, b, hpar, Or.inl rfl⟩ ⟨snd, b, hpar, Or.inr rfl⟩

example : ¬ IsParty cfg disputed .root (.resolveDispute 7 ⟨30, .sender⟩) 50 := by
  rintro ⟨snd, b, h, h'⟩
  have : disputed.parties 7 = some (1, 2) := by decide
  rw [this] at h; cases h
  revert h'; decide

end Verif.Payments
