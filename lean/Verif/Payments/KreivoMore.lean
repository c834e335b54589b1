import Verif.Runtime.ClockTheorems
import Verif.Payments.Disputes

/-! # Payments on Kreivo: stored records, disputes, the refund window (C26, C28, C29, C96, C97) -/

namespace Verif.Payments

/-- Every reachable state has a history. -/
theorem Reachable.history {cfg : Config} {s : St} (h : Reachable cfg s) : ∃ z acts, Initial z ∧ s = run cfg z acts := by
  induction h with
  | @init s h => exact ⟨s, [], h, rfl⟩
  | step act _ _ ih =>
    obtain ⟨z, acts, hz, rfl⟩ := ih
    exact ⟨z, acts ++ [act], hz, by simp [run, List.foldl_append]⟩

namespace Kreivo

open Verif Verif.Accounts

/-- What a stored record looks like if `m` was the minimum of its asset when it was made. Specification only, no code behind
it (outside /repo). -/
def RecordOk (m : Nat) (snd : Acct) (p : Payment) : Prop :=
  p.fees = applyFees (fun _ => m) p.asset snd p.beneficiary p.amount none ∧ p.incentive = 10 * p.amount / 100

/-- In the history `acts` from `z` there is a call of `pay` or `request_payment` for this payment's asset and amount, by or to
these parties, which got this id; and at that moment `m` was the asset's minimum. Specification only, no code behind it
(outside /repo). -/
def MadeAt (z : St) (acts : List Act) (snd : Acct) (id : PId) (p : Payment) (m : Nat) : Prop :=
  ∃ pre env o c post, acts = pre ++ .call env o c :: post ∧ creates config o c = some (snd, p.beneficiary) ∧
    env.nextId snd p.beneficiary = some id ∧
    ((∃ b r, c = .pay b p.asset p.amount r) ∨ ∃ x, c = .requestPayment x p.asset p.amount) ∧
    m = (run config z pre).ledger.minBal p.asset

theorem MadeAt.later {z acts snd id p m} (h : MadeAt z acts snd id p m) (act : Act) (q : Payment)
    (hq : q.asset = p.asset ∧ q.amount = p.amount ∧ q.beneficiary = p.beneficiary) : MadeAt z (acts ++ [act]) snd id q m := by
  obtain ⟨pre, env, o, c, post, h1, h2, h3, h4, h5⟩ := h
  obtain ⟨e1, e2, e3⟩ := hq
  exact ⟨pre, env, o, c, post ++ [act], by rw [h1]; simp, by rw [e3]; exact h2, by rw [e3]; exact h3,
    by rw [e1, e2]; exact h4, by rw [e1]; exact h5⟩

theorem record_made {z : St} (hz : Initial z) (acts : List Act) :
    ∀ {snd id p}, (run config z acts).payments snd id = some p → ∃ m, MadeAt z acts snd id p m ∧ RecordOk m snd p := by
  induction acts using List.reverseRecOn with
  | nil => intro snd id p hp; rw [show (run config z []).payments = z.payments from rfl, hz.payments] at hp; cases hp
  | append_singleton acts act ih =>
    intro snd id p hp
    have er : run config z (acts ++ [act]) = exec config (run config z acts) act := by simp [run, List.foldl_append]
    rw [er] at hp
    have old : ∀ {q : Payment}, (run config z acts).payments snd id = some q → q.asset = p.asset → q.amount = p.amount →
        q.beneficiary = p.beneficiary → q.fees = p.fees → q.incentive = p.incentive →
        ∃ m, MadeAt z (acts ++ [act]) snd id p m ∧ RecordOk m snd p := by
      intro q hq e1 e2 e3 e4 e5
      obtain ⟨m, h1, h2, h3⟩ := ih hq
      refine ⟨m, h1.later act p ⟨e1.symm, e2.symm, e3.symm⟩, ?_, ?_⟩
      · rw [← e4, h2, e1, e2, e3]
      · rw [← e5, h3, e2]
    rcases exec_record_key config (run config z acts) act snd id with h | h
    · rw [h] at hp; exact old hp rfl rfl rfl rfl rfl
    · rw [hp] at h
      generalize hold : (run config z acts).payments snd id = was at h
      generalize hnew : some p = new at h
      cases h with
      | pay env o bA a n r snd b id was h1 h2 h3 =>
        cases hnew
        exact ⟨_, ⟨acts, env, o, _, [], rfl, by simp only [creates, h1, h2]; rfl, h3, .inl ⟨bA, r, rfl⟩, rfl⟩, rfl, rfl⟩
      | request env o sA a n snd b id was h1 h2 h3 =>
        cases hnew
        exact ⟨_, ⟨acts, env, o, _, [], rfl, by simp only [creates, h1, h2]; rfl, h3, .inr ⟨sA, rfl⟩, rfl⟩, rfl, rfl⟩
      | release => cases hnew; exact old hold rfl rfl rfl rfl rfl
      | refund => cases hnew; exact old hold rfl rfl rfl rfl rfl
      | accept => cases hnew; exact old hold rfl rfl rfl rfl rfl
      | cancel => cases hnew
      | fire => cases hnew
      | dispute => cases hnew; exact old hold rfl rfl rfl rfl rfl
      | resolve => cases hnew; exact old hold rfl rfl rfl rfl rfl

theorem record_ok {s : St} (hr : Reachable config s) {snd id p} (hp : s.payments snd id = some p) :
    ∃ m, RecordOk m snd p := by
  obtain ⟨z, acts, hz, rfl⟩ := hr.history
  obtain ⟨m, _, h⟩ := record_made hz acts hp
  exact ⟨m, h⟩

/-- C29: in every history every stored payment carries exactly the documented fees and incentive, whatever happened to it
since it was created: the floor of its fees is the minimum its asset had at that moment, also if it is another one now. -/
theorem C29_every_record {z : St} (hz : Initial z) (acts : List Act) {snd id p}
    (hp : (run config z acts).payments snd id = some p) :
    ∃ m, MadeAt z acts snd id p m ∧ Charges snd m 1 p.amount p.fees.senderPays ∧
      Charges p.beneficiary m 3 p.amount p.fees.beneficiaryPays ∧ p.incentive = 10 * p.amount / 100 := by
  obtain ⟨m, h0, h1, h2⟩ := record_made hz acts hp
  rw [h1]
  exact ⟨m, h0, charges _ _ _ _, charges _ _ _ _, h2⟩

-- The minimum rises from 10 to 1000 after the payment: its fees stay those of the time when it was made.
example : ∃ p, (run config s0 [.call env (.signed 1) (.pay (.id 2) 0 500 none), .setMin 0 1000]).payments 1 theId = some p ∧
    p.fees.senderPays = [⟨treasury, 10, true⟩] ∧ p.fees.beneficiaryPays = [⟨treasury, 15, true⟩] :=
  ⟨_, rfl, rfl, rfl⟩

theorem uniform_default (party : Acct) (min pct amount : Nat) :
    UniformFlags (if !isCommunity party then [defaultFee min pct amount] else []) := by
  split <;> simp [UniformFlags]

theorem chargeable_default (party : Acct) (min pct amount : Nat) :
    chargeable (if !isCommunity party then [defaultFee min pct amount] else []) =
      if !isCommunity party then [defaultFee min pct amount] else [] := by
  split <;> simp [chargeable, defaultFee]

/-- C26 on Kreivo, in full: no stored record mixes the two kinds of entries, and every entry is chargeable, so a
dispute charges exactly the fees a release would. -/
theorem C26_kreivo {s : St} (hr : Reachable config s) {snd id p} (hp : s.payments snd id = some p) :
    UniformFlags p.fees.senderPays ∧ UniformFlags p.fees.beneficiaryPays ∧
    chargeable p.fees.senderPays = p.fees.senderPays ∧ chargeable p.fees.beneficiaryPays = p.fees.beneficiaryPays := by
  obtain ⟨m, h1, h2⟩ := record_ok hr hp
  rw [h1]
  exact ⟨uniform_default _ _ _ _, uniform_default _ _ _ _, chargeable_default _ _ _ _, chargeable_default _ _ _ _⟩

theorem pct_le (k n : Nat) (hk : k ≤ 100) : k * n / 100 ≤ n := by
  apply Nat.div_le_of_le_mul
  exact Nat.mul_le_mul_right _ hk

theorem fees_fit {m : Nat} {snd : Acct} {p : Payment} (h : RecordOk m snd p)
    (hn : p.amount ≤ BAL_MAX) (hmin : m ≤ BAL_MAX) : FeesFit p := by
  obtain ⟨h1, _⟩ := h
  unfold FeesFit
  rw [h1]
  simp only [applyFees, feeList_total]
  have := pct_le 1 p.amount (by omega)
  have := pct_le 3 p.amount (by omega)
  have := feeOf_le snd m 1 p.amount
  have := feeOf_le p.beneficiary m 3 p.amount
  omega

/-- C28 on Kreivo, exactly when it fails: over `pay` and `release`, a beneficiary other than the treasury and the sender
ends up with less than before just when they are no community and the amount is below the minimum balance of the asset;
they then lose the difference. -/
theorem C28_kreivo {env env' : Env} {s s1 s3 : St} {o o' : Origin} {bA : Addr}
    {a : Asset} {n : Nat} {r : Option (List Nat)} {snd b : Acct} {id : PId} {acts : List Act}
    (hpay : dispatch config env s o (.pay bA a n r) = .ok s1)
    (ho : config.senderOrigin o = some snd) (hlk : config.lookup bA = some b) (hid : env.nextId snd b = some id)
    (hopen : ∀ k, (run config s1 (acts.take k)).payments snd id ≠ none)
    (hrel : dispatch config env' (run config s1 acts) o' (.release id) = .ok s3)
    (ho' : config.senderOrigin o' = some snd)
    (hn : n ≤ BAL_MAX) (hmin : s.ledger.minBal a ≤ BAL_MAX) (hne : snd ≠ b) (htb : b ≠ treasury) :
    let s2 := run config s1 acts
    let got := (s1.ledger.total a b - s.ledger.total a b) + (s3.ledger.total a b - s2.ledger.total a b)
    (got < 0 ↔ ¬ CommunityParty b ∧ n < s.ledger.minBal a) ∧ (got < 0 → got = (n : Int) - s.ledger.minBal a) := by
  intro s2 got
  have hb := (C30_lifecycle_exact hpay ho hlk hid hopen hrel ho' hn hmin b).1
  simp only [onAcct, if_neg hne.symm, if_neg htb, if_true] at hb
  have eg : got = n - feeOf b (s.ledger.minBal a) 3 n := by simp only [got, s2] at hb ⊢; linarith
  have h3 := pct_le 3 n (by omega)
  by_cases hc : CommunityParty b
  · rw [feeOf_community hc] at eg
    have : ¬ got < 0 := by omega
    exact ⟨⟨fun h => absurd h this, fun h => absurd hc h.1⟩, fun h => absurd h this⟩
  · have e : feeOf b (s.ledger.minBal a) 3 n = max (s.ledger.minBal a) (3 * n / 100) := by
      unfold feeOf
      rw [if_neg (fun h => hc ((isCommunity_iff _).1 h))]
    rw [e] at eg
    exact ⟨⟨fun h => ⟨hc, by omega⟩, fun h => by omega⟩, fun h => by omega⟩

-- With a minimum of 10, a payment of 3 costs its beneficiary 7.
example : ∃ s1 s3, dispatch config env s0 (.signed 1) (.pay (.id 2) 0 3 none) = .ok s1 ∧
    dispatch config env (run config s1 [.tick]) (.signed 1) (.release theId) = .ok s3 ∧
    s0.ledger.minBal 0 = 10 ∧ s3.ledger.total 0 2 = s0.ledger.total 0 2 - 7 :=
  ⟨_, _, rfl, rfl, by decide +kernel, by decide +kernel⟩

/-! ## C96 -/

/-- C96: on Kreivo nobody but root can resolve a dispute; everybody else is refused for their origin. -/
theorem C96_only_root (env : Env) (s : St) (o : Origin) (id : PId) (r : DisputeResult) (ho : o ≠ .root) :
    dispatch config env s o (.resolveDispute id r) = .error .badOrigin := by
  cases o <;> first | exact absurd rfl ho | rfl

/-- C96: and a resolution moves exactly: each party's fee to the treasury, one incentive (10% of the amount) from the
loser to the treasury, and the sender's share from the beneficiary to the sender. Nothing goes to root or anybody
else. The floor of the fees is the minimum the asset had when the payment was made. -/
theorem C96_resolution_exact {env : Env} {z s' : St} (hz : Initial z) (acts : List Act) {o : Origin} {id : PId}
    {r : DisputeResult} (h : dispatch config env (run config z acts) o (.resolveDispute id r) = .ok s') :
    let s := run config z acts
    o = .root ∧ ∃ snd b p m, s.parties id = some (snd, b) ∧ s.payments snd id = some p ∧ p.state = .needsReview ∧
      s'.payments snd id = some { p with state := .finished } ∧ MadeAt z acts snd id p m ∧
      (m ≤ BAL_MAX → NoDust s.ledger s'.ledger p.asset →
        Exactly s.ledger s'.ledger p.asset
          [⟨snd, treasury, feeOf snd m 1 p.amount⟩,
           ⟨b, treasury, feeOf b m 3 p.amount⟩,
           ⟨(match r.inFavorOf with | .sender => b | .beneficiary => snd), treasury, 10 * p.amount / 100⟩,
           ⟨b, snd, (match r.inFavorOf with
              | .sender => r.pct * p.amount / 100
              | .beneficiary => p.amount - r.pct * p.amount / 100)⟩]
          (fun w => - onAcct snd (senderEscrow p) w - onAcct b (p.amount + 10 * p.amount / 100) w)) := by
  have hr : Reachable config (run config z acts) := Demo.reach_run (.init hz) acts
  have hall : ∀ snd p, (run config z acts).payments snd id = some p → ∃ m, MadeAt z acts snd id p m ∧ RecordOk m snd p :=
    fun snd p hp => record_made hz acts hp
  intro s
  change dispatch config env s o (.resolveDispute id r) = .ok s' at h
  change Reachable config s at hr
  change ∀ snd p, s.payments snd id = some p → _ at hall
  clear_value s
  have ho : o = .root := by
    by_contra hne
    rw [C96_only_root env s o id r hne] at h; cases h
  subst ho
  obtain ⟨resolver, snd, b, p, L, h1, hpar, hp, hst, hl, hs⟩ :=
    resolveDispute_ok (show resolveDispute config env s .root id r = .ok s' from h)
  have hres : treasury = resolver := by
    have : some treasury = some resolver := h1
    exact Option.some.inj this
  subst hres
  obtain ⟨m, hmade, hrec⟩ := hall snd p hp
  refine ⟨rfl, snd, b, p, m, hpar, hp, hst, by rw [hs]; exact setPayment_same _ _ _ _, hmade, ?_⟩
  intro hmin hd
  obtain ⟨q, hq, hqb⟩ := hr.inv.parties _ _ _ hpar
  rw [hp] at hq; cases hq
  obtain ⟨u1, u2, c1, c2⟩ := C26_kreivo hr hp
  have hsat := review_no_saturation hr.inv hp hst
  have hex := (C06_resolve_exact hr h h1 hpar hp (fees_fit hrec (by omega) hmin) u1 u2 hd).1
  obtain ⟨f1, f2⟩ := hrec
  rw [c1, c2, f1] at hex
  refine ⟨hex.other, fun w => ?_, fun w => ?_⟩
  · rw [hex.total w, net_append, net_append]
    simp only [applyFees, feeList_moves, hqb]
    have e4 : ∀ m1 m2 m3 m4 : Move, net [m1, m2, m3, m4] w = net [m1] w + net [m2] w + net [m3, m4] w := by
      intro m1 m2 m3 m4; simp only [net, List.map_cons, List.map_nil, List.sum_cons, List.sum_nil]; ring
    rw [e4]
    have em : resolutionMoves snd b treasury p r =
        [⟨(match r.inFavorOf with | .sender => b | .beneficiary => snd), treasury, 10 * p.amount / 100⟩,
         ⟨b, snd, (match r.inFavorOf with
            | .sender => r.pct * p.amount / 100
            | .beneficiary => p.amount - r.pct * p.amount / 100)⟩] := by
      unfold resolutionMoves
      rw [← f2]
      cases r.inFavorOf <;> rfl
    rw [em]
    simp only [net, List.map_cons, List.map_nil, List.sum_cons, List.sum_nil, add_zero]
  · rw [hex.held w, f2]
    push_cast
    rfl

/-- 1 pays 5000 to 2, asks for a refund and 2 disputes. Example for non-vacuity (outside /repo). -/
def disputedK : St := run config s0
  [.call env (.signed 1) (.pay (.id 2) 0 5000 none), .call env (.signed 1) (.requestRefund pid),
   .call env (.signed 2) (.disputeRefund pid)]

-- 40% for the sender, in the sender's favour: 2 pays 150 fee, 500 incentive and 2000 back.
example : ∃ s', dispatch config env disputedK .root (.resolveDispute pid ⟨40, .sender⟩) = .ok s' ∧
    s'.ledger.bal 0 1 = ⟨1000000 - 5000 - 50 + 2000, 0⟩ ∧ s'.ledger.bal 0 2 = ⟨1000000 + 5000 - 150 - 500 - 2000, 0⟩ ∧
    s'.ledger.bal 0 treasury = ⟨1000000 + 50 + 150 + 500, 0⟩ := ⟨_, rfl, by decide +kernel⟩

/-! ## C97 -/

/-- One day in milliseconds. Specification only, no code behind it (outside /repo). -/
def dayMillis : Nat := 24 * 60 * 60 * 1000

/-- In the chain `bs` of blocks, from block `m` to block `n` pass at least `t` milliseconds, less the 18 seconds by which
Kreivo's blocks can come too soon (C169). Specification only, no code behind it (outside /repo). -/
def Lasts (bs : List Runtime.Clock.Blk) (m n t : Nat) : Prop := ∀ a b, Runtime.Clock.block bs m = some a →
  Runtime.Clock.block bs n = some b → a.time + t < b.time + 18000

/-- C97, what holds: on Kreivo a refund request sets a deadline of exactly 14400 blocks, which is at least one day less
18 seconds in every chain that the consensus hook accepts (if the relay chain includes at most one block of Kreivo in
each of its own); until then, in every history that leaves the request pending, neither the scheduler nor anybody but the
beneficiary gives the money back, and the beneficiary can dispute if it can have the incentive held. -/
theorem C97_one_day_partial {env : Env} {s s1 : St} {o : Origin} {id : PId} (hr : Reachable config s)
    (h : dispatch config env s o (.requestRefund id) = .ok s1) :
    ∃ snd p, config.senderOrigin o = some snd ∧ s1.payments snd id = some p ∧
      p.state = .refundRequested (s.now + 14400) ∧
      (∀ R bs c, Runtime.Clock.Steady R → Runtime.Clock.run R bs = some c → Runtime.Clock.Past R bs →
        Lasts bs s.now (s.now + 14400) dayMillis) ∧
      ∀ acts, let s2 := run config s1 acts
        s2.payments snd id = some p → s2.now < s.now + 14400 →
        (∀ env' i, (exec config s2 (.fire env' i)).payments snd id = some p) ∧
        (∀ b env' L, s2.parties id = some (snd, b) →
          s2.ledger.hold env'.ledger p.asset b p.incentive = some L →
          ∃ s3, dispatch config env' s2 (.signed b) (.disputeRefund id) = .ok s3) := by
  obtain ⟨snd, p, h1, h2, h3, h4, _⟩ := C15_refund_deadline h
  refine ⟨snd, _, h1, h4, rfl, ?_, ?_⟩
  · intro R bs c hR hc hp a b ha hb
    have := Runtime.Clock.C169_steady_partial hR hc hp ha hb
    simp only [dayMillis]; omega
  · intro acts s2 hp2 hn
    have hr1 : Reachable config s1 := by
      have h5 : exec config s (.call env o (.requestRefund id)) = s1 := by simp [exec, h, settle]
      rw [← h5]; exact .step _ hr trivial
    have hr2 : Reachable config s2 := Demo.reach_run hr1 acts
    refine ⟨fun env' i => C18_no_early_refund hr2 hp2 rfl hn, ?_⟩
    intro b env' L hpar hh
    exact C16_can_dispute (cb := s.now + 14400) hr2 hpar hp2 rfl hn rfl hh

/-- 1 pays 5000 to 2 and asks for a refund, at block 10. Example for non-vacuity (outside /repo). -/
def refundingK : St := run config s0
  [.call env (.signed 1) (.pay (.id 2) 0 5000 none), .call env (.signed 1) (.requestRefund pid)]

theorem refundingK_facts : refundingK.now = 10 ∧ refundingK.parties pid = some (1, 2) ∧
    refundingK.payments 1 pid = some ⟨0, 5000, 2, 500, .refundRequested 14410,
      ⟨[⟨treasury, 50, true⟩], [⟨treasury, 150, true⟩]⟩⟩ := by decide +kernel

/-- C97 as documented ("2 days") fails: in a chain with a block in every slot of 6 seconds the window closes after
one day. From then on the beneficiary's dispute is refused, and the refund goes through. -/
theorem C97_two_days_fails : let s := run config refundingK (List.replicate 14400 .tick)
    Reachable config s ∧
    (∃ R bs c a b, Runtime.Clock.Steady R ∧ Runtime.Clock.run R bs = some c ∧ Runtime.Clock.Past R bs ∧
      Runtime.Clock.block bs refundingK.now = some a ∧ Runtime.Clock.block bs s.now = some b ∧
      b.time = a.time + dayMillis) ∧
    (∀ env o s', dispatch config env s o (.disputeRefund pid) ≠ .ok s') ∧
    (run config refundingK (List.replicate 14400 .tick ++ [.fire env pid])).payments 1 pid = none := by
  obtain ⟨h1, h2, h3⟩ := refundingK_facts
  have hr : Reachable config refundingK := Demo.reach_run (.init s0_initial) _
  intro s
  refine ⟨Demo.reach_run hr _, ?_, ?_, ?_⟩
  · have h8 : s.now = 14410 := by simp only [s, run_ticks, h1]
    obtain ⟨c, hc⟩ := Runtime.Clock.regular_runs 14410
    refine ⟨_, _, c, _, _, Runtime.Clock.relayChain_steady, hc, Runtime.Clock.regular_past _,
      Runtime.Clock.regular_block (by rw [h1]; omega) (by rw [h1]; omega),
      Runtime.Clock.regular_block (by rw [h8]; omega) (by rw [h8]), ?_⟩
    simp only [h1, h8, dayMillis]
  · intro env' o s'
    simp only [s, run_ticks]
    exact C16_no_dispute_after_deadline (snd := 1) (b := 2) (cb := 14410) h2 h3 rfl (by rw [h1])
  · have key : ∀ k : Nat, 14410 - refundingK.now = k →
        (run config refundingK (List.replicate k .tick ++ [.fire env pid])).payments 1 pid = none := by
      intro k hk
      subst hk
      exact C19_undisputed_refund_happens (d := 14410) (env := env) hr h2 h3 rfl (by rw [h1]; decide) (fun _ _ => rfl) rfl
    have h7 : 14410 - refundingK.now = (14400 : Nat) := by rw [h1]
    exact key 14400 h7

end Kreivo

end Verif.Payments
