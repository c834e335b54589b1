import Verif.Payments.Funds

/-!
# Payments: what happens to rests below the minimum

`cancel`, `resolve_dispute` and `accept_and_pay` use transfers that may empty the paying account. If such a transfer
would leave the payer a rest below the asset's minimum, the ledger may send the rest along or burn it. The theorems here
say, without assuming that no such rest arises, what every account gains and loses.
-/

namespace Verif.Payments

open Demo

/-- A rest below the minimum that left an account together with a transfer to `dst`: `gone` left `src`, `came` arrived.
Specification only, no code behind it (outside /repo). -/
structure SmallRest where
  src : Acct
  dst : Acct
  gone : Nat
  came : Nat

/-- What a list of rests does to one account. Specification only, no code behind it (outside /repo). -/
def restNet (rs : List SmallRest) (w : Acct) : Int :=
  (rs.map fun r => onAcct r.dst r.came w - onAcct r.src r.gone w).sum

/-- Every rest is positive, below the minimum, arrives whole or is burned, and goes along with one of the movements.
Specification only, no code behind it (outside /repo). -/
def SmallRests (m : Nat) (ms : List Move) (rs : List SmallRest) : Prop :=
  ∀ r ∈ rs, 0 < r.gone ∧ r.gone < m ∧ (r.came = r.gone ∨ r.came = 0) ∧
    ∃ x ∈ ms, x.src = r.src ∧ x.dst = r.dst ∧ 0 < x.amt

/-- From `L` to `L'`, in asset `a` every account's total changes by the movements `ms` and the rests `rs` and nothing
else, its held part by `hd`, and no other asset changes. Specification only, no code behind it (outside /repo). -/
structure UpToRests (L L' : Ledger) (a : Asset) (ms : List Move) (hd : Acct → Int) (rs : List SmallRest) : Prop where
  other : ∀ a', a' ≠ a → L'.bal a' = L.bal a'
  total : ∀ w, L'.total a w = L.total a w + net ms w + restNet rs w
  held : ∀ w, ((L'.bal a w).held : Int) = (L.bal a w).held + hd w

theorem restNet_nil (w : Acct) : restNet [] w = 0 := rfl

theorem restNet_append (r1 r2 : List SmallRest) (w : Acct) : restNet (r1 ++ r2) w = restNet r1 w + restNet r2 w := by
  simp [restNet]

theorem restNet_one (r : SmallRest) (w : Acct) : restNet [r] w = onAcct r.dst r.came w - onAcct r.src r.gone w := by
  simp [restNet]

theorem UpToRests.trans {L1 L2 L3 : Ledger} {a ms1 ms2 h1 h2 r1 r2} (e1 : UpToRests L1 L2 a ms1 h1 r1)
    (e2 : UpToRests L2 L3 a ms2 h2 r2) : UpToRests L1 L3 a (ms1 ++ ms2) (fun w => h1 w + h2 w) (r1 ++ r2) := by
  refine ⟨fun a' h => (e2.other a' h).trans (e1.other a' h), fun w => ?_, fun w => ?_⟩
  · rw [e2.total w, e1.total w, net_append, restNet_append]; omega
  · rw [e2.held w, e1.held w]; omega

theorem UpToRests.congr {L L' : Ledger} {a ms ms' h h' rs} (e : UpToRests L L' a ms h rs)
    (hm : ∀ w, net ms w = net ms' w) (hh : ∀ w, h w = h' w) : UpToRests L L' a ms' h' rs :=
  ⟨e.other, fun w => by rw [e.total w, hm w], fun w => by rw [e.held w, hh w]⟩

theorem Eff.upToRests {L L' : Ledger} {a ms hd} (e : Eff L L' a ms hd) (n : NoDust L L' a) :
    UpToRests L L' a ms hd [] :=
  ⟨fun a' h => (e.other a' h).1, fun w => by rw [e.total n w, restNet_nil]; omega, e.held⟩

theorem transfer_rest {env L a src dst amt k L'} (h : Ledger.transfer env L a src dst amt k = some L') :
    ∃ rs, rs.length ≤ 1 ∧ SmallRests (L.minBal a) [⟨src, dst, amt⟩] rs ∧
      UpToRests L L' a [⟨src, dst, amt⟩] (fun _ => 0) rs := by
  have he := transfer_eff h
  rcases transfer_some h with ⟨h0, rfl⟩ | ⟨hne, h0, h1, h2, h3⟩
  · exact ⟨[], by simp, by simp [SmallRests], he.upToRests ⟨rfl, rfl⟩⟩
  · rcases h3 with rfl | ⟨rest, r0, r1, hk, hr, rfl | rfl⟩
    · exact ⟨[], by simp, by simp [SmallRests], he.upToRests ⟨rfl, rfl⟩⟩
    · refine ⟨[⟨src, dst, rest, rest⟩], by simp, ?_, fun a' h => (he.other a' h).1, fun w => ?_, he.held⟩
      · intro r hr; rw [List.mem_singleton] at hr; subst hr
        exact ⟨r0, r1, .inl rfl, _, List.mem_singleton.2 rfl, rfl, rfl, h0⟩
      · simp only [Ledger.total, moveFree_bal _ _ _ _ _ _ hne, true_and, net_one, restNet_one, onAcct]
        by_cases e1 : w = dst <;> by_cases e2 : w = src
        · exact absurd (e2.symm.trans e1) hne
        · subst e1; simp [e2, Ne.symm e2]; omega
        · subst e2; simp [e1, Ne.symm e1]; omega
        · simp [e1, e2, Ne.symm e1, Ne.symm e2]
    · refine ⟨[⟨src, dst, rest, 0⟩], by simp, ?_, fun a' h => (he.other a' h).1, fun w => ?_, he.held⟩
      · intro r hr; rw [List.mem_singleton] at hr; subst hr
        exact ⟨r0, r1, .inr rfl, _, List.mem_singleton.2 rfl, rfl, rfl, h0⟩
      · simp only [Ledger.total, moveFree_bal _ _ _ _ _ _ hne, true_and, net_one, restNet_one, onAcct]
        by_cases e1 : w = dst <;> by_cases e2 : w = src
        · exact absurd (e2.symm.trans e1) hne
        · subst e1; simp [e2, Ne.symm e2]; omega
        · subst e2; simp [e1, Ne.symm e1]; omega
        · simp [e1, e2, Ne.symm e1, Ne.symm e2]

/-- C05, with no assumption about rests: a successful `cancel` moves the amount back from beneficiary to sender and
unholds exactly what `pay` held. Besides, at most one rest below the asset's minimum leaves the beneficiary, to the
sender or burned. -/
theorem C05_cancel_rest {cfg : Config} {env : Env} {s s' : St} {o : Origin} {id : PId} {snd b : Acct}
    {p : Payment} (hr : Reachable cfg s) (h : dispatch cfg env s o (.cancel id) = .ok s')
    (hpar : s.parties id = some (snd, b)) (hp : s.payments snd id = some p) :
    ∃ rs, rs.length ≤ 1 ∧ SmallRests (s.ledger.minBal p.asset) [⟨b, snd, p.amount⟩] rs ∧
      UpToRests s.ledger s'.ledger p.asset [⟨b, snd, p.amount⟩]
        (fun w => - onAcct snd (senderEscrow p) w - onAcct b p.amount w) rs ∧
      s'.payments snd id = none ∧ s'.parties id = none := by
  obtain ⟨snd', b', p', L, h1, hpar', hp', hl, hs⟩ := cancel_ok h
  rw [hpar] at hpar'; cases hpar'
  rw [hp] at hp'; cases hp'
  obtain ⟨q, hq, hqb⟩ := hr.inv.parties _ _ _ hpar
  rw [hp] at hq; cases hq
  have hl' : s'.ledger = L := by rcases hs with ⟨_, rfl⟩ | ⟨_, rfl⟩ <;> rfl
  obtain ⟨L1, L2, r1, r2, t⟩ := cancelPayment_ok hl
  have n1 := release_eff r1
  have n2 := release_eff r2
  have hm : L2.minBal = s.ledger.minBal := by rw [n2.1.minBal, n1.1.minBal]
  obtain ⟨rs, k1, k2, k3⟩ := transfer_rest t
  rw [hqb, hm] at k2
  refine ⟨rs, k1, k2, ?_, ?_, ?_⟩
  · rw [hl']
    refine (((n1.1.upToRests n1.2).trans (n2.1.upToRests n2.2)).trans k3).congr ?_ ?_
    · intro w; simp [hqb]
    · intro w; simp only [onAcct_neg, hqb]; simp [onAcct]; split_ifs <;> omega
  · rcases hs with ⟨_, rfl⟩ | ⟨_, rfl⟩ <;> simp [setPayment_same]
  · rcases hs with ⟨_, rfl⟩ | ⟨_, rfl⟩ <;> simp [setAt]

theorem settleDispute_rest {env L snd ben p r resolver L'}
    (h : settleDispute env L snd ben p (some (r, resolver)) = .ok L') :
    ∃ rs, rs.length ≤ 2 ∧ SmallRests (L.minBal p.asset) (disputeMoves snd ben p (some (r, resolver))) rs ∧
      UpToRests L L' p.asset (disputeMoves snd ben p (some (r, resolver))) (fun _ => 0) rs := by
  have key : ∀ {L1 x y z m n}, L.transfer env p.asset x y m .expendable = some L1 →
      ∀ {z'}, L1.transfer env p.asset z' z n .expendable = some L' →
      ∃ rs, rs.length ≤ 2 ∧ SmallRests (L.minBal p.asset) [⟨x, y, m⟩, ⟨z', z, n⟩] rs ∧
        UpToRests L L' p.asset [⟨x, y, m⟩, ⟨z', z, n⟩] (fun _ => 0) rs := by
    intro L1 x y z m n h1 z' h2
    obtain ⟨rs1, a1, b1, c1⟩ := transfer_rest h1
    obtain ⟨rs2, a2, b2, c2⟩ := transfer_rest h2
    rw [(transfer_eff h1).minBal] at b2
    refine ⟨rs1 ++ rs2, by rw [List.length_append]; omega, ?_, c1.trans c2⟩
    intro q hq
    rcases List.mem_append.1 hq with hq | hq
    · obtain ⟨u1, u2, u3, v, hv, u4⟩ := b1 q hq
      exact ⟨u1, u2, u3, v, by simp at hv ⊢; exact .inl hv, u4⟩
    · obtain ⟨u1, u2, u3, v, hv, u4⟩ := b2 q hq
      exact ⟨u1, u2, u3, v, by simp at hv ⊢; exact .inr hv, u4⟩
  unfold settleDispute at h
  cases hr : r.inFavorOf <;> simp only [hr, bind_ok, orErr_ok] at h <;> obtain ⟨L1, h1, h2⟩ := h <;>
    simp only [disputeMoves, hr] <;> exact key h1 h2

/-- C06, with no assumption about rests: a successful `resolve_dispute` charges the fees, moves the incentive and the
sender's share, and unholds what was held. Besides, at most two rests below the asset's minimum leave the accounts that
pay the incentive and the share, each to the one paid or burned. -/
theorem C06_resolve_rests {cfg : Config} {env : Env} {s s' : St} {o : Origin} {id : PId} {snd b resolver : Acct}
    {p : Payment} {r : DisputeResult} (hr : Reachable cfg s)
    (h : dispatch cfg env s o (.resolveDispute id r) = .ok s') (ho : cfg.disputeResolver o = some resolver)
    (hpar : s.parties id = some (snd, b)) (hp : s.payments snd id = some p) (hfit : FeesFit p) :
    ∃ rs, rs.length ≤ 2 ∧ SmallRests (s.ledger.minBal p.asset) (resolutionMoves snd b resolver p r) rs ∧
      UpToRests s.ledger s'.ledger p.asset
        (feeMoves snd (chargedOnDispute p.fees.senderPays) ++ feeMoves b (chargedOnDispute p.fees.beneficiaryPays) ++
          resolutionMoves snd b resolver p r)
        (fun w => - onAcct snd (senderEscrow p) w - onAcct b (p.amount + p.incentive) w) rs ∧
      s'.payments snd id = some { p with state := .finished } := by
  obtain ⟨resolver', snd', b', p', L, h1, hpar', hp', hst, hl, rfl⟩ := resolveDispute_ok h
  rw [ho] at h1; cases h1
  rw [hpar] at hpar'; cases hpar'
  rw [hp] at hp'; cases hp'
  have hsat := review_no_saturation hr.inv hp hst
  obtain ⟨L1, L2, L3, L4, h1, h2, h3, h4, h5⟩ := settleLedger_ok hl
  have e1 := release_eff h1
  have e2 := release_eff h2
  have e3 := tryTransferFees_eff h3
  have e4 := tryTransferFees_eff h4
  have hmin : L4.minBal = s.ledger.minBal := by rw [e4.1.minBal, e3.1.minBal, e2.1.minBal, e1.1.minBal]
  have hm : disputeMoves snd b p (some (r, resolver)) = resolutionMoves snd b resolver p r := by
    simp only [disputeMoves, resolutionMoves, mulFloor]
    cases r.inFavorOf <;> rfl
  obtain ⟨rs, k1, k2, k3⟩ := settleDispute_rest h5
  rw [hm] at k2 k3
  rw [hmin] at k2
  refine ⟨rs, k1, k2, ?_, setPayment_same _ _ _ _⟩
  refine (((((e1.1.upToRests e1.2).trans (e2.1.upToRests e2.2)).trans (e3.1.upToRests e3.2)).trans
    (e4.1.upToRests e4.2)).trans k3).congr ?_ ?_
  · intro w
    simp only [Option.isSome, if_true, net_append, net_nil, agg_net_disputed _ hfit.1, agg_net_disputed _ hfit.2]
    omega
  · intro w
    have h3 : benRelease p true = p.amount + p.incentive := by
      simp only [benRelease, satAdd, if_true]; omega
    simp only [onAcct_neg, Option.isSome, h3]; push_cast; omega

/-- C13 (partial: assumes, like `C13_accept_exact_partial`, that the id's index entry still belongs to this sender), with no
assumption about rests: `accept_and_pay` moves the fees of both sides and the amount. Besides, at most one rest below the
asset's minimum leaves the sender, to the requester or burned. -/
theorem C13_accept_rest_partial {cfg : Config} {env : Env} {s s' : St} {o : Origin} {id : PId} {snd b : Acct}
    {p : Payment} (hr : Reachable cfg s) (h : dispatch cfg env s o (.acceptAndPay id) = .ok s')
    (ho : cfg.senderOrigin o = some snd) (hpar : s.parties id = some (snd, b))
    (hp : s.payments snd id = some p) (hfit : FeesFit p) :
    ∃ rs, rs.length ≤ 1 ∧ SmallRests (s.ledger.minBal p.asset) [⟨snd, p.beneficiary, p.amount⟩] rs ∧
      UpToRests s.ledger s'.ledger p.asset
        (feeMoves snd p.fees.senderPays ++ [⟨snd, p.beneficiary, p.amount⟩] ++
          feeMoves p.beneficiary p.fees.beneficiaryPays) (fun _ => 0) rs ∧
      s'.payments snd id = some { p with state := .finished } := by
  obtain ⟨snd', s0', b', p', L1, L2, L3, h1, hpar', hp', e1, e2, e3, rfl⟩ := acceptAndPay_ok h
  rw [ho] at h1; cases h1
  rw [hpar] at hpar'; cases hpar'
  rw [hp] at hp'; cases hp'
  obtain ⟨q, hq, hqb⟩ := hr.inv.parties _ _ _ hpar
  rw [hp] at hq; cases hq
  have f1 := tryTransferFees_eff e1
  have f3 := tryTransferFees_eff e3
  obtain ⟨rs, k1, k2, k3⟩ := transfer_rest e2
  rw [f1.1.minBal] at k2
  rw [hqb]
  refine ⟨rs, k1, k2, ?_, setPayment_same _ _ _ _⟩
  have e := ((f1.1.upToRests f1.2).trans k3).trans (f3.1.upToRests f3.2)
  rw [List.nil_append, List.append_nil] at e
  refine e.congr ?_ (fun _ => rfl)
  intro w
  simp only [Bool.false_eq_true, if_false, net_append, agg_net _ hfit.1, agg_net _ hfit.2]

/-- Example: everyone has 10000 except account 2, which has 105; the minimum is 10 (outside /repo). -/
def restStart : St :=
  { s0 with ledger := { ledger0 with bal := fun _ w => if w = 2 then ⟨105, 0⟩ else ⟨10000, 0⟩, minBal := fun _ => 10 } }

/-- Example: an assets pallet that burns rests, or sends them along (outside /repo). -/
def restEnv (d : Dust) : Env := ⟨⟨fun _ _ => false, fun _ _ => d⟩, fun _ _ => some 0, true⟩

/-- Example: 1 pays 1000 to 2 and asks for a refund, which 2 disputes with all but 5 of its own money (outside /repo). -/
def restDisputed : St := run cfg restStart [aPay 7 1 2 1000, aCall 1 (.requestRefund 7), aCall 2 (.disputeRefund 7)]

/-- The rest of 5 is burned, or goes to the sender along with the share. -/
example : Reachable cfg restDisputed ∧ restDisputed.parties 7 = some (1, 2) ∧
    (∃ s', dispatch cfg (restEnv .burn) restDisputed .root (.resolveDispute 7 ⟨100, .sender⟩) = .ok s' ∧
      s'.ledger.bal 0 2 = ⟨0, 0⟩ ∧ s'.ledger.bal 0 1 = ⟨10000 - 3, 0⟩) ∧
    (∃ s', dispatch cfg (restEnv .toDest) restDisputed .root (.resolveDispute 7 ⟨100, .sender⟩) = .ok s' ∧
      s'.ledger.bal 0 2 = ⟨0, 0⟩ ∧ s'.ledger.bal 0 1 = ⟨10000 - 3 + 5, 0⟩) :=
  ⟨reach_run (.init ⟨fun _ _ => rfl, fun _ => rfl, fun _ => rfl, fun _ w => by
      show (if w = 2 then (⟨105, 0⟩ : Bal) else ⟨10000, 0⟩).held = 0
      split_ifs <;> rfl⟩) _, by decide,
    ⟨_, rfl, by decide, by decide⟩, ⟨_, rfl, by decide, by decide⟩⟩

/-- Example: the same, not disputed, after 2 spent all but 5 of its own money (outside /repo). -/
def restRefunding : St :=
  run cfg { restStart with ledger := { restStart.ledger with
      bal := fun _ w => if w = 2 then ⟨5, 0⟩ else ⟨10000, 0⟩ } }
    [aPay 7 1 2 1000, aCall 1 (.requestRefund 7)]

/-- Cancelling then takes the 5 too. -/
example : restRefunding.parties 7 = some (1, 2) ∧
    ∃ s', dispatch cfg (restEnv .toDest) restRefunding (.signed 2) (.cancel 7) = .ok s' ∧
      s'.ledger.bal 0 2 = ⟨0, 0⟩ ∧ s'.ledger.bal 0 1 = ⟨10005, 0⟩ :=
  ⟨by decide, _, rfl, by decide, by decide⟩

/-- C31, whoever the parties, the resolver and the recipients of fees are, and with no assumption about rests: besides the fees
a resolution moves one incentive from the loser to the resolver and the sender's share of the amount from the beneficiary to the
sender, and nothing else but at most two rests below the minimum. All that was held for the payment is set free: the sender's
fees and incentive (as far as their sum fits a balance), the beneficiary's amount and incentive. The two shares add up to the
amount. -/
theorem C31_in_every_case {cfg : Config} {env : Env} {s s' : St} {o : Origin} {id : PId} {snd b resolver : Acct}
    {p : Payment} {r : DisputeResult} (hr : Reachable cfg s)
    (h : dispatch cfg env s o (.resolveDispute id r) = .ok s') (ho : cfg.disputeResolver o = some resolver)
    (hpar : s.parties id = some (snd, b)) (hp : s.payments snd id = some p) (hfit : FeesFit p) (hpct : r.pct ≤ 100) :
    ∃ (loser : Acct) (toSender toBeneficiary : Nat) (rs : List SmallRest),
      (r.inFavorOf = .sender → loser = b ∧ toSender = r.pct * p.amount / 100) ∧
      (r.inFavorOf = .beneficiary → loser = snd ∧ toBeneficiary = r.pct * p.amount / 100) ∧
      toSender + toBeneficiary = p.amount ∧ rs.length ≤ 2 ∧
      SmallRests (s.ledger.minBal p.asset) [⟨loser, resolver, p.incentive⟩, ⟨b, snd, toSender⟩] rs ∧
      UpToRests s.ledger s'.ledger p.asset
        (feeMoves snd (chargedOnDispute p.fees.senderPays) ++ feeMoves b (chargedOnDispute p.fees.beneficiaryPays) ++
          [⟨loser, resolver, p.incentive⟩, ⟨b, snd, toSender⟩])
        (fun w => - onAcct snd ((min (feeTotal p.fees.senderPays + p.incentive) BAL_MAX : Nat) : Int) w
          - onAcct b (p.amount + p.incentive) w) rs := by
  obtain ⟨rs, h1, h2, h3, -⟩ := C06_resolve_rests hr h ho hpar hp hfit
  have hle : r.pct * p.amount / 100 ≤ p.amount :=
    Nat.div_le_of_le_mul (by rw [Nat.mul_comm 100]; exact (Nat.mul_comm _ _).trans_le (Nat.mul_le_mul_left _ hpct))
  unfold resolutionMoves at h2 h3
  cases hw : r.inFavorOf with
  | sender =>
    rw [hw] at h2 h3
    exact ⟨b, _, p.amount - r.pct * p.amount / 100, rs, fun _ => ⟨rfl, rfl⟩, (fun e => nomatch e), by omega, h1, h2, h3⟩
  | beneficiary =>
    rw [hw] at h2 h3
    exact ⟨snd, _, r.pct * p.amount / 100, rs, (fun e => nomatch e), fun _ => ⟨rfl, rfl⟩, by omega, h1, h2, h3⟩

end Verif.Payments
