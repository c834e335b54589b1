import Verif.Payments.Kreivo

/-! # C29, C30: fees and costs on Kreivo -/

namespace Verif.Payments.Kreivo

open Verif Verif.Accounts Verif.Payments

/-- The account is the account of some community. -/
def CommunityParty (who : Acct) : Prop := ∃ c : UInt16, bytesOf who = communityAccount c

theorem isCommunity_iff (who : Acct) : isCommunity who = true ↔ CommunityParty who := by
  have hl : (bytesOf who).length = 32 := beBytes_length _ _
  unfold isCommunity CommunityParty
  constructor
  · intro h
    split at h
    · rename_i pid c hs
      rw [beq_iff_eq] at h
      subst h
      exact ⟨c, (C60_only_community_accounts _ hl c).1 hs⟩
    · cases h
  · rintro ⟨c, hc⟩
    rw [hc, trySub_community]
    simp

/-- The documented fee of one party: `pct` percent rounded down, at least the asset minimum, nothing for
communities. -/
def Charges (party : Acct) (min pct amount : Nat) (fees : List Fee) : Prop :=
  (CommunityParty party → fees = []) ∧
  (¬ CommunityParty party → fees = [⟨treasury, max min (pct * amount / 100), true⟩])

theorem charges (party : Acct) (min pct amount : Nat) :
    Charges party min pct amount (if !isCommunity party then [defaultFee min pct amount] else []) := by
  constructor
  · intro h; rw [(isCommunity_iff party).2 h]; rfl
  · intro h
    have : isCommunity party = false := by
      rw [← Bool.not_eq_true]; exact fun h' => h ((isCommunity_iff party).1 h')
    rw [this]; rfl

/-- C29: the record a successful `pay` stores carries exactly the documented fees and incentive. -/
theorem C29_pay_fees {env : Env} {s s' : St} {o : Origin} {bA : Addr} {a : Asset} {n : Nat}
    {r : Option (List Nat)} (h : dispatch config env s o (.pay bA a n r) = .ok s') :
    ∃ snd b id p, config.senderOrigin o = some snd ∧ config.lookup bA = some b ∧ s'.payments snd id = some p ∧
      p.asset = a ∧ p.amount = n ∧ p.beneficiary = b ∧ p.state = .created ∧
      Charges snd (s.ledger.minBal a) 1 n p.fees.senderPays ∧
      Charges b (s.ledger.minBal a) 3 n p.fees.beneficiaryPays ∧ p.incentive = 10 * n / 100 := by
  obtain ⟨snd, b, id, h1, h2, h3, _, hrec, _, _⟩ := C03_pay_escrows_exactly h
  exact ⟨snd, b, id, _, h1, h2, hrec, rfl, rfl, rfl, rfl, charges _ _ _ _, charges _ _ _ _, rfl⟩

/-- C29: and so does the record of a successful `request_payment`. -/
theorem C29_request_fees {env : Env} {s s' : St} {o : Origin} {sA : Addr} {a : Asset} {n : Nat}
    (h : dispatch config env s o (.requestPayment sA a n) = .ok s') :
    ∃ snd b id p, config.beneficiaryOrigin o = some b ∧ config.lookup sA = some snd ∧ s'.payments snd id = some p ∧
      p.asset = a ∧ p.amount = n ∧ p.beneficiary = b ∧ p.state = .paymentRequested ∧
      Charges snd (s.ledger.minBal a) 1 n p.fees.senderPays ∧
      Charges b (s.ledger.minBal a) 3 n p.fees.beneficiaryPays ∧ p.incentive = 10 * n / 100 := by
  obtain ⟨snd, b, id, h1, h2, h3, hf, rfl⟩ := requestPayment_ok h
  refine ⟨snd, b, id, _, h1, h2, setPayment_same _ _ _ _, rfl, rfl, rfl, rfl, charges _ _ _ _, charges _ _ _ _, rfl⟩

/-- C29: the two parties an origin or an address can name: a signer is charged as itself, a community origin or index
is the community's account and is exempt. -/
theorem C29_communities_exempt (c : Nat) :
    ∃ w, config.senderOrigin (.community c) = some w ∧ config.lookup (.index c) = some w ∧ CommunityParty w :=
  ⟨_, rfl, rfl, UInt16.ofNat c, bytesOf_acctOf (communityAccount_length _)⟩

/-- Every account has a million of every asset, minimum 10. -/
def ledger0 : Ledger where
  bal := fun _ _ => ⟨1000000, 0⟩
  minBal := fun _ => 10
  swept := fun _ => 0
  burned := fun _ => 0

def s0 : St where
  payments := fun _ _ => none
  parties := fun _ => none
  agenda := fun _ => none
  ledger := ledger0
  now := 10
  events := []

theorem s0_initial : Initial s0 := ⟨fun _ _ => rfl, fun _ => rfl, fun _ => rfl, fun _ _ => rfl⟩

/-- Block 10, extrinsic 2. -/
def env : Env := ⟨LedgerEnv.lenient, nextId 10 (some 2), true⟩

theorem isCommunity_one : isCommunity 1 = false := by decide +kernel
theorem isCommunity_two : isCommunity 2 = false := by decide +kernel

-- Small payments pay the asset minimum, large ones the percentage.
example : ∃ s', dispatch config env s0 (.signed 1) (.pay (.id 2) 0 5000 none) = .ok s' ∧
    s'.ledger.bal 0 1 = ⟨1000000 - 5000 - 550, 550⟩ := ⟨_, rfl, by decide +kernel⟩
example : ∃ s', dispatch config env s0 (.signed 1) (.pay (.id 2) 0 500 none) = .ok s' ∧
    s'.ledger.bal 0 1 = ⟨1000000 - 500 - 60, 60⟩ := ⟨_, rfl, by decide +kernel⟩
-- A paying community has only the incentive on hold.
example : ∃ s', dispatch config env s0 (.community 7) (.pay (.id 2) 0 5000 none) = .ok s' ∧
    s'.ledger.bal 0 (acctOf (communityAccount 7)) = ⟨1000000 - 5000 - 500, 500⟩ := ⟨_, rfl, by decide +kernel⟩

/-! ## C30 -/

/-- Fee of one party as a number. -/
def feeOf (party : Acct) (min pct amount : Nat) : Nat :=
  if isCommunity party then 0 else max min (pct * amount / 100)

theorem feeOf_community {party : Acct} (h : CommunityParty party) (min pct amount : Nat) :
    feeOf party min pct amount = 0 := by unfold feeOf; rw [if_pos ((isCommunity_iff _).2 h)]

theorem feeOf_le (party : Acct) (min pct amount : Nat) : feeOf party min pct amount ≤ max min (pct * amount / 100) := by
  unfold feeOf; split <;> omega

theorem feeList_total (party : Acct) (min pct amount : Nat) :
    feeTotal (if !isCommunity party then [defaultFee min pct amount] else []) = feeOf party min pct amount := by
  unfold feeOf
  cases h : isCommunity party <;> simp [feeTotal, defaultFee, mulFloor]

theorem feeList_moves (party : Acct) (min pct amount : Nat) (w : Acct) :
    net (feeMoves party (if !isCommunity party then [defaultFee min pct amount] else [])) w =
      (if treasury = w then (feeOf party min pct amount : Int) else 0) -
      (if party = w then (feeOf party min pct amount : Int) else 0) := by
  unfold feeOf
  cases h : isCommunity party <;> simp [feeMoves, net, defaultFee, mulFloor]

theorem config_fees : config.applyFees = applyFees := rfl

/-- C30: over a payment that is paid and, after any history in which its record is not removed, released, the two
calls together change every account's total in the asset by exactly: the amount from sender to beneficiary, the
sender's fee and the beneficiary's fee to the treasury. The incentive is charged to nobody, and holds return to what
they were. -/
theorem C30_lifecycle_exact {env env' : Env} {s s1 s3 : St} {o o' : Origin} {bA : Addr}
    {a : Asset} {n : Nat} {r : Option (List Nat)} {snd b : Acct} {id : PId} {acts : List Act}
    (hpay : dispatch config env s o (.pay bA a n r) = .ok s1)
    (ho : config.senderOrigin o = some snd) (hlk : config.lookup bA = some b) (hid : env.nextId snd b = some id)
    (hopen : ∀ k, (run config s1 (acts.take k)).payments snd id ≠ none)
    (hrel : dispatch config env' (run config s1 acts) o' (.release id) = .ok s3)
    (ho' : config.senderOrigin o' = some snd)
    (hn : n ≤ BAL_MAX) (hmin : s.ledger.minBal a ≤ BAL_MAX) (w : Acct) :
    let s2 := run config s1 acts
    let sf := feeOf snd (s.ledger.minBal a) 1 n
    let bf := feeOf b (s.ledger.minBal a) 3 n
    (s1.ledger.total a w - s.ledger.total a w) + (s3.ledger.total a w - s2.ledger.total a w) =
      onAcct b n w - onAcct snd n w + onAcct treasury (sf + bf) w - onAcct snd sf w - onAcct b bf w ∧
    ((s1.ledger.bal a w).held : Int) - (s.ledger.bal a w).held +
      ((s3.ledger.bal a w).held - (s2.ledger.bal a w).held) = 0 := by
  intro s2 sf bf
  obtain ⟨snd', b', id', h1, h2, h3, hex, hrec, hpar1, _⟩ := C03_pay_escrows_exactly hpay
  rw [ho] at h1; cases h1
  rw [hlk] at h2; cases h2
  rw [hid] at h3; cases h3
  obtain ⟨q, hq, hcore⟩ := core_along acts hrec (by simp) hopen
  obtain ⟨e1, e2, e3, e4, e5⟩ := hcore
  dsimp only at e1 e2 e3 e4 e5
  have hfit : FeesFit q := by
    unfold FeesFit
    rw [← e5]
    simp only [config_fees, applyFees, feeList_total]
    have b1 : ∀ k, k ≤ 100 → k * n / 100 ≤ n := by
      intro k hk
      apply Nat.div_le_of_le_mul
      exact Nat.mul_le_mul_right _ hk
    have := b1 1 (by omega)
    have := b1 3 (by omega)
    have := feeOf_le snd (s.ledger.minBal a) 1 n
    have := feeOf_le b (s.ledger.minBal a) 3 n
    omega
  obtain ⟨hexr, _⟩ := C04_release_exact hrel ho' hq hfit
  constructor
  · have t1 := hex.total w
    have t2 := hexr.total w
    rw [← e1] at t2
    rw [net_append, ← e5, ← e3] at t2
    simp only [config_fees, applyFees, feeList_moves] at t2
    rw [t1, t2]
    have hm : net [⟨snd, b, n⟩] w = onAcct b n w - onAcct snd n w := by
      simp only [net, onAcct, List.map_cons, List.map_nil, List.sum_cons, List.sum_nil, add_zero, eq_comm]
    rw [hm]
    have o1 : ∀ (x : Acct) (v : Int), onAcct x v w = if x = w then v else 0 := by
      intro x v; simp only [onAcct, eq_comm]
    simp only [o1, sf, bf]
    split_ifs <;> push_cast <;> ring
  · have t1 := hex.held w
    have t2 := hexr.held w
    rw [← e1] at t2
    rw [t1, t2]
    have hs : senderEscrow q = min (feeTotal (config.applyFees s.ledger.minBal a snd b n r).senderPays +
        config.incentivePct * n / 100) BAL_MAX := by
      rw [senderEscrow, ← e5, ← e4]
    rw [hs, ← e3, ← e2]
    push_cast
    ring

/-- C30: hence a sender who is neither the beneficiary nor the treasury pays at most the amount plus the larger of 1% and
the asset minimum, and never the incentive; the beneficiary gets at least the amount minus the larger of 3% and the
minimum. -/
theorem C30_cost_bounds {env env' : Env} {s s1 s3 : St} {o o' : Origin} {bA : Addr}
    {a : Asset} {n : Nat} {r : Option (List Nat)} {snd b : Acct} {id : PId} {acts : List Act}
    (hpay : dispatch config env s o (.pay bA a n r) = .ok s1)
    (ho : config.senderOrigin o = some snd) (hlk : config.lookup bA = some b) (hid : env.nextId snd b = some id)
    (hopen : ∀ k, (run config s1 (acts.take k)).payments snd id ≠ none)
    (hrel : dispatch config env' (run config s1 acts) o' (.release id) = .ok s3)
    (ho' : config.senderOrigin o' = some snd)
    (hn : n ≤ BAL_MAX) (hmin : s.ledger.minBal a ≤ BAL_MAX)
    (hne : snd ≠ b) (ht : snd ≠ treasury) (htb : b ≠ treasury) :
    let s2 := run config s1 acts
    let m := s.ledger.minBal a
    let out := (s.ledger.total a snd - s1.ledger.total a snd) + (s2.ledger.total a snd - s3.ledger.total a snd)
    let got := (s1.ledger.total a b - s.ledger.total a b) + (s3.ledger.total a b - s2.ledger.total a b)
    (n : Int) ≤ out ∧ out ≤ n + max m (n / 100) ∧ (CommunityParty snd → out = n) ∧
    (n : Int) - max m (3 * n / 100) ≤ got ∧ got ≤ n ∧ (CommunityParty b → got = n) := by
  intro s2 m out got
  have hs := (C30_lifecycle_exact hpay ho hlk hid hopen hrel ho' hn hmin snd).1
  have hb := (C30_lifecycle_exact hpay ho hlk hid hopen hrel ho' hn hmin b).1
  have l1 := feeOf_le snd m 1 n
  have l2 := feeOf_le b m 3 n
  have c1 : CommunityParty snd → feeOf snd m 1 n = 0 := fun h => feeOf_community h _ _ _
  have c2 : CommunityParty b → feeOf b m 3 n = 0 := fun h => feeOf_community h _ _ _
  simp only [onAcct, if_neg hne, if_neg hne.symm, if_neg ht, if_neg htb, if_true] at hs hb
  rw [Nat.one_mul] at l1
  have eo : out = n + feeOf snd m 1 n := by
    simp only [out, m, s2] at hs ⊢; linarith
  have eg : got = n - feeOf b m 3 n := by
    simp only [got, m, s2] at hb ⊢; linarith
  refine ⟨by rw [eo]; omega, by rw [eo]; omega, ?_, by rw [eg]; omega, by rw [eg]; omega, ?_⟩
  · intro h; rw [eo, c1 h]; simp
  · intro h; rw [eg, c2 h]; simp

-- The hypotheses are met: 1 pays 5000 to 2, time passes, 1 releases.
def paid : St := settle s0 (dispatch config env s0 (.signed 1) (.pay (.id 2) 0 5000 none))
example : dispatch config env s0 (.signed 1) (.pay (.id 2) 0 5000 none) = .ok paid := rfl
def theId : PId := (nextId 10 (some 2) 1 2).getD 0
example : ∃ s3, dispatch config env (run config paid [.tick]) (.signed 1) (.release theId) = .ok s3 ∧
    s3.ledger.bal 0 1 = ⟨1000000 - 5000 - 50, 0⟩ ∧ s3.ledger.bal 0 2 = ⟨1000000 + 5000 - 150, 0⟩ ∧
    s3.ledger.bal 0 treasury = ⟨1000200, 0⟩ := ⟨_, rfl, by decide +kernel, by decide +kernel, by decide +kernel⟩

end Verif.Payments.Kreivo
