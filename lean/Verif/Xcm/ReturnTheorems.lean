import Verif.Xcm.ArrivalTheorems
import Verif.Xcm.ExactTheorems

/-!
C138 and C139, further cases: a delivery that fails although the message still has a topic to set, for which its weight is
given back; and exactly when a deposit succeeds.
-/

namespace Verif.Xcm

open Verif Verif.Runtime Verif.Accounts

/-- The weight of `SetTopic`, which is given back if it is not reached. Specification only, no code behind it (outside /repo). -/
def topicWeight : Weight := ⟨2692000, 0⟩

/-- What is given back for a weight after `q` was paid in the asset at `l`: its price, but another asset is not given back
below its least balance. Specification only, no code behind it (outside /repo). -/
def BackIs (p : Prices) (l : Location) (q : Nat) (w : Weight) (r : Nat) : Prop :=
  (l = ⟨1, []⟩ ∧ r = weightToFee p.cents p.base w) ∨
  (l ≠ ⟨1, []⟩ ∧ ∃ id i, payableAsset l = some id ∧ p.info id = some i ∧ i.sufficient = true ∧ p.ed ≠ 0 ∧
    r = min (fixedMulInt (fixedRatio i.min p.ed) (weightToFee p.cents p.base w)) (q - i.min))

/-- What the traders know after selling the weight of a message for `q`. Specification only, no code behind it (outside
/repo). -/
def Sold (l : Location) (w : Weight) (q : Nat) (t : Till) : Prop :=
  (l = ⟨1, []⟩ → t.asset = none ∧ t.weight = Weight.satAdd Weight.zero w ∧ t.amount = q) ∧
  (l ≠ ⟨1, []⟩ → ∃ id, payableAsset l = some id ∧ t.asset = some (l, id, q) ∧ t.weight = Weight.zero)

theorem buy_sold {p : Prices} {l : Location} {w : Weight} {f q : Nat} (h : PriceIs p l w q) (hq : q ≤ f) (t : Till)
    (ht : t.asset = none) (hw : t.weight = Weight.zero) (ha : t.amount = 0) :
    ∃ t', t.buy p w (l, f) = some (t', q) ∧ t'.surplus = t.surplus ∧ t'.refunded = t.refunded ∧ Sold l w q t' := by
  rcases h with ⟨rfl, rfl⟩ | ⟨hl, id, i, hp, hi, hs, hed, rfl⟩
  · refine ⟨{ t with weight := Weight.satAdd t.weight w, amount := t.amount + p.fee w }, ?_, rfl, rfl, fun _ => ⟨ht, ?_, ?_⟩,
      fun h => absurd rfl h⟩
    · unfold Till.buy Till.buyAsset Till.buyRelay
      simp only [ht, payableAsset_relay, Option.none_or]
      rw [if_pos ⟨trivial, hq⟩]
      rfl
    · show Weight.satAdd t.weight w = _
      rw [hw]
    · show t.amount + p.fee w = _
      rw [ha, Nat.zero_add]
      rfl
  · have hin : p.inAsset id w = some (fixedMulInt (fixedRatio i.min p.ed) (weightToFee p.cents p.base w)) := by
      unfold Prices.inAsset
      simp [hi, hs, hed, Prices.fee]
    have hle : p.least id = i.min := by unfold Prices.least; rw [hi]
    refine ⟨{ t with asset := some (l, id, max (fixedMulInt (fixedRatio i.min p.ed) (weightToFee p.cents p.base w)) i.min) },
      ?_, rfl, rfl, fun h => absurd h hl, fun _ => ⟨id, hp, rfl, hw⟩⟩
    unfold Till.buy Till.buyAsset
    simp only [ht, hp, hin, hle]
    rw [if_pos hq]
    rfl

theorem arrival_sold {p : Prices} {c : Chain} {o l : Location} {n f q : Nat} {w : Weight} {code : List VInstr} {t : Till}
    {x : Chance} (xs : List Chance) (hf : f ≤ n) (hp : PriceIs p l w q) (hq : q ≤ f) (h : x.luck.fails = false)
    (ht : t.asset = none ∧ t.surplus = Weight.zero ∧ t.refunded = Weight.zero) (hw : t.weight = Weight.zero)
    (ha : t.amount = 0) :
    ∃ t', pricedRun p (loaded c o l n (.buyExecution (l, f) (.limited w) :: code)) t (x :: xs) =
        pricedRun p (bought c o l n q code) t' xs ∧ t'.surplus = Weight.zero ∧ t'.refunded = Weight.zero ∧ Sold l w q t' := by
  obtain ⟨t', ht', s1, s2, s3⟩ := buy_sold hp hq t ht.1 hw ha
  have hacc := price_accepts hp
  have hqf : Nat.min q f = q := Nat.min_eq_left hq
  have hqn : Nat.min q n = q := Nat.min_eq_left (by omega)
  refine ⟨t'.uses Generic.buyExecution, ?_, by rw [← ht.2.1, ← s1]; rfl, by rw [← ht.2.2, ← s2]; rfl, s3⟩
  have hlt : ¬ n < f := by omega
  by_cases h0 : q = 0
  · simp [pricedRun, pricedStep, loaded, bought, h, Till.price, ht', Mach.effect, amt, aget, hlt, hacc, takeList, aset, adel, h0, putAll]
  · simp [pricedRun, pricedStep, loaded, bought, h, Till.price, ht', Mach.effect, amt, aget, hlt, hacc, takeList, aset, adel, hqf, hqn, h0, putAll, put]

/-- What the traders give back for `SetTopic`. -/
theorem refund_topic {p : Prices} {l : Location} {q r : Nat} {t : Till} (hp : PriceIs p l (incomingWeight true) q)
    (hb : BackIs p l q topicWeight r) (hs : Sold l (incomingWeight true) q t) (h1 : t.surplus = topicWeight)
    (h2 : t.refunded = Weight.zero) : r ≤ q ∧ (t.refund p).2 = ⟨if r = 0 then [] else [(l, r)], 0⟩ := by
  have hw : Weight.satSub t.surplus t.refunded = topicWeight := by rw [h1, h2]; decide
  have hz : ¬ topicWeight = Weight.zero := by decide
  unfold Till.refund
  dsimp only
  rw [hw, if_neg hz]
  rcases hb with ⟨rfl, rfl⟩ | ⟨hl, id, i, g1, g2, g3, g4, rfl⟩
  · obtain ⟨s1, s2, s3⟩ := hs.1 rfl
    obtain rfl : q = weightToFee p.cents p.base (incomingWeight true) := by
      rcases hp with ⟨_, e⟩ | ⟨e, _⟩
      · exact e
      · exact absurd rfl e
    have hv : Weight.min topicWeight t.weight = topicWeight := by rw [s2]; decide
    have hle : p.fee topicWeight ≤ p.fee (incomingWeight true) := fee_mono p (by decide) (by decide)
    have hle' : weightToFee p.cents p.base topicWeight ≤ weightToFee p.cents p.base (incomingWeight true) := hle
    refine ⟨hle', ?_⟩
    simp only [Till.refundAsset, s1, Till.refundRelay, hv]
    by_cases h0 : p.fee topicWeight = 0
    · have h0' : weightToFee p.cents p.base topicWeight = 0 := h0
      simp only [h0, if_true, h0']
    · have h0' : ¬ weightToFee p.cents p.base topicWeight = 0 := h0
      simp only [h0, if_false, h0', s3]
      congr 1
      · congr 2
        exact Nat.min_eq_left hle
      · exact Nat.sub_eq_zero_of_le hle
  · obtain ⟨id', e1, s1, s2⟩ := hs.2 hl
    rw [g1] at e1
    cases e1
    refine ⟨Nat.le_trans (Nat.min_le_right _ _) (Nat.sub_le _ _), ?_⟩
    have hle : p.least id = i.min := by unfold Prices.least; rw [g2]
    have hin : p.inAsset id topicWeight = some (fixedMulInt (fixedRatio i.min p.ed) (weightToFee p.cents p.base topicWeight)) := by
      unfold Prices.inAsset
      simp [g2, g3, g4, Prices.fee]
    have hv : Weight.min topicWeight Weight.zero = Weight.zero := by decide
    simp only [Till.refundAsset, s1, hin, hle]
    generalize fixedMulInt (fixedRatio i.min p.ed) (weightToFee p.cents p.base topicWeight) = a
    by_cases hgt : q - a > i.min
    · rw [if_pos hgt, Nat.min_eq_left (by omega)]
      by_cases h0 : a = 0
      · simp only [h0, if_true, Till.refundRelay, s2, hv, fee_zero]
      · simp only [h0, if_false]
    · rw [if_neg hgt]
      by_cases h0 : q - i.min = 0
      · have : min a (q - i.min) = 0 := by omega
        simp only [h0, if_true, Till.refundRelay, s2, hv, fee_zero, Nat.min_zero]
      · have : min a (q - i.min) = q - i.min := by omega
        rw [this]
        simp only [h0, if_false]

/-- The end, with something given back. -/
theorem arrival_back {m : Mach} {o l : Location} {k q r least : Nat} {cur : Cur} (hs : m.sender = o) (ho : m.origin = none)
    (hh : m.holding = [(l, k)]) (hp : m.paid = if q = 0 then [] else [(l, q)]) (hm : matchAsset l = .cur cur)
    (hmin : m.chain.ledger.minBal cur = some least) (h1 : least ≤ m.chain.ledger.get cur treasuryAccount)
    (h2 : m.chain.ledger.get cur treasuryAccount + q ≤ amountMax) (hr : r ≤ q) (hk : k + q ≤ amountMax) (h0 : 0 < k) :
    (∀ c a, (m.finish ⟨if r = 0 then [] else [(l, r)], 0⟩).ledger.get c a =
      m.chain.ledger.get c a + if c = cur ∧ a = treasuryAccount then q - r else 0) ∧
    ∃ h, (m.finish ⟨if r = 0 then [] else [(l, r)], 0⟩).traps = m.chain.traps ++ [(o, h)] ∧
      ∀ c, amt h c = if c = l then k + r else 0 := by
  by_cases hz : r = 0
  · rw [if_pos hz]
    obtain ⟨a1, _, _, a4⟩ := arrival_finish hs ho hh hp hm hmin (.inr (by omega)) h2
    obtain ⟨h, e1, e2⟩ := a4 (by omega)
    subst hz
    exact ⟨a1, h, e1, e2⟩
  · rw [if_neg hz]
    have hq : q ≠ 0 := by omega
    rw [if_neg hq] at hp
    have hamt : amt [(l, q)] l = q := by simp [amt, aget_cons]
    have hmn : Nat.min r q = r := Nat.min_eq_left hr
    have htake : takeList [(l, q)] [(l, r)] = ([(l, r)], [(l, q - r)]) := by
      simp only [takeList, hamt, hmn, if_neg hz]
      congr 1
      simp [aset, adel]
    obtain ⟨M, hM⟩ : ∃ M, m.refund ⟨[(l, r)], 0⟩ = M := ⟨_, rfl⟩
    have hM' : Mach.subsume { m with paid := [(l, q - r)], chain := { m.chain with minted := put m.chain.minted ⟨1, []⟩ 0 } }
        [(⟨1, []⟩, 0), (l, r)] = M := by
      rw [← hM]
      unfold Mach.refund
      rw [hp, htake]
    obtain ⟨b1, b2, b3, _, _, _, b7, b8, _, _⟩ := subsume_spec [((⟨1, []⟩ : Location), 0), (l, r)]
      { m with paid := [(l, q - r)], chain := { m.chain with minted := put m.chain.minted ⟨1, []⟩ 0 } }
    have hamtk : ∀ c, amt [(l, k)] c = if c = l then k else 0 := by
      intro c
      simp only [amt, aget_cons]
      by_cases e : l = c
      · subst e; simp
      · have : ¬ c = l := fun h => e h.symm
        simp [e, this, aget]
    have hsum : ∀ c, sumAt [((⟨1, []⟩ : Location), 0), (l, r)] c = if c = l then r else 0 := by
      intro c
      simp only [sumAt]
      by_cases e : l = c
      · subst e; simp
      · have : ¬ c = l := fun h => e h.symm
        simp [e, this]
    have hhold : ∀ c, amt M.holding c = if c = l then k + r else 0 := by
      intro c
      rw [← hM', subsume_room _ _ (by
        intro c
        dsimp only
        rw [hh, hamtk, hsum]
        split <;> omega)]
      dsimp only
      rw [hh, hamtk, hsum]
      split <;> omega
    rw [hM'] at b1 b2 b3 b7 b8
    dsimp only at b1 b2 b3 b7 b8
    have hall : M.holding.all (fun e => amt M.holding e.1 == 0) = false := by
      rw [List.all_eq_false]
      have : 0 < amt M.holding l := by rw [hhold, if_pos rfl]; omega
      obtain ⟨e, he, rfl⟩ := List.mem_map.1 (amt_pos_mem this)
      exact ⟨e, he, by rw [hhold, if_pos rfl]; simp; omega⟩
    have hpay : ∀ c a, (payTreasury (contents M.paid) M.acc).1.get c a =
        m.chain.ledger.get c a + if c = cur ∧ a = treasuryAccount then q - r else 0 := by
      have hacc : M.acc.1 = m.chain.ledger := b7
      intro c a
      rw [b3]
      by_cases hqr : q - r = 0
      · have hc : contents [(l, q - r)] = [] := by
          simp [contents, VFilter.wanted, takeList, amt, aget_cons, hqr]
        rw [hc]
        show M.acc.1.get c a = _
        rw [hacc, hqr]
        simp
      · have hc : contents [(l, q - r)] = [(l, q - r)] := by
          simp [contents, VFilter.wanted, takeList, amt, aget_cons, hqr]
        obtain ⟨L, hd, _, hg⟩ := deposit_ok (a := treasuryAccount) (n := q - r) hmin (by omega) (by omega)
        rw [hc]
        have : payTreasury [(l, q - r)] M.acc = (L, M.acc.2) := by
          simp [payTreasury, hm, hacc, hd]
        rw [this]
        exact hg c a
    unfold Mach.finish
    rw [hM]
    dsimp only
    rw [hall, if_neg (by simp)]
    refine ⟨hpay, M.holding, ?_, hhold⟩
    dsimp only
    rw [b8, b2, b1, hs, ho]
    rfl

/-- C138: the same for a message that ends with a topic, as those of other chains do: what is given back for the topic is
trapped with the rest, and the treasury gets that much less. -/
theorem C138_undeliverable_topic (p : Prices) (c : Chain) (o l benef : Location) (n f q r : Nat) (x1 x2 x3 x4 : Chance) (cur : Cur)
    (least : Nat) (hr : isReserve l o = true) (hn : n ≤ amountMax) (hf : f ≤ n)
    (hp : PriceIs p l (incomingWeight true) q) (hb : BackIs p l q topicWeight r) (hq : q ≤ f) (h0 : q < n)
    (hm : matchAsset l = .cur cur) (hmin : c.ledger.minBal cur = some least)
    (ha : ∀ acct, locationToAccount benef = some acct →
      c.ledger.get cur acct + (n - q) < least ∨ amountMax < c.ledger.get cur acct + (n - q))
    (htre : least ≤ c.ledger.get cur treasuryAccount) (htmax : c.ledger.get cur treasuryAccount + n ≤ amountMax)
    (hx : x1.luck.fails = false ∧ x2.luck.fails = false ∧ x3.luck.fails = false ∧ x4.luck.pick l = true) :
    r ≤ q ∧
    ∃ c' t' h, pricedExecute p c o (incoming l n f (.limited (incomingWeight true)) benef true) [x1, x2, x3, x4] = some (c', t') ∧
      (∀ k a, c'.ledger.get k a = c.ledger.get k a + if k = cur ∧ a = treasuryAccount then q - r else 0) ∧
      c'.traps = c.traps ++ [(o, h)] ∧ ∀ k, amt h k = if k = l then n - q + r else 0 := by
  obtain ⟨g1, g2, g3, g4⟩ := hx
  obtain ⟨t, ht, ht1, htw, hta, ht2, ht3⟩ := arrival_loaded (p := p) (c := c)
    (code := [.buyExecution (l, f) (.limited (incomingWeight true)), .depositAsset (.counted 1) benef, .plain .setTopic])
    [x3, x4] hr hn g1 g2
  obtain ⟨t', ht', hs, hrf, hsold⟩ := arrival_sold (c := c) (o := o)
    (code := [.depositAsset (.counted 1) benef, .plain .setTopic]) [x4] hf hp hq g3 ⟨ht1, ht2, ht3⟩ htw hta
  have hpan : panics l = false := by unfold panics; rw [hm]
  have hnq : ¬ n - q = 0 := by omega
  have hdep : depositTo benef (bought c o l n q []).acc cur (n - q) = none := by
    unfold depositTo
    split
    · rfl
    · rename_i acct hacct
      have : c.ledger.deposit cur acct (n - q) = none := by
        unfold XLedger.deposit
        rw [if_neg hnq, hmin]
        dsimp only
        rcases ha acct hacct with h | h
        · rw [if_pos h]
        · split
          · rfl
          · rfl
      show Option.map _ (c.ledger.deposit cur acct (n - q)) = none
      rw [this]
      rfl
  have h4 : pricedRun p (bought c o l n q [.depositAsset (.counted 1) benef, .plain .setTopic]) t' [x4] =
      some ((bought c o l n q [.depositAsset (.counted 1) benef, .plain .setTopic]).failed,
        t'.failed [] (.depositAsset (.counted 1) benef) [.plain .setTopic]) := by
    have e : Mach.effect { bought c o l n q [.depositAsset (.counted 1) benef, .plain .setTopic] with code := [.plain .setTopic] }
        x4.luck (.depositAsset (.counted 1) benef) = .err := by
      simp only [bought, loaded, Mach.acc] at hdep ⊢
      simp [Mach.effect, amt, aget, takeList, aset, adel, VFilter.wanted, g4, hnq, depositAll, eachAsset, Mach.acc, hpan, hm, hdep]
    refine one_step ?_
    unfold pricedStep
    simp only [bought, loaded] at e ⊢
    simp only [Till.price, e]
    split <;> rfl
  unfold pricedExecute
  rw [show incoming l n f (.limited (incomingWeight true)) benef true = .reserveAssetDeposited [(l, n)] :: .clearOrigin ::
    [.buyExecution (l, f) (.limited (incomingWeight true)), .depositAsset (.counted 1) benef, .plain .setTopic] from rfl, ht, ht', h4]
  have hs' : (t'.failed [] (.depositAsset (.counted 1) benef) [.plain .setTopic]).surplus = topicWeight := by
    show Weight.satAdd t'.surplus (remaining [.plain .setTopic]) = topicWeight
    have e : remaining [.plain .setTopic] = topicWeight := by
      simp only [remaining, instrWeight, VInstr.shape, Plain.shape, weighOne, Instr.weight]
      decide +kernel
    rw [hs, e]
    decide
  obtain ⟨hrq, hback⟩ := refund_topic (t := t'.failed [] (.depositAsset (.counted 1) benef) [.plain .setTopic]) hp hb hsold hs' hrf
  refine ⟨hrq, ?_⟩
  obtain ⟨b1, h, e1, e2⟩ := arrival_back (m := (bought c o l n q [.depositAsset (.counted 1) benef, .plain .setTopic]).failed)
    (o := o) (q := q) (k := n - q) (r := r) rfl rfl rfl rfl hm hmin htre
    (by show c.ledger.get cur treasuryAccount + q ≤ amountMax; omega) hrq (by omega) (by omega)
  refine ⟨_, _, h, rfl, ?_⟩
  rw [hback]
  exact ⟨b1, e1, e2⟩

/-- C138: on Kusama, what is given back for the topic. -/
theorem C138_back_kusama : BackIs kusamaPrices ⟨1, []⟩ 4310187 topicWeight 71787 := by
  refine .inl ⟨rfl, ?_⟩
  decide +kernel

/-- C139: a deposit succeeds exactly if there is nothing of the asset to deposit, or the beneficiary is an account, the asset
exists, and the balance reaches the least balance and fits. -/
theorem C139_deposit_when (m : Mach) (luck : Luck) (dst l : Location) (n : Nat) (cur : Cur) (hm : matchAsset l = .cur cur) :
    (∃ m', m.effect luck (.depositAsset (.definite [(l, n)]) dst) = .ok m') ↔
      (Nat.min n (amt m.holding l) = 0 ∨
        ∃ b, locationToAccount dst = some b ∧
          ∃ least, m.chain.ledger.minBal cur = some least ∧ least ≤ m.chain.ledger.get cur b + Nat.min n (amt m.holding l) ∧
            m.chain.ledger.get cur b + Nat.min n (amt m.holding l) ≤ amountMax) := by
  have hpan : panics l = false := by unfold panics; rw [hm]
  unfold Mach.effect
  simp only [VFilter.wanted, takeList]
  by_cases h0 : Nat.min n (amt m.holding l) = 0
  · rw [if_pos h0]
    simp only [depositAll, List.any_nil, Bool.false_eq_true, if_false, eachAsset]
    exact ⟨fun _ => .inl h0, fun _ => ⟨_, rfl⟩⟩
  · rw [if_neg h0]
    simp only [depositAll, List.any_cons, hpan, List.any_nil, Bool.or_false, Bool.false_eq_true, if_false, eachAsset, hm, depositTo]
    cases hb : locationToAccount dst with
    | none =>
      constructor
      · rintro ⟨m', h⟩
        cases h
      · rintro (h | ⟨b, h, _⟩)
        · exact absurd h h0
        · cases h
    | some b =>
      dsimp only
      cases hd : (Mach.acc m).1.deposit cur b (Nat.min n (amt m.holding l)) with
      | none =>
        constructor
        · rintro ⟨m', h⟩
          simp at h
        · rintro (h | ⟨b', hb', least, h1, h2, h3⟩)
          · exact absurd h h0
          · cases hb'
            obtain ⟨L, hL, _⟩ := deposit_ok h1 h2 h3
            have hL' : (Mach.acc m).1.deposit cur b (Nat.min n (amt m.holding l)) = some L := hL
            rw [hd] at hL'
            cases hL'
      | some L =>
        constructor
        · intro _
          rcases (deposit_precise hd).1 with h | h
          · exact absurd h h0
          · exact .inr ⟨b, rfl, h⟩
        · intro _
          exact ⟨_, rfl⟩

/-! ## Examples -/

/-- Less than the existential deposit for a new account, with a topic: the hypotheses of `C138_undeliverable_topic` are met,
and what the treasury gets. -/
example :
    PriceIs kusamaPrices ⟨1, []⟩ (incomingWeight true) 4310187 ∧
    (∀ acct, locationToAccount somebody = some acct →
      treasuryChain.ledger.get .native acct + (10000000 - 4310187) < 33333333 ∨
        amountMax < treasuryChain.ledger.get .native acct + (10000000 - 4310187)) := by
  refine ⟨.inl ⟨rfl, by decide +kernel⟩, ?_⟩
  intro acct h
  have e : locationToAccount somebody = some (List.replicate 32 7) := by decide +kernel
  rw [e] at h
  cases h
  exact .inl (by decide +kernel)

end Verif.Xcm
