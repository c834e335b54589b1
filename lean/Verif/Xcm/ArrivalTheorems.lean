import Verif.Xcm.TraderTheorems

/-!
# C138: assets sent to Kreivo arrive, less the fee
-/

namespace Verif.Xcm

open Verif Verif.Runtime Verif.Accounts

/-! ## Specification -/

/-- What other chains send when somebody moves an asset to Kreivo (`reserve_transfer_assets`, `transfer_assets`): `n` of the
asset at `l`, of which `f` are offered for the fee, for a beneficiary; with or without a topic. Specification only, no code
behind it (outside /repo). -/
def incoming (l : Location) (n f : Nat) (limit : WeightLimit) (benef : Location) (topic : Bool) : List VInstr :=
  [.reserveAssetDeposited [(l, n)], .clearOrigin, .buyExecution (l, f) limit, .depositAsset (.counted 1) benef] ++
    if topic then [.plain .setTopic] else []

/-- The weight of that message. Specification only, no code behind it (outside /repo). -/
def incomingWeight (topic : Bool) : Weight := if topic then ⟨161632000, 0⟩ else ⟨158940000, 0⟩

/-- What a weight costs, paid in the asset at `l`. Specification only, no code behind it (outside /repo). -/
def PriceIs (p : Prices) (l : Location) (w : Weight) (q : Nat) : Prop :=
  (l = ⟨1, []⟩ ∧ q = weightToFee p.cents p.base w) ∨
  (l ≠ ⟨1, []⟩ ∧ ∃ id i, payableAsset l = some id ∧ p.info id = some i ∧ i.sufficient = true ∧ p.ed ≠ 0 ∧
    q = max (fixedMulInt (fixedRatio i.min p.ed) (weightToFee p.cents p.base w)) i.min)

/-! ## Lemmas -/

theorem incoming_weight (l : Location) (n f : Nat) (limit : WeightLimit) (benef : Location) (topic : Bool) :
    messageWeight ((incoming l n f limit benef topic).map VInstr.shape) = some (incomingWeight topic) := by
  cases topic <;>
  · simp only [incoming, List.map_append, List.map_cons, List.map_nil, List.cons_append, List.nil_append, VInstr.shape,
      VFilter.shape, Plain.shape, messageWeight, weighFrom_eq, weighAll, weighOne, List.length_cons, List.length_nil, if_true,
      Bool.false_eq_true, if_false]
    cases limit
    · decide +kernel
    · show Option.map _ (ite _ _ _) = _
      simp only [Instr.weight]
      decide +kernel

theorem buy_price {p : Prices} {l : Location} {w : Weight} {f q : Nat} (h : PriceIs p l w q) (hq : q ≤ f) (t : Till)
    (ht : t.asset = none) :
    ∃ t', t.buy p w (l, f) = some (t', q) ∧ t'.surplus = t.surplus ∧ t'.refunded = t.refunded := by
  rcases h with ⟨rfl, rfl⟩ | ⟨hl, id, i, hp, hi, hs, hed, rfl⟩
  · refine ⟨{ t with weight := Weight.satAdd t.weight w, amount := t.amount + p.fee w }, ?_, rfl, rfl⟩
    unfold Till.buy Till.buyAsset Till.buyRelay
    simp only [ht, payableAsset_relay, Option.none_or]
    rw [if_pos ⟨trivial, hq⟩]
    rfl
  · have ha : p.inAsset id w = some (fixedMulInt (fixedRatio i.min p.ed) (weightToFee p.cents p.base w)) := by
      unfold Prices.inAsset
      simp [hi, hs, hed, Prices.fee]
    have hle : p.least id = i.min := by unfold Prices.least; rw [hi]
    refine ⟨{ t with asset := some (l, id, max (fixedMulInt (fixedRatio i.min p.ed) (weightToFee p.cents p.base w)) i.min) },
      ?_, rfl, rfl⟩
    unfold Till.buy Till.buyAsset
    simp only [ht, hp, ha, hle]
    rw [if_pos hq]
    rfl

theorem no_buy {p : Prices} {l : Location} {w : Weight} {f : Nat} (h : ∀ q, PriceIs p l w q → f < q) (t : Till) :
    t.buy p w (l, f) = none := by
  rcases hb : t.buy p w (l, f) with _ | ⟨t', q⟩
  · rfl
  · obtain ⟨b1, _, b3⟩ := buy_spec hb
    have : PriceIs p l w q := by
      rcases b3 with ⟨f1, f2, _⟩ | ⟨id, a, _, f2, f3, f4, f5, _⟩
      · exact .inl ⟨f1, f2⟩
      · unfold Prices.inAsset at f4
        split at f4
        · cases f4
        · rename_i i hi
          split at f4
          · cases f4
          · rename_i hs
            split at f4
            · cases f4
            · rename_i hed
              obtain rfl := Option.some.inj f4
              refine .inr ⟨f2, id, i, f3, hi, by simpa using hs, hed, ?_⟩
              rw [f5]
              unfold Prices.least Prices.fee
              rw [hi]
    have := h q this
    dsimp only at b1
    omega

theorem price_accepts {p : Prices} {l : Location} {w : Weight} {q : Nat} (h : PriceIs p l w q) : traderAccepts l = true := by
  rcases h with ⟨rfl, _⟩ | ⟨_, id, i, hp, _⟩
  · decide +kernel
  · exact payable_accepts hp

theorem no_refund {p : Prices} {t : Till} (h1 : t.surplus = Weight.zero) (h2 : t.refunded = Weight.zero) :
    t.refund p = (t, ⟨[], 0⟩) := by
  unfold Till.refund
  rw [h1, h2]
  rfl

/-- After loading and clearing the origin. Specification only, no code behind it (outside /repo). -/
def loaded (c : Chain) (o l : Location) (n : Nat) (code : List VInstr) : Mach :=
  ⟨o, none, [(l, n)], [], code, [], [], { c with received := c.received ++ [(o, l, n)], gone := put c.gone l 0 }⟩

theorem arrival_loaded {p : Prices} {c : Chain} {o l : Location} {n : Nat} {code : List VInstr}
    {x1 x2 : Chance} (xs : List Chance) (hr : isReserve l o = true) (hn : n ≤ amountMax) (h1 : x1.luck.fails = false)
    (h2 : x2.luck.fails = false) :
    ∃ t, pricedRun p (Mach.start c o (.reserveAssetDeposited [(l, n)] :: .clearOrigin :: code)) Till.start (x1 :: x2 :: xs) =
        pricedRun p (loaded c o l n code) t xs ∧
      t.asset = none ∧ t.weight = Weight.zero ∧ t.amount = 0 ∧ t.surplus = Weight.zero ∧ t.refunded = Weight.zero := by
  have hroom : Nat.min n amountMax = n := Nat.min_eq_left hn
  refine ⟨(Till.start.uses (VInstr.reserveAssetDeposited [(l, n)]).weight).uses VInstr.clearOrigin.weight, ?_, rfl, rfl, rfl, rfl, rfl⟩
  simp [pricedRun, pricedStep, Mach.start, h1, h2, Till.price, Mach.effect, hr, Mach.subsume, loaded, put, amt, aset, aget, adel,
    hroom]

/-- After buying: what is held and what was paid. Specification only, no code behind it (outside /repo). -/
def bought (c : Chain) (o l : Location) (n q : Nat) (code : List VInstr) : Mach :=
  { loaded c o l n code with holding := [(l, n - q)], paid := if q = 0 then [] else [(l, q)] }

theorem arrival_bought {p : Prices} {c : Chain} {o l : Location} {n f q : Nat} {w : Weight} {code : List VInstr} {t : Till}
    {x : Chance} (xs : List Chance) (hf : f ≤ n) (hp : PriceIs p l w q) (hq : q ≤ f) (h : x.luck.fails = false)
    (ht : t.asset = none ∧ t.surplus = Weight.zero ∧ t.refunded = Weight.zero) :
    ∃ t', pricedRun p (loaded c o l n (.buyExecution (l, f) (.limited w) :: code)) t (x :: xs) =
        pricedRun p (bought c o l n q code) t' xs ∧ t'.surplus = Weight.zero ∧ t'.refunded = Weight.zero := by
  obtain ⟨t', ht', s1, s2⟩ := buy_price hp hq t ht.1
  have hacc := price_accepts hp
  have hqf : Nat.min q f = q := Nat.min_eq_left hq
  have hqn : Nat.min q n = q := Nat.min_eq_left (by omega)
  refine ⟨t'.uses Generic.buyExecution, ?_, by rw [← ht.2.1, ← s1]; rfl, by rw [← ht.2.2, ← s2]; rfl⟩
  have hlt : ¬ n < f := by omega
  have hlt : ¬ n < f := by omega
  by_cases h0 : q = 0
  · simp [pricedRun, pricedStep, loaded, bought, h, Till.price, ht', Mach.effect, amt, aget, hlt, hacc, takeList, aset, adel, hqf, hqn, h0, putAll]
  · simp [pricedRun, pricedStep, loaded, bought, h, Till.price, ht', Mach.effect, amt, aget, hlt, hacc, takeList, aset, adel, hqf, hqn, h0, putAll, put]

/-- The last step before the topic: the deposit. -/
theorem arrival_deposited {p : Prices} {c : Chain} {o l benef : Location} {n q : Nat} {code : List VInstr} {t : Till}
    {x : Chance} (xs : List Chance) {cur : Cur} {acct : AccountId} {L : XLedger} (hm : matchAsset l = .cur cur)
    (ha : locationToAccount benef = some acct) (hd : c.ledger.deposit cur acct (n - q) = some L)
    (h : x.luck.fails = false) (hpick : x.luck.pick l = true) :
    pricedRun p (bought c o l n q (.depositAsset (.counted 1) benef :: code)) t (x :: xs) =
      pricedRun p { bought { c with ledger := L } o l n q code with holding := [(l, 0)] } (t.uses (VInstr.depositAsset (.counted 1) benef).weight) xs := by
  have hp : panics l = false := by unfold panics; rw [hm]
  by_cases h0 : n - q = 0
  · have hL : L = c.ledger := by
      unfold XLedger.deposit at hd
      rw [if_pos h0] at hd
      cases hd; rfl
    subst hL
    simp [pricedRun, pricedStep, loaded, bought, h, Till.price, Mach.effect, amt, aget, takeList, aset, adel, VFilter.wanted, hpick, h0,
      depositAll, eachAsset, Mach.setAcc, Mach.acc]
  · simp [pricedRun, pricedStep, loaded, bought, h, Till.price, Mach.effect, amt, aget, takeList, aset, adel, VFilter.wanted, hpick, h0,
      depositAll, eachAsset, Mach.setAcc, Mach.acc, hp, hm, depositTo, ha, hd]

theorem deposit_ok {L : XLedger} {c : Cur} {a : AccountId} {n least : Nat} (hmin : L.minBal c = some least)
    (h1 : least ≤ L.get c a + n) (h2 : L.get c a + n ≤ amountMax) :
    ∃ L', L.deposit c a n = some L' ∧ L'.minBal = L.minBal ∧
      ∀ k b, L'.get k b = L.get k b + if k = c ∧ b = a then n else 0 := by
  unfold XLedger.deposit
  by_cases h0 : n = 0
  · rw [if_pos h0]
    exact ⟨L, rfl, rfl, fun k b => by simp [h0]⟩
  · rw [if_neg h0, hmin]
    dsimp only
    rw [if_neg (by omega), if_neg (by omega)]
    refine ⟨_, rfl, rfl, fun k b => ?_⟩
    rw [get_set]
    split
    · rename_i e
      rw [e.1, e.2]
    · rfl

/-- The end: the treasury gets the fee, and what is held is trapped under the sender. -/
theorem arrival_finish {m : Mach} {o l : Location} {r q least : Nat} {cur : Cur} (hs : m.sender = o) (ho : m.origin = none)
    (hh : m.holding = [(l, r)]) (hp : m.paid = if q = 0 then [] else [(l, q)]) (hm : matchAsset l = .cur cur)
    (hmin : m.chain.ledger.minBal cur = some least) (h1 : q = 0 ∨ least ≤ m.chain.ledger.get cur treasuryAccount + q)
    (h2 : m.chain.ledger.get cur treasuryAccount + q ≤ amountMax) :
    (∀ k a, (m.finish ⟨[], 0⟩).ledger.get k a =
      m.chain.ledger.get k a + if k = cur ∧ a = treasuryAccount then q else 0) ∧
    (m.finish ⟨[], 0⟩).received = m.chain.received ∧
    (r = 0 → (m.finish ⟨[], 0⟩).traps = m.chain.traps) ∧
    (r ≠ 0 → ∃ h, (m.finish ⟨[], 0⟩).traps = m.chain.traps ++ [(o, h)] ∧ ∀ k, amt h k = if k = l then r else 0) := by
  have hm1 : ∃ ch, m.refund ⟨[], 0⟩ = { m with holding := put [(l, r)] ⟨1, []⟩ 0, chain := ch } ∧ ch.ledger = m.chain.ledger ∧
      ch.traps = m.chain.traps ∧ ch.received = m.chain.received := by
    unfold Mach.refund
    simp only [takeList, Mach.subsume, hh, Nat.zero_min]
    exact ⟨_, rfl, rfl, rfl, rfl⟩
  obtain ⟨ch, hr, hl, ht, hrec⟩ := hm1
  have hamt : ∀ k, amt (put [(l, r)] ⟨1, []⟩ 0) k = if k = l then r else 0 := by
    intro k
    rw [amt_put]
    simp only [amt, aget_cons]
    by_cases e : l = k
    · subst e; simp
    · have : ¬ k = l := fun h => e h.symm
      simp [e, this, aget]
  have hpay : ∃ L, (payTreasury (contents m.paid) (ch.ledger, ch.gone)).1 = L ∧
      ∀ k a, L.get k a = m.chain.ledger.get k a + if k = cur ∧ a = treasuryAccount then q else 0 := by
    by_cases h0 : q = 0
    · refine ⟨m.chain.ledger, ?_, fun k a => by simp [h0]⟩
      rw [hp, if_pos h0, ← hl]
      rfl
    · have hc : contents m.paid = [(l, q)] := by
        rw [hp, if_neg h0]
        simp [contents, VFilter.wanted, takeList, amt, aget_cons, h0]
      obtain ⟨L, hd, _, hg⟩ := deposit_ok (a := treasuryAccount) hmin (by omega) h2
      refine ⟨L, ?_, hg⟩
      rw [hc]
      simp [payTreasury, hm, hl, hd]
  obtain ⟨L, hL, hg⟩ := hpay
  have hall : (put [(l, r)] ⟨1, []⟩ 0).all (fun e => amt (put [(l, r)] ⟨1, []⟩ 0) e.1 == 0) = decide (r = 0) := by
    by_cases h0 : r = 0
    · rw [decide_eq_true h0, List.all_eq_true]
      intro e _
      rw [hamt]
      simp [h0]
    · rw [decide_eq_false h0, List.all_eq_false]
      have : 0 < amt (put [(l, r)] ⟨1, []⟩ 0) l := by rw [hamt, if_pos rfl]; omega
      obtain ⟨e, he, rfl⟩ := List.mem_map.1 (amt_pos_mem this)
      exact ⟨e, he, by rw [hamt, if_pos rfl]; simp [h0]⟩
  unfold Mach.finish
  rw [hr]
  dsimp only [Mach.acc]
  rw [hall]
  by_cases h0 : r = 0
  · rw [decide_eq_true h0, if_pos rfl]
    exact ⟨fun k a => by rw [hL]; exact hg k a, hrec, fun _ => ht, fun h => absurd h0 h⟩
  · rw [decide_eq_false h0, if_neg (by simp)]
    refine ⟨fun k a => by dsimp only; rw [hL]; exact hg k a, hrec, fun h => absurd h h0, fun _ => ⟨_, ?_, hamt⟩⟩
    dsimp only
    rw [ht, hs, ho]
    rfl

theorem nothing_bought {p : Prices} {t : Till} (h1 : t.asset = none) (h2 : t.weight = Weight.zero) : (t.refund p).2 = ⟨[], 0⟩ := by
  have hv : ∀ w : Weight, Weight.min w Weight.zero = Weight.zero := by
    intro w
    simp [Weight.min, Weight.zero]
  unfold Till.refund
  dsimp only
  split
  · rfl
  · simp only [Till.refundAsset, h1, Till.refundRelay, h2, hv, fee_zero, if_true]

theorem one_step {p : Prices} {m m' : Mach} {t t' : Till} {x : Chance} (h : pricedStep p m t x = some (m', t')) :
    pricedRun p m t [x] = some (m', t') := by
  unfold pricedRun
  rw [h]
  rfl

/-! ## C138 -/

/-- C138: such a message is let in whenever the weight it is ready to buy is not less than its own, which does not depend on
the asset, the amount or the beneficiary; it then buys exactly its own weight. -/
theorem C138_admitted (skip : Instr → Bool) (hskip : ∀ i, skip i = true ↔ i = .clearOrigin) (self : UInt32) (o l benef : Location)
    (n f : Nat) (limit : WeightLimit) (topic : Bool)
    (hl : ∀ w, limit = .limited w → Weight.allGte w (incomingWeight topic) = true) :
    admit skip self o ((incoming l n f limit benef topic).map VInstr.shape) ⟨0, 0⟩ =
      some ((incoming l n f (.limited (incomingWeight topic)) benef topic).map VInstr.shape) := by
  have hc : Weight.covers ⟨0, 0⟩ (incomingWeight topic) = false := by cases topic <;> decide +kernel
  have s1 : skip .clearOrigin = true := (hskip _).2 rfl
  have s2 : ∀ v, skip (.buyExecution v) = false := by
    intro v
    by_contra h
    have := (hskip (.buyExecution v)).1 (by simpa using h)
    cases this
  unfold admit
  rw [incoming_weight]
  cases limit with
  | unlimited =>
    cases topic <;>
    simp [barrier, hc, incoming, VInstr.shape, computeOrigin, topLevelPaid, loadsAssets, skipAndBuy, s1, s2, buys, Plain.shape]
  | limited v =>
    have := hl v rfl
    cases topic <;>
    simp [barrier, hc, incoming, VInstr.shape, computeOrigin, topLevelPaid, loadsAssets, skipAndBuy, s1, s2, buys, Plain.shape, this]

/-- C138: what is sent arrives. If the chain it comes from is a reserve of the asset, the price of the message is within what
is offered for it, and the beneficiary's and the treasury's accounts can take the asset: the beneficiary gets exactly what was
sent less the price, the treasury gets the price, and nothing else changes: no other balance, and nothing is trapped. -/
theorem C138_arrives (p : Prices) (c : Chain) (o l benef : Location) (n f q : Nat) (topic : Bool) (xs : List Chance) (cur : Cur)
    (acct : AccountId) (least : Nat) (hr : isReserve l o = true) (hn : n ≤ amountMax) (hf : f ≤ n)
    (hp : PriceIs p l (incomingWeight topic) q) (hq : q ≤ f) (hm : matchAsset l = .cur cur)
    (ha : locationToAccount benef = some acct) (hmin : c.ledger.minBal cur = some least)
    (hleast : least ≤ c.ledger.get cur acct + (n - q)) (hmax : c.ledger.get cur acct + n ≤ amountMax)
    (htre : least ≤ c.ledger.get cur treasuryAccount) (htmax : c.ledger.get cur treasuryAccount + n ≤ amountMax)
    (hlen : xs.length = (incoming l n f .unlimited benef topic).length)
    (hx : ∀ x ∈ xs, x.luck.fails = false ∧ x.luck.pick l = true) :
    ∃ c' t', pricedExecute p c o (incoming l n f (.limited (incomingWeight topic)) benef topic) xs = some (c', t') ∧
      (∀ k a, c'.ledger.get k a = c.ledger.get k a + (if k = cur ∧ a = acct then n - q else 0) +
        (if k = cur ∧ a = treasuryAccount then q else 0)) ∧
      c'.traps = c.traps := by
  obtain ⟨L, hd, hmb, hg⟩ := deposit_ok (n := n - q) hmin hleast (by omega)
  have hgt : least ≤ L.get cur treasuryAccount + q ∧ L.get cur treasuryAccount + q ≤ amountMax := by
    rw [hg]
    split
    · rename_i e
      rw [← e.2] at hmax
      constructor <;> omega
    · constructor <;> omega
  have fin : ∀ m : Mach, m.sender = o → m.origin = none → m.holding = [(l, 0)] → (m.paid = if q = 0 then [] else [(l, q)]) →
      m.chain.ledger = L → m.chain.traps = c.traps →
      (∀ k a, (m.finish ⟨[], 0⟩).ledger.get k a = c.ledger.get k a + (if k = cur ∧ a = acct then n - q else 0) +
        (if k = cur ∧ a = treasuryAccount then q else 0)) ∧ (m.finish ⟨[], 0⟩).traps = c.traps := by
    intro m h1 h2 h3 h4 h5 h6
    obtain ⟨a1, _, a3, _⟩ := arrival_finish h1 h2 h3 h4 hm (by rw [h5, hmb]; exact hmin) (.inr (by rw [h5]; exact hgt.1))
      (by rw [h5]; exact hgt.2)
    refine ⟨fun k a => ?_, by rw [a3 rfl, h6]⟩
    rw [a1, h5, hg]
  cases topic with
  | false =>
    obtain ⟨x1, x2, x3, x4, rfl⟩ : ∃ x1 x2 x3 x4, xs = [x1, x2, x3, x4] := by
      match xs, hlen with
      | [x1, x2, x3, x4], _ => exact ⟨x1, x2, x3, x4, rfl⟩
    simp only [List.mem_cons, List.not_mem_nil, or_false, forall_eq_or_imp, forall_eq] at hx
    obtain ⟨g1, g2, g3, g4⟩ := hx
    obtain ⟨t, ht, ht1, _, _, ht2, ht3⟩ := arrival_loaded (p := p) (c := c)
      (code := [.buyExecution (l, f) (.limited (incomingWeight false)), .depositAsset (.counted 1) benef]) [x3, x4] hr hn g1.1 g2.1
    obtain ⟨t', ht', hs, hrf⟩ := arrival_bought (c := c) (o := o) (code := [.depositAsset (.counted 1) benef]) [x4] hf hp hq g3.1
      ⟨ht1, ht2, ht3⟩
    have h4 := arrival_deposited (p := p) (c := c) (o := o) (t := t') (code := []) [] hm ha hd g4.1 g4.2
    unfold pricedExecute
    rw [show incoming l n f (.limited (incomingWeight false)) benef false = .reserveAssetDeposited [(l, n)] :: .clearOrigin ::
      [.buyExecution (l, f) (.limited (incomingWeight false)), .depositAsset (.counted 1) benef] from rfl, ht, ht', h4]
    refine ⟨_, _, rfl, ?_⟩
    rw [no_refund (by exact hs) (by exact hrf)]
    exact fin _ rfl rfl rfl rfl rfl rfl
  | true =>
    obtain ⟨x1, x2, x3, x4, x5, rfl⟩ : ∃ x1 x2 x3 x4 x5, xs = [x1, x2, x3, x4, x5] := by
      match xs, hlen with
      | [x1, x2, x3, x4, x5], _ => exact ⟨x1, x2, x3, x4, x5, rfl⟩
    simp only [List.mem_cons, List.not_mem_nil, or_false, forall_eq_or_imp, forall_eq] at hx
    obtain ⟨g1, g2, g3, g4, g5⟩ := hx
    obtain ⟨t, ht, ht1, _, _, ht2, ht3⟩ := arrival_loaded (p := p) (c := c)
      (code := [.buyExecution (l, f) (.limited (incomingWeight true)), .depositAsset (.counted 1) benef, .plain .setTopic])
      [x3, x4, x5] hr hn g1.1 g2.1
    obtain ⟨t', ht', hs, hrf⟩ := arrival_bought (c := c) (o := o) (code := [.depositAsset (.counted 1) benef, .plain .setTopic])
      [x4, x5] hf hp hq g3.1 ⟨ht1, ht2, ht3⟩
    have h4 := arrival_deposited (p := p) (c := c) (o := o) (t := t') (code := [.plain .setTopic]) [x5] hm ha hd g4.1 g4.2
    unfold pricedExecute
    rw [show incoming l n f (.limited (incomingWeight true)) benef true = .reserveAssetDeposited [(l, n)] :: .clearOrigin ::
      [.buyExecution (l, f) (.limited (incomingWeight true)), .depositAsset (.counted 1) benef, .plain .setTopic] from rfl, ht, ht', h4]
    simp only [pricedRun, pricedStep, bought, loaded, g5.1, Bool.false_eq_true, if_false, Till.price, Mach.effect]
    refine ⟨_, _, rfl, ?_⟩
    rw [no_refund (by exact hs) (by exact hrf)]
    exact fin _ rfl rfl rfl rfl rfl rfl

/-- C138: what does not pay for the message is not lost: if the price is above what is offered for it, or the asset is none that
Kreivo takes for fees, everything sent is trapped for the chain that sent it, and no balance changes. -/
theorem C138_unpaid (p : Prices) (c : Chain) (o l benef : Location) (n f : Nat) (topic : Bool) (x1 x2 x3 : Chance) (cur : Cur)
    (least : Nat) (hr : isReserve l o = true) (hn : n ≤ amountMax) (h0 : 0 < n)
    (hq : ∀ q, PriceIs p l (incomingWeight topic) q → f < q) (hm : matchAsset l = .cur cur)
    (hmin : c.ledger.minBal cur = some least) (htmax : c.ledger.get cur treasuryAccount ≤ amountMax)
    (hx : x1.luck.fails = false ∧ x2.luck.fails = false) :
    ∃ c' t' h, pricedExecute p c o (incoming l n f (.limited (incomingWeight topic)) benef topic) [x1, x2, x3] = some (c', t') ∧
      (∀ k a, c'.ledger.get k a = c.ledger.get k a) ∧ c'.traps = c.traps ++ [(o, h)] ∧
      ∀ k, amt h k = if k = l then n else 0 := by
  obtain ⟨t, ht, ht1, ht2, ht3, ht4, ht5⟩ := arrival_loaded (p := p) (c := c)
    (code := [.buyExecution (l, f) (.limited (incomingWeight topic)), .depositAsset (.counted 1) benef] ++
      if topic then [.plain .setTopic] else []) [x3] hr hn hx.1 hx.2
  have hb := no_buy hq t
  have h3 : ∃ m' t', pricedRun p (loaded c o l n ([.buyExecution (l, f) (.limited (incomingWeight topic)),
        .depositAsset (.counted 1) benef] ++ if topic then [.plain .setTopic] else [])) t [x3] = some (m', t') ∧
      m'.sender = o ∧ m'.origin = none ∧ m'.holding = [(l, n)] ∧ m'.paid = [] ∧ m'.chain.ledger = c.ledger ∧
      m'.chain.traps = c.traps ∧ t'.asset = none ∧ t'.weight = Weight.zero := by
    have : pricedStep p (loaded c o l n ([.buyExecution (l, f) (.limited (incomingWeight topic)),
        .depositAsset (.counted 1) benef] ++ if topic then [.plain .setTopic] else [])) t x3 =
        some ((loaded c o l n ([.buyExecution (l, f) (.limited (incomingWeight topic)),
        .depositAsset (.counted 1) benef] ++ if topic then [.plain .setTopic] else [])).failed,
        t.failed [] (.buyExecution (l, f) (.limited (incomingWeight topic)))
          (.depositAsset (.counted 1) benef :: if topic then [.plain .setTopic] else [])) := by
      unfold pricedStep
      simp only [loaded, List.cons_append, List.nil_append, Till.price, hb, Option.map_none]
      split <;> rfl
    refine ⟨_, _, one_step this, rfl, rfl, rfl, rfl, rfl, rfl, ht1, ht2⟩
  obtain ⟨m', t', hrun, a1, a2, a3, a4, a5, a6, a7, a8⟩ := h3
  unfold pricedExecute
  rw [show incoming l n f (.limited (incomingWeight topic)) benef topic = .reserveAssetDeposited [(l, n)] :: .clearOrigin ::
      ([.buyExecution (l, f) (.limited (incomingWeight topic)), .depositAsset (.counted 1) benef] ++
        if topic then [.plain .setTopic] else []) from rfl, ht, hrun]
  obtain ⟨b1, _, _, b4⟩ := arrival_finish (q := 0) a1 a2 a3 (by rw [a4]; rfl) hm (by rw [a5]; exact hmin) (.inl rfl)
    (by rw [a5]; exact htmax)
  obtain ⟨h, e1, e2⟩ := b4 (by omega)
  refine ⟨_, _, h, rfl, ?_⟩
  rw [nothing_bought a7 a8]
  refine ⟨fun k a => ?_, by rw [e1, a6], e2⟩
  rw [b1, a5]
  simp

/-- C138: nor is what cannot be delivered: if the beneficiary is no account Kreivo knows, or cannot take so little or so much,
what is left after the price is trapped for the chain that sent it; only the treasury's balance changes, by the price. -/
theorem C138_undeliverable (p : Prices) (c : Chain) (o l benef : Location) (n f q : Nat) (x1 x2 x3 x4 : Chance) (cur : Cur)
    (least : Nat) (hr : isReserve l o = true) (hn : n ≤ amountMax) (hf : f ≤ n)
    (hp : PriceIs p l (incomingWeight false) q) (hq : q ≤ f) (h0 : q < n) (hm : matchAsset l = .cur cur)
    (hmin : c.ledger.minBal cur = some least)
    (ha : ∀ acct, locationToAccount benef = some acct →
      c.ledger.get cur acct + (n - q) < least ∨ amountMax < c.ledger.get cur acct + (n - q))
    (htre : least ≤ c.ledger.get cur treasuryAccount) (htmax : c.ledger.get cur treasuryAccount + n ≤ amountMax)
    (hx : x1.luck.fails = false ∧ x2.luck.fails = false ∧ x3.luck.fails = false ∧ x4.luck.pick l = true) :
    ∃ c' t' h, pricedExecute p c o (incoming l n f (.limited (incomingWeight false)) benef false) [x1, x2, x3, x4] = some (c', t') ∧
      (∀ k a, c'.ledger.get k a = c.ledger.get k a + if k = cur ∧ a = treasuryAccount then q else 0) ∧
      c'.traps = c.traps ++ [(o, h)] ∧ ∀ k, amt h k = if k = l then n - q else 0 := by
  obtain ⟨g1, g2, g3, g4⟩ := hx
  obtain ⟨t, ht, ht1, _, _, ht2, ht3⟩ := arrival_loaded (p := p) (c := c)
    (code := [.buyExecution (l, f) (.limited (incomingWeight false)), .depositAsset (.counted 1) benef]) [x3, x4] hr hn g1 g2
  obtain ⟨t', ht', hs, hrf⟩ := arrival_bought (c := c) (o := o) (code := [.depositAsset (.counted 1) benef]) [x4] hf hp hq g3
    ⟨ht1, ht2, ht3⟩
  have hpan : panics l = false := by unfold panics; rw [hm]
  have hnq : ¬ n - q = 0 := by omega
  have hdep : depositTo benef (bought c o l n q []).acc cur (n - q) = none := by
    unfold depositTo
    split
    · rfl
    · rename_i acct hacct
      have : c.ledger.deposit cur acct (n - q) = none := by
        unfold XLedger.deposit
        rw [if_neg hnq, hmin]
        dsimp only
        rcases ha acct hacct with h | h
        · rw [if_pos h]
        · split
          · rfl
          · rfl
      show Option.map _ (c.ledger.deposit cur acct (n - q)) = none
      rw [this]
      rfl
  have h4 : pricedRun p (bought c o l n q [.depositAsset (.counted 1) benef]) t' [x4] =
      some ((bought c o l n q [.depositAsset (.counted 1) benef]).failed, t'.failed [] (.depositAsset (.counted 1) benef) []) := by
    have e : Mach.effect { bought c o l n q [.depositAsset (.counted 1) benef] with code := [] } x4.luck
        (.depositAsset (.counted 1) benef) = .err := by
      simp only [bought, loaded, Mach.acc] at hdep ⊢
      simp [Mach.effect, amt, aget, takeList, aset, adel, VFilter.wanted, g4, hnq, depositAll, eachAsset, Mach.acc, hpan, hm, hdep]
    refine one_step ?_
    unfold pricedStep
    simp only [bought, loaded] at e ⊢
    simp only [Till.price, e]
    split <;> rfl
  unfold pricedExecute
  rw [show incoming l n f (.limited (incomingWeight false)) benef false = .reserveAssetDeposited [(l, n)] :: .clearOrigin ::
    [.buyExecution (l, f) (.limited (incomingWeight false)), .depositAsset (.counted 1) benef] from rfl, ht, ht', h4]
  obtain ⟨b1, _, _, b4⟩ := arrival_finish (m := (bought c o l n q [.depositAsset (.counted 1) benef]).failed) (o := o) (q := q)
    (r := n - q) rfl rfl rfl rfl hm hmin (.inr (by show least ≤ c.ledger.get cur treasuryAccount + q; omega))
    (by show c.ledger.get cur treasuryAccount + q ≤ amountMax; omega)
  obtain ⟨h, e1, e2⟩ := b4 hnq
  refine ⟨_, _, h, rfl, ?_⟩
  have hs' : (t'.failed [] (.depositAsset (.counted 1) benef) []).surplus = Weight.zero := by
    show Weight.satAdd t'.surplus (remaining []) = Weight.zero
    rw [hs]
    rfl
  rw [no_refund hs' hrf]
  exact ⟨b1, e1, e2⟩

/-- C138: on Kusama the price of an arrival, paid in the relay chain's token. -/
theorem C138_price_kusama : PriceIs kusamaPrices ⟨1, []⟩ (incomingWeight false) 4238400 := by
  refine .inl ⟨rfl, ?_⟩
  decide +kernel

/-! ## Examples -/

/-- A chain whose treasury has some of everything. Example for non-vacuity (outside /repo). -/
def treasuryChain : Chain :=
  ⟨⟨[((.native, treasuryAccount), 1000000000000), ((tetherCur, treasuryAccount), 1000000)],
    fun k => if k = .native then some 33333333 else if k = tetherCur then some 10000 else none⟩, [], [], [], []⟩

/-- Somebody's account. Example for non-vacuity (outside /repo). -/
def somebody : Location := ⟨0, [.accountId32 none (List.replicate 32 7)]⟩

/-- One unit of the relay chain's token from the relay chain: the hypotheses of `C138_arrives` are met. -/
example :
    isReserve ⟨1, []⟩ ⟨1, []⟩ = true ∧ PriceIs kusamaPrices ⟨1, []⟩ (incomingWeight false) 4238400 ∧ 4238400 ≤ 1000000000000 ∧
      matchAsset ⟨1, []⟩ = .cur .native ∧ locationToAccount somebody = some (List.replicate 32 7) ∧
      treasuryChain.ledger.minBal .native = some 33333333 ∧
      33333333 ≤ treasuryChain.ledger.get .native (List.replicate 32 7) + (1000000000000 - 4238400) ∧
      33333333 ≤ treasuryChain.ledger.get .native treasuryAccount :=
  ⟨by decide +kernel, C138_price_kusama, by decide, rfl, by decide +kernel, rfl, by decide +kernel, by decide +kernel⟩

/-- A hundred Tether from Asset Hub, paying in Tether: the price is its least balance, more than the weight is worth. -/
example :
    isReserve ⟨1, [.parachain 1000, .palletInstance 50, .generalIndex 1984]⟩ ⟨1, [.parachain 1000]⟩ = true ∧
      PriceIs tetherPrices ⟨1, [.parachain 1000, .palletInstance 50, .generalIndex 1984]⟩ (incomingWeight true) 10000 ∧
      (pricedExecute tetherPrices treasuryChain ⟨1, [.parachain 1000]⟩
        (incoming ⟨1, [.parachain 1000, .palletInstance 50, .generalIndex 1984]⟩ 100000000 100000000
          (.limited (incomingWeight true)) somebody true) (List.replicate 5 fineChance)).any (fun r =>
        decide (r.1.ledger.get tetherCur (List.replicate 32 7) = 99990000 ∧
          r.1.ledger.get tetherCur treasuryAccount = 1010000)) = true := by
  refine ⟨by decide +kernel, .inr ⟨by decide, .sibling ⟨1000, 50, 1984⟩, ⟨true, 10000⟩, by decide +kernel, by decide +kernel, rfl,
    by decide, by decide +kernel⟩, by decide +kernel⟩

/-- An asset Kreivo does not know is not taken for fees: the hypotheses of `C138_unpaid` are met. -/
example : ∀ q, PriceIs kusamaPrices ⟨1, [.parachain 1000, .palletInstance 50, .generalIndex 1984]⟩ (incomingWeight false) q →
    100000000 < q := by
  rintro q (⟨h, _⟩ | ⟨_, id, i, _, h, _⟩)
  · cases h
  · cases h

/-- Less than the existential deposit for a new account: the hypotheses of `C138_undeliverable` are met. -/
example : ∀ acct, locationToAccount somebody = some acct →
    treasuryChain.ledger.get .native acct + (10000000 - 4238400) < 33333333 ∨
      amountMax < treasuryChain.ledger.get .native acct + (10000000 - 4238400) := by
  intro acct h
  have e : locationToAccount somebody = some (List.replicate 32 7) := by decide +kernel
  rw [e] at h
  cases h
  exact .inl (by decide +kernel)

end Verif.Xcm
