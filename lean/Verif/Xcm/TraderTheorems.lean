import Verif.Xcm.TraderLemmas
import Verif.Xcm.ExecutorSafety

/-!
# What XCM messages pay: theorems (C121, and C105 with the traders of Kreivo)
-/

namespace Verif.Xcm

open Verif Verif.Runtime Verif.Accounts

/-- The two components of a weight are at most those of another. -/
def AtMost (v w : Weight) : Prop := v.refTime ≤ w.refTime ∧ v.proofSize ≤ w.proofSize

/-! ## Prices -/

/-- C121: the assets other than the relay chain's token that can pay at all are those of the asset hub, Polkadot's token and
the assets of Polkadot's parachains. -/
theorem C121_which (l : Location) (id : AssetId) : payableAsset l = some id ↔
    l = convertBack id ∧ ((∃ q : Para, id = .sibling q ∧ q.id = 1000) ∨ ∃ child, id = .external .polkadot child) := by
  have hc : ∀ id, payableAsset l = some id ↔ (matchesPrefix assetHub l || matchesPrefix polkadotLocation l) = true ∧
      convert l = .some id := by
    intro id
    unfold payableAsset
    constructor
    · intro h
      split at h
      · rename_i hm
        split at h
        · rename_i hd; cases h; exact ⟨hm, hd⟩
        · cases h
      · cases h
    · rintro ⟨h1, h2⟩
      rw [if_pos h1, h2]
  rw [hc, Bool.or_eq_true, matchesPrefix_iff, matchesPrefix_iff]
  constructor
  · rintro ⟨h1, h2⟩
    have e := (C67_location_id_location l id h2).symm
    refine ⟨e, ?_⟩
    subst e
    match id with
    | .here i => rcases h1 with h1 | h1 <;> exact absurd h1.1 (by simp [assetHub, polkadotLocation, convertBack])
    | .sibling q =>
      rcases h1 with h1 | h1
      · refine .inl ⟨q, rfl, ?_⟩
        have := h1.2
        simp only [assetHub, convertBack, Para.junctions, List.cons_prefix_cons] at this
        have h3 := this.1
        rw [Junction.parachain.injEq] at h3
        have h4 := congrArg UInt32.toNat h3
        have h5 := q.id.toNat_lt
        rw [UInt32.toNat_ofNat', Nat.mod_eq_of_lt (by omega)] at h4
        exact UInt16.toNat_inj.1 (by rw [← h4]; rfl)
      · exact absurd h1.1 (by simp [assetHub, polkadotLocation, convertBack])
    | .external n none =>
      rcases h1 with h1 | h1
      · exact absurd h1.1 (by simp [assetHub, polkadotLocation, convertBack])
      · have := h1.2
        simp only [polkadotLocation, convertBack, List.cons_prefix_cons] at this
        have h3 := this.1
        rw [Junction.globalConsensus.injEq] at h3
        cases n with
        | polkadot => exact .inr ⟨none, rfl⟩
        | kusama => cases h3
        | ethereum c => cases h3
    | .external n (some q) =>
      rcases h1 with h1 | h1
      · exact absurd h1.1 (by simp [assetHub, polkadotLocation, convertBack])
      · have := h1.2
        simp only [polkadotLocation, convertBack, List.cons_prefix_cons] at this
        have h3 := this.1
        rw [Junction.globalConsensus.injEq] at h3
        cases n with
        | polkadot => exact .inr ⟨some q, rfl⟩
        | kusama => cases h3
        | ethereum c => cases h3
  · rintro ⟨rfl, h⟩
    refine ⟨?_, C67_id_location_id id⟩
    rcases h with ⟨q, rfl, hq⟩ | ⟨child, rfl⟩
    · left
      refine ⟨rfl, ?_⟩
      simp only [assetHub, convertBack, Para.junctions, List.cons_prefix_cons, hq]
      exact ⟨rfl, List.nil_prefix⟩
    · right
      cases child with
      | none => exact ⟨rfl, by simp only [polkadotLocation, convertBack]; exact List.prefix_refl _⟩
      | some q => exact ⟨rfl, by simp only [polkadotLocation, convertBack, List.cons_prefix_cons]; exact ⟨rfl, List.nil_prefix⟩⟩

/-- C121: when a message buys weight, either it fails and nothing is taken, or the buyer had what it offers, exactly the price
is taken from it and handed to a trader, and the price is at most the offer: the fee of that weight in the relay chain's
token, or its worth in another asset, and no less than that asset's least balance. -/
theorem C121_price (p : Prices) (m m' : Mach) (t t' : Till) (x : Chance) (fees : XAsset) (w : Weight) (rest : List VInstr)
    (hcode : m.code = .buyExecution fees (.limited w) :: rest) (h : pricedStep p m t x = some (m', t')) :
    (m'.paid = m.paid ∧ m'.holding = m.holding) ∨
    ∃ n, n ≤ fees.2 ∧ fees.2 ≤ amt m.holding fees.1 ∧
      (∀ k, amt m'.paid k = amt m.paid k + if fees.1 = k then n else 0) ∧
      (∀ k, amt m'.holding k = amt m.holding k - if fees.1 = k then n else 0) ∧
      ((fees.1 = ⟨1, []⟩ ∧ n = weightToFee p.cents p.base w) ∨
       (fees.1 ≠ ⟨1, []⟩ ∧ ∃ id i, payableAsset fees.1 = some id ∧ p.info id = some i ∧ i.sufficient = true ∧ p.ed ≠ 0 ∧
          n = max (fixedMulInt (fixedRatio i.min p.ed) (weightToFee p.cents p.base w)) i.min)) := by
  rcases pricedStep_cases h with ⟨hc, _, _⟩ | ⟨i, r, hc, rfl, _⟩ | ⟨i, r, luck, hc, _, hp, he⟩
  · rw [hc] at hcode; cases hcode
  · exact Or.inl ⟨mfailed_paid m, (mfailed_spec m).2.2.1⟩
  · rw [hcode] at hc
    obtain ⟨rfl, rfl⟩ := List.cons.inj hc
    simp only [Till.price] at hp
    obtain ⟨⟨t1, n⟩, hbuy, e⟩ := Option.map_eq_some_iff.mp hp
    simp only [Prod.mk.injEq] at e
    obtain ⟨b1, b2, b3⟩ := buy_spec hbuy
    rw [← e.2] at he
    obtain ⟨g1, _, _, g4, g5⟩ := effect_buy (luck := { x.luck with charge := n }) b1 he
    refine Or.inr ⟨n, b1, g1, g4, g5, ?_⟩
    rcases b3 with ⟨f1, f2, _⟩ | ⟨id, a, f1, f2, f3, f4, f5, _⟩
    · exact Or.inl ⟨f1, f2⟩
    · unfold Prices.inAsset at f4
      split at f4
      · cases f4
      · rename_i i hi
        split at f4
        · cases f4
        · rename_i hs
          split at f4
          · cases f4
          · rename_i hed
            obtain rfl := Option.some.inj f4
            refine Or.inr ⟨f2, id, i, f3, hi, by simpa using hs, hed, ?_⟩
            rw [f5]
            unfold Prices.least Prices.fee
            rw [hi]

/-! ## The account of weight -/

theorem start_accounted {c : Weight → Nat} (hc : Component c) {w : Weight} {msg : List VInstr}
    (h : messageWeight (msg.map VInstr.shape) = some w) (ch : Chain) (sender : Location) :
    Accounted c (c w) (Mach.start ch sender msg) Till.start := by
  have h0 := zero_component hc
  have h1 := messageWeight_cost hc h
  refine ⟨?_, ?_, ?_⟩
  · show c Weight.zero + c Weight.zero + cost c msg + c Weight.zero + c Weight.zero ≤ c w
    omega
  · exact h0
  · exact h0

/-- C121: whatever a message does, and however it fails: the weight it has used and the weight that counts as not needed are
together at most what it weighs. What is given back is for weight that was not used. -/
theorem C121_surplus (p : Prices) (c c' : Chain) (sender : Location) (msg : List VInstr) (xs : List Chance) (t' : Till)
    (w : Weight) (hw : messageWeight (msg.map VInstr.shape) = some w)
    (h : pricedExecute p c sender msg xs = some (c', t')) :
    t'.used.refTime + t'.surplus.refTime ≤ w.refTime ∧ t'.used.proofSize + t'.surplus.proofSize ≤ w.proofSize := by
  unfold pricedExecute at h
  obtain ⟨⟨m, t⟩, hr, e⟩ := Option.map_eq_some_iff.mp h
  simp only [Prod.mk.injEq] at e
  obtain ⟨_, rfl⟩ := e
  obtain ⟨s1, _, _, s4⟩ := refund_same p t
  rw [s1, s4]
  have key : ∀ f : Weight → Nat, Component f → f t.used + f t.surplus ≤ f w := by
    intro f hf
    have := (pricedRun_inv (Accounted f (f w)) (fun _ _ _ _ _ A hs => accounted_step hf A hs) xs
      (start_accounted hf hw c sender) hr).sum
    omega
  exact ⟨key _ (Or.inl rfl), key _ (Or.inr rfl)⟩

/-- C121: what counts as used, step by step: a dispatched call counts with the weight it really took, besides the weight of
the instruction, and exactly what it did not need of what it asked for is added to the weight not needed. -/
theorem C121_transact (p : Prices) (m m' : Mach) (t t' : Till) (x : Chance) (k : OriginKind) (w : Weight)
    (rest : List VInstr) (hcode : m.code = .transact k w :: rest) (hx : x.luck.fails = false)
    (hw : AtMost x.actual w) (o : Location) (ho : m.origin = some o) (hk : (convertOrigin o k).isSome = true)
    (h : pricedStep p m t x = some (m', t')) :
    t'.used.refTime = t.used.refTime + Generic.transact.refTime + x.actual.refTime ∧
    t'.used.proofSize = t.used.proofSize + Generic.transact.proofSize + x.actual.proofSize ∧
    t'.surplus.refTime = min (t.surplus.refTime + (w.refTime - x.actual.refTime)) (2 ^ 64 - 1) ∧
    t'.surplus.proofSize = min (t.surplus.proofSize + (w.proofSize - x.actual.proofSize)) (2 ^ 64 - 1) := by
  unfold pricedStep at h
  rw [hcode] at h
  dsimp only at h
  rw [hx] at h
  have hg : Weight.allGte w x.actual = true := by
    simp only [Weight.allGte, Bool.and_eq_true, decide_eq_true_eq]
    exact hw
  simp only [Till.price, hg, if_true, Bool.false_eq_true, if_false, Mach.effect, ho, hk] at h
  obtain ⟨_, rfl⟩ := Prod.mk.inj (Option.some.inj h)
  exact ⟨(Nat.add_assoc _ _ _).symm, (Nat.add_assoc _ _ _).symm, Nat.min_comm _ _, Nat.min_comm _ _⟩

/-! ## What the traders keep -/

/-- C121: what the traders have at the end is exactly what was paid and not given back, and of an asset it is at least its
least balance. -/
theorem C121_kept (p : Prices) (c : Chain) (sender : Location) (msg : List VInstr) (xs : List Chance) (m : Mach) (t : Till)
    (h : pricedRun p (Mach.start c sender msg) Till.start xs = some (m, t)) :
    amt (m.refund (t.refund p).2).paid ⟨1, []⟩ = (t.refund p).1.amount ∧
      ∀ l id n, (t.refund p).1.asset = some (l, id, n) →
        amt (m.refund (t.refund p).2).paid l = n ∧ p.least id ≤ n := by
  have S := refund_settled (pricedRun_inv (Settled p) (fun _ _ _ _ _ S hs => settled_step S hs) xs
    (start_settled p c sender msg) h)
  refine ⟨S.relay, fun l id n hl => ?_⟩
  obtain ⟨g1, _, g3⟩ := S.asset l id n hl
  have := S.other l g1
  rw [hl] at this
  exact ⟨by rw [this]; simp, g3⟩

mutual
/-- An instruction, and everything it carries, satisfies `P`. -/
def VInstr.every (P : VInstr → Bool) : VInstr → Bool
  | .setErrorHandler xcm => P (.setErrorHandler xcm) && everyAll P xcm
  | .setAppendix xcm => P (.setAppendix xcm) && everyAll P xcm
  | i => P i
/-- All of them do. -/
def everyAll (P : VInstr → Bool) : List VInstr → Bool
  | [] => true
  | i :: rest => i.every P && everyAll P rest
end

theorem every_self {P : VInstr → Bool} {i : VInstr} (h : i.every P = true) : P i = true := by
  cases i <;> simp only [VInstr.every, Bool.and_eq_true] at h <;> first | exact h.1 | exact h

theorem every_handler {P : VInstr → Bool} {old : List VInstr} {i : VInstr} (h : i.every P = true)
    (ho : everyAll P old = true) : everyAll P (handlerAfter id old i) = true := by
  cases i <;> first | exact ho | (simp only [VInstr.every, Bool.and_eq_true] at h; exact h.2)

theorem every_appendix {P : VInstr → Bool} {old : List VInstr} {i : VInstr} (h : i.every P = true)
    (ho : everyAll P old = true) : everyAll P (appendixAfter id old i) = true := by
  cases i <;> first | exact ho | (simp only [VInstr.every, Bool.and_eq_true] at h; exact h.2)

theorem everyAll_append (P : VInstr → Bool) (a b : List VInstr) :
    everyAll P (a ++ b) = (everyAll P a && everyAll P b) := by
  induction a with
  | nil => simp [everyAll]
  | cons i a ih => simp only [List.cons_append, everyAll, ih, Bool.and_assoc]

/-- Neither buys weight nor asks for a refund. -/
def quiet : VInstr → Bool
  | .buyExecution _ _ => false
  | .refundSurplus => false
  | _ => true

/-- Buys no weight with the relay chain's token. -/
def paysNoRelay : VInstr → Bool
  | .buyExecution fees _ => decide (fees.1 ≠ ⟨1, []⟩)
  | _ => true

theorem failed_code (m : Mach) : m.failed.code = (if m.handler = [] then m.appendix else m.handler) ∧ m.failed.handler = [] ∧
    m.failed.appendix = (if m.handler = [] then [] else m.appendix) := by
  unfold Mach.failed
  cases hh : m.handler with
  | nil => exact ⟨rfl, rfl, rfl⟩
  | cons i r => exact ⟨rfl, rfl, rfl⟩

theorem failed_every {P : VInstr → Bool} {m : Mach} (h2 : everyAll P m.handler = true) (h3 : everyAll P m.appendix = true) :
    everyAll P m.failed.code = true ∧ everyAll P m.failed.handler = true ∧ everyAll P m.failed.appendix = true := by
  obtain ⟨e1, e2, e3⟩ := failed_code m
  rw [e1, e2, e3]
  refine ⟨?_, rfl, ?_⟩
  · split
    · exact h3
    · exact h2
  · split
    · rfl
    · exact h3

theorem paidExecute_minted {c c' : Chain} {m : Mach} {w : Refund} {l : Location}
    (hm : amt m.chain.minted l = amt c.minted l) (hw : w.bonus = 0) (h : m.finish w = c') :
    amt c'.minted l = amt c.minted l := by
  have hf : (m.finish w).minted = (m.refund w).chain.minted := by
    unfold Mach.finish; dsimp only; split <;> rfl
  rw [← h, hf, (refund_spec _ _).2.2.2.2.2.2.2.2.2, amt_put, hw, hm]
  simp

theorem step_minted {p : Prices} {m m' : Mach} {t t' : Till} {x : Chance} (hb : (t.refund p).2.bonus = 0)
    (h : pricedStep p m t x = some (m', t')) (l : Location) : amt m'.chain.minted l = amt m.chain.minted l := by
  rcases pricedStep_cases h with ⟨_, rfl, _⟩ | ⟨i, r, hc, rfl, _⟩ | ⟨i, r, luck, hc, _, hp, he⟩
  · rfl
  · rw [(mfailed_spec m).2.2.2.2]
  · by_cases hi : i = .refundSurplus
    · subst hi
      simp only [Till.price, Option.some.injEq, Prod.mk.injEq] at hp
      simp only [Mach.effect, Tri.ok.injEq] at he
      rw [← he, ← hp.2, (refund_spec _ _).2.2.2.2.2.2.2.2.2, amt_put]
      dsimp only
      rw [hb]
      simp
    · rw [effect_minted hi he]

/-- Nothing was bought with the relay chain's token. -/
structure NoRelay (c : Chain) (m : Mach) (t : Till) : Prop where
  weight : t.weight = Weight.zero
  amount : t.amount = 0
  code : everyAll paysNoRelay m.code = true
  handler : everyAll paysNoRelay m.handler = true
  appendix : everyAll paysNoRelay m.appendix = true
  minted : ∀ l, amt m.chain.minted l = amt c.minted l

theorem fee_zero (p : Prices) : p.fee Weight.zero = 0 := by
  unfold Prices.fee weightToFee Weight.zero
  dsimp only
  rw [eval_zero, eval_zero]
  rfl

theorem min_zero (w : Weight) : Weight.min w Weight.zero = Weight.zero := by
  unfold Weight.min Weight.zero
  dsimp only
  congr 1 <;> exact Nat.min_zero _

theorem noRelay_refund {p : Prices} {t : Till} (h1 : t.weight = Weight.zero) (h2 : t.amount = 0) :
    (t.refund p).2.bonus = 0 ∧ (t.refund p).1.weight = Weight.zero ∧ (t.refund p).1.amount = 0 := by
  have hs := refundAsset_same p t (Weight.satSub t.surplus t.refunded)
  rcases refund_cases p t with ⟨e, e2, _⟩ | ⟨x, _, e⟩ | ⟨t1, v, e1, hv, ⟨hz, e⟩ | ⟨_, e⟩⟩
  · rw [e, e2]; exact ⟨rfl, h1, h2⟩
  · rw [e]; exact ⟨rfl, by rw [← h1]; exact hs.1, by rw [← h2]; exact hs.2.1⟩
  · rw [h1, min_zero] at hv
    rw [hv, fee_zero] at hz
    exact absurd rfl hz
  · rw [h1, min_zero] at hv
    rw [e]
    dsimp only
    rw [h1, h2, hv]
    exact ⟨rfl, rfl, by omega⟩

theorem noRelay_step {p : Prices} {c : Chain} {m m' : Mach} {t t' : Till} {x : Chance} (N : NoRelay c m t)
    (h : pricedStep p m t x = some (m', t')) : NoRelay c m' t' := by
  obtain ⟨n1, n2, n3, n4, n5, n6⟩ := N
  obtain ⟨r1, r2, r3⟩ := noRelay_refund (p := p) n1 n2
  have hm := step_minted r1 h
  have hm' : ∀ l, amt m'.chain.minted l = amt c.minted l := fun l => by rw [hm l, n6 l]
  rcases pricedStep_cases h with ⟨_, rfl, rfl⟩ | ⟨i, r, hc, rfl, rfl⟩ | ⟨i, r, luck, hc, _, hp, he⟩
  · exact ⟨n1, n2, n5, rfl, rfl, hm'⟩
  · obtain ⟨_, f2, f3, _⟩ := failed_same t m.handler i r
    obtain ⟨g1, g2, g3⟩ := failed_every n4 n5
    exact ⟨by rw [f3, n1], by rw [f2, n2], g1, g2, g3, hm'⟩
  · rw [hc, everyAll, Bool.and_eq_true] at n3
    obtain ⟨e1, e2, e3⟩ := effect_regs he
    have regs : everyAll paysNoRelay m'.code = true ∧ everyAll paysNoRelay m'.handler = true ∧
        everyAll paysNoRelay m'.appendix = true := by
      rw [e1, e2, e3]
      exact ⟨n3.2, every_handler n3.1 n4, every_appendix n3.1 n5⟩
    have till : t'.weight = Weight.zero ∧ t'.amount = 0 := by
      by_cases hr : i = .refundSurplus
      · subst hr
        simp only [Till.price, Option.some.injEq, Prod.mk.injEq] at hp
        rw [← hp.1]
        exact ⟨r2, r3⟩
      · by_cases hb : ∃ f l, i = .buyExecution f l
        · obtain ⟨fees, limit, rfl⟩ := hb
          have hno := every_self n3.1
          simp only [paysNoRelay, decide_eq_true_eq] at hno
          cases limit with
          | unlimited =>
            simp only [Till.price, Option.some.injEq, Prod.mk.injEq] at hp
            rw [← hp.1]
            exact ⟨n1, n2⟩
          | limited w =>
            simp only [Till.price] at hp
            obtain ⟨⟨t1, n⟩, hbuy, e⟩ := Option.map_eq_some_iff.mp hp
            simp only [Prod.mk.injEq] at e
            rcases (buy_spec hbuy).2.2 with ⟨f1, _⟩ | ⟨_, _, _, _, _, _, _, rfl⟩
            · exact absurd f1 hno
            · rw [← e.1]
              exact ⟨n1, n2⟩
        · have := price_same (fun f l e => hb ⟨f, l, e⟩) hr hp
          exact ⟨by rw [this.2.2.1, n1], by rw [this.2.1, n2]⟩
    exact ⟨till.1, till.2, regs.1, regs.2.1, regs.2.2, hm'⟩

/-- C121 (partial: messages that do not pay in the relay chain's token): they get back no more than they paid. -/
theorem C121_assets_partial (p : Prices) (c c' : Chain) (sender : Location) (msg : List VInstr) (xs : List Chance) (t' : Till)
    (hmsg : everyAll paysNoRelay msg = true) (h : pricedExecute p c sender msg xs = some (c', t')) (l : Location) :
    amt c'.minted l = amt c.minted l := by
  unfold pricedExecute at h
  obtain ⟨⟨m, t⟩, hr, e⟩ := Option.map_eq_some_iff.mp h
  simp only [Prod.mk.injEq] at e
  have N := pricedRun_inv (NoRelay c) (fun _ _ _ _ _ N hs => noRelay_step N hs) xs
    ⟨rfl, rfl, hmsg, rfl, rfl, fun _ => rfl⟩ hr
  exact paidExecute_minted (N.minted l) (noRelay_refund N.weight N.amount).1 e.1

/-! ## One payment, no refund before the end -/

/-- A message with one purchase on its way. -/
structure Once (p : Prices) (c : Chain) (m : Mach) (t : Till) : Prop where
  handler : everyAll quiet m.handler = true
  appendix : everyAll quiet m.appendix = true
  minted : ∀ l, amt m.chain.minted l = amt c.minted l
  refunded : t.refunded = Weight.zero
  now : (everyAll quiet m.code = true ∧ p.fee t.weight ≤ t.amount) ∨
    (∃ pre fees limit rest, m.code = pre ++ .buyExecution fees limit :: rest ∧ everyAll quiet pre = true ∧
      everyAll quiet rest = true ∧ t.weight = Weight.zero)

theorem fee_mono (p : Prices) {v w : Weight} (h1 : v.refTime ≤ w.refTime) (h2 : v.proofSize ≤ w.proofSize) :
    p.fee v ≤ p.fee w := C84_monotone p.cents p.base h1 h2

theorem satAdd_zero_le (p : Prices) (w : Weight) : p.fee (Weight.satAdd Weight.zero w) ≤ p.fee w := by
  apply fee_mono
  · show Nat.min u64Max (0 + w.refTime) ≤ w.refTime
    rw [Nat.zero_add]
    exact Nat.min_le_right _ _
  · show Nat.min u64Max (0 + w.proofSize) ≤ w.proofSize
    rw [Nat.zero_add]
    exact Nat.min_le_right _ _

theorem once_fee {p : Prices} {c : Chain} {m : Mach} {t : Till} (O : Once p c m t) : p.fee t.weight ≤ t.amount := by
  rcases O.now with ⟨_, h⟩ | ⟨_, _, _, _, _, _, _, h⟩
  · exact h
  · rw [h, fee_zero]; exact Nat.zero_le _

theorem once_bonus {p : Prices} {t : Till} (h : p.fee t.weight ≤ t.amount) : (t.refund p).2.bonus = 0 := by
  rcases refund_cases p t with ⟨_, e2, _⟩ | ⟨x, _, e⟩ | ⟨t1, v, _, hv, ⟨_, e⟩ | ⟨_, e⟩⟩
  · rw [e2]
  · rw [e]
  · rw [e]
    have : p.fee v ≤ p.fee t.weight := by
      rw [hv]
      exact fee_mono p (Nat.min_le_right _ _) (Nat.min_le_right _ _)
    dsimp only
    omega
  · rw [e]

theorem quiet_step {p : Prices} {t t' : Till} {x : Chance} {i : VInstr} {luck : Luck} (hq : i.every quiet = true)
    (hp : t.price p x i = some (t', luck)) :
    t'.asset = t.asset ∧ t'.amount = t.amount ∧ t'.weight = t.weight ∧ t'.refunded = t.refunded := by
  have hs := every_self hq
  refine price_same ?_ ?_ hp
  · rintro f l rfl
    simp [quiet] at hs
  · rintro rfl
    simp [quiet] at hs

theorem once_step {p : Prices} {c : Chain} {m m' : Mach} {t t' : Till} {x : Chance} (O : Once p c m t)
    (h : pricedStep p m t x = some (m', t')) : Once p c m' t' := by
  have hm := step_minted (once_bonus (once_fee O)) h
  have hfee := once_fee O
  obtain ⟨n1, n2, n3, n4, n5⟩ := O
  have hm' : ∀ l, amt m'.chain.minted l = amt c.minted l := fun l => by rw [hm l, n3 l]
  rcases pricedStep_cases h with ⟨hc, rfl, rfl⟩ | ⟨i, r, hc, rfl, rfl⟩ | ⟨i, r, luck, hc, _, hp, he⟩
  · exact ⟨rfl, rfl, hm', n4, Or.inl ⟨n2, hfee⟩⟩
  · obtain ⟨_, f2, f3, f4⟩ := failed_same t m.handler i r
    obtain ⟨g1, g2, g3⟩ := failed_every n1 n2
    exact ⟨g2, g3, hm', by rw [f4, n4], Or.inl ⟨g1, by rw [f2, f3]; exact hfee⟩⟩
  · obtain ⟨e1, e2, e3⟩ := effect_regs he
    have keep : i.every quiet = true → everyAll quiet m'.handler = true ∧ everyAll quiet m'.appendix = true := by
      intro hq
      rw [e2, e3]
      exact ⟨every_handler hq n1, every_appendix hq n2⟩
    rcases n5 with ⟨q1, q2⟩ | ⟨pre, fees, limit, rest, q1, q2, q3, q4⟩
    · rw [hc, everyAll, Bool.and_eq_true] at q1
      obtain ⟨_, f2, f3, f4⟩ := quiet_step q1.1 hp
      exact ⟨(keep q1.1).1, (keep q1.1).2, hm', by rw [f4, n4], Or.inl ⟨by rw [e1]; exact q1.2, by rw [f2, f3]; exact q2⟩⟩
    · cases pre with
      | cons j pre =>
        rw [hc] at q1
        obtain ⟨rfl, rfl⟩ := List.cons.inj q1
        rw [everyAll, Bool.and_eq_true] at q2
        obtain ⟨_, f2, f3, f4⟩ := quiet_step q2.1 hp
        exact ⟨(keep q2.1).1, (keep q2.1).2, hm', by rw [f4, n4],
          Or.inr ⟨pre, fees, limit, rest, e1, q2.2, q3, by rw [f3, q4]⟩⟩
      | nil =>
        rw [hc] at q1
        obtain ⟨rfl, rfl⟩ := List.cons.inj q1
        have hh : everyAll quiet m'.handler = true ∧ everyAll quiet m'.appendix = true := by
          rw [e2, e3]
          exact ⟨n1, n2⟩
        have ht : t'.refunded = t.refunded ∧ p.fee t'.weight ≤ t'.amount := by
          cases limit with
          | unlimited =>
            simp only [Till.price, Option.some.injEq, Prod.mk.injEq] at hp
            rw [← hp.1]
            exact ⟨rfl, hfee⟩
          | limited w =>
            simp only [Till.price] at hp
            obtain ⟨⟨t1, n⟩, hbuy, e⟩ := Option.map_eq_some_iff.mp hp
            simp only [Prod.mk.injEq] at e
            rcases (buy_spec hbuy).2.2 with ⟨_, f2, rfl⟩ | ⟨_, _, _, _, _, _, _, rfl⟩
            · rw [← e.1]
              refine ⟨rfl, ?_⟩
              dsimp only [Till.uses]
              rw [q4, f2]
              have := satAdd_zero_le p w
              omega
            · rw [← e.1]
              exact ⟨rfl, hfee⟩
        exact ⟨hh.1, hh.2, hm', by rw [ht.1, n4], Or.inl ⟨by rw [e1]; exact q3, ht.2⟩⟩

/-- C121 (partial: messages that pay once and do not ask for a refund; what they did not need is refunded once, at the end):
they get back no more than they paid. -/
theorem C121_once_partial (p : Prices) (c c' : Chain) (sender : Location) (pre rest : List VInstr) (fees : XAsset)
    (limit : WeightLimit) (xs : List Chance) (t' : Till) (hpre : everyAll quiet pre = true)
    (hrest : everyAll quiet rest = true)
    (h : pricedExecute p c sender (pre ++ .buyExecution fees limit :: rest) xs = some (c', t')) (l : Location) :
    amt c'.minted l = amt c.minted l := by
  unfold pricedExecute at h
  obtain ⟨⟨m, t⟩, hr, e⟩ := Option.map_eq_some_iff.mp h
  simp only [Prod.mk.injEq] at e
  have O := pricedRun_inv (Once p c) (fun _ _ _ _ _ O hs => once_step O hs) xs
    ⟨rfl, rfl, fun _ => rfl, rfl, Or.inr ⟨pre, fees, limit, rest, rfl, hpre, hrest, rfl⟩⟩ hr
  exact paidExecute_minted (O.minted l) (once_bonus (once_fee O)) e.1

/-- Executing with the traders of Kreivo is executing with some answers of traders: everything proved of `execute` (C105 to
C108) holds. -/
theorem pricedExecute_execute {p : Prices} {c c' : Chain} {sender : Location} {msg : List VInstr} {xs : List Chance} {t' : Till}
    (h : pricedExecute p c sender msg xs = some (c', t')) : ∃ lucks refund, execute c sender msg lucks refund = some c' := by
  unfold pricedExecute at h
  obtain ⟨⟨m, t⟩, hr, e⟩ := Option.map_eq_some_iff.mp h
  simp only [Prod.mk.injEq] at e
  obtain ⟨lucks, hl⟩ := pricedRun_run xs hr
  exact ⟨lucks, (t.refund p).2, by unfold execute; rw [hl, Option.map_some, e.1]⟩

/-- C105 (partial: the messages of `C121_once_partial`): with the traders of Kreivo nobody but the relay chain creates the
native token by such a message. -/
theorem C105_native_once_partial (p : Prices) (c c' : Chain) (sender : Location) (pre rest : List VInstr) (fees : XAsset)
    (limit : WeightLimit) (xs : List Chance) (t' : Till) (ok : AOk c.ledger.bal) (hpre : everyAll quiet pre = true)
    (hrest : everyAll quiet rest = true) (hs : sender ≠ ⟨1, []⟩)
    (h : pricedExecute p c sender (pre ++ .buyExecution fees limit :: rest) xs = some (c', t')) :
    c'.kept .native ≤ c.kept .native := by
  obtain ⟨lucks, refund, he⟩ := pricedExecute_execute h
  refine no_native (ds := [⟨sender, _, lucks, refund⟩]) ok (by unfold deliverAll; rw [he]; rfl)
    (C121_once_partial p c c' sender pre rest fees limit xs t' hpre hrest h _) ?_
  intro d hd
  rw [List.mem_singleton.mp hd]
  exact hs

/-! ## What the fee that is kept covers -/

/-- A fee was paid and nothing was given back. -/
def Unrefunded (n : Nat) (_ : Mach) (t : Till) : Prop := t.refunded = Weight.zero → n ≤ t.amount

theorem satAdd_eq_zero {v w : Weight} (h : Weight.satAdd v w = Weight.zero) : v = Weight.zero ∧ w = Weight.zero := by
  have hu : 0 < u64Max := by decide
  unfold Weight.satAdd Weight.zero at h
  simp only [Weight.mk.injEq] at h
  obtain ⟨h1, h2⟩ := h
  have a1 : Nat.min u64Max (v.refTime + w.refTime) = min u64Max (v.refTime + w.refTime) := rfl
  have a2 : Nat.min u64Max (v.proofSize + w.proofSize) = min u64Max (v.proofSize + w.proofSize) := rfl
  rw [a1] at h1
  rw [a2] at h2
  unfold Weight.zero
  cases v; cases w
  simp only [Weight.mk.injEq] at *
  omega

theorem unrefunded_refund {p : Prices} {n : Nat} {m : Mach} {t : Till} (U : Unrefunded n m t) :
    Unrefunded n m (t.refund p).1 := by
  unfold Unrefunded at *
  intro h0
  have hs := refundAsset_same p t (Weight.satSub t.surplus t.refunded)
  rcases refund_cases p t with ⟨e, _, _⟩ | ⟨x, _, e⟩ | ⟨t1, v, e1, _, ⟨hz, e⟩ | ⟨hz, e⟩⟩
  · rw [e] at h0 ⊢; exact U h0
  · rw [e] at h0 ⊢
    dsimp only at h0 ⊢
    rw [hs.2.1]
    exact U (satAdd_eq_zero h0).1
  · rw [e] at h0
    dsimp only at h0
    have hw := (satAdd_eq_zero h0).2
    have hv : v = Weight.zero := by
      rename_i hv
      rw [hv, hw]
      unfold Weight.min Weight.zero
      dsimp only
      congr 1
    rw [hv, fee_zero] at hz
    exact absurd rfl hz
  · rw [e1] at hs
    rw [e] at h0 ⊢
    dsimp only at h0 hs ⊢
    rw [hz]
    exact U (by rw [← hs.2.2.2.1]; exact h0)

theorem unrefunded_step {p : Prices} {n : Nat} {m m' : Mach} {t t' : Till} {x : Chance} (U : Unrefunded n m t)
    (h : pricedStep p m t x = some (m', t')) : Unrefunded n m' t' := by
  rcases pricedStep_cases h with ⟨hc, rfl, rfl⟩ | ⟨i, r, hc, rfl, rfl⟩ | ⟨i, r, luck, hc, _, hp, he⟩
  · exact U
  · obtain ⟨_, f2, _, f4⟩ := failed_same t m.handler i r
    intro h0
    rw [f4] at h0
    rw [f2]
    exact U h0
  · by_cases hr : i = .refundSurplus
    · subst hr
      simp only [Till.price, Option.some.injEq, Prod.mk.injEq] at hp
      have := unrefunded_refund (p := p) U
      rw [← hp.1]
      exact this
    · by_cases hb : ∃ f l, i = .buyExecution f l
      · obtain ⟨fees, limit, rfl⟩ := hb
        cases limit with
        | unlimited =>
          simp only [Till.price, Option.some.injEq, Prod.mk.injEq] at hp
          rw [← hp.1]
          exact U
        | limited w =>
          simp only [Till.price] at hp
          obtain ⟨⟨t1, k⟩, hbuy, e⟩ := Option.map_eq_some_iff.mp hp
          simp only [Prod.mk.injEq] at e
          rcases (buy_spec hbuy).2.2 with ⟨_, f2, rfl⟩ | ⟨_, _, _, _, _, _, _, rfl⟩
          · rw [← e.1]
            intro h0
            have := U h0
            dsimp only [Till.uses]
            omega
          · rw [← e.1]
            exact U
      · have := price_same (fun f l e => hb ⟨f, l, e⟩) hr hp
        intro h0
        rw [this.2.2.2] at h0
        rw [this.2.1]
        exact U h0

/-- C121 (partial: messages that nothing is given back to): if the first two steps of a message of weight `w` are loading the
relay chain's token and buying `w`, what the traders keep in the end is at least the price of what the message used. -/
theorem C121_covers_partial (p : Prices) (c c' : Chain) (sender : Location) (load : VInstr) (rest : List VInstr) (fees : XAsset)
    (w : Weight) (x1 x2 : Chance) (xs : List Chance) (m2 : Mach) (t2 t' : Till)
    (hload : load.every quiet = true)
    (hw : messageWeight ((load :: .buyExecution fees (.limited w) :: rest).map VInstr.shape) = some w)
    (h2 : pricedRun p (Mach.start c sender (load :: .buyExecution fees (.limited w) :: rest)) Till.start [x1, x2] =
      some (m2, t2)) (hbought : 0 < t2.amount)
    (h : pricedExecute p c sender (load :: .buyExecution fees (.limited w) :: rest) (x1 :: x2 :: xs) = some (c', t'))
    (hnone : t'.refunded = Weight.zero) :
    weightToFee p.cents p.base t'.used ≤ t'.amount := by
  have hused := C121_surplus p c c' sender _ _ t' w hw h
  refine Nat.le_trans (fee_mono p (v := t'.used) (w := w) (by omega) (by omega)) ?_
  -- the second step paid the price of `w`
  have hpaid : p.fee w ≤ t2.amount := by
    simp only [pricedRun] at h2
    cases hs1 : pricedStep p (Mach.start c sender (load :: .buyExecution fees (.limited w) :: rest)) Till.start x1 with
    | none => rw [hs1] at h2; cases h2
    | some r1 =>
      obtain ⟨m1, t1⟩ := r1
      rw [hs1] at h2
      dsimp only at h2
      cases hs2 : pricedStep p m1 t1 x2 with
      | none => rw [hs2] at h2; cases h2
      | some r2 =>
        obtain ⟨m2', t2'⟩ := r2
        rw [hs2] at h2
        simp only [Option.some.injEq, Prod.mk.injEq] at h2
        obtain ⟨rfl, rfl⟩ := h2
        have first : t1.amount = 0 ∧ (m1.code = [] ∨ m1.code = .buyExecution fees (.limited w) :: rest) := by
          rcases pricedStep_cases hs1 with ⟨hc, _, _⟩ | ⟨i, r, hc, rfl, rfl⟩ | ⟨i, r, luck, hc, _, hp, he⟩
          · cases hc
          · obtain ⟨_, f2, _, _⟩ := failed_same Till.start (Mach.start c sender (load :: .buyExecution fees (.limited w) :: rest)).handler i r
            exact ⟨by rw [f2]; rfl, Or.inl (by rw [(failed_code _).1]; rfl)⟩
          · obtain ⟨rfl, rfl⟩ := List.cons.inj (show load :: _ = i :: r from hc)
            obtain ⟨_, f2, _, _⟩ := quiet_step hload hp
            exact ⟨by rw [f2]; rfl, Or.inr (effect_regs he).1⟩
        obtain ⟨a1, hcode⟩ := first
        rcases pricedStep_cases hs2 with ⟨_, _, rfl⟩ | ⟨i, r, hc, _, rfl⟩ | ⟨i, r, luck, hc, _, hp, _⟩
        · dsimp only at hbought; omega
        · rw [(failed_same t1 m1.handler i r).2.1] at hbought; omega
        · rcases hcode with hcode | hcode
          · rw [hcode] at hc; cases hc
          · rw [hcode] at hc
            obtain ⟨rfl, rfl⟩ := List.cons.inj hc
            simp only [Till.price] at hp
            obtain ⟨⟨t3, n⟩, hbuy, e⟩ := Option.map_eq_some_iff.mp hp
            simp only [Prod.mk.injEq] at e
            rcases (buy_spec hbuy).2.2 with ⟨_, f2, rfl⟩ | ⟨_, _, _, _, _, _, _, rfl⟩
            · rw [← e.1]
              dsimp only [Till.uses]
              omega
            · rw [← e.1] at hbought
              dsimp only [Till.uses] at hbought
              omega
  unfold pricedExecute at h
  obtain ⟨⟨m, t⟩, hr, e⟩ := Option.map_eq_some_iff.mp h
  simp only [Prod.mk.injEq] at e
  obtain ⟨_, rfl⟩ := e
  have hr' : pricedRun p m2 t2 xs = some (m, t) := by
    simp only [pricedRun] at h2 hr
    split at h2
    · cases h2
    · split at h2
      · cases h2
      · rename_i h3 _ _ _ h4
        simp only [Option.some.injEq, Prod.mk.injEq] at h2
        obtain ⟨rfl, rfl⟩ := h2
        rw [h3] at hr
        dsimp only at hr
        rw [h4] at hr
        exact hr
  exact unrefunded_refund (p := p) (m := m) (pricedRun_inv (Unrefunded (p.fee w)) (fun _ _ _ _ _ U hs => unrefunded_step U hs) xs
    (fun _ => hpaid) hr') hnone

/-! ## The counterexample -/

/-- Prices on Kusama, with the base weight of runtime/kreivo/src/weights/extrinsic_weights.rs. -/
def kusamaPrices : Prices := ⟨centsKusama, 125000000, 33333333, fun _ => none⟩

/-- Nothing fails. -/
def fineChance : Chance := ⟨fineLuck, ⟨1000000, 0⟩⟩

/-- A parachain with ten billion of the smallest unit of the native token (a hundredth of a unit). -/
def hundredthChain : Chain := ⟨⟨[((.native, siblingAccount 2000), 20000000000)], fun _ => some 33333333⟩, [], [], [], []⟩

/-- Two calls that need little: the first is declared with much time, the second with much proof. After each, the surplus is
asked back. -/
def inflatedMessage (limit : WeightLimit) : List VInstr :=
  [.withdrawAsset [(⟨1, []⟩, 15000000000)], .buyExecution (⟨1, []⟩, 15000000000) limit,
   .transact .sovereignAccount ⟨100001000000, 0⟩, .refundSurplus,
   .transact .sovereignAccount ⟨1000000, 300000⟩, .refundSurplus,
   .depositAsset .all ⟨1, [.parachain 2000]⟩]

/-- The weight of that message. -/
def inflatedWeight : Weight := ⟨101193837000, 303593⟩

theorem inflated_weight : messageWeight ((inflatedMessage .unlimited).map VInstr.shape) = some inflatedWeight := by
  simp only [inflatedMessage, List.map_cons, List.map_nil, VInstr.shape, VFilter.shape, messageWeight, weighFrom_eq, weighAll,
    weighOne]
  decide +kernel

example : ∃ (m m' : Mach) (t' : Till), m.code = [.transact .sovereignAccount ⟨2000000, 5⟩] ∧
    AtMost fineChance.actual ⟨2000000, 5⟩ ∧ m.origin = some ⟨1, [.parachain 2000]⟩ ∧
    (convertOrigin ⟨1, [.parachain 2000]⟩ .sovereignAccount).isSome = true ∧
    pricedStep kusamaPrices m Till.start fineChance = some (m', t') ∧
    t'.used = ⟨Generic.transact.refTime + 1000000, Generic.transact.proofSize⟩ ∧ t'.surplus = ⟨1000000, 5⟩ :=
  ⟨Mach.start hundredthChain ⟨1, [.parachain 2000]⟩ [.transact .sovereignAccount ⟨2000000, 5⟩], _, _, rfl,
    ⟨by decide, by decide⟩, rfl, rfl, rfl, rfl, rfl⟩

/-- C105 and C121 are false of the code: this message of a parachain passes the barrier; the calls it dispatches may do
nothing at all. It pays for the larger of time and proof, gets back the time it did not need, then the proof it did not
need, and has more than before: the native token was created. Nothing of the fee is kept although weight was used. -/
theorem C105_trader_mints_fails (self : UInt32) :
    admit (fun _ => false) self ⟨1, [.parachain 2000]⟩ ((inflatedMessage .unlimited).map VInstr.shape) ⟨0, 0⟩ =
        some ((inflatedMessage (.limited inflatedWeight)).map VInstr.shape) ∧
      ∃ c' t', pricedExecute kusamaPrices hundredthChain ⟨1, [.parachain 2000]⟩ (inflatedMessage (.limited inflatedWeight))
          (List.replicate 7 fineChance) = some (c', t') ∧
        hundredthChain.kept .native = 20000000000 ∧ c'.kept .native = 22546899933 ∧
        hundredthChain.ledger.get .native (siblingAccount 2000) = 20000000000 ∧
        c'.ledger.get .native (siblingAccount 2000) = 22546899933 := by
  constructor
  · have h0 : Weight.covers ⟨0, 0⟩ inflatedWeight = false := by decide +kernel
    unfold admit
    rw [inflated_weight]
    simp only [barrier, h0, inflatedMessage, List.map_cons, List.map_nil, VInstr.shape]
    rfl
  · have h : (pricedExecute kusamaPrices hundredthChain ⟨1, [.parachain 2000]⟩ (inflatedMessage (.limited inflatedWeight))
        (List.replicate 7 fineChance)).any (fun r => decide (
          hundredthChain.kept .native = 20000000000 ∧ r.1.kept .native = 22546899933 ∧
          hundredthChain.ledger.get .native (siblingAccount 2000) = 20000000000 ∧
          r.1.ledger.get .native (siblingAccount 2000) = 22546899933)) = true := by decide +kernel
    obtain ⟨⟨c', t'⟩, hr, hd⟩ := Option.any_eq_true _ _ |>.mp h
    exact ⟨c', t', hr, of_decide_eq_true hd⟩

/-- C121 is false of the code: the same message in the end pays nothing for the weight it used. -/
theorem C121_unpaid_fails :
    ∃ c' t', pricedExecute kusamaPrices hundredthChain ⟨1, [.parachain 2000]⟩ (inflatedMessage (.limited inflatedWeight))
          (List.replicate 7 fineChance) = some (c', t') ∧
      t'.used.refTime = 1193837000 ∧ t'.used.proofSize = 3593 ∧ weightToFee kusamaPrices.cents kusamaPrices.base t'.used = 119766667 ∧ t'.amount = 0 ∧
      amt c'.minted ⟨1, []⟩ = 2546899933 := by
  have h : (pricedExecute kusamaPrices hundredthChain ⟨1, [.parachain 2000]⟩ (inflatedMessage (.limited inflatedWeight))
      (List.replicate 7 fineChance)).any (fun r => decide (
        r.2.used.refTime = 1193837000 ∧ r.2.used.proofSize = 3593 ∧ weightToFee kusamaPrices.cents kusamaPrices.base r.2.used = 119766667 ∧
        r.2.amount = 0 ∧ amt r.1.minted ⟨1, []⟩ = 2546899933)) = true := by decide +kernel
  obtain ⟨⟨c', t'⟩, hr, hd⟩ := Option.any_eq_true _ _ |>.mp h
  exact ⟨c', t', hr, of_decide_eq_true hd⟩

/-- What a refund gives, in the relay chain's token. -/
def Refund.given (r : Refund) : Nat := sumAt r.assets ⟨1, []⟩ + r.bonus

theorem refund_given {p : Prices} {t : Till} (ha : t.asset = none) {s : Weight} (hs : Weight.satSub t.surplus t.refunded = s)
    (hle : AtMost s t.weight) (hpos : p.fee s ≠ 0) :
    (t.refund p).2.given = p.fee s ∧ (t.refund p).1.weight = Weight.satSub t.weight s ∧
      (t.refund p).1.refunded = Weight.satAdd t.refunded s ∧ (t.refund p).1.asset = none := by
  have hne : s ≠ Weight.zero := by rintro rfl; rw [fee_zero] at hpos; exact hpos rfl
  have hra : t.refundAsset p s = (t, none) := by unfold Till.refundAsset; rw [ha]
  have hmin : Weight.min s t.weight = s := by
    unfold Weight.min
    cases s
    rw [min_of_le hle.1, min_of_le hle.2]
  unfold Till.refund
  dsimp only
  rw [hs, if_neg hne, hra]
  dsimp only
  unfold Till.refundRelay
  dsimp only
  rw [hmin, if_neg hpos]
  refine ⟨?_, rfl, rfl, ha⟩
  have : Nat.min (p.fee s) t.amount = min (p.fee s) t.amount := rfl
  simp only [Refund.given, sumAt, if_true]
  omega

/-- C121 is false of the code at any price: whatever a cent is and whatever the base weight of an extrinsic, the weight of that
message, given back in the two parts time and proof, fetches more than it cost. -/
theorem C121_two_parts_fails (p : Prices) (hp : Sane p.cents p.base) (t : Till) (fees : XAsset) (n : Nat)
    (hbuy : Till.start.buy p inflatedWeight fees = some (t, n)) (hrelay : fees.1 = ⟨1, []⟩) :
    let first := Till.refund p { t with surplus := ⟨100000000000, 0⟩ }
    let second := Till.refund p { first.1 with surplus := ⟨100000000000, 300000⟩ }
    n < first.2.given + second.2.given := by
  obtain ⟨hi, hu, hl, hf⟩ := refTime_parts hp
  have hc := hp.centsRange
  have hlow := hp.low
  have hhigh := hp.high
  -- the price of time
  have hfrac : (refTimeToFee p.cents p.base).frac ≤ p.cents + 99 := by
    have h1 : 1000000000 * (refTimeToFee p.cents p.base).frac ≤ 100 * p.base * (refTimeToFee p.cents p.base).frac :=
      Nat.mul_le_mul_right _ (by omega)
    generalize 100 * p.base * (refTimeToFee p.cents p.base).frac = z at *
    omega
  have hfrac2 : p.cents ≤ 100 * (refTimeToFee p.cents p.base).frac + 199 := by
    have h1 : 100 * p.base * (refTimeToFee p.cents p.base).frac ≤ 100000000000 * (refTimeToFee p.cents p.base).frac :=
      Nat.mul_le_mul_right _ (by omega)
    generalize 100 * p.base * (refTimeToFee p.cents p.base).frac = z at *
    omega
  have htime : ∀ x, x ≤ 200000000000 →
      (refTimeToFee p.cents p.base).eval x = (x * (refTimeToFee p.cents p.base).frac + 499999999) / 1000000000 := by
    intro x hx
    rw [eval_of_small]
    · rw [hi, Nat.zero_mul, perbillOf_eq, Nat.add_zero]
    · rw [hi, Nat.zero_mul, perbillOf_eq]
      have hm : 200000000000 * 1000000000 ≤ u128Max := by decide +kernel
      have h1 : x * (refTimeToFee p.cents p.base).frac ≤ 200000000000 * 1000000000 := Nat.mul_le_mul hx (by omega)
      generalize u128Max = m at *
      generalize x * (refTimeToFee p.cents p.base).frac = y at *
      omega
  -- the price of proof
  have hproof : (proofSizeToFee p.cents).eval 300000 = 30 * p.cents ∧
      2 * (proofSizeToFee p.cents).eval 303593 ≤ 61 * p.cents := by
    rcases hp.cents with h | h <;> rw [h] <;> decide +kernel
  have e1 : p.fee ⟨100000000000, 0⟩ = 100 * (refTimeToFee p.cents p.base).frac := by
    unfold Prices.fee weightToFee
    dsimp only
    rw [eval_zero, htime _ (by omega)]
    generalize (refTimeToFee p.cents p.base).frac = f
    omega
  have e2 : p.fee ⟨0, 300000⟩ = 30 * p.cents := by
    unfold Prices.fee weightToFee
    dsimp only
    rw [eval_zero, hproof.1]
    omega
  have e3 : p.fee inflatedWeight < p.fee ⟨100000000000, 0⟩ + p.fee ⟨0, 300000⟩ := by
    rw [e1, e2]
    unfold Prices.fee weightToFee inflatedWeight
    dsimp only
    rw [htime _ (by omega)]
    have h2 := hproof.2
    generalize (proofSizeToFee p.cents).eval 303593 = g at *
    generalize (refTimeToFee p.cents p.base).frac = f at *
    omega
  -- what was bought
  rcases (buy_spec hbuy).2.2 with ⟨_, f1, f2⟩ | ⟨_, _, _, f2, _⟩
  · have hw : Weight.satAdd Till.start.weight inflatedWeight = inflatedWeight := by decide +kernel
    have w1 : Weight.satSub ⟨100000000000, 0⟩ Till.start.refunded = ⟨100000000000, 0⟩ := by decide +kernel
    have w2 : AtMost ⟨100000000000, 0⟩ inflatedWeight := by unfold AtMost; decide +kernel
    have w3 : Weight.satSub ⟨100000000000, 300000⟩ (Weight.satAdd Till.start.refunded ⟨100000000000, 0⟩) =
        ⟨0, 300000⟩ := by decide +kernel
    have w4 : AtMost ⟨0, 300000⟩ (Weight.satSub inflatedWeight ⟨100000000000, 0⟩) := by unfold AtMost; decide +kernel
    have g1 : t.weight = inflatedWeight := by rw [f2]; exact hw
    have g2 : t.refunded = Till.start.refunded := by rw [f2]
    have g3 : t.asset = none := by rw [f2]; rfl
    clear f2
    intro first second
    have a := refund_given (p := p) (t := { t with surplus := ⟨100000000000, 0⟩ }) g3 (s := ⟨100000000000, 0⟩)
      (by dsimp only; rw [g2]; exact w1) (by dsimp only; rw [g1]; exact w2) (by omega)
    change first.2.given = _ ∧ first.1.weight = _ ∧ first.1.refunded = _ ∧ first.1.asset = _ at a
    dsimp only at a
    rw [g1, g2] at a
    have b := refund_given (p := p) (t := { first.1 with surplus := ⟨100000000000, 300000⟩ }) a.2.2.2 (s := ⟨0, 300000⟩)
      (by dsimp only; rw [a.2.2.1]; exact w3) (by dsimp only; rw [a.2.1]; exact w4) (by omega)
    change second.2.given = _ ∧ _ at b
    rw [a.1, b.1, f1]
    exact e3
  · exact absurd hrelay f2

/-! ## Examples -/

/-- Somebody buys the weight of that message. -/
example : ∃ t n, Till.start.buy kusamaPrices inflatedWeight (⟨1, []⟩, 15000000000) = some (t, n) ∧ n = 10119766657 :=
  ⟨_, _, rfl, by decide +kernel⟩
example : Sane kusamaPrices.cents kusamaPrices.base := ⟨Or.inl rfl, by decide +kernel, by decide +kernel⟩

/-- A message that pays once and asks for nothing back. -/
def plainRuns : List VInstr :=
  [.withdrawAsset [(⟨1, []⟩, 15000000000)]] ++ .buyExecution (⟨1, []⟩, 15000000000) (.limited inflatedWeight) ::
    [.transact .sovereignAccount ⟨100000000000, 300000⟩, .depositAsset .all ⟨1, [.parachain 2000]⟩]
example : everyAll quiet [.transact .sovereignAccount ⟨100000000000, 300000⟩, .setAppendix [.depositAsset .all ⟨1, [.parachain 2000]⟩]] =
    true := by decide +kernel
/-- Its call needs less than declared, and the treasury keeps a part. -/
example : (pricedExecute kusamaPrices hundredthChain ⟨1, [.parachain 2000]⟩ plainRuns (List.replicate 4 fineChance)).any
    (fun r => decide (amt r.1.minted ⟨1, []⟩ = 0 ∧ 0 < r.2.amount ∧ r.1.kept .native = 20000000000 ∧
      r.1.ledger.get .native treasuryAccount = r.2.amount)) = true := by decide +kernel
/-- Nothing is given back if the call needs all it declared. -/
example : (pricedExecute kusamaPrices hundredthChain ⟨1, [.parachain 2000]⟩ plainRuns
    (List.replicate 4 ⟨fineLuck, ⟨100000000000, 300000⟩⟩)).any
    (fun r => decide (r.2.refunded.refTime = 0 ∧ r.2.refunded.proofSize = 0 ∧ r.2.amount = 10119766657)) = true := by
  decide +kernel

/-- A price list with Tether, and a message paying with it. -/
def tetherPrices : Prices := ⟨centsKusama, 125000000, 33333333, fun id => if id = .sibling ⟨1000, 50, 1984⟩ then some ⟨true, 10000⟩ else none⟩
def tetherRuns : List VInstr :=
  [.reserveAssetDeposited [(tether, 20000000)], .buyExecution (tether, 20000000) (.limited ⟨101100000000, 300000⟩),
   .transact .xcm ⟨100000000000, 300000⟩, .refundSurplus, .depositAsset .all ⟨1, [.parachain 2000]⟩]
example : everyAll paysNoRelay tetherRuns = true := by decide +kernel
example : (pricedExecute tetherPrices emptyChain ⟨1, [.parachain 1000]⟩ tetherRuns (List.replicate 5 fineChance)).any
    (fun r => decide (r.1.ledger.get tetherCur treasuryAccount = 10000 ∧
      r.1.ledger.get tetherCur (siblingAccount 2000) = 19990000)) = true := by decide +kernel

end Verif.Xcm
