import Verif.Runtime.MultiplierTheorems
import Verif.Runtime.ChargeTheorems

/-!
# C156: what a transaction will cost can be asked beforehand (runtime/kreivo/src/apis.rs 140-182)
-/

namespace Verif.Runtime

open Verif

/-- `query_info(uxt, len).partial_fee`: nothing for a transaction without a signature, else the fee without the tip.
runtime/kreivo/src/apis.rs 141-146; pallet_transaction_payment is outside /repo. -/
def queryInfo (r : Rates) (base w : Weight) (len : Nat) (signed : Bool) : Nat :=
  if signed then computeFee r base w len 0 else 0

/-- `query_call_info(call, len).partial_fee`. runtime/kreivo/src/apis.rs 164-169; pallet_transaction_payment is outside
/repo. -/
def queryCallInfo (r : Rates) (base w : Weight) (len : Nat) : Nat := computeFee r base w len 0

/-- `query_weight_to_fee(weight)`: runtime/kreivo/src/apis.rs 153-155 and 176-178. -/
def queryWeightToFee (r : Rates) (w : Weight) : Nat := weightToFee r.cents r.base w.capped

/-- `query_length_to_fee(length)`: runtime/kreivo/src/apis.rs 156-158 and 179-181. -/
def queryLengthToFee (r : Rates) (len : Nat) : Nat := lengthToFee r.cents len

/-- `FeeDetails`, the parts of the fee: for a base, for the length and for the weight. Outside /repo; used at
runtime/kreivo/src/apis.rs 147-152 and 170-175 (pallet_transaction_payment). -/
structure FeeDetails where
  base : Nat
  len : Nat
  weight : Nat

/-- `query_fee_details(uxt, len)` of a signed transaction and `query_call_fee_details(call, len)`; their tip is zero.
runtime/kreivo/src/apis.rs 147-152 and 170-175; pallet_transaction_payment is outside /repo. -/
def queryDetails (r : Rates) (base w : Weight) (len : Nat) : FeeDetails :=
  ⟨queryWeightToFee r base, queryLengthToFee r len, fixedMulInt r.multiplier (queryWeightToFee r w)⟩

/-! ## C156 -/

/-- **C156.** All answers fit together: both ways to ask for the whole fee give the sum of the parts, the part for the
length and the one for the base are what the other two questions answer, and without congestion or slack so is the part for
the weight. -/
theorem C156_parts (r : Rates) (base w : Weight) (len : Nat) :
    queryInfo r base w len true = (queryDetails r base w len).base + (queryDetails r base w len).len +
        (queryDetails r base w len).weight ∧
      queryCallInfo r base w len = queryInfo r base w len true ∧
      (queryDetails r base w len).len = queryLengthToFee r len ∧
      (queryDetails r base w len).base = queryWeightToFee r base ∧
      (r.multiplier = fixedOne → (queryDetails r base w len).weight = queryWeightToFee r w) := by
  refine ⟨rfl, rfl, rfl, rfl, fun h => ?_⟩
  have hwm : queryWeightToFee r w ≤ u128Max := by
    unfold queryWeightToFee weightToFee Coefficient.eval
    omega
  show fixedMulInt r.multiplier (queryWeightToFee r w) = _
  unfold fixedMulInt
  rw [h, Nat.mul_div_cancel_left _ (by decide +kernel)]
  omega

/-- What an accepted transaction that pays in the native currency has taken and given back. -/
theorem applyTx_native {a : Around} {s s' : Chain} {tx : Tx} {f : Money → Money} {actual : Weight}
    (h : applyTx a s tx f actual = some s') (hf : feeless s tx.call = false) (hg : a.hasGas (payerOf a tx) tx.weight = false) :
    ∃ m p, charge a.env s.money (payerOf a tx) false tx.asset (feeOf a tx tx.weight) = some (m, p) ∧
      settle a.env (f m) p
        (feeOf a tx ⟨min tx.weight.refTime actual.refTime, min tx.weight.proofSize actual.proofSize⟩) = some s'.money := by
  unfold applyTx at h
  simp only [hf, hg, Bool.false_eq_true, if_false] at h
  split at h
  · cases h
  · split at h
    · cases h
    · split at h
      · cases h
      · split at h
        · cases h
        · rename_i m p hc
          split at h
          · cases h
          · rename_i m' hs
            cases h
            exact ⟨m, p, hc, hs⟩

theorem feeOf_query (a : Around) (tx : Tx) (w : Weight) :
    feeOf a tx w = queryInfo a.rates a.base w tx.len true + tx.tip := rfl

/-- **C156.** The answer is the fee. If a transaction is accepted while the rates are those it was asked for, and pays in the
native currency, then before the call exactly the answer and the tip are taken from the payer, and whatever the call does, a
payer that still has an account has given no more than that in the end. -/
theorem C156_now (a : Around) (s s' : Chain) (tx : Tx) (f : Money → Money) (actual : Weight) (q : Nat)
    (hq : q = queryInfo a.rates a.base tx.weight tx.len true)
    (h : applyTx a s tx f actual = some s') (hf : feeless s tx.call = false)
    (hg : a.hasGas (payerOf a tx) tx.weight = false) (hn : tx.asset = none) (hp : payerOf a tx ≠ a.env.treasury) :
    ∃ m : Money, m.native (payerOf a tx) + (q + tx.tip) = s.money.native (payerOf a tx) ∧
      (∀ x, x ≠ payerOf a tx → m.native x = s.money.native x) ∧ AssetsSame s.money m ∧
      (0 < (f m).native (payerOf a tx) → ∃ due ≤ q + tx.tip,
        s'.money.native (payerOf a tx) + due = (f m).native (payerOf a tx) + (q + tx.tip)) := by
  obtain ⟨m, p, hc, hs⟩ := applyTx_native h hf hg
  rw [hn, feeOf_query, ← hq] at hc
  have hle := (C119_monotone a tx actual).1
  rw [feeOf_query a tx tx.weight, ← hq] at hle
  rcases Nat.eq_zero_or_pos (q + tx.tip) with h0 | h0
  · rw [h0] at hc ⊢
    simp only [charge, withdrawFee, Bool.false_eq_true, if_false, if_true, Option.some.injEq, Prod.mk.injEq] at hc
    obtain ⟨rfl, rfl⟩ := hc
    refine ⟨s.money, rfl, fun _ _ => rfl, ⟨rfl, rfl, rfl, rfl⟩, fun _ => ⟨0, Nat.le_refl _, ?_⟩⟩
    simp only [settle, Option.some.injEq] at hs
    rw [hs]
  · obtain ⟨-, ht⟩ := C119_taken a.env s.money (payerOf a tx) (q + tx.tip) (by omega)
    obtain ⟨e1, e2, e3, e4, e5⟩ := ht m p hc
    subst e1
    refine ⟨m, e2, e3, e5, fun hl => ⟨_, hle, ?_⟩⟩
    exact (C119_settled a.env (f m) s'.money (payerOf a tx) (q + tx.tip) _ hle hp hl hs).1

/-- **C156.** In a sufficient asset the same is taken, converted, and no more than that is given in the end. -/
theorem C156_asset (a : Around) (s s' : Chain) (tx : Tx) (f : Money → Money) (actual : Weight) (q k : Nat) (b : Acct)
    (hq : q = queryInfo a.rates a.base tx.weight tx.len true) (hq0 : q + tx.tip ≠ 0)
    (h : applyTx a s tx f actual = some s') (hf : feeless s tx.call = false)
    (hg : a.hasGas (payerOf a tx) tx.weight = false) (hn : tx.asset = some k) (hb : a.env.author = some b)
    (hbp : b ≠ payerOf a tx) :
    ∃ (m : Money) (c : Nat), assetFee a.env k (q + tx.tip) = some c ∧
      m.asset k (payerOf a tx) + c = s.money.asset k (payerOf a tx) ∧
      (∀ x, x ≠ payerOf a tx → m.asset k x = s.money.asset k x) ∧ OthersSame k s.money m ∧
      (f m).asset k (payerOf a tx) ≤ s'.money.asset k (payerOf a tx) ∧
      s'.money.asset k (payerOf a tx) ≤ (f m).asset k (payerOf a tx) + c := by
  obtain ⟨m, p, hc, hs⟩ := applyTx_native h hf hg
  rw [hn, feeOf_query, ← hq] at hc
  obtain ⟨i, c, -, -, e3, -, rfl, e6, -, -, e9, -, e11⟩ := C119_asset_taken a.env s.money m (payerOf a tx) k _ p hq0 hc
  obtain ⟨g1, g2, g3, -⟩ := C119_asset_no_more a.env (f m) s'.money (payerOf a tx) b k c _ hb hbp hs
  exact ⟨m, c, e3, e6, e9, e11, g2, by omega⟩

/-- **C156.** The answer stays good. If the transaction is accepted later, after at most 7200 blocks of whatever use, what is
taken is at most half more than the answer (and two units), besides the tip, and at least six sevenths (less one unit). -/
theorem C156_later (a : Around) (r : Rates) (blocks : List Weight) (s s' : Chain) (tx : Tx) (f : Money → Money)
    (actual : Weight) (q : Nat) (hr : fixedOne ≤ 10 * r.multiplier) (hU : r.multiplier ≤ u128Max)
    (hb : blocks.length ≤ 7200) (ha : a.rates = { r with multiplier := multiplierAfter r.multiplier blocks })
    (hq : q = queryInfo r a.base tx.weight tx.len true)
    (h : applyTx a s tx f actual = some s') (hf : feeless s tx.call = false)
    (hg : a.hasGas (payerOf a tx) tx.weight = false) (hn : tx.asset = none) (hp : payerOf a tx ≠ a.env.treasury) :
    ∃ (m : Money) (fee : Nat), 2 * fee ≤ 3 * q + 3 ∧ 6 * q ≤ 7 * fee + 6 ∧
      m.native (payerOf a tx) + (fee + tx.tip) = s.money.native (payerOf a tx) ∧
      (∀ x, x ≠ payerOf a tx → m.native x = s.money.native x) ∧ AssetsSame s.money m ∧
      (0 < (f m).native (payerOf a tx) → ∃ due ≤ fee + tx.tip,
        s'.money.native (payerOf a tx) + due = (f m).native (payerOf a tx) + (fee + tx.tip)) := by
  obtain ⟨m, e1, e2, e3, e4⟩ := C156_now a s s' tx f actual _ rfl h hf hg hn hp
  obtain ⟨-, g1, g2⟩ := C142_fee r hr hU a.base tx.weight tx.len 0 blocks hb
  refine ⟨m, queryInfo a.rates a.base tx.weight tx.len true, ?_, ?_, e1, e2, e3, e4⟩
  · rw [hq, ha]; exact g1
  · rw [hq, ha]; exact g2

/-- **C156.** A transaction with gas, or without fee, is not charged, whatever the answer was. -/
theorem C156_free (a : Around) (s s' : Chain) (tx : Tx) (f : Money → Money) (actual : Weight)
    (h : applyTx a s tx f actual = some s')
    (hf : feeless s tx.call = true ∨ a.hasGas (payerOf a tx) tx.weight = true) : s'.money = f s.money := by
  unfold applyTx at h
  split at h
  · cases h
  · split at h
    · cases h
    · split at h
      · cases h
      · split at h
        · cases h
        · rename_i m p hc
          have hmp : m = s.money ∧ (p = .nothing ∨ p = .gas) := by
            split at hc
            · cases hc
              exact ⟨rfl, .inl rfl⟩
            · rename_i hnf
              rcases hf with hf | hf
              · exact absurd hf hnf
              · rw [hf] at hc
                simp only [charge, if_true] at hc
                cases hc
                exact ⟨rfl, .inr rfl⟩
          obtain ⟨rfl, hp⟩ := hmp
          split at h
          · cases h
          · rename_i m' hs
            cases h
            rcases hp with rfl | rfl <;> simpa [settle] using hs.symm

/-! ## Examples -/

/-- A transaction that is accepted, and what it was told it would cost. -/
example :
    let tx : Tx := { Demo.immortal with weight := ⟨300000000, 3000⟩, tip := 5, len := 120 }
    (applyTx Demo.around Demo.chain tx id tx.weight).isSome = true ∧ feeless Demo.chain tx.call = false ∧
      Demo.around.hasGas (payerOf Demo.around tx) tx.weight = false ∧ tx.asset = none ∧
      payerOf Demo.around tx ≠ Demo.around.env.treasury ∧
      0 < queryInfo Demo.around.rates Demo.around.base tx.weight tx.len true := by decide +kernel

end Verif.Runtime
