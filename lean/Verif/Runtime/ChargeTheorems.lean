import Verif.Runtime.TransactionTheorems
import Verif.Runtime.FeeTheorems

/-!
# C119: what a transaction pays, who pays it and who gets it
-/

namespace Verif.Runtime

open Verif

/-! ## Specification -/

/-- Everything but the native currency is as before. -/
def AssetsSame (m m' : Money) : Prop :=
  m'.asset = m.asset ∧ m'.issuedA = m.issuedA ∧ m'.locked = m.locked ∧ m'.lockedA = m.lockedA

/-- Everything but one asset is as before. -/
def OthersSame (k : Nat) (m m' : Money) : Prop :=
  m'.native = m.native ∧ m'.issued = m.issued ∧ m'.locked = m.locked ∧ m'.lockedA = m.lockedA ∧
    ∀ j, j ≠ k → m'.asset j = m.asset j ∧ m'.issuedA j = m.issuedA j

/-! ## Lemmas -/

theorem fixedMulInt_mono (x : Nat) {n n' : Nat} (h : n ≤ n') : fixedMulInt x n ≤ fixedMulInt x n' := by
  have : x * n / fixedOne ≤ x * n' / fixedOne := Nat.div_le_div_right (Nat.mul_le_mul_left _ h)
  unfold fixedMulInt
  omega

theorem assetFee_some {env : ChargeEnv} {k fee c : Nat} (h : assetFee env k fee = some c) :
    ∃ i, env.info k = some i ∧ i.sufficient = true ∧ env.ed ≠ 0 ∧
      c = max (fixedMulInt (fixedRatio i.min env.ed) fee) (if fee = 0 then 0 else 1) := by
  unfold assetFee at h
  obtain ⟨x, hx, hc⟩ := Option.map_eq_some_iff.1 h
  unfold toAsset at hx
  cases hi : env.info k with
  | none => rw [hi] at hx; cases hx
  | some i =>
    rw [hi] at hx
    dsimp only at hx
    split at hx
    · cases hx
    · rename_i hs
      split at hx
      · cases hx
      · rename_i he
        cases hx
        exact ⟨i, rfl, by simpa using hs, he, hc.symm⟩

theorem assetFee_mono {env : ChargeEnv} {k fee fee' c c' : Nat} (h : fee ≤ fee') (h1 : assetFee env k fee = some c)
    (h2 : assetFee env k fee' = some c') : c ≤ c' := by
  obtain ⟨i, hi, -, -, e1⟩ := assetFee_some h1
  obtain ⟨i', hi', -, -, e2⟩ := assetFee_some h2
  rw [hi] at hi'
  cases hi'
  have := fixedMulInt_mono (fixedRatio i.min env.ed) h
  generalize fixedMulInt (fixedRatio i.min env.ed) fee = x at *
  generalize fixedMulInt (fixedRatio i.min env.ed) fee' = y at *
  split at e1 <;> split at e2 <;> omega

/-! ## C119 -/

/-- The fee for less weight is not higher, and every fee contains the base fee and the tip. -/
theorem C119_monotone (a : Around) (tx : Tx) (w : Weight) :
    feeOf a tx ⟨min tx.weight.refTime w.refTime, min tx.weight.proofSize w.proofSize⟩ ≤ feeOf a tx tx.weight ∧
      weightToFee a.rates.cents a.rates.base a.base.capped + tx.tip ≤
        feeOf a tx ⟨min tx.weight.refTime w.refTime, min tx.weight.proofSize w.proofSize⟩ := by
  have h := C84_monotone a.rates.cents a.rates.base
    (v := Weight.capped ⟨min tx.weight.refTime w.refTime, min tx.weight.proofSize w.proofSize⟩) (w := tx.weight.capped)
    (by dsimp only [Weight.capped]; omega) (by dsimp only [Weight.capped]; omega)
  have h' := fixedMulInt_mono a.rates.multiplier h
  unfold feeOf computeFee
  omega

/-- Paying in the native currency, before the call: it works exactly if the payer can spare the fee above the existential
deposit and what is frozen, and takes exactly the fee, from the payer only. -/
theorem C119_taken (env : ChargeEnv) (m : Money) (who : Acct) (fee : Nat) (hf : fee ≠ 0) :
    ((charge env m who false none fee).isSome = true ↔ fee + env.ed ≤ m.native who ∧ fee + m.locked who ≤ m.native who) ∧
      ∀ m' p, charge env m who false none fee = some (m', p) →
        p = .native who fee ∧ m'.native who + fee = m.native who ∧ (∀ x, x ≠ who → m'.native x = m.native x) ∧
          m'.issued = m.issued ∧ AssetsSame m m' := by
  unfold charge withdrawFee
  simp only [Bool.false_eq_true, if_false, if_neg hf]
  constructor
  · split
    · simp; omega
    · simp; omega
  · intro m' p h
    split at h
    · cases h
    · cases h
      refine ⟨rfl, ?_, fun x hx => put_other _ _ hx, rfl, rfl, rfl, rfl, rfl⟩
      show put m.native who _ who + fee = _
      rw [put_same]; omega

/-- Paying in the native currency, after the call, whatever the call did: a payer that still has an account has back
exactly what was taken beyond the fee due, and the treasury has the fee. Only if the treasury could not hold the fee is it
burned. Nobody else's balance changes. -/
theorem C119_settled (env : ChargeEnv) (m m' : Money) (who : Acct) (amount due : Nat) (hd : due ≤ amount)
    (hw : who ≠ env.treasury) (hl : 0 < m.native who) (h : settle env m (.native who amount) due = some m') :
    m'.native who + due = m.native who + amount ∧
      (∀ x, x ≠ who → x ≠ env.treasury → m'.native x = m.native x) ∧ AssetsSame m m' ∧
      ((m'.native env.treasury = m.native env.treasury + due ∧ m'.issued = m.issued) ∨
        (m'.native env.treasury = m.native env.treasury ∧ m'.issued = m.issued - due ∧
          m.native env.treasury + due < env.ed)) := by
  have hw' : env.treasury ≠ who := fun e => hw e.symm
  simp only [settle, if_pos hl, Option.some.injEq] at h
  have hr : amount - (amount - due) = due := by omega
  rw [hr] at h
  unfold resolveN at h
  simp only [put_other _ _ hw'] at h
  split at h
  · subst h
    rename_i h0
    refine ⟨?_, fun x hx _ => put_other _ _ hx, ⟨rfl, rfl, rfl, rfl⟩, Or.inl ⟨?_, rfl⟩⟩
    · show put m.native who _ who + due = _
      rw [put_same]; omega
    · show put m.native who _ env.treasury = _
      rw [put_other _ _ hw', h0, Nat.add_zero]
  · split at h
    · subst h
      rename_i h1
      refine ⟨?_, fun x hx _ => put_other _ _ hx, ⟨rfl, rfl, rfl, rfl⟩, Or.inr ⟨?_, rfl, h1⟩⟩
      · show put m.native who _ who + due = _
        rw [put_same]; omega
      · exact put_other _ _ hw'
    · subst h
      refine ⟨?_, fun x hx hx' => ?_, ⟨rfl, rfl, rfl, rfl⟩, Or.inl ⟨?_, rfl⟩⟩
      · show put (put m.native who _) env.treasury _ who + due = _
        rw [put_other _ _ hw, put_same]; omega
      · show put (put m.native who _) env.treasury _ x = _
        rw [put_other _ _ hx', put_other _ _ hx]
      · exact put_same _ _ _

/-- If the payer's account went during the call, everything taken goes to the treasury. -/
theorem C119_payer_gone (env : ChargeEnv) (m m' : Money) (who : Acct) (amount due : Nat) (hw : who ≠ env.treasury)
    (hl : m.native who = 0) (h : settle env m (.native who amount) due = some m') :
    m'.native who = 0 ∧ (∀ x, x ≠ env.treasury → m'.native x = m.native x) ∧ AssetsSame m m' ∧
      ((m'.native env.treasury = m.native env.treasury + amount ∧ m'.issued = m.issued) ∨
        (m'.native env.treasury = m.native env.treasury ∧ m'.issued = m.issued - amount ∧
          m.native env.treasury + amount < env.ed)) := by
  have hw' : env.treasury ≠ who := fun e => hw e.symm
  have hp : put m.native who (m.native who) = m.native := by
    funext x; unfold put; split <;> simp_all
  simp only [settle, hl, Nat.lt_irrefl, if_false, Nat.add_zero, Nat.sub_zero, Option.some.injEq] at h
  have hp0 : put m.native who 0 = m.native := by rw [← hl]; exact hp
  rw [hp0] at h
  unfold resolveN at h
  split at h
  · subst h
    rename_i h0
    exact ⟨hl, fun _ _ => rfl, ⟨rfl, rfl, rfl, rfl⟩, Or.inl ⟨by show m.native _ = _; omega, rfl⟩⟩
  · split at h
    · subst h
      rename_i h1
      exact ⟨hl, fun _ _ => rfl, ⟨rfl, rfl, rfl, rfl⟩, Or.inr ⟨rfl, rfl, h1⟩⟩
    · subst h
      refine ⟨?_, fun x hx => put_other _ _ hx, ⟨rfl, rfl, rfl, rfl⟩, Or.inl ⟨put_same _ _ _, rfl⟩⟩
      show put m.native _ _ who = 0
      rw [put_other _ _ hw, hl]

/-- Paying in an asset, before the call: the asset must be sufficient, the payer keeps its minimum balance and what is
frozen, and loses exactly the fee converted; nobody else and no other asset is touched. -/
theorem C119_asset_taken (env : ChargeEnv) (m m' : Money) (who : Acct) (k fee : Nat) (p : Paid) (hf : fee ≠ 0)
    (h : charge env m who false (some k) fee = some (m', p)) :
    ∃ i c, env.info k = some i ∧ i.sufficient = true ∧ assetFee env k fee = some c ∧ 1 ≤ c ∧ p = .asset who k c ∧
      m'.asset k who + c = m.asset k who ∧ i.min ≤ m'.asset k who ∧ m.lockedA k who ≤ m'.asset k who ∧
      (∀ x, x ≠ who → m'.asset k x = m.asset k x) ∧ m'.issuedA k = m.issuedA k ∧ OthersSame k m m' := by
  unfold charge withdrawFee at h
  simp only [Bool.false_eq_true, if_false, if_neg hf] at h
  split at h
  · rename_i c i hc hi
    split at h
    · cases h
    · rename_i hlt
      cases h
      have hs : i.sufficient = true ∧ 1 ≤ c := by
        obtain ⟨i', hi', e1, -, e2⟩ := assetFee_some hc
        rw [hi] at hi'
        cases hi'
        rw [if_neg hf] at e2
        exact ⟨e1, by omega⟩
      refine ⟨i, c, hi, hs.1, hc, hs.2, rfl, ?_, ?_, ?_, fun x hx => ?_, rfl, rfl, rfl, rfl, rfl, fun j hj => ⟨?_, rfl⟩⟩
      · show put m.asset k _ k who + c = _
        rw [put_same, put_same]; omega
      · show i.min ≤ put m.asset k _ k who
        rw [put_same, put_same]; omega
      · show m.lockedA k who ≤ put m.asset k _ k who
        rw [put_same, put_same]; omega
      · show put m.asset k _ k x = _
        rw [put_same, put_other _ _ hx]
      · exact put_other _ _ hj
  · cases h

/-- `resolve` of a credit of an asset touches one account and the issuance of that asset only; the account gains it all,
or it is burned because the account cannot take it. -/
theorem resolveA_spec (env : ChargeEnv) (m : Money) (k : Nat) (who : Acct) (n : Nat) :
    OthersSame k m (resolveA env m k who n) ∧ (∀ x, x ≠ who → (resolveA env m k who n).asset k x = m.asset k x) ∧
      (((resolveA env m k who n).asset k who = m.asset k who + n ∧ (resolveA env m k who n).issuedA k = m.issuedA k) ∨
        ((resolveA env m k who n).asset k who = m.asset k who ∧
          (resolveA env m k who n).issuedA k = m.issuedA k - n ∧ canTake env m k who n = false)) := by
  unfold resolveA
  split
  · rename_i h0
    exact ⟨⟨rfl, rfl, rfl, rfl, fun _ _ => ⟨rfl, rfl⟩⟩, fun _ _ => rfl, Or.inl ⟨by omega, rfl⟩⟩
  · split
    · refine ⟨⟨rfl, rfl, rfl, rfl, fun j hj => ⟨put_other _ _ hj, rfl⟩⟩, fun x hx => ?_, Or.inl ⟨?_, rfl⟩⟩
      · show put m.asset k _ k x = _
        rw [put_same, put_other _ _ hx]
      · show put m.asset k _ k who = _
        rw [put_same, put_same]
    · rename_i hc
      exact ⟨⟨rfl, rfl, rfl, rfl, fun j hj => ⟨rfl, put_other _ _ hj⟩⟩, fun _ _ => rfl,
        Or.inr ⟨rfl, put_same _ _ _, by simpa using hc⟩⟩

/-- The same for the author of the block. -/
theorem toAuthor_spec (env : ChargeEnv) (m : Money) (k n : Nat) :
    OthersSame k m (toAuthor env m k n) ∧ (∀ x, env.author ≠ some x → (toAuthor env m k n).asset k x = m.asset k x) ∧
      ((∃ b, env.author = some b ∧ (toAuthor env m k n).asset k b = m.asset k b + n ∧
          (toAuthor env m k n).issuedA k = m.issuedA k) ∨
        ((toAuthor env m k n).asset k = m.asset k ∧ (toAuthor env m k n).issuedA k = m.issuedA k - n ∧
          ∀ b, env.author = some b → canTake env m k b n = false)) := by
  unfold toAuthor
  cases hb : env.author with
  | none =>
    refine ⟨⟨rfl, rfl, rfl, rfl, fun j hj => ⟨rfl, put_other _ _ hj⟩⟩, fun _ _ => rfl,
      Or.inr ⟨rfl, put_same _ _ _, fun b e => by cases e⟩⟩
  | some b =>
    obtain ⟨h1, h2, h3⟩ := resolveA_spec env m k b n
    refine ⟨h1, fun x hx => h2 x (fun e => hx (by rw [e])), ?_⟩
    rcases h3 with ⟨e1, e2⟩ | ⟨e1, e2, e3⟩
    · exact Or.inl ⟨b, rfl, e1, e2⟩
    · refine Or.inr ⟨?_, e2, fun b' e => by cases e; exact e3⟩
      funext x
      by_cases hx : x = b
      · rw [hx]; exact e1
      · exact h2 x hx

/-- Paying in an asset, after the call, whatever the call did, if the payer can take it back: exactly what was taken beyond
the converted fee due; and the author of the block has the fee. Only if there is no author or they cannot take it is it
burned. Nobody else and no other asset is touched. -/
theorem C119_asset_settled (env : ChargeEnv) (m m' : Money) (who : Acct) (k amount due c : Nat)
    (hc : assetFee env k due = some c) (hd : c ≤ amount) (ha : env.author ≠ some who)
    (ht : canTake env m k who (amount - c) = true) (h : settle env m (.asset who k amount) due = some m') :
    m'.asset k who + c = m.asset k who + amount ∧ OthersSame k m m' ∧
      (∀ x, x ≠ who → env.author ≠ some x → m'.asset k x = m.asset k x) ∧
      ((∃ b, env.author = some b ∧ m'.asset k b = m.asset k b + c ∧ m'.issuedA k = m.issuedA k) ∨
        ((∀ x, x ≠ who → m'.asset k x = m.asset k x) ∧ m'.issuedA k = m.issuedA k - c ∧
          ∀ b, env.author = some b → canTake env m k b c = false)) := by
  simp only [settle, hc, Nat.min_eq_right hd, Option.some.injEq] at h
  obtain ⟨p1, p2, p3⟩ := resolveA_spec env m k who (amount - c)
  generalize resolveA env m k who (amount - c) = m1 at *
  obtain ⟨q1, q2, q3⟩ := toAuthor_spec env m1 k c
  generalize toAuthor env m1 k c = m2 at *
  subst h
  have p4 : m1.asset k who = m.asset k who + (amount - c) ∧ m1.issuedA k = m.issuedA k := by
    rcases p3 with p | ⟨-, -, p⟩
    · exact p
    · rw [ht] at p; cases p
  refine ⟨?_, ⟨q1.1.trans p1.1, q1.2.1.trans p1.2.1, q1.2.2.1.trans p1.2.2.1, q1.2.2.2.1.trans p1.2.2.2.1, fun j hj =>
    ⟨((q1.2.2.2.2 j hj).1).trans (p1.2.2.2.2 j hj).1, ((q1.2.2.2.2 j hj).2).trans (p1.2.2.2.2 j hj).2⟩⟩,
    fun x hx hx' => (q2 x hx').trans (p2 x hx), ?_⟩
  · rw [q2 who ha, p4.1]; omega
  · rcases q3 with ⟨b, e1, e2, e3⟩ | ⟨e1, e2, e3⟩
    · have hb : b ≠ who := fun e => ha (by rw [e1, e])
      exact Or.inl ⟨b, e1, by rw [e2, p2 b hb], by rw [e3, p4.2]⟩
    · refine Or.inr ⟨fun x hx => by rw [e1, p2 x hx], by rw [e2, p4.2], fun b hb => ?_⟩
      have hbw : b ≠ who := fun e => ha (by rw [hb, e])
      have := e3 b hb
      unfold canTake at this ⊢
      rw [p2 b hbw] at this
      exact this

/-- Paying in an asset, after the call, whatever the call did and whatever the rate is by then: the payer and the author of
the block together get no more than was taken, the payer loses nothing, and nobody else's balance changes. -/
theorem C119_asset_no_more (env : ChargeEnv) (m m' : Money) (who b : Acct) (k amount due : Nat)
    (hb : env.author = some b) (hne : b ≠ who) (h : settle env m (.asset who k amount) due = some m') :
    m'.asset k who + m'.asset k b ≤ m.asset k who + m.asset k b + amount ∧ m.asset k who ≤ m'.asset k who ∧
      m.asset k b ≤ m'.asset k b ∧ ∀ x, x ≠ who → x ≠ b → m'.asset k x = m.asset k x := by
  simp only [settle] at h
  split at h
  · cases h
  · rename_i c hc
    simp only [Option.some.injEq, toAuthor, hb] at h
    obtain ⟨p1, p2, p3⟩ := resolveA_spec env m k who (amount - min amount c)
    generalize resolveA env m k who (amount - min amount c) = m1 at *
    obtain ⟨q1, q2, q3⟩ := resolveA_spec env m1 k b (min amount c)
    generalize resolveA env m1 k b (min amount c) = m2 at *
    subst h
    have e1 := p2 b hne
    have e2 := q2 who hne.symm
    have hle := Nat.min_le_left amount c
    refine ⟨?_, ?_, ?_, fun x hx hx' => by rw [q2 x hx', p2 x hx]⟩
    · rcases p3 with ⟨p3, _⟩ | ⟨p3, _, _⟩ <;> rcases q3 with ⟨q3, _⟩ | ⟨q3, _, _⟩ <;> omega
    · rcases p3 with ⟨p3, _⟩ | ⟨p3, _, _⟩ <;> omega
    · rcases q3 with ⟨q3, _⟩ | ⟨q3, _, _⟩ <;> omega

/-- Calls without fee are authentications that the chain's own check of the challenge accepts, and nothing else. -/
theorem C119_feeless (s : Chain) (c : TxCall) :
    feeless s c = true ↔ ∃ cx challenge, c = .authenticate cx challenge true ∧
      Governance.checkChallenge s.hashes cx challenge = true := by
  cases c with
  | authenticate cx challenge verified => cases verified <;> simp [feeless]
  | other n => simp [feeless]

/-- The rate of an asset: the fee in it is the native fee times the ratio of the minimum balances, rounded down by less
than two units, except that it is at least one unit. (Up to a million whole coins, where the fixed-point ratio is exact
enough, and as long as nothing saturates.) -/
theorem C119_rate (env : ChargeEnv) (k fee c : Nat) (i : AssetInfo) (hi : env.info k = some i) (hf : fee ≠ 0)
    (hs : fee ≤ fixedOne) (hm : i.min * fixedOne < 2 ^ 128) (hc : assetFee env k fee = some c) :
    (c * env.ed ≤ fee * i.min ∨ c = 1) ∧ fee * i.min < (c + 2) * env.ed := by
  have hF : fixedOne = 1000000000000000000 := rfl
  obtain ⟨i', hi', -, he, e2⟩ := assetFee_some hc
  rw [hi] at hi'
  cases hi'
  replace hc := e2.symm
  rw [if_neg hf] at hc
  have hd1 : i.min * fixedOne / env.ed ≤ i.min * fixedOne := Nat.div_le_self _ _
  have hr : fixedRatio i.min env.ed = i.min * fixedOne / env.ed := by
    unfold fixedRatio u128Max; omega
  have hx : i.min * fixedOne / env.ed * fee / fixedOne ≤ i.min * fixedOne / env.ed := by
    calc i.min * fixedOne / env.ed * fee / fixedOne
        ≤ i.min * fixedOne / env.ed * fixedOne / fixedOne := Nat.div_le_div_right (Nat.mul_le_mul_left _ hs)
      _ = i.min * fixedOne / env.ed := Nat.mul_div_cancel _ (by rw [hF]; decide)
  have hmul : fixedMulInt (fixedRatio i.min env.ed) fee = i.min * fixedOne / env.ed * fee / fixedOne := by
    unfold fixedMulInt u128Max; rw [hr]; omega
  rw [hmul] at hc
  have hed : 0 < env.ed := Nat.pos_of_ne_zero he
  have hF0 : 0 < fixedOne := by rw [hF]; decide
  generalize hq : i.min * fixedOne / env.ed = q at *
  generalize hy : q * fee / fixedOne = y at *
  have a1 : q * env.ed ≤ i.min * fixedOne := by rw [← hq]; exact Nat.div_mul_le_self _ _
  have a2 : i.min * fixedOne < (q + 1) * env.ed := by exact (Nat.div_lt_iff_lt_mul hed).1 (by omega)
  have b1 : y * fixedOne ≤ q * fee := by rw [← hy]; exact Nat.div_mul_le_self _ _
  have b2 : q * fee < (y + 1) * fixedOne := by exact (Nat.div_lt_iff_lt_mul hF0).1 (by omega)
  have c1 : y * env.ed ≤ fee * i.min := by
    refine Nat.le_of_mul_le_mul_right (c := fixedOne) ?_ hF0
    calc y * env.ed * fixedOne = y * fixedOne * env.ed := by ring
      _ ≤ q * fee * env.ed := Nat.mul_le_mul_right _ b1
      _ = q * env.ed * fee := by ring
      _ ≤ i.min * fixedOne * fee := Nat.mul_le_mul_right _ a1
      _ = fee * i.min * fixedOne := by ring
  have c2 : fee * i.min < (y + 2) * env.ed := by
    refine Nat.lt_of_mul_lt_mul_right (a := fixedOne) ?_
    calc fee * i.min * fixedOne = i.min * fixedOne * fee := by ring
      _ < (q + 1) * env.ed * fee := Nat.mul_lt_mul_of_pos_right a2 (Nat.pos_of_ne_zero hf)
      _ = q * fee * env.ed + fee * env.ed := by ring
      _ ≤ q * fee * env.ed + fixedOne * env.ed := Nat.add_le_add_left (Nat.mul_le_mul_right _ hs) _
      _ ≤ (y + 1) * fixedOne * env.ed + fixedOne * env.ed :=
          Nat.add_le_add_right (Nat.mul_le_mul_right _ (Nat.le_of_lt b2)) _
      _ = (y + 2) * env.ed * fixedOne := by ring
  by_cases h1 : 1 ≤ y
  · have : c = y := by omega
    subst this
    exact ⟨Or.inl c1, c2⟩
  · have hc1 : c = 1 := by omega
    have hy0 : y = 0 := by omega
    subst hc1; subst hy0
    exact ⟨Or.inr rfl, by omega⟩

/-- All of it, for a transaction that goes in: what it may touch before the call is decided by its payer, who is the
account of the session key if it is signed with one; gas of a membership or a call without fee costs nothing; otherwise
the payer is charged `feeOf` of the declared weight, and settles after the call for the weight used (or the declared one,
if that is less), which is never more. -/
theorem C119_pipeline (a : Around) (s s' : Chain) (tx : Tx) (f : Money → Money) (w : Weight)
    (h : applyTx a s tx f w = some s') :
    (feeless s tx.call = true → s'.money = f s.money) ∧
      (feeless s tx.call = false → a.hasGas (payerOf a tx) tx.weight = true → s'.money = f s.money) ∧
      (feeless s tx.call = false → a.hasGas (payerOf a tx) tx.weight = false → ∃ m p,
        charge a.env s.money (payerOf a tx) false tx.asset (feeOf a tx tx.weight) = some (m, p) ∧
        settle a.env (f m) p (feeOf a tx ⟨min tx.weight.refTime w.refTime, min tx.weight.proofSize w.proofSize⟩) =
          some s'.money) := by
  unfold applyTx at h
  split at h
  · cases h
  · split at h
    · cases h
    · split at h
      · cases h
      · split at h
        · cases h
        · rename_i m p hch
          split at h
          · cases h
          · rename_i m' hst
            cases h
            refine ⟨fun hf => ?_, fun hf hg => ?_, fun hf hg => ?_⟩
            · rw [hf] at hch
              simp only [if_true, Option.some.injEq, Prod.mk.injEq] at hch
              obtain ⟨rfl, rfl⟩ := hch
              simp only [settle, Option.some.injEq] at hst
              exact hst.symm
            · rw [hf, hg] at hch
              simp only [Bool.false_eq_true, if_false, charge, if_true, Option.some.injEq, Prod.mk.injEq] at hch
              obtain ⟨rfl, rfl⟩ := hch
              simp only [settle, Option.some.injEq] at hst
              exact hst.symm
            · rw [hf, hg] at hch
              simp only [Bool.false_eq_true, if_false] at hch
              exact ⟨m, p, hch, hst⟩

/-- And in one: a transaction that pays in the native currency, whose call leaves the payer's balance alone, costs the
payer exactly the fee for the weight used, at most the fee for the weight declared; the treasury gets as much on top of what
the call itself did, and nobody else's balance changes but by the call, unless the treasury could not hold the fee. -/
theorem C119_never_more (a : Around) (s s' : Chain) (tx : Tx) (f : Money → Money) (w : Weight)
    (h : applyTx a s tx f w = some s') (hf : feeless s tx.call = false)
    (hg : a.hasGas (payerOf a tx) tx.weight = false) (hn : tx.asset = none) (ht : payerOf a tx ≠ a.env.treasury)
    (hed : 0 < a.env.ed) (h0 : feeOf a tx tx.weight ≠ 0) (hc : ∀ m, (f m).native (payerOf a tx) = m.native (payerOf a tx)) :
    ∃ due before, due = feeOf a tx ⟨min tx.weight.refTime w.refTime, min tx.weight.proofSize w.proofSize⟩ ∧
      due ≤ feeOf a tx tx.weight ∧ s'.money.native (payerOf a tx) + due = s.money.native (payerOf a tx) ∧
      a.env.ed ≤ s'.money.native (payerOf a tx) ∧ s.money.locked (payerOf a tx) ≤ s'.money.native (payerOf a tx) ∧
      (∀ x, x ≠ payerOf a tx → before.native x = s.money.native x) ∧
      (∀ x, x ≠ payerOf a tx → x ≠ a.env.treasury → s'.money.native x = (f before).native x) ∧
      ((s'.money.native a.env.treasury = (f before).native a.env.treasury + due ∧ s'.money.issued = (f before).issued) ∨
        (s'.money.native a.env.treasury = (f before).native a.env.treasury ∧
          (f before).native a.env.treasury + due < a.env.ed)) := by
  obtain ⟨m, p, h1, h3⟩ := (C119_pipeline a s s' tx f w h).2.2 hf hg
  rw [hn] at h1
  have h2 := (C119_monotone a tx w).1
  refine ⟨_, m, rfl, h2, ?_⟩
  obtain ⟨hi, ho⟩ := C119_taken a.env s.money (payerOf a tx) (feeOf a tx tx.weight) h0
  obtain ⟨rfl, e1, e4, -, -⟩ := ho m p h1
  have hs := hi.1 (by rw [h1]; rfl)
  have hp : 0 < (f m).native (payerOf a tx) := by rw [hc]; omega
  obtain ⟨e2, e3, -, e5⟩ := C119_settled a.env (f m) s'.money _ _ _ h2 ht hp h3
  rw [hc] at e2
  refine ⟨by omega, by omega, by omega, e4, e3, ?_⟩
  rcases e5 with ⟨x1, x2⟩ | ⟨x1, -, x3⟩
  · exact .inl ⟨x1, x2⟩
  · exact .inr ⟨x1, x3⟩

/-- Who pays: a transaction signed with a session key of a pass is paid by the pass account, and the key's own account is
left as the call leaves it. -/
theorem C119_pass_pays (a : Around) (s s' : Chain) (tx : Tx) (f : Money → Money) (w : Weight) (q : Acct)
    (hq : a.passOf tx.signer = some q) (h : applyTx a s tx f w = some s') (hf : feeless s tx.call = false)
    (hg : a.hasGas q tx.weight = false) (hn : tx.asset = none) (ht : q ≠ a.env.treasury) (hed : 0 < a.env.ed)
    (h0 : feeOf a tx tx.weight ≠ 0) (hc : ∀ m, (f m).native q = m.native q) :
    ∃ due before, due = feeOf a tx ⟨min tx.weight.refTime w.refTime, min tx.weight.proofSize w.proofSize⟩ ∧
      s'.money.native q + due = s.money.native q ∧
      (∀ x, x ≠ q → before.native x = s.money.native x) ∧
      ∀ x, x ≠ q → x ≠ a.env.treasury → s'.money.native x = (f before).native x := by
  have e : payerOf a tx = q := by simp only [payerOf, hq, Option.getD]
  obtain ⟨due, before, h1, -, h3, -, -, h6, h7, -⟩ := C119_never_more a s s' tx f w h hf (by rw [e]; exact hg) hn
    (by rw [e]; exact ht) hed h0 (by rw [e]; exact hc)
  rw [e] at h3 h6 h7
  exact ⟨due, before, h1, h3, h6, h7⟩

/-- Who pays: without a pass, the signer does. -/
theorem C119_signer_pays (a : Around) (s s' : Chain) (tx : Tx) (f : Money → Money) (w : Weight)
    (hq : a.passOf tx.signer = none) (h : applyTx a s tx f w = some s') (hf : feeless s tx.call = false)
    (hg : a.hasGas tx.signer tx.weight = false) (hn : tx.asset = none) (ht : tx.signer ≠ a.env.treasury) (hed : 0 < a.env.ed)
    (h0 : feeOf a tx tx.weight ≠ 0) (hc : ∀ m, (f m).native tx.signer = m.native tx.signer) :
    ∃ due before, due = feeOf a tx ⟨min tx.weight.refTime w.refTime, min tx.weight.proofSize w.proofSize⟩ ∧
      s'.money.native tx.signer + due = s.money.native tx.signer ∧
      (∀ x, x ≠ tx.signer → before.native x = s.money.native x) ∧
      ∀ x, x ≠ tx.signer → x ≠ a.env.treasury → s'.money.native x = (f before).native x := by
  have e : payerOf a tx = tx.signer := by simp only [payerOf, hq, Option.getD]
  obtain ⟨due, before, h1, -, h3, -, -, h6, h7, -⟩ := C119_never_more a s s' tx f w h hf (by rw [e]; exact hg) hn
    (by rw [e]; exact ht) hed h0 (by rw [e]; exact hc)
  rw [e] at h3 h6 h7
  exact ⟨due, before, h1, h3, h6, h7⟩

/-! ## Concrete cases -/

/-- A chain with a sufficient asset, minimum 100, and an author of blocks. -/
def Demo.env : ChargeEnv :=
  ⟨333333333, [0], some [9], fun k => if k = 1 then some ⟨true, 100⟩ else if k = 2 then some ⟨false, 100⟩ else none,
    fun _ _ => false⟩

/-- Balances with an asset. -/
def Demo.money : Money :=
  ⟨fun x => if x = [7] ∨ x = [0] then 1000000000000 else 0, fun _ => 0, 2000000000000,
    fun k x => if k = 1 ∧ (x = [7] ∨ x = [9]) then 1000 else 0, fun _ _ => 0, fun _ => 2000⟩

/-- A fee of two million in the native currency, of which half is due. -/
example : ((charge Demo.env Demo.money [7] false none 2000000).bind fun q => settle Demo.env q.1 q.2 1000000).map
    (fun m => (m.native [7], m.native [0], m.issued)) = some (999999000000, 1000001000000, 2000000000000) := by
  decide +kernel

/-- A fee of ten existential deposits in the asset, of which four are due: the author has four hundred. -/
example : ((charge Demo.env Demo.money [7] false (some 1) 3333333330).bind fun q =>
      settle Demo.env q.1 q.2 1333333332).isSome = false ∧
    ((charge Demo.env Demo.money [7] false (some 1) 2666666664).bind fun q =>
      settle Demo.env q.1 q.2 1333333332).map (fun m => (m.asset 1 [7], m.asset 1 [9], m.issuedA 1)) =
        some (601, 1399, 2000) ∧
    charge Demo.env Demo.money [7] false (some 2) 2666666664 = none ∧
    assetFee Demo.env 1 1 = some 1 := by
  refine ⟨by decide +kernel, by decide +kernel, rfl, by decide +kernel⟩

/-- And a transaction that goes in, settles less than it was charged, and pays the treasury. -/
example : (applyTx Demo.around Demo.chain Demo.immortal id ⟨0, 0⟩).map
    (fun s => decide (s.money.native [7] + s.money.native [0] = 2000000000000 ∧
      s.money.native [7] < 1000000000000 ∧
      1000000000000 < s.money.native [7] + feeOf Demo.around Demo.immortal Demo.immortal.weight)) = some true := by
  decide +kernel

/-- And one signed with a session key: the pass account `[7]` pays, the key's account `[8]` does not. -/
example : (applyTx { Demo.around with passOf := fun x => if x = [8] then some [7] else none }
    { Demo.chain with money := { Demo.chain.money with native := fun x => if x = [7] ∨ x = [8] ∨ x = [0] then 1000000000000 else 0 } }
    { Demo.immortal with signer := [8] } id ⟨0, 0⟩).map
    (fun s => (decide (s.money.native [7] < 1000000000000), s.money.native [8])) = some (true, 1000000000000) := by
  decide +kernel

end Verif.Runtime
