import Verif.Runtime.ValidityTheorems
import Verif.Runtime.BlockLengthTheorems

/-!
# C220: a transaction its payer can pay gets into the next block
-/

namespace Verif.Runtime

open Verif Governance

/-! ## Specification -/

/-- The payer can pay: a membership has gas, there is no fee, or there is enough of the currency or asset named, beyond what must
stay. Specification only, no code behind it (outside /repo). -/
def CanPay (a : Around) (m : Money) (tx : Tx) : Prop :=
  a.hasGas (payerOf a tx) tx.weight = true ∨ feeOf a tx tx.weight = 0 ∨
    match tx.asset with
    | none => feeOf a tx tx.weight + max a.env.ed (m.locked (payerOf a tx)) ≤ m.native (payerOf a tx)
    | some k => ∃ i c, a.env.info k = some i ∧ assetFee a.env k (feeOf a tx tx.weight) = some c ∧
        c + max i.min (m.lockedA k (payerOf a tx)) ≤ m.asset k (payerOf a tx)

/-- A transaction fits into an empty block: with the base weight and its length it has at most 70% of the time and the proof of a
block, 95% if it is operational. Specification only, no code behind it (outside /repo). -/
def FitsEmpty (a : Around) (tx : Tx) : Prop :=
  match tx.cls with
  | .normal => tx.weight.refTime + a.base.refTime ≤ 1400000000000 ∧ tx.weight.proofSize + a.base.proofSize + tx.len ≤ 3670016
  | .operational => tx.weight.refTime + a.base.refTime ≤ 1900000000000 ∧ tx.weight.proofSize + a.base.proofSize + tx.len ≤ 4980736
  | .mandatory => True

/-- A transaction with the check of its length that is part of `CheckWeight`; `length` is the length of the block so far. Outside
/repo; used at runtime/kreivo/src/lib.rs 138 (frame_system). -/
def applySized (a : Around) (s : Chain) (length : Nat) (tx : Tx) (f : Money → Money) (w : Weight) : Option (Chain × Nat) :=
  match Length.checkLength length tx.cls tx.len, applyTx a s tx f w with
  | some n, some s' => some (s', n)
  | _, _ => none

/-! ## Lemmas -/

theorem share_eq : Weight.percent 5 maxBlockWeight = ⟨100000000000, 262144⟩ := by decide +kernel

theorem checkWeight_empty (a : Around) (tx : Tx) (hb : a.base.refTime ≤ 1400000000000 ∧ a.base.proofSize ≤ 3670016) :
    (checkWeight a.base ⟨⟨0, 0⟩, ⟨0, 0⟩, ⟨0, 0⟩⟩ tx.cls (costOf a tx)).isSome = true ↔ FitsEmpty a tx := by
  obtain ⟨b1, b2⟩ := hb
  unfold checkWeight FitsEmpty costOf
  cases tx.cls with
  | mandatory => simp
  | normal =>
    simp only [Used.of, Used.set, Used.total, maxTotal, reserved, maxExtrinsic, Option.map_some, Option.mem_def, Option.some.injEq,
      exists_eq_left', share_eq, normalMax_eq, Weight.Le]
    simp only [maxBlock_eq, Weight.satAdd, Weight.satSub]
    repeat' split
    all_goals simp <;> omega
  | operational =>
    simp only [Used.of, Used.set, Used.total, maxTotal, reserved, maxExtrinsic, Option.map_some, Option.mem_def, Option.some.injEq,
      exists_eq_left', share_eq, reserve_eq, Weight.Le]
    simp only [maxBlock_eq, Weight.satAdd, Weight.satSub]
    repeat' split
    all_goals simp at * <;> omega

theorem toAsset_any {env : ChargeEnv} {k n c : Nat} (h : assetFee env k n = some c) (m : Nat) :
    ∃ d, assetFee env k m = some d := by
  unfold assetFee toAsset at *
  cases hi : env.info k with
  | none => rw [hi] at h; cases h
  | some i =>
    rw [hi] at h
    dsimp only at h ⊢
    by_cases h1 : i.sufficient = false
    · rw [if_pos h1] at h; cases h
    · by_cases h2 : env.ed = 0
      · rw [if_neg h1, if_pos h2] at h; cases h
      · rw [if_neg h1, if_neg h2]
        exact ⟨_, rfl⟩

/-- The charge succeeds exactly if the payer can pay, and then so does settling. -/
theorem charge_iff (a : Around) (m : Money) (tx : Tx) :
    (∃ m' p, charge a.env m (payerOf a tx) (a.hasGas (payerOf a tx) tx.weight) tx.asset (feeOf a tx tx.weight) = some (m', p)) ↔
      CanPay a m tx := by
  unfold charge CanPay
  cases hg : a.hasGas (payerOf a tx) tx.weight with
  | true => simp
  | false =>
    simp only [Bool.false_eq_true, if_false, false_or]
    unfold withdrawFee
    by_cases hf : feeOf a tx tx.weight = 0
    · simp [hf]
    · rw [if_neg hf]
      simp only [hf, false_or]
      cases tx.asset with
      | none =>
        dsimp only
        split
        · rename_i h
          constructor
          · rintro ⟨_, _, h'⟩; cases h'
          · intro h'; omega
        · rename_i h
          exact ⟨fun _ => by omega, fun _ => ⟨_, _, rfl⟩⟩
      | some k =>
        dsimp only
        cases ha : assetFee a.env k (feeOf a tx tx.weight) with
        | none =>
          dsimp only
          constructor
          · rintro ⟨_, _, h'⟩; cases h'
          · rintro ⟨_, _, _, h', _⟩; cases h'
        | some c =>
          cases hi : a.env.info k with
          | none =>
            dsimp only
            constructor
            · rintro ⟨_, _, h'⟩; cases h'
            · rintro ⟨_, _, h', _⟩; cases h'
          | some i =>
            dsimp only
            split
            · rename_i h
              constructor
              · rintro ⟨_, _, h'⟩; cases h'
              · rintro ⟨i', c', h1, h2, h3⟩
                cases h1; cases h2; omega
            · rename_i h
              exact ⟨fun _ => ⟨i, c, rfl, rfl, by omega⟩, fun _ => ⟨_, _, rfl⟩⟩

theorem settle_after {a : Around} {m m' n : Money} {tx : Tx} {p : Paid} {due : Nat} {who : Acct} {b : Bool} {fee : Nat}
    (h : charge a.env m who b tx.asset fee = some (m', p)) : ∃ r, settle a.env n p due = some r := by
  unfold charge at h
  split at h
  · cases h; exact ⟨_, rfl⟩
  · unfold withdrawFee at h
    split at h
    · cases h; exact ⟨_, rfl⟩
    · split at h
      · split at h
        · cases h
        · cases h; exact ⟨_, rfl⟩
      · split at h
        · rename_i c i hc _
          split at h
          · cases h
          · cases h
            obtain ⟨d, hd⟩ := toAsset_any hc due
            unfold settle
            dsimp only
            rw [hd]
            exact ⟨_, rfl⟩
        · cases h

/-! ## C220 -/

/-- **C220**, for whatever is in the block already: a transaction goes in exactly if it was signed for this chain, runtime and time,
its signer exists, its nonce is the next, there is room for its weight, and its payer can pay. -/
theorem C220_goes_in (a : Around) (s : Chain) (tx : Tx) (f : Money → Money) (w : Weight) (n : Nat) (hc : tx.call = .other n)
    (hw : Written tx.era) :
    (applyTx a s tx f w).isSome = true ↔
      SignedFor s tx ∧ s.alive tx.signer = true ∧ tx.nonce = s.nonce tx.signer ∧
        (checkWeight a.base s.used tx.cls (costOf a tx)).isSome = true ∧ CanPay a s.money tx := by
  have hf : feeless s tx.call = false := by rw [hc]; rfl
  rw [← C160_signed_for s tx hw, ← charge_iff a s.money tx]
  unfold applyTx checkNonce
  rw [hf]
  cases checkSigned s tx with
  | false => simp
  | true =>
    cases s.alive tx.signer with
    | false => simp
    | true =>
      by_cases hn : tx.nonce = s.nonce tx.signer
      · cases hk : checkWeight a.base s.used tx.cls (costOf a tx) with
        | none => simp [hn]
        | some u =>
          cases hh : charge a.env s.money (payerOf a tx) (a.hasGas (payerOf a tx) tx.weight) tx.asset (feeOf a tx tx.weight) with
          | none => simp [hn]
          | some mp =>
            obtain ⟨m, p⟩ := mp
            obtain ⟨r, hr⟩ := settle_after (n := f m)
              (due := feeOf a tx ⟨min tx.weight.refTime w.refTime, min tx.weight.proofSize w.proofSize⟩) hh
            simp [hn, hr]
      · simp [hn]

/-- **C220**: whatever happened before, a transaction tried first in the next block goes in exactly if it was signed for this chain,
runtime and time, its signer exists, its nonce is the next, it fits into an empty block, and its payer can pay: transactions take no
room of later blocks. -/
theorem C220_next_block (a : Around) (s : Chain) (evs : List ChainEvent) (hash : List UInt8) (tx : Tx) (f : Money → Money)
    (w : Weight) (n : Nat) (hc : tx.call = .other n) (hw : Written tx.era)
    (hb : a.base.refTime ≤ 1400000000000 ∧ a.base.proofSize ≤ 3670016) :
    (applyTx a (chainRun s (evs ++ [.block hash])) tx f w).isSome = true ↔
      SignedFor (chainRun s (evs ++ [.block hash])) tx ∧ (chainRun s evs).alive tx.signer = true ∧
        tx.nonce = (chainRun s evs).nonce tx.signer ∧ FitsEmpty a tx ∧ CanPay a (chainRun s evs).money tx := by
  have e : chainRun s (evs ++ [.block hash]) = chainStep (chainRun s evs) (.block hash) := by
    unfold chainRun; rw [List.foldl_append]; rfl
  rw [C220_goes_in a _ tx f w n hc hw, e, ← checkWeight_empty a tx hb]
  exact Iff.rfl

/-- **C220**, with what the hooks of the next block have used at its start, while that is at most a quarter of the block: the same of
a normal transaction. (With more, C101 says what is left.) -/
theorem C220_after_hooks (a : Around) (s : Chain) (evs : List ChainEvent) (hash : List UInt8) (h : Weight) (tx : Tx)
    (f : Money → Money) (w : Weight) (n : Nat) (hc : tx.call = .other n) (hw : Written tx.era) (hn : tx.cls = .normal)
    (hb : a.base.refTime ≤ 1400000000000 ∧ a.base.proofSize ≤ 3670016)
    (hh : h.refTime ≤ 500000000000 ∧ h.proofSize ≤ 1310720) :
    let s' : Chain := { chainRun s (evs ++ [.block hash]) with used := ⟨⟨0, 0⟩, ⟨0, 0⟩, h⟩ }
    (applyTx a s' tx f w).isSome = true ↔
      SignedFor s' tx ∧ (chainRun s evs).alive tx.signer = true ∧
        tx.nonce = (chainRun s evs).nonce tx.signer ∧ FitsEmpty a tx ∧ CanPay a (chainRun s evs).money tx := by
  intro s'
  have e : chainRun s (evs ++ [.block hash]) = chainStep (chainRun s evs) (.block hash) := by
    unfold chainRun; rw [List.foldl_append]; rfl
  have key : (checkWeight a.base ⟨⟨0, 0⟩, ⟨0, 0⟩, h⟩ tx.cls (costOf a tx)).isSome = true ↔
      FitsEmpty a tx := by
    rw [← checkWeight_empty a tx hb, hn, Option.isSome_iff_exists, Option.isSome_iff_exists]
    by_cases hm : ∀ m ∈ maxExtrinsic a.base .normal, Weight.Le (Weight.satSub (costOf a tx) a.base) m
    · rw [C101_room_partial a.base ⟨⟨0, 0⟩, ⟨0, 0⟩, h⟩ _ (by dsimp only; omega) (by dsimp only; omega) hm,
        C101_room_partial a.base ⟨⟨0, 0⟩, ⟨0, 0⟩, ⟨0, 0⟩⟩ _ (by dsimp only; omega) (by dsimp only; omega) hm]
    · constructor
      · rintro ⟨v, hv⟩
        exact absurd ((checkWeight_normal _ _ _ _).mp hv).2.2.2.1 hm
      · rintro ⟨v, hv⟩
        exact absurd ((checkWeight_normal _ _ _ _).mp hv).2.2.2.1 hm
  rw [C220_goes_in a s' tx f w n hc hw, ← key]
  have ea : s'.alive = (chainRun s evs).alive := by show (chainRun s (evs ++ [.block hash])).alive = _; rw [e]; rfl
  have en : s'.nonce = (chainRun s evs).nonce := by show (chainRun s (evs ++ [.block hash])).nonce = _; rw [e]; rfl
  have em : s'.money = (chainRun s evs).money := by show (chainRun s (evs ++ [.block hash])).money = _; rw [e]; rfl
  rw [ea, en, em]

/-- **C220**, with the length: tried first in the next block it goes in exactly if besides it is no longer than 3.75 MiB, or 5 MiB if
it is not normal. -/
theorem C220_sized (a : Around) (s : Chain) (evs : List ChainEvent) (hash : List UInt8) (tx : Tx) (f : Money → Money)
    (w : Weight) (n : Nat) (hc : tx.call = .other n) (hw : Written tx.era)
    (hb : a.base.refTime ≤ 1400000000000 ∧ a.base.proofSize ≤ 3670016) :
    (applySized a (chainRun s (evs ++ [.block hash])) 0 tx f w).isSome = true ↔
      (tx.len ≤ if tx.cls = .normal then 3840 * 1024 else 5 * 1024 * 1024) ∧
        SignedFor (chainRun s (evs ++ [.block hash])) tx ∧ (chainRun s evs).alive tx.signer = true ∧
        tx.nonce = (chainRun s evs).nonce tx.signer ∧ FitsEmpty a tx ∧ CanPay a (chainRun s evs).money tx := by
  rw [← C220_next_block a s evs hash tx f w n hc hw hb]
  have hx : (if tx.cls = Class.normal then 3840 * 1024 else 5 * 1024 * 1024) = Length.lengthMax tx.cls := by
    obtain ⟨g1, g2, g3⟩ := Length.lengthMax_eq
    cases tx.cls <;> simp [g1, g2, g3]
  rw [hx]
  unfold applySized
  cases hl : Length.checkLength 0 tx.cls tx.len with
  | none =>
    have hno : ¬ tx.len ≤ Length.lengthMax tx.cls := by
      intro hle
      have := (Length.checkLength_iff 0 tx.len (0 + tx.len) tx.cls).mpr ⟨by omega, rfl⟩
      rw [hl] at this
      cases this
    simp [hno]
  | some k =>
    have hle := ((Length.checkLength_iff 0 tx.len k tx.cls).mp hl).1
    cases applyTx a (chainRun s (evs ++ [.block hash])) tx f w with
    | none => simp
    | some v => simp; omega

/-- **C220**: a transaction without an era does not become stale by itself: one that could go in first in a block goes in first in
any later one, as long as its signer took no nonce and stayed, the runtime is the same, and the payer can still pay. -/
theorem C220_later (a : Around) (s : Chain) (evs : List ChainEvent) (hash : List UInt8) (tx : Tx) (f : Money → Money)
    (w : Weight) (n : Nat) (hc : tx.call = .other n) (he : tx.era = none)
    (hb : a.base.refTime ≤ 1400000000000 ∧ a.base.proofSize ≤ 3670016)
    (hs : SignedFor s tx) (hf : FitsEmpty a tx) (hn : tx.nonce = s.nonce tx.signer)
    (hk : Kept tx.signer evs) (h0 : noncesTaken s tx.signer evs = 0) (ha : (chainRun s evs).alive tx.signer = true)
    (hv : (chainRun s evs).spec = s.spec ∧ (chainRun s evs).txVersion = s.txVersion)
    (hr : s.hashes.now.toNat + blocksIn (evs ++ [.block hash]) < 2 ^ 32) (hp : CanPay a (chainRun s evs).money tx) :
    (applyTx a (chainRun s (evs ++ [.block hash])) tx f w).isSome = true := by
  refine (C220_next_block a s evs hash tx f w n hc (by rw [he]; intro _ _ h; cases h) hb).mpr ⟨?_, ha, ?_, hf, hp⟩
  · obtain ⟨r1, r2⟩ := chainRun_hashes (evs ++ [.block hash]) s hr
    have e : chainRun s (evs ++ [.block hash]) = chainStep (chainRun s evs) (.block hash) := by
      unfold chainRun; rw [List.foldl_append]; rfl
    have z : (UInt32.ofNat 0) = 0 := rfl
    have h2 := r2 0 hs.started
    rw [z] at h2
    refine ⟨hs.signer, ?_, ?_, ?_, ?_, 0, ?_, ?_, .inl rfl, ?_⟩
    · rw [e]; exact hs.spec.trans hv.1.symm
    · rw [e]; exact hs.txVersion.trans hv.2.symm
    · have := hs.started; omega
    · rw [h2]; exact hs.genesis
    · rw [he]; rfl
    · have := hs.started; omega
    · obtain ⟨b, hb1, hb2, -, hb4⟩ := hs.era
      rw [he] at hb1
      cases (show b = 0 from hb1)
      rw [z] at hb4 ⊢
      rw [h2]; exact hb4
  · rw [chainRun_nonce tx.signer evs s hk, h0, hn]
    simp

/-- Concrete: after a history with other transactions, the transaction of `Demo` goes in in the next block, in the next but one, and
not if the payer has nothing. -/
example : FitsEmpty Demo.around Demo.immortal ∧ CanPay Demo.around Demo.chain.money Demo.immortal ∧
    (applyTx Demo.around (chainRun Demo.chain ([.block [100]] ++ [.block [101]])) Demo.immortal id ⟨0, 0⟩).isSome = true ∧
    (applySized Demo.around (chainRun Demo.chain ([] ++ [.block [100]])) 0 Demo.immortal id ⟨0, 0⟩).isSome = true ∧
    (applyTx Demo.around (chainRun Demo.chain ([.money fun m => { m with native := fun _ => 0 }] ++ [.block [101]])) Demo.immortal id
      ⟨0, 0⟩).isSome = false := by
  refine ⟨?_, .inr (.inr ?_), by decide +kernel, by decide +kernel, by decide +kernel⟩
  · show 200000000 + 100000000 ≤ 1400000000000 ∧ 1000 + 0 + 150 ≤ 3670016
    omega
  · show feeOf Demo.around Demo.immortal Demo.immortal.weight + max Demo.around.env.ed (Demo.chain.money.locked [7]) ≤
      Demo.chain.money.native [7]
    decide +kernel

end Verif.Runtime
