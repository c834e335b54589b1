import Verif.Runtime.Transactions
import Verif.Runtime.BlockTheorems

/-!
# C118: a signed transaction takes effect at most once
-/

namespace Verif.Runtime

open Verif Governance

/-! ## Specification -/

/-- Whether an event takes a nonce of an account: a transaction of that account goes in and is not without fee. -/
def takesNonce (s : Chain) (who : Acct) : ChainEvent → Bool
  | .tx a t f actual => decide (t.signer = who) && !feeless s t.call && (applyTx a s t f actual).isSome
  | _ => false

/-- How many nonces of an account a history takes. -/
def noncesTaken (s : Chain) (who : Acct) : List ChainEvent → Nat
  | [] => 0
  | e :: evs => (if takesNonce s who e then 1 else 0) + noncesTaken (chainStep s e) who evs

/-- The account is not removed in a history. -/
def Kept (who : Acct) (evs : List ChainEvent) : Prop := ∀ w, ChainEvent.reap w ∈ evs → w ≠ who

/-- How many blocks begin in a history. -/
def blocksIn : List ChainEvent → Nat
  | [] => 0
  | .block _ :: evs => 1 + blocksIn evs
  | _ :: evs => blocksIn evs

/-! ## Lemmas -/

theorem put_same {α β : Type} [DecidableEq α] (f : α → β) (a : α) (b : β) : put f a b a = b := if_pos rfl

theorem put_other {α β : Type} [DecidableEq α] (f : α → β) {a x : α} (b : β) (h : x ≠ a) : put f a b x = f x := if_neg h

/-- What an included transaction passed, and what it did besides balances. -/
theorem applyTx_some {a : Around} {s s' : Chain} {tx : Tx} {f : Money → Money} {w : Weight}
    (h : applyTx a s tx f w = some s') :
    checkSigned s tx = true ∧ s'.alive = s.alive ∧ s'.hashes = s.hashes ∧ s'.spec = s.spec ∧
      s'.txVersion = s.txVersion ∧
      (feeless s tx.call = true → s'.nonce = s.nonce) ∧
      (feeless s tx.call = false → s.alive tx.signer = true ∧ tx.nonce = s.nonce tx.signer ∧
        s'.nonce = put s.nonce tx.signer (s.nonce tx.signer + 1)) := by
  unfold applyTx at h
  split at h
  · cases h
  · rename_i hs
    split at h
    · cases h
    · rename_i nonce hn
      split at h
      · cases h
      · split at h
        · cases h
        · split at h
          · cases h
          · cases h
            refine ⟨by simpa using hs, rfl, rfl, rfl, rfl, fun hf => ?_, fun hf => ?_⟩
            · rw [hf] at hn; simp at hn; exact hn.symm
            · rw [hf] at hn
              simp only [Bool.false_eq_true, if_false] at hn
              unfold checkNonce at hn
              split at hn
              · cases hn
              · rename_i ha
                split at hn
                · cases hn
                · rename_i hne
                  cases hn
                  exact ⟨by simpa using ha, by simpa using hne, rfl⟩

theorem chainStep_nonce (s : Chain) (e : ChainEvent) (who : Acct) (hk : ∀ w, e = .reap w → w ≠ who) :
    (chainStep s e).nonce who = s.nonce who + UInt32.ofNat (if takesNonce s who e then 1 else 0) := by
  cases e with
  | tx a t f actual =>
    cases hi : applyTx a s t f actual with
    | none => simp [chainStep, takesNonce, hi]
    | some s' =>
      obtain ⟨-, -, -, -, -, h1, h2⟩ := applyTx_some hi
      cases hf : feeless s t.call with
      | true => simp [chainStep, takesNonce, hi, hf, h1 hf]
      | false =>
        obtain ⟨-, -, h3⟩ := h2 hf
        by_cases hw : t.signer = who
        · subst hw
          simp [chainStep, takesNonce, hi, hf, h3, put_same]
        · have hw' : who ≠ t.signer := fun h => hw h.symm
          simp [chainStep, takesNonce, hi, hf, h3, put_other _ _ hw', hw]
  | block h => simp [chainStep, takesNonce]
  | reap w =>
    have hw : who ≠ w := fun h => hk w rfl h.symm
    simp [chainStep, takesNonce, put_other _ _ hw]
  | provide w => simp [chainStep, takesNonce]
  | upgrade a b => simp [chainStep, takesNonce]
  | money f => simp [chainStep, takesNonce]

theorem chainRun_nonce (who : Acct) : ∀ (evs : List ChainEvent) (s : Chain), Kept who evs →
    (chainRun s evs).nonce who = s.nonce who + UInt32.ofNat (noncesTaken s who evs)
  | [], s, _ => by simp [chainRun, noncesTaken]
  | e :: evs, s, hk => by
    have ih := chainRun_nonce who evs (chainStep s e) (fun w hw => hk w (List.mem_cons_of_mem _ hw))
    have h1 := chainStep_nonce s e who (fun w hw => hk w (hw ▸ List.mem_cons_self))
    show (chainRun (chainStep s e) evs).nonce who = _
    rw [ih, h1, noncesTaken, UInt32.ofNat_add, UInt32.add_assoc]

/-- A history without the block number running over: the number counts the blocks, and known hashes stay. -/
theorem chainRun_hashes : ∀ (evs : List ChainEvent) (s : Chain),
    s.hashes.now.toNat + blocksIn evs < 2 ^ 32 →
    (chainRun s evs).hashes.now.toNat = s.hashes.now.toNat + blocksIn evs ∧
      ∀ n : Nat, n < s.hashes.now.toNat →
        (chainRun s evs).hashes.hash (UInt32.ofNat n) = s.hashes.hash (UInt32.ofNat n)
  | [], s, _ => ⟨rfl, fun _ _ => rfl⟩
  | e :: evs, s, hb => by
    show (chainRun (chainStep s e) evs).hashes.now.toNat = _ ∧ ∀ n : Nat, n < _ →
      (chainRun (chainStep s e) evs).hashes.hash _ = _
    cases e with
    | block hash =>
      simp only [blocksIn] at hb ⊢
      have hn : (s.hashes.now + 1).toNat = s.hashes.now.toNat + 1 := by
        rw [UInt32.toNat_add]
        show (s.hashes.now.toNat + 1) % 2 ^ 32 = _
        omega
      have hn' : (chainStep s (.block hash)).hashes.now.toNat = s.hashes.now.toNat + 1 := hn
      obtain ⟨h1, h2⟩ := chainRun_hashes evs (chainStep s (.block hash)) (by omega)
      refine ⟨by omega, fun n hlt => ?_⟩
      rw [h2 n (by omega)]
      have hne : UInt32.ofNat n ≠ s.hashes.now := by
        intro h
        have h' : (UInt32.ofNat n).toNat = s.hashes.now.toNat := by rw [h]
        rw [UInt32.toNat_ofNat_of_lt' (by show n < 2 ^ 32; omega)] at h'
        omega
      exact put_other _ _ hne
    | tx a t f actual =>
      simp only [blocksIn] at hb ⊢
      have hh : (chainStep s (.tx a t f actual)).hashes = s.hashes := by
        show ((applyTx a s t f actual).getD s).hashes = _
        cases hi : applyTx a s t f actual with
        | none => rfl
        | some s' => exact (applyTx_some hi).2.2.1
      have ih := chainRun_hashes evs (chainStep s (.tx a t f actual)) (by rw [hh]; exact hb)
      rw [hh] at ih
      exact ih
    | reap w => exact chainRun_hashes evs (chainStep s (.reap w)) hb
    | provide w => exact chainRun_hashes evs (chainStep s (.provide w)) hb
    | upgrade a b => exact chainRun_hashes evs (chainStep s (.upgrade a b)) hb
    | money f => exact chainRun_hashes evs (chainStep s (.money f)) hb

/-! ## C118 -/

/-- C118, what holds: a transaction that went in and was not without fee does not go in again unless it is without fee the
second time, its signer's account is removed in between, or 2^32 nonces of the account are taken: over every history of
transactions, blocks, upgrades and balance changes. -/
theorem C118_once_partial (a a' : Around) (s s1 s2 : Chain) (tx : Tx) (f f' : Money → Money) (w w' : Weight)
    (evs : List ChainEvent) (h1 : applyTx a s tx f w = some s1) (hf : feeless s tx.call = false)
    (hk : Kept tx.signer evs) (h2 : applyTx a' (chainRun s1 evs) tx f' w' = some s2)
    (hf2 : feeless (chainRun s1 evs) tx.call = false) :
    2 ^ 32 ≤ 1 + noncesTaken s1 tx.signer evs := by
  obtain ⟨-, -, -, -, -, -, hA⟩ := applyTx_some h1
  obtain ⟨-, e1, e2⟩ := hA hf
  obtain ⟨-, -, -, -, -, -, hB⟩ := applyTx_some h2
  obtain ⟨-, e3, -⟩ := hB hf2
  rw [chainRun_nonce _ _ _ hk, e2, put_same, ← e1] at e3
  have e4 : tx.nonce.toNat = (tx.nonce + 1 + UInt32.ofNat (noncesTaken s1 tx.signer evs)).toNat := congrArg _ e3
  rw [UInt32.toNat_add, UInt32.toNat_add, UInt32.toNat_ofNat'] at e4
  have e5 : (1 : UInt32).toNat = 1 := rfl
  rw [e5] at e4
  have := tx.nonce.toNat_lt
  generalize noncesTaken s1 tx.signer evs = k at *
  omega

/-- C118, what holds: in particular, every transaction that does not authenticate for a pass goes in once only, unless its
signer's account is removed in between or 2^32 nonces of the account are taken. -/
theorem C118_other_once_partial (a a' : Around) (s s1 s2 : Chain) (tx : Tx) (f f' : Money → Money) (w w' : Weight)
    (evs : List ChainEvent) (n : Nat) (hn : tx.call = .other n) (h1 : applyTx a s tx f w = some s1)
    (hk : Kept tx.signer evs) (h2 : applyTx a' (chainRun s1 evs) tx f' w' = some s2) :
    2 ^ 32 ≤ 1 + noncesTaken s1 tx.signer evs :=
  C118_once_partial a a' s s1 s2 tx f f' w w' evs h1 (by rw [hn]; rfl) hk h2 (by rw [hn]; rfl)

/-- C118, what holds: transactions that are not without fee go in in the order of their nonces, one at a time, and take
no nonce of another account. -/
theorem C118_in_order_partial (a : Around) (s s' : Chain) (tx : Tx) (f : Money → Money) (w : Weight)
    (h : applyTx a s tx f w = some s') (hf : feeless s tx.call = false) :
    tx.nonce = s.nonce tx.signer ∧ s'.nonce tx.signer = s.nonce tx.signer + 1 ∧
      ∀ who, who ≠ tx.signer → s'.nonce who = s.nonce who := by
  obtain ⟨-, -, -, -, -, -, hA⟩ := applyTx_some h
  obtain ⟨-, e1, e2⟩ := hA hf
  refine ⟨e1, by rw [e2, put_same], fun who hw => by rw [e2, put_other _ _ hw]⟩

/-- The hash `CheckEra` finds is that of a block before this one. -/
theorem eraHash_some {h : Hashes} {n : Nat} {x : List UInt8} (e : eraHash h n = some x) :
    n < h.now.toNat ∧ h.hash (UInt32.ofNat n) = x := by
  unfold eraHash at e
  split at e
  · rename_i hc; cases e; exact ⟨hc.1, rfl⟩
  · cases e

/-- C118, what holds of every transaction, with or without fee, and even if the account is removed: one with a mortal era
goes in again only within fewer blocks than its period, as long as different blocks have different hashes and the block
number does not run over. -/
theorem C118_mortal_partial (a a' : Around) (s s1 s2 : Chain) (tx : Tx) (f f' : Money → Money) (w w' : Weight)
    (evs : List ChainEvent) (period phase : Nat) (he : tx.era = some (period, phase)) (hp : 0 < period)
    (h1 : applyTx a s tx f w = some s1) (h2 : applyTx a' (chainRun s1 evs) tx f' w' = some s2)
    (hw : s1.hashes.now.toNat + blocksIn evs < 2 ^ 32)
    (hinj : ∀ m n : Nat, m < (chainRun s1 evs).hashes.now.toNat → n < (chainRun s1 evs).hashes.now.toNat →
      (chainRun s1 evs).hashes.hash (UInt32.ofNat m) = (chainRun s1 evs).hashes.hash (UInt32.ofNat n) → m = n) :
    blocksIn evs < period := by
  obtain ⟨c1, -, hh, -⟩ := applyTx_some h1
  obtain ⟨c2, -⟩ := applyTx_some h2
  obtain ⟨r1, r2⟩ := chainRun_hashes evs s1 hw
  unfold checkSigned at c1 c2
  simp only [Bool.and_eq_true, decide_eq_true_eq] at c1 c2
  obtain ⟨l1, x1⟩ := eraHash_some c1.2
  obtain ⟨l2, x2⟩ := eraHash_some c2.2
  rw [← hh] at l1 x1
  have hb := hinj _ _ (show birth tx.era s1.hashes.now.toNat < _ by omega) l2
    (by rw [r2 _ l1, x1, x2])
  rw [he, r1] at hb
  rw [he, r1] at l2
  rw [he] at l1
  simp only [birth] at hb l1 l2
  generalize s1.hashes.now.toNat = now at *
  generalize blocksIn evs = k at *
  have hle : phase ≤ now := by
    by_contra hc
    have : max now phase - phase = 0 := by omega
    rw [this, Nat.zero_div, Nat.zero_mul] at l1
    omega
  rw [Nat.max_eq_left (by omega), Nat.max_eq_left (by omega)] at hb
  have d1 := Nat.div_add_mod (now - phase) period
  have d2 := Nat.div_add_mod (now + k - phase) period
  have m2 := Nat.mod_lt (now + k - phase) hp
  rw [Nat.mul_comm] at d1 d2
  omega

/-- C118 is false of a transaction that authenticates a device: its nonce is not checked, and with the challenge of C80,
signed once, it goes in in every state of the chain with the same versions and genesis as long as the block has room, for
ever, without fee, and whatever its nonce. -/
theorem C118_authenticate_fails (spec txVersion nonce : UInt32) (genesis : List UInt8) :
    ∃ tx : Tx, tx.nonce = nonce ∧ ∀ (a : Around) (s : Chain) (u : Used) (w : Weight), s.spec = spec →
      s.txVersion = txVersion → 0 < s.hashes.now.toNat → s.hashes.hash 0 = genesis →
      checkWeight a.base s.used tx.cls (costOf a tx) = some u →
      applyTx a s tx id w = some { s with used := u } := by
  refine ⟨⟨List.replicate 32 1, nonce, spec, txVersion, genesis, none, genesis, 0, none, 100, .normal, ⟨100000000, 0⟩,
    .authenticate 0xFFFFFFFF (List.replicate 32 0) true⟩, rfl, fun a s u w h1 h2 h3 h4 h5 => ?_⟩
  have hz : eraHash s.hashes 0 = some genesis := by
    unfold eraHash
    rw [if_pos ⟨h3, Or.inl rfl⟩]
    exact congrArg some h4
  have hc : checkSigned s ⟨List.replicate 32 1, nonce, spec, txVersion, genesis, none, genesis, 0, none, 100, .normal,
      ⟨100000000, 0⟩, .authenticate 0xFFFFFFFF (List.replicate 32 0) true⟩ = true := by
    have hne : (List.replicate 32 1 : List UInt8) ≠ List.replicate 32 0 := by decide
    simp only [checkSigned, birth, hz, h1, h2, hne, ne_eq, not_false_eq_true, decide_true, Bool.and_self]
  have hf : feeless s (.authenticate 0xFFFFFFFF (List.replicate 32 0) true) = true := by
    have hn : s.hashes.now.toNat < 2 ^ 32 := s.hashes.now.toNat_lt
    have hcx : (0xFFFFFFFF : UInt32).toNat = 4294967295 := rfl
    show (true && checkChallenge s.hashes 0xFFFFFFFF (List.replicate 32 0)) = true
    unfold checkChallenge Hashes.blockHash
    rw [hcx, if_neg (by omega), decide_eq_true (by omega)]
    rfl
  unfold applyTx
  simp only [hc, hf, if_true, h5]
  rfl

/-- The part of the chain a transaction without fee leaves: everything but the room in the block. -/
example (a : Around) (s : Chain) (u : Used) : ({ s with used := u } : Chain).nonce = s.nonce ∧
    ({ s with used := u } : Chain).money = s.money := ⟨rfl, rfl⟩

/-! ## Concrete chains -/

/-- A chain at block 100 where one account has money; fees at the rates of Kusama. -/
def Demo.chain : Chain :=
  ⟨fun _ => 0, fun _ => true, 1, 1, ⟨100, fun n => [n.toUInt8], 256⟩, ⟨⟨0, 0⟩, ⟨0, 0⟩, ⟨0, 0⟩⟩,
    ⟨fun x => if x = [7] ∨ x = [0] then 1000000000000 else 0, fun _ => 0, 2000000000000, fun _ _ => 0, fun _ _ => 0,
      fun _ => 0⟩⟩

/-- Surroundings: the treasury is `[0]`, no session keys and no gas. -/
def Demo.around : Around :=
  ⟨⟨333333333, [0], none, fun _ => none, fun _ _ => false⟩, ⟨centsKusama, 100000000, fixedOne⟩, ⟨100000000, 0⟩,
    fun _ => none, fun _ _ => false⟩

/-- An immortal transaction. -/
def Demo.immortal : Tx :=
  ⟨[7], 0, 1, 1, [0], none, [0], 0, none, 150, .normal, ⟨200000000, 1000⟩, .other 3⟩

/-- A mortal one, valid from block 96 for 64 blocks. -/
def Demo.mortal : Tx := { Demo.immortal with era := some (64, 32), birthHash := [96] }

/-- Both go in, once. -/
example : (applyTx Demo.around Demo.chain Demo.immortal id ⟨200000000, 1000⟩).isSome = true ∧
    (applyTx Demo.around Demo.chain Demo.mortal id ⟨200000000, 1000⟩).isSome = true ∧
    feeless Demo.chain Demo.immortal.call = false ∧
    (applyTx Demo.around
      (chainRun Demo.chain [.tx Demo.around Demo.immortal id ⟨200000000, 1000⟩, .block [100], .block [101]])
      Demo.immortal id ⟨200000000, 1000⟩).isSome = false := by decide +kernel

/-- The next one of the account goes in then. -/
example : noncesTaken Demo.chain [7] [.tx Demo.around Demo.immortal id ⟨200000000, 1000⟩,
    .tx Demo.around Demo.immortal id ⟨200000000, 1000⟩, .block [100],
    .tx Demo.around { Demo.mortal with nonce := 1 } id ⟨0, 0⟩] = 2 := by decide +kernel

/-- After the era it is refused, even if the account was removed and came back; before, it goes in. -/
example : (applyTx Demo.around (chainRun Demo.chain [.block [100], .reap [7], .provide [7]]) Demo.mortal id
      ⟨0, 0⟩).isSome = true ∧
    (applyTx Demo.around (chainRun Demo.chain ((List.range 60).map fun n => .block [100 + n.toUInt8])) Demo.mortal id
      ⟨0, 0⟩).isSome = false := by decide +kernel

/-- C118 is false of a transaction without an era whose signer's account is removed and comes back: it goes in again, and
pays again. -/
theorem C118_removed_fails : ∃ (a : Around) (s s1 s2 : Chain) (tx : Tx) (w : Weight) (evs : List ChainEvent),
    feeless s tx.call = false ∧ applyTx a s tx id w = some s1 ∧ noncesTaken s1 tx.signer evs = 0 ∧
      applyTx a (chainRun s1 evs) tx id w = some s2 := by
  have e1 : (applyTx Demo.around Demo.chain Demo.immortal id ⟨200000000, 1000⟩).isSome = true := by decide +kernel
  have e2 : (applyTx Demo.around
      (chainRun Demo.chain [.tx Demo.around Demo.immortal id ⟨200000000, 1000⟩, .reap [7], .provide [7]])
      Demo.immortal id ⟨200000000, 1000⟩).isSome = true := by decide +kernel
  obtain ⟨s1, h1⟩ := Option.isSome_iff_exists.1 e1
  obtain ⟨s2, h2⟩ := Option.isSome_iff_exists.1 e2
  refine ⟨Demo.around, Demo.chain, s1, s2, Demo.immortal, ⟨200000000, 1000⟩, [.reap [7], .provide [7]], rfl, h1, rfl, ?_⟩
  have : chainRun Demo.chain [.tx Demo.around Demo.immortal id ⟨200000000, 1000⟩, .reap [7], .provide [7]] =
      chainRun s1 [.reap [7], .provide [7]] := by
    show chainRun ((applyTx Demo.around Demo.chain Demo.immortal id ⟨200000000, 1000⟩).getD Demo.chain) _ = _
    rw [h1]; rfl
  rw [← this]; exact h2

end Verif.Runtime
