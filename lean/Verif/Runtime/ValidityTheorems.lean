import Verif.Runtime.TransactionTheorems

/-!
# C160: a transaction goes in only where and while it was signed for
-/

namespace Verif.Runtime

open Verif Governance

/-! ## Specification -/

/-- The block the era of a transaction begins with, for a chain whose next block is `now`: the first block if it has none, else
the last one before `now` with the phase, less than a period ago. Specification only, no code behind it (outside /repo). -/
def Begins (era : Option (Nat × Nat)) (now b : Nat) : Prop :=
  match era with
  | none => b = 0
  | some (period, phase) => b % period = phase ∧ b ≤ now ∧ now < b + period

/-- The signature was made for this chain, this runtime and this time. Specification only, no code behind it (outside
/repo). -/
structure SignedFor (s : Chain) (tx : Tx) : Prop where
  signer : tx.signer ≠ List.replicate 32 0
  spec : tx.spec = s.spec
  txVersion : tx.txVersion = s.txVersion
  started : 0 < s.hashes.now.toNat
  genesis : tx.genesis = s.hashes.hash 0
  era : ∃ b : Nat, Begins tx.era s.hashes.now.toNat b ∧ b < s.hashes.now.toNat ∧
    (b = 0 ∨ s.hashes.now.toNat ≤ b + s.hashes.count) ∧ tx.birthHash = s.hashes.hash (UInt32.ofNat b)

/-- The eras that can be written: the period is not zero and the phase less. Specification only, no code behind it (outside
/repo). -/
def Written (era : Option (Nat × Nat)) : Prop := ∀ period phase, era = some (period, phase) → phase < period

/-! ## Lemmas -/

theorem eraHash_iff (h : Hashes) (n : Nat) (x : List UInt8) : eraHash h n = some x ↔
    n < h.now.toNat ∧ (n = 0 ∨ h.now.toNat ≤ n + h.count) ∧ x = h.hash (UInt32.ofNat n) := by
  unfold eraHash
  constructor
  · intro e
    split at e
    · rename_i hc; cases e; exact ⟨hc.1, hc.2, rfl⟩
    · cases e
  · rintro ⟨h1, h2, rfl⟩
    rw [if_pos ⟨h1, h2⟩]

theorem birth_begins {era : Option (Nat × Nat)} (hw : Written era) (now b : Nat) (hb : b < now) :
    birth era now = b ↔ Begins era now b := by
  match era with
  | none => simp only [birth, Begins]; omega
  | some (period, phase) =>
    have hp := hw period phase rfl
    simp only [birth, Begins]
    constructor
    · intro e
      by_cases hle : phase ≤ now
      · rw [Nat.max_eq_left hle] at e
        have d := Nat.div_add_mod (now - phase) period
        have m := Nat.mod_lt (now - phase) (show 0 < period by omega)
        rw [Nat.mul_comm] at d
        refine ⟨?_, by omega, by omega⟩
        rw [← e, Nat.mul_add_mod_self_right, Nat.mod_eq_of_lt hp]
      · rw [Nat.max_eq_right (by omega), Nat.sub_self, Nat.zero_div, Nat.zero_mul] at e
        omega
    · rintro ⟨h1, h2, h3⟩
      have hle : phase ≤ b := h1 ▸ Nat.mod_le b period
      rw [Nat.max_eq_left (by omega)]
      have d := Nat.div_add_mod b period
      have e : now - phase = (now - b) + b / period * period := by
        rw [Nat.mul_comm]; omega
      rw [e, Nat.add_mul_div_right _ _ (by omega), Nat.div_eq_of_lt (by omega), Nat.zero_add, Nat.mul_comm]
      omega

/-! ## C160 -/

/-- **C160.** A transaction passes the checks of its signature's surroundings exactly if it was signed for this chain, this
version of the runtime, and an era the next block is in. -/
theorem C160_signed_for (s : Chain) (tx : Tx) (hw : Written tx.era) : checkSigned s tx = true ↔ SignedFor s tx := by
  unfold checkSigned
  simp only [Bool.and_eq_true, decide_eq_true_eq, eraHash_iff]
  constructor
  · rintro ⟨⟨⟨⟨h1, h2⟩, h3⟩, h4, -, h5⟩, h6, h7, h8⟩
    exact ⟨h1, h2, h3, h4, h5, _, (birth_begins hw _ _ h6).1 rfl, h6, h7, h8⟩
  · rintro ⟨h1, h2, h3, h4, h5, b, h6, h7, h8, h9⟩
    rw [(birth_begins hw _ _ h7).2 h6]
    exact ⟨⟨⟨⟨h1, h2⟩, h3⟩, h4, .inl trivial, h5⟩, h7, h8, h9⟩

/-- **C160.** What goes in, with or without fee, was signed for this chain, runtime and time. -/
theorem C160_included {a : Around} {s s' : Chain} {tx : Tx} {f : Money → Money} {w : Weight} (hw : Written tx.era)
    (h : applyTx a s tx f w = some s') : SignedFor s tx := (C160_signed_for s tx hw).1 (applyTx_some h).1

/-- **C160.** A transaction of another chain never goes in, whatever happens here. -/
theorem C160_other_chain (s : Chain) (tx : Tx) (hg : tx.genesis ≠ s.hashes.hash 0) (h0 : 0 < s.hashes.now.toNat)
    (evs : List ChainEvent) (ho : s.hashes.now.toNat + blocksIn evs < 2 ^ 32) (a : Around) (f : Money → Money) (w : Weight) :
    applyTx a (chainRun s evs) tx f w = none := by
  by_contra hc
  obtain ⟨s', hs⟩ := Option.ne_none_iff_exists'.1 hc
  obtain ⟨c, -⟩ := applyTx_some hs
  unfold checkSigned at c
  simp only [Bool.and_eq_true, decide_eq_true_eq, eraHash_iff] at c
  have := (chainRun_hashes evs s ho).2 0 h0
  exact hg (c.1.2.2.2.trans this)

/-- **C160.** A transaction signed for another version of the runtime does not go in before the runtime changes. -/
theorem C160_other_version (s : Chain) (tx : Tx) (hv : ¬ (tx.spec = s.spec ∧ tx.txVersion = s.txVersion))
    (evs : List ChainEvent) (hu : ∀ x y, ChainEvent.upgrade x y ∉ evs) (a : Around) (f : Money → Money) (w : Weight) :
    applyTx a (chainRun s evs) tx f w = none := by
  have key : ∀ (evs : List ChainEvent) (s : Chain), (∀ x y, ChainEvent.upgrade x y ∉ evs) →
      (chainRun s evs).spec = s.spec ∧ (chainRun s evs).txVersion = s.txVersion := by
    intro evs
    induction evs with
    | nil => exact fun s _ => ⟨rfl, rfl⟩
    | cons e evs ih =>
      intro s hu
      have h1 := ih (chainStep s e) fun x y hm => hu x y (List.mem_cons_of_mem _ hm)
      have h2 : (chainStep s e).spec = s.spec ∧ (chainStep s e).txVersion = s.txVersion := by
        cases e with
        | upgrade x y => exact absurd List.mem_cons_self (hu x y)
        | tx a t f actual =>
          show ((applyTx a s t f actual).getD s).spec = _ ∧ ((applyTx a s t f actual).getD s).txVersion = _
          cases hi : applyTx a s t f actual with
          | none => exact ⟨rfl, rfl⟩
          | some s' => exact ⟨(applyTx_some hi).2.2.2.1, (applyTx_some hi).2.2.2.2.1⟩
        | block hash => exact ⟨rfl, rfl⟩
        | reap w => exact ⟨rfl, rfl⟩
        | provide w => exact ⟨rfl, rfl⟩
        | money f => exact ⟨rfl, rfl⟩
      exact ⟨h1.1.trans h2.1, h1.2.trans h2.2⟩
  by_contra hc
  obtain ⟨s', hs⟩ := Option.ne_none_iff_exists'.1 hc
  obtain ⟨c, -⟩ := applyTx_some hs
  unfold checkSigned at c
  simp only [Bool.and_eq_true, decide_eq_true_eq] at c
  obtain ⟨k1, k2⟩ := key evs s hu
  exact hv ⟨c.1.1.1.2.trans k1, c.1.1.2.trans k2⟩

/-- **C160.** A transaction with an era that was signed on a fork never goes in here: its era begins with a block this chain
does not have. -/
theorem C160_fork (s : Chain) (tx : Tx) (hw : Written tx.era) (a : Around) (f : Money → Money) (w : Weight)
    (hf : ∀ b : Nat, b < s.hashes.now.toNat → tx.birthHash ≠ s.hashes.hash (UInt32.ofNat b)) : applyTx a s tx f w = none := by
  by_contra hc
  obtain ⟨s', hs⟩ := Option.ne_none_iff_exists'.1 hc
  obtain ⟨b, -, h1, -, h2⟩ := (C160_included hw hs).era
  exact hf b h1 h2

/-- **C160.** A transaction with an era is not included after it, nor before: with a block hash that only the block at its
beginning has, it goes in only in the next `period` blocks from there. -/
theorem C160_window {a : Around} {s s' : Chain} {tx : Tx} {f : Money → Money} {w : Weight} {period phase b : Nat}
    (he : tx.era = some (period, phase)) (hp : phase < period) (h : applyTx a s tx f w = some s')
    (hb : ∀ c : Nat, c < s.hashes.now.toNat → tx.birthHash = s.hashes.hash (UInt32.ofNat c) → c = b) :
    b < s.hashes.now.toNat ∧ s.hashes.now.toNat < b + period := by
  obtain ⟨c, h1, h2, -, h3⟩ := (C160_included (tx := tx) (fun p q e => by rw [he] at e; cases e; exact hp) h).era
  rw [he] at h1
  have := hb c h2 h3
  subst this
  exact ⟨h2, h1.2.2⟩

/-! ## Concrete cases -/

/-- A transaction with an era, signed for the demo chain, and what happens to it when signed for something else. -/
example : SignedFor Demo.chain Demo.mortal ∧ Written Demo.mortal.era ∧
    (applyTx Demo.around Demo.chain Demo.mortal id ⟨0, 0⟩).isSome = true ∧
    (applyTx Demo.around Demo.chain { Demo.mortal with genesis := [1] } id ⟨0, 0⟩).isSome = false ∧
    (applyTx Demo.around Demo.chain { Demo.mortal with spec := 2 } id ⟨0, 0⟩).isSome = false ∧
    (applyTx Demo.around Demo.chain { Demo.mortal with birthHash := [95] } id ⟨0, 0⟩).isSome = false := by
  have hw : Written Demo.mortal.era := by
    intro p q e
    cases e
    decide
  refine ⟨(C160_signed_for _ _ hw).1 (by decide +kernel), hw, by decide +kernel, by decide +kernel, by decide +kernel,
    by decide +kernel⟩

end Verif.Runtime
