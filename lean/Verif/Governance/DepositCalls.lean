import Verif.Governance.DepositTheorems
import Verif.Governance.ContractTheorems

/-!
# Who may ask for deposits back (C140), and who may call contracts (C188)
-/

namespace Verif.Governance

open Verif Verif.Runtime Verif.Accounts Verif.Communities

theorem signedOrRoot_iff (o : Origin) : signedOrRoot o = true ↔ o = .root ∨ ∃ w, o = .signed w := by
  cases o <;> simp [signedOrRoot]

/-- **C140.** Deposits are given back only when an account that signs, or root, asks for it, for a referendum there is. -/
theorem C140_who_asks (s s' : DSt) (o : Origin) (k : House) (p : Nat)
    (h : ddispatch s o (.refundDecision k p) = some s' ∨ ddispatch s o (.refundSubmission k p) = some s') :
    (o = .root ∨ ∃ w, o = .signed w) ∧ ∃ r, (s.refs k)[p]? = some r := by
  rw [← signedOrRoot_iff]
  rcases h with h | h
  all_goals
    simp only [ddispatch] at h
    split at h
    · rename_i ho
      refine ⟨ho, ?_⟩
      cases hr : (s.refs k)[p]? with
      | none => rw [hr] at h; cases h
      | some r => exact ⟨r, rfl⟩
    · cases h

/-- **C188.** Any account that signs, and root, may call any contract there is, and nobody else may. -/
theorem C188_called (s s' : Runtime.Contracts.St) (o : Origin) (a : AccountId) (l : List Runtime.Contracts.Ask) :
    Runtime.Contracts.dispatch s o (.call a l) = some s' ↔
      (o = .root ∨ ∃ w, o = .signed w) ∧ (∃ x, s.contracts a = some x) ∧ s' = Runtime.Contracts.asks s l := by
  simp only [Runtime.Contracts.dispatch]
  have e : Runtime.Contracts.mayCall o = true ↔ o = .root ∨ ∃ w, o = .signed w := by
    cases o <;> simp [Runtime.Contracts.mayCall]
  rw [← e]
  cases hc : s.contracts a with
  | none => simp
  | some x =>
    by_cases hm : Runtime.Contracts.mayCall o = true
    · simp [hm, eq_comm]
    · simp [hm]

/-- **C188.** Only root changes the code of a contract from outside, only to a code that is kept; and a code is removed by the
account that owns it, and by nobody else. -/
theorem C188_changed (s s' : Runtime.Contracts.St) (o : Origin) (a : AccountId) (k : Nat) :
    (Runtime.Contracts.dispatch s o (.setCode a k) = some s' ↔
      o = .root ∧ (∃ c d, s.contracts a = some (c, d) ∧
        s' = { s with contracts := fun b => if b = a then some (k, d) else s.contracts b }) ∧ s.codes k ≠ none) ∧
    (Runtime.Contracts.dispatch s o (.remove k) = some s' ↔
      ∃ w, o = .signed w ∧ s.codes k = some w ∧ s' = { s with codes := fun j => if j = k then none else s.codes j }) := by
  constructor
  · cases o <;> simp only [Runtime.Contracts.dispatch]
    case root =>
      cases hc : s.contracts a with
      | none => simp
      | some x =>
        obtain ⟨c, d⟩ := x
        by_cases hk : s.codes k = none
        · simp [hk]
        · simp only [ne_eq, hk, not_false_eq_true, if_true, Option.some.injEq, true_and, Prod.mk.injEq, and_true]
          constructor
          · intro h; exact ⟨c, d, ⟨rfl, rfl⟩, h.symm⟩
          · rintro ⟨_, _, ⟨rfl, rfl⟩, h⟩; exact h.symm
    all_goals simp
  · cases o <;> simp only [Runtime.Contracts.dispatch]
    case signed w =>
      by_cases hk : s.codes k = some w
      · simp only [hk, if_true, Option.some.injEq]
        constructor
        · intro h; exact ⟨w, rfl, rfl, h.symm⟩
        · rintro ⟨_, _, _, h⟩; exact h.symm
      · rw [if_neg hk]
        constructor
        · intro h; cases h
        · rintro ⟨v, e, h, _⟩; cases e; exact absurd h hk
    all_goals simp

/-- A contract that is there is called by an account. -/
example : ∃ s', Runtime.Contracts.dispatch ⟨fun _ => some [7], fun a => if a = [1] then some (3, [7]) else none⟩ (.signed [9])
    (.call [1] []) = some s' := ⟨_, rfl⟩

end Verif.Governance
