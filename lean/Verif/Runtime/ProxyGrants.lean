import Verif.Runtime.CallTheorems

/-! # What proxies add and remove, in terms of the declared order of proxy types (C88) -/

namespace Verif.Runtime

open Verif.Accounts

/-- C88: whatever a proxied origin gets to add or remove as a proxy, in however nested a call, is of a type its own type is
declared a superset of; and only `Any` proxies do so, and `NonTransfer` proxies with `NonTransfer` and `Collator` ones. -/
theorem C88_declared {T : Tables} {o : Sig} {c : Call} {x : Sig × Call} {t : ProxyType} (h : x ∈ reached T o c)
    (hv : x.1.via = some t) {d : AccountId} {u : ProxyType} {n : Nat}
    (hx : x.2 = .addProxy d u n ∨ x.2 = .removeProxy d u n) :
    t.isSuperset u = true ∧ (t = .any ∨ t = .nonTransfer ∧ (u = .nonTransfer ∨ u = .collator)) := by
  have ha := reached_allowed h
  unfold Sig.allows at ha
  rw [hv, Bool.and_eq_true] at ha
  have h1 := ha.1
  have h2 : t.isSuperset u = true := by
    rcases hx with hx | hx <;> rw [hx] at h1 <;> simp only [proxyFilter] at h1 <;> split at h1
    · assumption
    · cases h1
    · assumption
    · cases h1
  refine ⟨h2, ?_⟩
  rcases hx with hx | hx <;> rw [hx] at h1 <;> clear h ha hv hx <;> revert h1 <;> cases t <;> cases u <;>
    simp [proxyFilter, ProxyType.isSuperset, ProxyType.filter, isUtilityOrMultisig, Call.pallet]

-- A `NonTransfer` proxy of 1 adds a `Collator` proxy for it.
example : ProxyType.isSuperset .nonTransfer .collator = true ∧ proxyFilter .nonTransfer (.addProxy [2] .collator 0) = true := by
  decide

end Verif.Runtime
