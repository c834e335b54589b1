import Verif.Runtime.CallLemmas
import Verif.Payments.KreivoTheorems

/-! # C75–C79, C85, C88, C89: call filters and proxies -/

namespace Verif.Runtime

open Verif Verif.Accounts

/-! ## C75 -/

/-- Every call allowed to `small` is allowed to `big`. -/
def Covers (big small : ProxyType) : Prop := ∀ c, small.filter c = true → big.filter c = true

/-- C75: a declared superset allows every call the smaller type allows. -/
theorem C75_superset {a b : ProxyType} (h : a.isSuperset b = true) : Covers a b := by
  intro c hc
  cases a <;> cases b <;> first | exact absurd h (by decide) | exact hc | rfl | skip
  · -- NonTransfer over Collator
    simp only [ProxyType.filter, isUtilityOrMultisig] at hc ⊢
    cases hp : c.pallet <;> simp_all
  · -- Assets over AssetOwner
    simp only [ProxyType.filter, isUtilityOrMultisig] at hc ⊢
    cases c <;> simp_all [Call.pallet]
  · -- Assets over AssetManager
    simp only [ProxyType.filter, isUtilityOrMultisig] at hc ⊢
    cases c <;> simp_all [Call.pallet]

theorem C75_reflexive (a : ProxyType) : a.isSuperset a = true := by cases a <;> rfl

theorem C75_transitive {a b c : ProxyType} (h1 : a.isSuperset b = true) (h2 : b.isSuperset c = true) :
    a.isSuperset c = true := by
  cases a <;> cases b <;> first | exact absurd h1 (by decide) | skip
  all_goals cases c <;> first | exact absurd h2 (by decide) | rfl

/-- C75: `Any` is above everything and nothing else is. -/
theorem C75_top (a : ProxyType) : (∀ b, a.isSuperset b = true) ↔ a = .any := by
  constructor
  · intro h
    have := h .any
    cases a <;> first | rfl | exact absurd this (by decide)
  · rintro rfl b
    cases b <;> rfl

/-- C75: no two different types are supersets of each other. -/
theorem C75_antisymmetric {a b : ProxyType} (h1 : a.isSuperset b = true) (h2 : b.isSuperset a = true) : a = b := by
  cases a <;> cases b <;> first | rfl | exact absurd h1 (by decide) | exact absurd h2 (by decide)

/-- C75: the declaration is as complete as it can be, but for one pair: it declares every inclusion between the calls
allowed to two types, except that of `CancelProxy` in `NonTransfer`. -/
theorem C75_complete (a b : ProxyType) :
    a.isSuperset b = true ↔ Covers a b ∧ ¬ (a = .nonTransfer ∧ b = .cancelProxy) := by
  constructor
  · intro h
    refine ⟨C75_superset h, ?_⟩
    rintro ⟨rfl, rfl⟩
    exact absurd h (by decide)
  · rintro ⟨h, hn⟩
    have w1 := h (.balances .transferAllowDeath)
    have w2 := h (.assets .mint)
    have w3 := h (.assets .create)
    have w4 := h (.assets .transfer)
    have w5 := h (.rejectAnnouncement [])
    have w6 := h (.collatorSelection "")
    have w7 := h (.plain .payments "")
    clear h
    revert w1 w2 w3 w4 w5 w6 w7 hn
    cases a <;> cases b <;> decide

example : Covers .nonTransfer .collator := C75_superset rfl
example : ¬ Covers .assetOwner .assetManager := fun h => absurd (h (.assets .mint) rfl) (by decide)
example : ProxyType.isSuperset .assets .assetOwner = true ∧ ProxyType.isSuperset .assetOwner .assets = false := by decide

/-! ## C77 -/

/-- The calls of the owner role of an asset. -/
def ownerCalls : List AssetsCall :=
  [.create, .startDestroy, .destroyAccounts, .destroyApprovals, .finishDestroy, .transferOwnership, .setTeam, .setMetadata,
   .clearMetadata]

/-- The calls of the issuer, admin and freezer roles. -/
def managerCalls : List AssetsCall := [.mint, .burn, .freeze, .thaw, .freezeAsset, .thawAsset]

/-- The area of a proxy type, in words of the documentation of `ProxyType` (runtime/kreivo/src/impls.rs 51-68). -/
def Area : ProxyType → Call → Prop
  | .any, _ => True
  | .nonTransfer, c => c.pallet ≠ .balances ∧ c.pallet ≠ .assets
  | .cancelProxy, c => ∃ d, c = .rejectAnnouncement d
  | .assets, c => c.pallet = .assets
  | .assetOwner, c => ∃ a ∈ ownerCalls, c = .assets a
  | .assetManager, c => ∃ a ∈ managerCalls, c = .assets a
  | .collator, c => c.pallet = .collatorSelection

/-- C77: a restricted proxy type allows exactly the calls of its area and those of the utility and multisig pallets. -/
theorem C77_area {t : ProxyType} (ht : t ≠ .any ∧ t ≠ .nonTransfer) (c : Call) :
    t.filter c = true ↔ Area t c ∨ c.pallet = .utility ∨ c.pallet = .multisig := by
  cases t
  · exact absurd rfl ht.1
  · exact absurd rfl ht.2
  · cases c <;> simp [ProxyType.filter, Area, isUtilityOrMultisig, Call.pallet]
    rename_i p _; cases p <;> simp
  · simp only [ProxyType.filter, Area, isUtilityOrMultisig]
    cases c.pallet <;> simp
  · cases c
    case assets a => cases a <;> simp [ProxyType.filter, Area, isUtilityOrMultisig, Call.pallet, ownerCalls]
    case plain p _ => cases p <;> simp [ProxyType.filter, Area, isUtilityOrMultisig, Call.pallet]
    all_goals simp [ProxyType.filter, Area, isUtilityOrMultisig, Call.pallet]
  · cases c
    case assets a => cases a <;> simp [ProxyType.filter, Area, isUtilityOrMultisig, Call.pallet, managerCalls]
    case plain p _ => cases p <;> simp [ProxyType.filter, Area, isUtilityOrMultisig, Call.pallet]
    all_goals simp [ProxyType.filter, Area, isUtilityOrMultisig, Call.pallet]
  · simp only [ProxyType.filter, Area, isUtilityOrMultisig]
    cases c.pallet <;> simp

/-- C77: owner and manager proxies share no call of the assets pallet. -/
theorem C77_disjoint (a : AssetsCall) :
    ¬ (ProxyType.filter .assetOwner (.assets a) = true ∧ ProxyType.filter .assetManager (.assets a) = true) := by
  cases a <;> decide

/-- C77: neither of them, nor a collator or cancelling proxy, moves an account's own assets or native tokens. -/
theorem C77_no_transfers {t : ProxyType} (ht : t ∈ [ProxyType.cancelProxy, .assetOwner, .assetManager, .collator]) :
    (∀ b, t.filter (.balances b) = false) ∧
    ∀ a ∈ [AssetsCall.transfer, .transferKeepAlive, .forceTransfer, .approveTransfer, .transferApproved],
      t.filter (.assets a) = false := by
  cases t <;> simp at ht <;> exact ⟨fun _ => rfl, by decide⟩

/-- C77: this holds of every call dispatched with the proxied origin, also inside batches and derivatives. -/
theorem C77_nested {T : Tables} {o : Sig} {c : Call} {x : Sig × Call} {t : ProxyType} (h : x ∈ reached T o c)
    (hv : x.1.via = some t) (ht : t ≠ .any ∧ t ≠ .nonTransfer) :
    Area t x.2 ∨ x.2.pallet = .utility ∨ x.2.pallet = .multisig :=
  (C77_area ht _).1 (allows_filter hv (reached_allowed h))

/-! ## C76 -/

/-- Bytes of two accounts, numbers 1 and 2. -/
def alice : AccountId := Payments.Kreivo.bytesOf 1
def bob : AccountId := Payments.Kreivo.bytesOf 2
def carol : AccountId := Payments.Kreivo.bytesOf 3

/-- Bob is a `NonTransfer` proxy of Alice. -/
def tables1 : Tables where
  proxies a := if a = alice then [⟨bob, .nonTransfer, 0⟩] else []
  announced _ _ _ _ := false
  derivative _ _ := []
  multiAccount _ _ := []
  approved _ _ := false
  community _ := none
  passAs _ _ := false

open Payments.Kreivo in
/-- C76 is false: through the payments pallet a `NonTransfer` proxy moves the account's funds to itself. Bob's proxied
calls `pay` (to Bob) and `release` pass the filters with Alice as the signer, both succeed, and Bob ends up with more
and Alice with less. -/
theorem C76_fails :
    let pay : Payments.Call := .pay (.id 2) 0 5000 none
    let rel : Payments.Call := .release theId
    (∃ o, (o, Call.payments pay) ∈ reached tables1 (.fresh bob) (.proxy alice none (.payments pay)) ∧ o.signer = alice) ∧
    (∃ o, (o, Call.payments rel) ∈ reached tables1 (.fresh bob) (.proxy alice none (.payments rel)) ∧ o.signer = alice) ∧
    ∃ s1 s2, Payments.dispatch config env s0 (.signed (acctOf alice)) pay = .ok s1 ∧
      Payments.dispatch config env s1 (.signed (acctOf alice)) rel = .ok s2 ∧
      (s2.ledger.bal 0 (acctOf alice)).free < (s0.ledger.bal 0 (acctOf alice)).free ∧
      (s0.ledger.bal 0 (acctOf bob)).free < (s2.ledger.bal 0 (acctOf bob)).free := by
  have h1 : findProxy tables1 alice bob none = some ⟨bob, .nonTransfer, 0⟩ := by decide +kernel
  have key : ∀ p : Payments.Call,
      (⟨alice, some .nonTransfer, false⟩, Call.payments p) ∈ reached tables1 (.fresh bob) (.proxy alice none (.payments p)) := by
    intro p
    exact proxy_reaches (d := ⟨bob, .nonTransfer, 0⟩) rfl h1 rfl (reached_self rfl)
  refine ⟨⟨_, key _, rfl⟩, ⟨_, key _, rfl⟩, ?_⟩
  have ha : acctOf alice = 1 := by decide +kernel
  have hb : acctOf bob = 2 := by decide +kernel
  rw [ha, hb]
  exact ⟨_, _, rfl, rfl, by decide +kernel, by decide +kernel⟩

/-- C76, what holds: a `NonTransfer` proxy is refused exactly the calls of the balances and assets pallets. -/
theorem C76_filter_partial (c : Call) :
    ProxyType.filter .nonTransfer c = true ↔ c.pallet ≠ .balances ∧ c.pallet ≠ .assets := by
  simp only [ProxyType.filter]
  cases c.pallet <;> simp

/-- C76, what holds: nor can it have one dispatched with the proxied origin by wrapping it. -/
theorem C76_nested_partial {T : Tables} {o : Sig} {c : Call} {x : Sig × Call} (h : x ∈ reached T o c)
    (hv : x.1.via = some .nonTransfer) : x.2.pallet ≠ .balances ∧ x.2.pallet ≠ .assets :=
  (C76_filter_partial _).1 (allows_filter hv (reached_allowed h))

-- Bob's batch of a payment and a transfer has the payment tried and not the transfer.
example : (reached tables1 ⟨alice, some .nonTransfer, false⟩
    (.batch [.payments (.release 7), .balances .transferAll])).map (·.2.pallet) = [.utility, .payments] := by
  simp [reached, inner, reachedAll, Sig.allows, proxyFilter, ProxyType.filter, Call.pallet]

/-! ## C78 -/

/-- C78: a task may be cancelled or replaced by the origin that scheduled it and by root, by nobody else. -/
theorem C78_only_owner_or_root (caller task : RtOrigin) :
    mayTouchTask caller task = true ↔ caller = task ∨ caller = .root := by
  unfold mayTouchTask cmpPrivilege
  by_cases h : caller = task
  · simp [h]
  · rw [if_neg h]
    cases caller <;> simp [h]

theorem C78_reflexive (o : RtOrigin) : cmpPrivilege o o = some .equal := by simp [cmpPrivilege]

/-- C78: only equal origins compare as equal. -/
theorem C78_equal {a b : RtOrigin} : cmpPrivilege a b = some .equal ↔ a = b := by
  unfold cmpPrivilege
  by_cases h : a = b
  · simp [h]
  · rw [if_neg h]
    cases a <;> simp [h]

/-- C78: only root ranks above another origin, and above every other; so no two rank above each other. -/
theorem C78_greater {a b : RtOrigin} : cmpPrivilege a b = some .greater ↔ a = .root ∧ b ≠ .root := by
  unfold cmpPrivilege
  by_cases h : a = b
  · subst h; simp
  · rw [if_neg h]
    cases a <;> simp
    exact fun hb => h hb.symm

theorem C78_antisymmetric {a b : RtOrigin} (h1 : cmpPrivilege a b = some .greater) : cmpPrivilege b a ≠ some .greater :=
  fun h2 => (C78_greater.1 h2).2 (C78_greater.1 h1).1

example : mayTouchTask .root (.signed alice) = true ∧ mayTouchTask (.signed alice) (.signed alice) = true ∧
    mayTouchTask (.signed bob) (.signed alice) = false ∧ mayTouchTask (.signed alice) .root = false := by decide +kernel

/-! ## C79 -/

/-- C79: the exported call list contains a call exactly when its pallet is none of the five. -/
theorem C79_exported (c : Call) :
    runtimeBlackListed c = true ↔ c.pallet ∉ [Pallet.balances, .treasury, .utility, .assets, .proxy] := by
  unfold runtimeBlackListed
  cases c.pallet <;> simp

example : runtimeBlackListed (.payments (.release 1)) = true ∧ runtimeBlackListed (.batch []) = false := by decide

/-! ## C85 -/

/-- C85: all that a contract's runtime call can lead to is one native `transfer_allow_death` from the contract. -/
theorem C85_contracts {T : Tables} {contract : AccountId} {c : Call} {x : Sig × Call}
    (h : x ∈ contractReached T contract c) : x.1.signer = contract ∧ x.2 = .balances .transferAllowDeath := by
  unfold contractReached at h
  split at h
  · rename_i hc
    have : c = .balances .transferAllowDeath := by
      unfold allowBalancesCall at hc
      split at hc
      · rfl
      · cases hc
    subst this
    rw [reached, if_pos (by rfl)] at h
    rcases List.mem_cons.1 h with rfl | h
    · exact ⟨rfl, rfl⟩
    · rw [inner] at h
      · cases h
      all_goals (intros; contradiction)
  · cases h

/-- C85: and that transfer does pass. -/
theorem C85_transfer_passes (T : Tables) (contract : AccountId) :
    ∃ x ∈ contractReached T contract (.balances .transferAllowDeath), x.2 = .balances .transferAllowDeath :=
  ⟨(.fresh contract, _), by
    unfold contractReached
    rw [if_pos (by rfl)]
    exact reached_self rfl, rfl⟩

example (T : Tables) : contractReached T alice (.batch [.balances .transferAllowDeath]) = [] := rfl

/-! ## C88 -/

/-- C88: a proxy grants no more than it has. Whatever a proxied origin gets to add as a proxy, in however nested a
call, covers only calls its own type covers; and removing all proxies or killing the account takes `Any`. -/
theorem C88_grants {T : Tables} {o : Sig} {c : Call} {x : Sig × Call} {t : ProxyType} (h : x ∈ reached T o c)
    (hv : x.1.via = some t) :
    (∀ d u n, x.2 = .addProxy d u n → Covers t u) ∧ (∀ d u n, x.2 = .removeProxy d u n → Covers t u) ∧
    (x.2 = .removeProxies ∨ x.2 = .killPure → t = .any) := by
  have ha := reached_allowed h
  unfold Sig.allows at ha
  rw [hv, Bool.and_eq_true] at ha
  have h1 := ha.1
  refine ⟨?_, ?_, ?_⟩
  · intro d u n hx
    rw [hx] at h1
    simp only [proxyFilter] at h1
    split at h1
    · rename_i hs; exact C75_superset hs
    · cases h1
  · intro d u n hx
    rw [hx] at h1
    simp only [proxyFilter] at h1
    split at h1
    · rename_i hs; exact C75_superset hs
    · cases h1
  · rintro (hx | hx) <;> rw [hx] at h1 <;> simp only [proxyFilter] at h1 <;> split at h1
    · assumption
    · cases h1
    · assumption
    · cases h1

/-- C88: which types can add proxies at all. -/
theorem C88_who (t : ProxyType) (d : AccountId) (u : ProxyType) (n : Nat) :
    proxyFilter t (.addProxy d u n) = true ↔ t = .any ∨ (t = .nonTransfer ∧ (u = .nonTransfer ∨ u = .collator)) := by
  cases t <;> cases u <;> simp [proxyFilter, ProxyType.isSuperset, ProxyType.filter, isUtilityOrMultisig, Call.pallet]

-- A NonTransfer proxy can add a collator proxy, and nothing that may transfer.
example : ∃ x ∈ reached tables1 (.fresh bob) (.proxy alice none (.addProxy carol .collator 0)),
    x.1.via = some .nonTransfer ∧ x.2 = .addProxy carol .collator 0 := by
  have h1 : findProxy tables1 alice bob none = some ⟨bob, .nonTransfer, 0⟩ := by decide +kernel
  refine ⟨(⟨alice, some .nonTransfer, false⟩, _), ?_, rfl, rfl⟩
  exact proxy_reaches (d := ⟨bob, .nonTransfer, 0⟩) rfl h1 rfl (reached_self rfl)

/-! ## C89 -/

/-- Alice lets Bob act as `NonTransfer` proxy, and Alice and Carol are each other's `Any` proxies. -/
def tables2 : Tables where
  proxies a := if a = alice then [⟨bob, .nonTransfer, 0⟩, ⟨carol, .any, 0⟩]
    else if a = carol then [⟨alice, .any, 0⟩] else []
  announced _ _ _ _ := false
  derivative _ _ := []
  multiAccount _ _ := []
  approved _ _ := false
  community _ := none
  passAs _ _ := false

/-- Bob's way round: as Alice, as Carol, as Alice. -/
def wayRound (c : Call) : Call := .proxy alice none (.proxy carol none (.proxy alice none c))

/-- C89 is false: by proxying through an account that is itself an unrestricted proxy, a `NonTransfer` proxy has a
transfer dispatched in the account's name. -/
theorem C89_nesting_fails :
    ∃ o, (o, Call.balances .transferAllowDeath) ∈ reached tables2 (.fresh bob) (wayRound (.balances .transferAllowDeath)) ∧
      o.signer = alice ∧ (∀ d ∈ tables2.proxies alice, d.delegate = bob → d.type = .nonTransfer) ∧
      ProxyType.filter .nonTransfer (.balances .transferAllowDeath) = false := by
  refine ⟨⟨alice, some .any, false⟩, ?_, rfl, by decide +kernel, rfl⟩
  refine proxy_reaches (d := ⟨bob, .nonTransfer, 0⟩) rfl (by decide +kernel) rfl ?_
  refine proxy_reaches (d := ⟨alice, .any, 0⟩) rfl (by decide +kernel) rfl ?_
  refine proxy_reaches (d := ⟨carol, .any, 0⟩) rfl (by decide +kernel) rfl ?_
  exact reached_self rfl

/-- C89, what holds: if all proxies of an account that can act, at once or by announcement, are within a type, then no call of anybody else, however
nested, makes the account do anything outside that type. The account must be held by a key: not a multisig, derivative,
community or pass account. -/
theorem C89_nesting_partial {T : Tables} {real : AccountId} {t : ProxyType}
    (hown : ∀ d ∈ T.proxies real, (d.delay = 0 ∨ ∃ a c, T.announced a real d c = true) → Covers t d.type)
    (hder : ∀ a i, T.derivative a i ≠ real) (hmul : ∀ l n, T.multiAccount l n ≠ real)
    (hcom : ∀ id, communityAccount id ≠ real) (hpass : ∀ k, T.passAs k real = false) {who : AccountId} (hw : who ≠ real) {c : Call} {x : Sig × Call}
    (h : x ∈ reached T (.fresh who) c) (hs : x.1.signer = real) : t.filter x.2 = true := by
  obtain ⟨hP, ha⟩ := reached_inv T (fun o => o.signer = real → ∃ u, o.via = some u ∧ Covers t u)
    (fun o hP => hP) (fun o i _ he => absurd he (hder _ _)) (fun l n he => absurd he (hmul _ _))
    (by
      rintro o r force d _ hf h0 rfl
      exact ⟨_, rfl, hown d (List.mem_of_find?_eq_some hf) (Or.inl h0)⟩)
    (by
      rintro a r force d c hf h0 rfl
      exact ⟨_, rfl, hown d (List.mem_of_find?_eq_some hf) (Or.inr ⟨a, c, h0⟩)⟩)
    (fun id he => absurd he (hcom _))
    (by
      rintro o r _ hr rfl
      rw [show T.passAs o.signer r = false from hpass _] at hr
      cases hr) (.fresh who) c (fun he => absurd he hw) x h
  obtain ⟨u, hu, hcov⟩ := hP hs
  exact hcov _ (allows_filter hu ha)

-- The hypotheses are met by Alice in `tables1`, whose one proxy is Bob.
example : (∀ d ∈ tables1.proxies alice, (d.delay = 0 ∨ ∃ a c, tables1.announced a alice d c = true) → Covers .nonTransfer d.type) ∧
    (∀ a i, tables1.derivative a i ≠ alice) ∧ (∀ l n, tables1.multiAccount l n ≠ alice) ∧
    (∀ id, communityAccount id ≠ alice) ∧ (∀ k, tables1.passAs k alice = false) ∧ bob ≠ alice := by
  refine ⟨?_, fun _ _ h => absurd h (by decide +kernel : ([] : AccountId) ≠ alice),
    fun _ _ h => absurd h (by decide +kernel : ([] : AccountId) ≠ alice), ?_, fun _ => rfl, by decide +kernel⟩
  · intro d hd _
    have : tables1.proxies alice = [⟨bob, .nonTransfer, 0⟩] := by decide +kernel
    rw [this] at hd
    cases List.mem_singleton.1 hd
    exact fun _ h => h
  · intro id h
    have := congrArg List.head? h
    rw [show (communityAccount id).head? = some 109 from rfl] at this
    exact absurd this (by decide +kernel)

end Verif.Runtime
