import Verif.Runtime.CallTheorems
import Verif.Accounts.Theorems

/-!
# Who acts for an account, over whole histories

`reached` looks at one call while proxies stay as they are. Here calls run one after the other and change the proxies of
accounts as they go, also in the middle of a batch, and any number of calls of any signers follow each other.
-/

namespace Verif.Runtime

open Verif Verif.Accounts

/-! ## The machine -/

/-- The calls a call that passed the filters has dispatched next, with the origin they get: `inner`, one level deep.
Outside /repo; used at runtime/kreivo/src/lib.rs 484-526 (pallet_multisig, pallet_utility, pallet_proxy),
runtime/kreivo/src/lib.rs 210 (pallet_pass) and pallets/communities/src/lib.rs 569-572. -/
def carried (T : Tables) (o : Sig) : Call → List (Sig × Call)
  | .batch cs => cs.map fun c => (o, c)
  | .batchAll cs => cs.map fun c => ({ o with noBatchAll := true }, c)
  | .asDerivative i c => [({ o with signer := T.derivative o.signer i }, c)]
  | .asMulti1 others c => [(.fresh (T.multiAccount (o.signer :: others) 1), c)]
  | .asMulti n others c =>
    if T.approved (T.multiAccount (o.signer :: others) n) c then [(.fresh (T.multiAccount (o.signer :: others) n), c)] else []
  | .proxy real force c =>
    match findProxy T real o.signer force with
    | some d => if d.delay = 0 then [(⟨real, some d.type, false⟩, c)] else []
    | none => []
  | .proxyAnnounced delegate real force c =>
    match findProxy T real delegate force with
    | some d => if T.announced delegate real d c then [(⟨real, some d.type, false⟩, c)] else []
    | none => []
  | .dispatchAsAccount c =>
    match T.community o.signer with
    | some id => [(.fresh (communityAccount id), c)]
    | none => []
  | .passDispatch who c => if T.passAs o.signer who then [(.fresh who, c)] else []
  | _ => []

/-- The accounts made by hashing: `pure n` are those of `Proxy::create_pure` and `pass n` those of registered users of
`Pass`. Outside /repo; used at runtime/kreivo/src/lib.rs 210 (pallet_pass) and 513-526 (pallet_proxy). -/
structure Made where
  pure : Nat → AccountId
  pass : Nat → AccountId

/-- What a dispatched call may do to the tables. Accounts are derived as before. A proxy of an account comes from an
`add_proxy` in its name, or is there because the account was created as a pure proxy. Only registered users of `Pass` are
acted for by session keys and credentials. Everything else may change in any way: proxies and session keys may go,
announcements and approvals may come and go, and authority over communities may move. Outside /repo; used at
runtime/kreivo/src/lib.rs 484-526 (pallet_multisig, pallet_utility, pallet_proxy) and 210 (pallet_pass). -/
structure Changes (M : Made) (o : Sig) (c : Call) (T T' : Tables) : Prop where
  derivative : T'.derivative = T.derivative
  multiAccount : T'.multiAccount = T.multiAccount
  proxies : ∀ a, ∀ d ∈ T'.proxies a, d ∈ T.proxies a ∨ (o.signer = a ∧ c = .addProxy d.delegate d.type d.delay) ∨
    ∃ n, a = M.pure n
  passAs : ∀ k a, T'.passAs k a = true → T.passAs k a = true ∨ ∃ n, a = M.pass n

/-- The runtime between two dispatches: the tables and what is still to be dispatched, the next one first. Part of the
transition system around the code (outside /repo). -/
structure Machine where
  tables : Tables
  todo : List (Sig × Call)

/-- One step: a signer's call comes in (also in the middle of another, as a contract's or a message's), or the next
dispatch is refused by the filters, or it takes place, or one is given up since something failed. The arguments are who
signed what came in, and what took place. Part of the transition system around the code (outside /repo). -/
inductive Step (M : Made) : Option AccountId → Machine → Machine → List (Sig × Call) → Prop
  | comes (T : Tables) (who : AccountId) (c : Call) (rest : List (Sig × Call)) :
    Step M (some who) ⟨T, rest⟩ ⟨T, (.fresh who, c) :: rest⟩ []
  | refused (T : Tables) (o : Sig) (c : Call) (rest : List (Sig × Call)) (h : o.allows c = false) :
    Step M none ⟨T, (o, c) :: rest⟩ ⟨T, rest⟩ []
  | dispatched (T T' : Tables) (o : Sig) (c : Call) (rest : List (Sig × Call)) (h : o.allows c = true)
    (hT : Changes M o c T T') : Step M none ⟨T, (o, c) :: rest⟩ ⟨T', carried T o c ++ rest⟩ [(o, c)]
  | dropped (T : Tables) (x : Sig × Call) (rest : List (Sig × Call)) : Step M none ⟨T, x :: rest⟩ ⟨T, rest⟩ []

/-- Histories in which `a` signs nothing itself, with all that was dispatched. Part of the transition system around the
code (outside /repo). -/
inductive Without (M : Made) (a : AccountId) : Machine → List (Sig × Call) → Machine → Prop
  | start (m : Machine) : Without M a m [] m
  | more {m m1 m2 : Machine} {done new : List (Sig × Call)} {who : Option AccountId} (h : Without M a m done m1)
    (hs : Step M who m1 m2 new) (hw : who ≠ some a) : Without M a m (done ++ new) m2

/-- The account is not derived from others in a way that lets them act for it: it is no derivative, multisig, community,
pure proxy or pass account. Specification only, no code behind it (outside /repo). -/
structure Underived (M : Made) (T : Tables) (a : AccountId) : Prop where
  derivative : ∀ b i, T.derivative b i ≠ a
  multiAccount : ∀ l n, T.multiAccount l n ≠ a
  community : ∀ id, communityAccount id ≠ a
  pure : ∀ n, M.pure n ≠ a
  pass : ∀ n, M.pass n ≠ a

/-! ## Lemmas -/

/-- What is carried keeps what every way of carrying a call keeps. -/
theorem carried_inv {T : Tables} {P : Sig → Prop} (hb : ∀ o, P o → P { o with noBatchAll := true })
    (hd : ∀ o i, P o → P { o with signer := T.derivative o.signer i }) (hm : ∀ l n, P (.fresh (T.multiAccount l n)))
    (hp : ∀ delegate real force d, findProxy T real delegate force = some d → P ⟨real, some d.type, false⟩)
    (hc : ∀ id, P (.fresh (communityAccount id))) (hs : ∀ k who, T.passAs k who = true → P (.fresh who)) {o : Sig}
    {c : Call} (ho : P o) : ∀ x ∈ carried T o c, P x.1 := by
  intro x hx
  unfold carried at hx
  split at hx
  · obtain ⟨y, _, rfl⟩ := List.mem_map.1 hx
    exact ho
  · obtain ⟨y, _, rfl⟩ := List.mem_map.1 hx
    exact hb o ho
  · cases List.mem_singleton.1 hx
    exact hd o _ ho
  · cases List.mem_singleton.1 hx
    exact hm _ _
  · split at hx
    · cases List.mem_singleton.1 hx
      exact hm _ _
    · cases hx
  · split at hx
    · rename_i hf
      split at hx
      · cases List.mem_singleton.1 hx
        exact hp _ _ _ _ hf
      · cases hx
    · cases hx
  · split at hx
    · rename_i hf
      split at hx
      · cases List.mem_singleton.1 hx
        exact hp _ _ _ _ hf
      · cases hx
    · cases hx
  · split at hx
    · cases List.mem_singleton.1 hx
      exact hc _
    · cases hx
  · split at hx
    · rename_i hf
      cases List.mem_singleton.1 hx
      exact hs _ _ hf
    · cases hx
  · cases hx

/-- What a type covers is covered by what covers the type. -/
theorem Covers.trans {a b c : ProxyType} (h1 : Covers a b) (h2 : Covers b c) : Covers a c := fun x hx => h1 x (h2 x hx)

/-- What holds between dispatches: all proxies of the account are within the type, and whatever is to be dispatched in
its name goes through one of that kind. Specification only, no code behind it (outside /repo). -/
structure Guarded (M : Made) (a : AccountId) (t : Option ProxyType) (m : Machine) : Prop where
  derived : Underived M m.tables a
  noPass : ∀ k, m.tables.passAs k a = false
  proxies : ∀ d ∈ m.tables.proxies a, ∃ u, t = some u ∧ Covers u d.type
  todo : ∀ x ∈ m.todo, x.1.signer = a → ∃ u v, t = some u ∧ x.1.via = some v ∧ Covers u v

theorem guarded_step {M : Made} {a : AccountId} {t : Option ProxyType} {m m' : Machine} {new : List (Sig × Call)}
    {who : Option AccountId} (hg : Guarded M a t m) (hs : Step M who m m' new) (hw : who ≠ some a) :
    Guarded M a t m' ∧ ∀ x ∈ new, x.1.signer = a → ∃ u, t = some u ∧ u.filter x.2 = true := by
  cases hs with
  | comes T who c rest =>
    refine ⟨⟨hg.derived, hg.noPass, hg.proxies, ?_⟩, fun x hx => (List.not_mem_nil hx).elim⟩
    intro x hx
    rcases List.mem_cons.1 hx with rfl | hx
    · rintro rfl
      exact absurd rfl hw
    · exact hg.todo x hx
  | refused T o c rest h =>
    exact ⟨⟨hg.derived, hg.noPass, hg.proxies, fun x hx => hg.todo x (List.mem_cons_of_mem _ hx)⟩,
      fun x hx => (List.not_mem_nil hx).elim⟩
  | dropped T x rest =>
    exact ⟨⟨hg.derived, hg.noPass, hg.proxies, fun x hx => hg.todo x (List.mem_cons_of_mem _ hx)⟩,
      fun x hx => (List.not_mem_nil hx).elim⟩
  | dispatched T T' o c rest h hT =>
    have hmine := hg.todo (o, c) List.mem_cons_self
    have hder := hg.derived
    have hpx := hg.proxies
    have hnp := hg.noPass
    dsimp only at hder hpx hnp hmine
    refine ⟨⟨?_, ?_, ?_, ?_⟩, ?_⟩
    · exact ⟨fun b i => by dsimp only; rw [hT.derivative]; exact hder.derivative b i,
        fun l n => by dsimp only; rw [hT.multiAccount]; exact hder.multiAccount l n, hder.community, hder.pure, hder.pass⟩
    · intro k
      dsimp only
      cases hk : T'.passAs k a with
      | false => rfl
      | true =>
        rcases hT.passAs k a hk with h1 | ⟨n, h1⟩
        · rw [hnp k] at h1
          cases h1
        · exact absurd h1.symm (hder.pass n)
    · intro d hd
      rcases hT.proxies a d hd with h1 | ⟨h1, h2⟩ | ⟨n, h1⟩
      · exact hpx d h1
      · obtain ⟨u, v, hu, hv, hc⟩ := hmine h1
        refine ⟨u, hu, hc.trans ?_⟩
        subst h2
        unfold Sig.allows at h
        rw [hv, Bool.and_eq_true] at h
        have h3 := h.1
        simp only [proxyFilter] at h3
        split at h3
        · rename_i h4
          exact C75_superset h4
        · cases h3
      · exact absurd h1.symm (hder.pure n)
    · intro x hx
      rcases List.mem_append.1 hx with hx | hx
      · refine carried_inv (P := fun o => o.signer = a → ∃ u v, t = some u ∧ o.via = some v ∧ Covers u v)
          (fun _ h => h) (fun _ _ _ he => absurd he (hder.derivative _ _)) (fun _ _ he => absurd he (hder.multiAccount _ _))
          ?_ (fun _ he => absurd he (hder.community _)) ?_ hmine x hx
        · rintro delegate real force d hf rfl
          obtain ⟨u, hu, hc⟩ := hpx d (List.mem_of_find?_eq_some hf)
          exact ⟨u, _, hu, rfl, hc⟩
        · rintro k who hk rfl
          rw [show T.passAs k who = false from hnp k] at hk
          cases hk
      · exact hg.todo x (List.mem_cons_of_mem _ hx)
    · intro x hx he
      cases List.mem_singleton.1 hx
      obtain ⟨u, v, hu, hv, hc⟩ := hmine he
      exact ⟨u, hu, hc _ (allows_filter hv h)⟩

theorem guarded_history {M : Made} {a : AccountId} {t : Option ProxyType} {m m' : Machine} {done : List (Sig × Call)}
    (hg : Guarded M a t m) (h : Without M a m done m') :
    Guarded M a t m' ∧ ∀ x ∈ done, x.1.signer = a → ∃ u, t = some u ∧ u.filter x.2 = true := by
  induction h with
  | start => exact ⟨hg, fun x hx => (List.not_mem_nil hx).elim⟩
  | more _ hs hw ih =>
    obtain ⟨h1, h2⟩ := ih
    obtain ⟨h3, h4⟩ := guarded_step h1 hs hw
    refine ⟨h3, fun x hx => ?_⟩
    rcases List.mem_append.1 hx with hx | hx
    · exact h2 x hx
    · exact h4 x hx

/-! ## The machine and `reached` -/

/-- Steps that leave the tables alone, with all that is dispatched. Part of the transition system around the code
(outside /repo). -/
inductive Quiet (M : Made) : Machine → List (Sig × Call) → Machine → Prop
  | start (m : Machine) : Quiet M m [] m
  | more {m m1 m2 : Machine} {done new : List (Sig × Call)} (hs : Step M none m m1 new) (ht : m1.tables = m.tables)
    (h : Quiet M m1 done m2) : Quiet M m (new ++ done) m2

theorem Changes.same (M : Made) (o : Sig) (c : Call) (T : Tables) : Changes M o c T T :=
  ⟨rfl, rfl, fun _ _ hd => .inl hd, fun _ _ h => .inl h⟩

theorem Quiet.trans {M : Made} {a b c : Machine} {x y : List (Sig × Call)} (h1 : Quiet M a x b) (h2 : Quiet M b y c) :
    Quiet M a (x ++ y) c := by
  induction h1 with
  | start m => exact h2
  | more hs ht _ ih =>
    rw [List.append_assoc]
    exact .more hs ht (ih h2)

/-- With constant tables the machine dispatches exactly what `reached` lists, in that order. -/
theorem quiet_reached (M : Made) (T : Tables) (o : Sig) (c : Call) :
    ∀ rest, Quiet M ⟨T, (o, c) :: rest⟩ (reached T o c) ⟨T, rest⟩ := by
  apply reached.induct T
    (motive1 := fun o c => ∀ rest, Quiet M ⟨T, (o, c) :: rest⟩ (reached T o c) ⟨T, rest⟩)
    (motive2 := fun o c => ∀ rest, Quiet M ⟨T, carried T o c ++ rest⟩ (inner T o c) ⟨T, rest⟩)
    (motive3 := fun o cs => ∀ rest, Quiet M ⟨T, (cs.map fun c => (o, c)) ++ rest⟩ (reachedAll T o cs) ⟨T, rest⟩)
  case case1 =>
    intro o c ha ih rest
    rw [reached, if_pos ha]
    exact .more (new := [(o, c)]) (.dispatched T T o c rest ha (.same M o c T)) rfl (ih rest)
  case case2 =>
    intro o c ha rest
    rw [reached, if_neg ha]
    exact .more (new := []) (.refused T o c rest (by simpa using ha)) rfl (.start _)
  case case3 =>
    intro o cs ih rest
    rw [inner, carried]
    exact ih rest
  case case4 =>
    intro o cs ih rest
    rw [inner, carried]
    exact ih rest
  case case5 =>
    intro o i c ih rest
    rw [inner, carried]
    exact ih rest
  case case6 =>
    intro o others c ih rest
    rw [inner, carried]
    exact ih rest
  case case7 =>
    intro o n others c ha ih rest
    rw [inner, carried, if_pos ha, if_pos ha]
    exact ih rest
  case case8 =>
    intro o n others c ha rest
    rw [inner, carried, if_neg ha, if_neg ha]
    exact .start _
  case case9 =>
    intro o real force c d hf h0 ih rest
    rw [inner, carried, hf]
    simp only [if_pos h0]
    exact ih rest
  case case10 =>
    intro o real force c d hf h0 rest
    rw [inner, carried, hf]
    simp only [if_neg h0]
    exact .start _
  case case11 =>
    intro o real force c hf rest
    rw [inner, carried, hf]
    exact .start _
  case case12 =>
    intro o delegate real force c d hf h0 ih rest
    rw [inner, carried, hf]
    simp only [if_pos h0]
    exact ih rest
  case case13 =>
    intro o delegate real force c d hf h0 rest
    rw [inner, carried, hf]
    simp only [if_neg h0]
    exact .start _
  case case14 =>
    intro o delegate real force c hf rest
    rw [inner, carried, hf]
    exact .start _
  case case15 =>
    intro o c id hf ih rest
    rw [inner, carried, hf]
    exact ih rest
  case case16 =>
    intro o c hf rest
    rw [inner, carried, hf]
    exact .start _
  case case17 =>
    intro o who c ha ih rest
    rw [inner, carried, if_pos ha, if_pos ha]
    exact ih rest
  case case18 =>
    intro o who c ha rest
    rw [inner, carried, if_neg ha, if_neg ha]
    exact .start _
  case case19 =>
    intro o c h1 h2 h3 h4 h5 h6 h7 h8 h9 rest
    rw [inner, carried] <;> first | assumption | exact .start _
  case case20 =>
    intro o rest
    rw [reachedAll]
    exact .start _
  case case21 =>
    intro o c cs ih1 ih2 rest
    rw [reachedAll]
    exact (ih1 _).trans (ih2 rest)

/-! ## C89 over histories -/

/-- C89, what holds over whole histories: if all proxies of an account are within a type, then whatever others do, in
however many and however nested calls, adding proxies as they go, nothing outside that type ever happens in the account's
name, until the account itself signs something. The account must be held by a key. -/
theorem C89_history_partial {M : Made} {T : Tables} {real : AccountId} {t : ProxyType}
    (hown : ∀ d ∈ T.proxies real, Covers t d.type) (hder : Underived M T real) (hpass : ∀ k, T.passAs k real = false)
    {done : List (Sig × Call)} {m : Machine} (h : Without M real ⟨T, []⟩ done m) {x : Sig × Call} (hx : x ∈ done)
    (hs : x.1.signer = real) : t.filter x.2 = true := by
  obtain ⟨_, h2⟩ := guarded_history (t := some t)
    ⟨hder, hpass, fun d hd => ⟨t, rfl, hown d hd⟩, fun x hx => (List.not_mem_nil hx).elim⟩ h
  obtain ⟨u, hu, hf⟩ := h2 x hx hs
  cases hu
  exact hf

/-- C89: nor does the account get a proxy outside that type. -/
theorem C89_proxies_partial {M : Made} {T : Tables} {real : AccountId} {t : ProxyType}
    (hown : ∀ d ∈ T.proxies real, Covers t d.type) (hder : Underived M T real) (hpass : ∀ k, T.passAs k real = false)
    {done : List (Sig × Call)} {m : Machine} (h : Without M real ⟨T, []⟩ done m) :
    ∀ d ∈ m.tables.proxies real, Covers t d.type := by
  obtain ⟨h1, _⟩ := guarded_history (t := some t)
    ⟨hder, hpass, fun d hd => ⟨t, rfl, hown d hd⟩, fun x hx => (List.not_mem_nil hx).elim⟩ h
  intro d hd
  obtain ⟨u, hu, hc⟩ := h1.proxies d hd
  cases hu
  exact hc

/-! ## C146: accounts that nobody signs for -/

/-- C146: in the name of an account without key, proxies and derivation, no call is ever dispatched, whatever calls come
in; and it never gets a proxy. -/
theorem C146_never_acts {M : Made} {T : Tables} {a : AccountId} (hnone : T.proxies a = []) (hder : Underived M T a)
    (hpass : ∀ k, T.passAs k a = false) {done : List (Sig × Call)} {m : Machine} (h : Without M a ⟨T, []⟩ done m) :
    (∀ x ∈ done, x.1.signer ≠ a) ∧ m.tables.proxies a = [] := by
  obtain ⟨h1, h2⟩ := guarded_history (t := none)
    ⟨hder, hpass, fun d hd => (by rw [show (⟨T, []⟩ : Machine).tables.proxies a = [] from hnone] at hd; cases hd),
      fun x hx => (List.not_mem_nil hx).elim⟩ h
  refine ⟨fun x hx he => ?_, ?_⟩
  · obtain ⟨u, hu, _⟩ := h2 x hx he
    cases hu
  · apply List.eq_nil_iff_forall_not_mem.2
    intro d hd
    obtain ⟨u, hu, _⟩ := h1.proxies d hd
    cases hu

/-- No hash of the chain hits the account: it is no derivative, multisig, pure proxy or pass account. Specification only,
no code behind it (outside /repo). -/
structure Unhashed (M : Made) (T : Tables) (a : AccountId) : Prop where
  derivative : ∀ b i, T.derivative b i ≠ a
  multiAccount : ∀ l n, T.multiAccount l n ≠ a
  pure : ∀ n, M.pure n ≠ a
  pass : ∀ n, M.pass n ≠ a

/-- The accounts the runtime keeps money in for itself: the treasury, the collators' pot, the payments pallet and XCM's
checking account. runtime/kreivo/src/lib.rs 402, 438; runtime/kreivo/src/payments.rs 14; runtime/kreivo/src/xcm_config.rs
(pallet_xcm's checking account). -/
def systemAccounts : List AccountId :=
  [treasuryAccount, palletAccount potPalletId [], palletAccount paymentPalletId [], palletAccount xcmCheckPalletId []]

/-- C146: this covers the accounts of the treasury, of the collators' pot, of the payments pallet and of XCM: as long as no
hash hits them and nobody has their key, no signed call is ever dispatched in their name. -/
theorem C146_system_accounts {M : Made} {T : Tables} {a : AccountId} (ha : a ∈ systemAccounts) (hnone : T.proxies a = [])
    (hder : Unhashed M T a) (hpass : ∀ k, T.passAs k a = false) {done : List (Sig × Call)} {m : Machine}
    (h : Without M a ⟨T, []⟩ done m) : (∀ x ∈ done, x.1.signer ≠ a) ∧ m.tables.proxies a = [] := by
  refine C146_never_acts hnone ⟨hder.derivative, hder.multiAccount, ?_, hder.pure, hder.pass⟩ hpass h
  intro id he
  obtain ⟨h1, h2, _, h3, h4⟩ := C61_not_system_account id []
  subst he
  simp only [systemAccounts, List.mem_cons, List.not_mem_nil, or_false] at ha
  rcases ha with ha | ha | ha | ha
  · exact h1 ha
  · exact h2 ha
  · exact h3 ha
  · exact h4 ha

/-- C146: for accounts of communities this is not so: whoever has the community's authority acts for it, as meant. -/
theorem C146_community_acts (M : Made) (T : Tables) (who : AccountId) (id : UInt16) (hw : who ≠ communityAccount id)
    (hc : T.community who = some id) (c : Call) (ha : (Sig.fresh (communityAccount id)).allows c = true) :
    ∃ done m, Without M (communityAccount id) ⟨T, []⟩ done m ∧ (.fresh (communityAccount id), c) ∈ done := by
  have h1 : Without M (communityAccount id) ⟨T, []⟩ [] ⟨T, [(.fresh who, .dispatchAsAccount c)]⟩ :=
    .more (new := []) (.start _) (.comes T who _ []) (fun he => hw (Option.some.inj he))
  have h2 : Without M (communityAccount id) ⟨T, []⟩ [(.fresh who, .dispatchAsAccount c)]
      ⟨T, [(.fresh (communityAccount id), c)]⟩ := by
    have := Without.more h1 (.dispatched T T (.fresh who) (.dispatchAsAccount c) [] (by rfl) (.same M _ _ T))
      (Option.some_ne_none _).symm
    have he : carried T (.fresh who) (.dispatchAsAccount c) = [(.fresh (communityAccount id), c)] := by
      rw [carried, show T.community (Sig.fresh who).signer = some id from hc]
    rw [he] at this
    exact this
  have h3 := Without.more h2 (.dispatched T T _ c [] ha (.same M _ _ T)) (Option.some_ne_none _).symm
  exact ⟨_, _, h3, by simp⟩

/-- Hashes for the example: they are all 32 times the byte 7. Example for non-vacuity (outside /repo). -/
def made0 : Made := ⟨fun _ => List.replicate 32 7, fun _ => List.replicate 32 7⟩

-- The hypotheses are met: Alice's proxies stay within `NonTransfer` while Bob adds Carol as a collator proxy for Alice.
example : (∀ d ∈ tables1.proxies alice, Covers .nonTransfer d.type) ∧ Underived made0 tables1 alice ∧
    (∀ k, tables1.passAs k alice = false) := by
  refine ⟨?_, ⟨fun _ _ h => absurd h (by decide +kernel : ([] : AccountId) ≠ alice),
    fun _ _ h => absurd h (by decide +kernel : ([] : AccountId) ≠ alice), ?_,
    fun _ h => absurd h (by decide +kernel : (List.replicate 32 7 : AccountId) ≠ alice),
    fun _ h => absurd h (by decide +kernel : (List.replicate 32 7 : AccountId) ≠ alice)⟩, fun _ => rfl⟩
  · intro d hd
    have : tables1.proxies alice = [⟨bob, .nonTransfer, 0⟩] := by decide +kernel
    rw [this] at hd
    cases List.mem_singleton.1 hd
    exact fun _ h => h
  · intro id h
    have := congrArg List.head? h
    rw [show (communityAccount id).head? = some 109 from rfl] at this
    exact absurd this (by decide +kernel)

-- And Bob does get something dispatched in Alice's name.
example : ∃ done m, Without made0 alice ⟨tables1, []⟩ done m ∧
    (⟨alice, some .nonTransfer, false⟩, Call.plain .vesting "vest") ∈ done := by
  have hf : findProxy tables1 alice bob none = some ⟨bob, .nonTransfer, 0⟩ := by decide +kernel
  have h1 : Without made0 alice ⟨tables1, []⟩ [] ⟨tables1, [(.fresh bob, .proxy alice none (.plain .vesting "vest"))]⟩ :=
    .more (new := []) (.start _) (.comes tables1 bob _ [])
      (fun he => absurd (Option.some.inj he) (by decide +kernel : bob ≠ alice))
  have h2 := Without.more h1 (.dispatched tables1 tables1 _ _ [] (by rfl) (.same made0 _ _ tables1))
    (Option.some_ne_none _).symm
  have he : carried tables1 (.fresh bob) (.proxy alice none (.plain .vesting "vest")) =
      [(⟨alice, some .nonTransfer, false⟩, .plain .vesting "vest")] := by
    rw [carried, show findProxy tables1 alice (Sig.fresh bob).signer none = some ⟨bob, .nonTransfer, 0⟩ from hf]
    rfl
  rw [he] at h2
  have h3 := Without.more h2 (.dispatched tables1 tables1 _ _ [] (by rfl) (.same made0 _ _ tables1))
    (Option.some_ne_none _).symm
  exact ⟨_, _, h3, by simp⟩

example : treasuryAccount ∈ systemAccounts ∧ tables1.proxies treasuryAccount = [] ∧ Unhashed made0 tables1 treasuryAccount :=
  ⟨List.mem_cons_self, by decide +kernel,
    fun _ _ h => absurd h (by decide +kernel : ([] : AccountId) ≠ treasuryAccount),
    fun _ _ h => absurd h (by decide +kernel : ([] : AccountId) ≠ treasuryAccount),
    fun _ h => absurd h (by decide +kernel : (List.replicate 32 7 : AccountId) ≠ treasuryAccount),
    fun _ h => absurd h (by decide +kernel : (List.replicate 32 7 : AccountId) ≠ treasuryAccount)⟩

end Verif.Runtime
