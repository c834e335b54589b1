import Verif.Communities.RegistryLemmas
import Verif.Accounts.Theorems

/-!
# Registration, administration and membership management (C40–C47, C58, C59, C62)

The statements use the pallet's storage (`info`, `adminOf`, `method`), its calls (`dispatch`) and the memberships of
the rest of the chain (`world.items`). "The history" is any sequence of `Steps`.
-/

namespace Verif.Communities

open Verif Verif.Accounts

/-! ## C40 -/

/-- C40: registering an id that exists fails, whichever way it is asked for, whatever the admin and the deposit. -/
theorem C40_duplicate_refused (env : Env) (s : St) (admin : Origin) (c : CId)
    (d : Option (Nat × AccountId × AccountId)) (h : s.info c ≠ none) :
    register env s admin c d = .error .communityAlreadyExists := by
  unfold register; rw [if_pos h]

theorem C40_duplicate_create_refused (cfg : Config) (env : Env) (s s' : St) (o admin : Origin) (c : CId)
    (h : s.info c ≠ none) : dispatch cfg env s o (.create admin c) ≠ .ok s' := by
  intro h1
  obtain ⟨d, s1, _, h2, _⟩ := create_ok h1
  rw [C40_duplicate_refused env s admin c d h] at h2
  cases h2

example : Demo.chain.info 1 ≠ none := by decide

/-- C40: once registered, a community stays registered in every later state. -/
theorem C40_never_unregistered (cfg : Config) (s s' : St) (h : Steps cfg s s') (c : CId) (hc : s.info c ≠ none) :
    s'.info c ≠ none := by
  revert hc
  refine along (R := fun a b => a.info c ≠ none → b.info c ≠ none) (fun _ h => h) (fun _ _ _ f g h => g (f h)) ?_ h
  intro s s' st hc
  cases step_move st with
  | same h1 h2 => rwa [h1]
  | registered admin d h1 h2 h3 h4 =>
    rw [h3]; dsimp only
    split
    · exact nofun
    · exact hc
  | admin o a d h1 h2 h3 => rwa [h2]
  | forced d st h1 h2 =>
    rw [h2]; dsimp only
    split
    · intro h; exact hc (by simpa using h)
    · exact hc

/-- C40: no call of any origin changes the state of a registered community, and a successful registration changes
only the id it registers. -/
theorem C40_calls_keep_state (cfg : Config) (env : Env) (s s' : St) (o : Origin) (call : Call)
    (h : dispatch cfg env s o call = .ok s') (c : CId) (hc : s.info c ≠ none) : s'.info c = s.info c := by
  cases dispatch_move h with
  | same h1 h2 => rw [h1]
  | registered admin d h1 h2 h3 h4 =>
    rw [h3]; dsimp only
    rw [if_neg]; rintro rfl; exact hc h1
  | admin o a d h1 h2 h3 => rw [h2]
  | forced d st h1 h2 =>
    -- the shape of a forced change cannot be ruled out by shape alone, so look at the call
    obtain ⟨o', leaf, hl, h⟩ := dispatch_leaf h
    cases leaf with
    | create admin e =>
      obtain ⟨_, s1, _, hr, rfl⟩ := create_ok h
      obtain ⟨g1, _, w, rfl, _⟩ := register_ok hr
      show (if c = e then _ else _) = _
      rw [if_neg]; rintro rfl; exact hc g1
    | setAdminOrigin admin => obtain ⟨_, _, _, rfl⟩ := setAdminOrigin_ok h; rfl
    | addMember a => obtain ⟨_, _, _, _, _, _, _, _, _, rfl⟩ := addMember_ok h; rfl
    | removeMember a m => obtain ⟨_, _, _, _, _, _, _, rfl⟩ := removeMember_ok h; rfl
    | promote m => obtain ⟨_, _, _, _, rfl⟩ := promote_ok h; rfl
    | demote m => obtain ⟨_, _, _, _, rfl⟩ := demote_ok h; rfl
    | setDecisionMethod c dm => obtain ⟨_, _, _, rfl⟩ := setDecisionMethod_ok h; rfl
    | vote m p v => rw [(vote_registry h).1]
    | removeVote m p => rw [(removeVote_registry h).1]
    | unlock p => rw [(unlock_registry h).1]
    | dispatchAsAccount i => exact absurd rfl (hl i)
    | foreign n =>
      rw [dispatch] at h
      split at h
      · cases h
      · cases h; rfl

/-- C40, over whole histories: at most one registration of an id ever succeeds. -/
theorem C40_registered_once (cfg : Config) (s s1 s2 : St) (env env' : Env) (admin admin' : Origin) (c : CId)
    (d d' : Option (Nat × AccountId × AccountId)) (h1 : register env s admin c d = .ok s1) (h : Steps cfg s1 s2) :
    register env' s2 admin' c d' = .error .communityAlreadyExists := by
  obtain ⟨_, _, w, rfl, _⟩ := register_ok h1
  refine C40_duplicate_refused env' s2 admin' c d' (C40_never_unregistered cfg _ _ h c ?_)
  simp

example : ∃ s1, register Demo.env Demo.start (.signed Demo.alice) 1 none = .ok s1 := ⟨_, rfl⟩

/-! ## C41 -/

/-- C41: in every reachable state an admin origin's community exists, and no two origins administer the same one. -/
theorem C41_one_admin (cfg : Config) (s : St) (h : Reachable cfg s) :
    (∀ o c, s.adminOf o = some c → s.info c ≠ none) ∧
    (∀ o o' c, s.adminOf o = some c → s.adminOf o' = some c → o = o') := by
  refine invariant (I := fun s => (∀ o c, s.adminOf o = some c → s.info c ≠ none) ∧
    (∀ o o' c, s.adminOf o = some c → s.adminOf o' = some c → o = o')) ?_ ?_ h
  · intro s hg
    refine ⟨?_, ?_⟩
    · intro o c h; rw [hg.2.1 o] at h; cases h
    · intro o o' c h; rw [hg.2.1 o] at h; cases h
  · rintro s s' ⟨i1, i2⟩ st
    cases step_move st with
    | same h1 h2 => rw [h1, h2]; exact ⟨i1, i2⟩
    | registered admin d h1 h2 h3 h4 =>
      rw [h3, h4]
      refine ⟨?_, ?_⟩
      · intro o c h
        dsimp only at h ⊢
        by_cases e : o = admin
        · rw [if_pos e] at h; cases h; simp
        · rw [if_neg e] at h
          split
          · exact nofun
          · exact i1 o c h
      · intro o o' c h h'
        dsimp only at h h'
        by_cases e : o = admin <;> by_cases e' : o' = admin
        · rw [e, e']
        · rw [if_pos e] at h; rw [if_neg e'] at h'; cases h; exact absurd h1 (i1 _ _ h')
        · rw [if_neg e] at h; rw [if_pos e'] at h'; cases h'; exact absurd h1 (i1 _ _ h)
        · rw [if_neg e] at h; rw [if_neg e'] at h'; exact i2 o o' c h h'
    | admin q a d h1 h2 h3 =>
      rw [h2, h3]
      refine ⟨?_, ?_⟩
      · intro o c h
        dsimp only at h
        by_cases e : o = a
        · rw [if_pos e] at h; cases h; exact i1 q _ h1
        · rw [if_neg e] at h
          by_cases e2 : o = q
          · rw [if_pos e2] at h; cases h
          · rw [if_neg e2] at h; exact i1 o c h
      · intro o o' c h h'
        dsimp only at h h'
        by_cases e : o = a <;> by_cases e' : o' = a
        · rw [e, e']
        · rw [if_pos e] at h; rw [if_neg e'] at h'; cases h
          by_cases e2 : o' = q
          · rw [if_pos e2] at h'; cases h'
          · rw [if_neg e2] at h'; exact absurd (i2 o' q _ h' h1) e2
        · rw [if_neg e] at h; rw [if_pos e'] at h'; cases h'
          by_cases e2 : o = q
          · rw [if_pos e2] at h; cases h
          · rw [if_neg e2] at h; exact absurd (i2 o q _ h h1) e2
        · rw [if_neg e] at h; rw [if_neg e'] at h'
          by_cases e2 : o = q
          · rw [if_pos e2] at h; cases h
          · by_cases e3 : o' = q
            · rw [if_pos e3] at h'; cases h'
            · rw [if_neg e2] at h; rw [if_neg e3] at h'; exact i2 o o' c h h'
    | forced d st h1 h2 =>
      rw [h1, h2]
      refine ⟨?_, i2⟩
      intro o c h
      dsimp only
      split
      · intro h3; exact i1 o c h (by simpa using h3)
      · exact i1 o c h

example (cfg : Config) : ∃ s, Reachable cfg s ∧ s.adminOf (.signed Demo.bob) = some 2 :=
  ⟨Demo.chain, Demo.chain_reachable cfg, by decide⟩

/-! ## C42 -/

/-- C42, the part that holds: when the new admin does not administer another community yet, a change of admin moves
exactly the caller's community to the new admin and leaves every other origin and community alone. -/
theorem C42_isolated_partial (cfg : Config) (env : Env) (s s' : St) (o admin : Origin)
    (h : dispatch cfg env s o (.setAdminOrigin admin) = .ok s') (hn : s.adminOf admin = none ∨ admin = o) :
    ∃ c, s.adminOf o = some c ∧ s'.adminOf admin = some c ∧ (admin ≠ o → s'.adminOf o = none) ∧
      (∀ x, x ≠ o → x ≠ admin → s'.adminOf x = s.adminOf x) ∧
      (∀ d, d ≠ c → ∀ x, s'.adminOf x = some d ↔ s.adminOf x = some d) := by
  obtain ⟨c, _, h2, rfl⟩ := setAdminOrigin_ok h
  refine ⟨c, h2, by simp [emit], ?_, ?_, ?_⟩
  · intro hne; simp [emit, Ne.symm hne]
  · intro x h1 h3; simp [emit, h1, h3]
  · intro d hd x
    show (if x = admin then some c else if x = o then none else s.adminOf x) = some d ↔ _
    by_cases e : x = admin
    · rw [if_pos e, e]
      rcases hn with hn | hn
      · rw [hn]; simp; exact fun h => hd h.symm
      · rw [hn, h2]
    · rw [if_neg e]
      by_cases e2 : x = o
      · rw [if_pos e2, e2, h2]; simp; exact fun h => hd h.symm
      · rw [if_neg e2]

/-- C42, what a change of admin does in every case: the new admin administers the caller's community, the caller no longer
does, all other origins are left alone. So a community other than the caller's loses its admin exactly when that admin is
the one named. -/
theorem C42_exact (cfg : Config) (env : Env) (s s' : St) (o admin : Origin)
    (h : dispatch cfg env s o (.setAdminOrigin admin) = .ok s') :
    ∃ c, s.adminOf o = some c ∧ (∀ x, s'.adminOf x = if x = admin then some c else if x = o then none else s.adminOf x) ∧
      ∀ d x, d ≠ c → s.adminOf x = some d → (s'.adminOf x ≠ some d ↔ x = admin) := by
  obtain ⟨c, _, h2, rfl⟩ := setAdminOrigin_ok h
  refine ⟨c, h2, fun x => rfl, fun d x hd hx => ?_⟩
  show (if x = admin then some c else if x = o then none else s.adminOf x) ≠ some d ↔ _
  by_cases e : x = admin
  · rw [if_pos e]; simp [e]; exact fun h => hd h.symm
  · have e2 : x ≠ o := by rintro rfl; rw [h2] at hx; cases hx; exact hd rfl
    rw [if_neg e, if_neg e2, hx]; simp [e]

/-- C42 fails: naming the admin of another community as one's own admin leaves that other community without any
admin. From a reachable state of the Kreivo configuration: alice's call takes community 2 away from bob. -/
theorem C42_isolated_fails :
    ∃ (s s' : St), Reachable kreivo s ∧
      dispatch kreivo Demo.env s (.signed Demo.alice) (.setAdminOrigin (.signed Demo.bob)) = .ok s' ∧
      s.adminOf (.signed Demo.alice) = some 1 ∧ s.adminOf (.signed Demo.bob) = some 2 ∧
      ∀ x, s'.adminOf x ≠ some 2 := by
  refine ⟨Demo.chain, _, Demo.chain_reachable _, rfl, by decide, by decide, ?_⟩
  intro x
  show (if x = _ then _ else if x = _ then _ else Demo.chain.adminOf x) ≠ some 2
  by_cases e : x = .signed Demo.bob
  · rw [if_pos e]; decide
  · rw [if_neg e]
    by_cases e2 : x = .signed Demo.alice
    · rw [if_pos e2]; exact nofun
    · rw [if_neg e2]; simp [Demo.chain, e, e2]

example : ∃ s', dispatch kreivo Demo.env Demo.chain (.signed Demo.alice) (.setAdminOrigin (.signed Demo.charlie)) = .ok s' ∧
    Demo.chain.adminOf (.signed Demo.charlie) = none := ⟨_, rfl, by decide⟩

/-! ## C43 -/

/-- C43: what a successful registration does with money. With a deposit `n` from `src` to `dst` the source had it,
and exactly `n` moves; with no deposit no balance changes. The new community is active and administered by `admin`. -/
theorem C43_exact_deposit (env : Env) (s s' : St) (admin : Origin) (c : CId)
    (d : Option (Nat × AccountId × AccountId)) (h : register env s admin c d = .ok s') :
    s'.info c = some .active ∧ s'.adminOf admin = some c ∧ s'.world.asset = s.world.asset ∧
    match d with
    | none => s'.world.native = s.world.native
    | some (n, src, dst) => n ≤ s.world.native src ∧
        (src ≠ dst → s'.world.native src + n = s.world.native src ∧ s'.world.native dst = s.world.native dst + n) ∧
        (src = dst → s'.world.native src = s.world.native src) ∧
        ∀ a, a ≠ src → a ≠ dst → s'.world.native a = s.world.native a := by
  unfold register at h
  split at h
  · cases h
  split at h
  · cases h
  obtain ⟨s1, h1, h2⟩ := bind_ok h
  cases h2
  cases d with
  | none => cases h1; simp
  | some x =>
    obtain ⟨n, src, dst⟩ := x
    obtain ⟨g1, bal, rfl, g2⟩ := transferNative_ok h1
    refine ⟨by simp, by simp, rfl, g1, ?_, ?_, ?_⟩
    · intro hne
      show bal src + n = _ ∧ bal dst = _
      rw [g2 src, g2 dst, if_neg hne, if_pos rfl, if_pos rfl, if_neg (Ne.symm hne)]
      omega
    · rintro rfl
      show bal src = _
      rw [g2 src, if_pos rfl, if_pos rfl]; omega
    · intro a ha hb
      show bal a = _
      rw [g2 a, if_neg hb, if_neg ha]

/-- C43: a registration is refused when the depositor cannot pay. (Any refused call leaves no state behind.) -/
theorem C43_unpaid_refused (env : Env) (s s' : St) (admin : Origin) (c : CId) (n : Nat) (src dst : AccountId)
    (h : s.world.native src < n) : register env s admin c (some (n, src, dst)) ≠ .ok s' := by
  intro h1
  have := (C43_exact_deposit env s s' admin c _ h1).2.2.2.1
  omega

example : ∃ s', register Demo.env Demo.start (.signed Demo.alice) 1 (some (500, Demo.bob, Demo.charlie)) = .ok s' ∧
    s'.world.native Demo.bob = 500 ∧ s'.world.native Demo.charlie = 1500 := ⟨_, rfl, by decide, by decide⟩

/-! ## C44 -/

/-- What the membership calls and nested dispatch may touch: only memberships of the group, and the memberships in the
custody of the group's own account. Registry, votes, locks and balances stay. -/
structure OnlyMembersOf (c : CId) (s s' : St) : Prop where
  info : s'.info = s.info
  admins : s'.adminOf = s.adminOf
  methods : s'.method = s.method
  votes : s'.votes = s.votes
  locks : s'.locks = s.locks
  polls : s'.world.polls = s.world.polls
  native : s'.world.native = s.world.native
  asset : s'.world.asset = s.world.asset
  others : ∀ i : Item, i.group ≠ c → i.owner ≠ communityAccount c → (i ∈ s'.world.items ↔ i ∈ s.world.items)

/-- C44: a successful member-management call comes from an origin with authority over some community, and only that
community's memberships change. -/
theorem C44_only_own_members (cfg : Config) (env : Env) (he : MgmtLaws env) (s s' : St) (o : Origin) (call : Call)
    (hc : (∃ a, call = .addMember a) ∨ (∃ a m, call = .removeMember a m) ∨ (∃ m, call = .promote m) ∨
      (∃ m, call = .demote m))
    (h : dispatch cfg env s o call = .ok s') :
    ∃ c, authority cfg s o = some c ∧ OnlyMembersOf c s s' := by
  rcases hc with ⟨a, rfl⟩ | ⟨a, m, rfl⟩ | ⟨m, rfl⟩ | ⟨m, rfl⟩
  · obtain ⟨c, who, g, m, items, h1, _, _, h4, rfl⟩ := addMember_ok h
    exact ⟨c, h1, rfl, rfl, rfl, rfl, rfl, rfl, rfl, rfl, fun i hg ho => he.assign_others h4 i hg ho⟩
  · obtain ⟨c, who, items, h1, _, _, h4, rfl⟩ := removeMember_ok h
    exact ⟨c, h1, rfl, rfl, rfl, rfl, rfl, rfl, rfl, rfl, fun i hg ho => he.release_others h4 i (.inl hg) ho⟩
  · obtain ⟨c, r, h1, _, rfl⟩ := promote_ok h
    exact ⟨c, h1, rfl, rfl, rfl, rfl, rfl, rfl, rfl, rfl, fun i hg _ => mem_setRank_other i (.inl hg)⟩
  · obtain ⟨c, r, h1, _, rfl⟩ := demote_ok h
    exact ⟨c, h1, rfl, rfl, rfl, rfl, rfl, rfl, rfl, rfl, fun i hg _ => mem_setRank_other i (.inl hg)⟩

/-- C44: without authority over any community these calls are refused. -/
theorem C44_strangers_refused (cfg : Config) (env : Env) (s : St) (o : Origin) (call : Call)
    (hc : (∃ a, call = .addMember a) ∨ (∃ a m, call = .removeMember a m) ∨ (∃ m, call = .promote m) ∨
      (∃ m, call = .demote m) ∨ (∃ i, call = .dispatchAsAccount i))
    (h : authority cfg s o = none) : dispatch cfg env s o call = .error .badOrigin := by
  rcases hc with ⟨a, rfl⟩ | ⟨a, m, rfl⟩ | ⟨m, rfl⟩ | ⟨m, rfl⟩ | ⟨i, rfl⟩ <;>
    simp only [dispatch, addMember, removeMember, promote, demote, h]

/-- C44: what `add_member` achieves: the named account becomes a member of the caller's community. -/
theorem C44_added (cfg : Config) (env : Env) (he : MgmtLaws env) (s s' : St) (o : Origin) (a : Address) (c : CId)
    (ha : authority cfg s o = some c) (h : dispatch cfg env s o (.addMember a) = .ok s') :
    ∃ who, lookup a = some who ∧ isMemberOf s'.world.items c who = true := by
  obtain ⟨c', who, g, m, items, h1, h2, _, h4, rfl⟩ := addMember_ok h
  rw [ha] at h1; cases h1
  obtain ⟨i, hi, h5, h6, h7⟩ := he.assigned h4
  refine ⟨who, h2, List.any_eq_true.2 ⟨i, hi, ?_⟩⟩
  simp [h5, h7]

example : MgmtLaws Demo.env ∧
    ∃ s', dispatch kreivo Demo.env Demo.chain (.signed Demo.alice) (.addMember (.id Demo.charlie)) = .ok s' ∧
      isMemberOf Demo.chain.world.items 1 Demo.charlie = false := ⟨Demo.env_laws, _, rfl, by decide⟩
example : authority kreivo Demo.chain (.signed Demo.charlie) = none := by decide
example : authority kreivo Demo.chain (.signed Demo.alice) = some 1 := by decide

/-! ## C45 -/

/-- C45, the part that holds: only an origin with authority over some registered community's name can set a decision
method, and exactly the named community's method changes. Missing: that it must be the *named* community's admin. -/
theorem C45_needs_some_authority_partial (cfg : Config) (env : Env) (s s' : St) (o : Origin) (c : CId) (dm : Method)
    (h : dispatch cfg env s o (.setDecisionMethod c dm) = .ok s') :
    authority cfg s o ≠ none ∧ s'.method c = dm ∧ (∀ d, d ≠ c → s'.method d = s.method d) ∧
    s'.info = s.info ∧ s'.adminOf = s.adminOf ∧ s'.votes = s.votes ∧ s'.locks = s.locks := by
  obtain ⟨⟨d, hd⟩, mins, teams, rfl⟩ := setDecisionMethod_ok h
  refine ⟨by simp [hd], by simp [emit], ?_, rfl, rfl, rfl, rfl⟩
  intro d hd; simp [emit, hd]

/-- C45: no other call changes any decision method. -/
theorem C45_no_other_call (cfg : Config) (env : Env) (s s' : St) (o : Origin) (call : Call) (c : CId)
    (h : dispatch cfg env s o call = .ok s') (hm : s'.method c ≠ s.method c) :
    ∃ o' dm, authority cfg s o' ≠ none ∧ dispatch cfg env s o' (.setDecisionMethod c dm) = .ok s' := by
  obtain ⟨o', leaf, hl, h⟩ := dispatch_leaf h
  cases leaf with
  | create admin e =>
    obtain ⟨_, s1, _, hr, rfl⟩ := create_ok h
    obtain ⟨_, _, w, rfl, _⟩ := register_ok hr
    exact absurd rfl hm
  | setAdminOrigin admin => obtain ⟨_, _, _, rfl⟩ := setAdminOrigin_ok h; exact absurd rfl hm
  | addMember a => obtain ⟨_, _, _, _, _, _, _, _, _, rfl⟩ := addMember_ok h; exact absurd rfl hm
  | removeMember a m => obtain ⟨_, _, _, _, _, _, _, rfl⟩ := removeMember_ok h; exact absurd rfl hm
  | promote m => obtain ⟨_, _, _, _, rfl⟩ := promote_ok h; exact absurd rfl hm
  | demote m => obtain ⟨_, _, _, _, rfl⟩ := demote_ok h; exact absurd rfl hm
  | setDecisionMethod d dm =>
    have h0 := C45_needs_some_authority_partial cfg env s s' o' d dm h
    have : d = c := by
      by_contra hne
      exact hm (h0.2.2.1 c (Ne.symm hne))
    subst this
    exact ⟨o', dm, h0.1, h⟩
  | vote m p v => rw [(vote_registry h).2.2.1] at hm; exact absurd rfl hm
  | removeVote m p => rw [(removeVote_registry h).2.2.1] at hm; exact absurd rfl hm
  | unlock p => rw [(unlock_registry h).2.2.1] at hm; exact absurd rfl hm
  | dispatchAsAccount i => exact absurd rfl (hl i)
  | foreign n =>
    rw [dispatch] at h
    split at h
    · cases h
    · cases h; exact absurd rfl hm

/-- C45 fails: on Kreivo's configuration, from a reachable state, alice — admin of community 1 only — changes how
community 2 decides. -/
theorem C45_own_admin_fails :
    ∃ (s s' : St), Reachable kreivo s ∧
      dispatch kreivo Demo.env s (.signed Demo.alice) (.setDecisionMethod 2 .native) = .ok s' ∧
      authority kreivo s (.signed Demo.alice) = some 1 ∧ s.adminOf (.signed Demo.bob) = some 2 ∧
      s.method 2 = .membership ∧ s'.method 2 = .native :=
  ⟨Demo.chain, _, Demo.chain_reachable _, rfl, by decide, by decide, rfl, by decide⟩

/-! ## C46 -/

/-- C46, the part that holds: the named account was a member of the caller's community, the membership removed was one
of that community's, and it is gone afterwards. Missing: that the membership belonged to the named account. -/
theorem C46_released_partial (cfg : Config) (env : Env) (he : MgmtLaws env) (s s' : St) (o : Origin) (a : Address)
    (m : MId) (h : dispatch cfg env s o (.removeMember a m) = .ok s') :
    ∃ c who, authority cfg s o = some c ∧ lookup a = some who ∧ isMemberOf s.world.items c who = true ∧
      (c ≠ 0 → (∃ i ∈ s.world.items, i.group = c ∧ i.id = m) ∧ ∀ i ∈ s'.world.items, ¬ (i.group = c ∧ i.id = m)) ∧
      ∀ i : Item, i.group = c → i.id ≠ m → i.owner ≠ communityAccount c →
        (i ∈ s'.world.items ↔ i ∈ s.world.items) := by
  obtain ⟨c, who, items, h1, h2, h3, h4, rfl⟩ := removeMember_ok h
  exact ⟨c, who, h1, h2, h3, fun hc => he.released h4 hc,
    fun i _ hm ho => he.release_others h4 i (.inr hm) ho⟩

/-- C46 fails: naming alice but giving bob's membership id takes bob's membership away, keeps alice's, and reports
that alice was removed. -/
theorem C46_named_member_fails :
    ∃ (s s' : St), Reachable kreivo s ∧ MgmtLaws Demo.env ∧
      dispatch kreivo Demo.env s (.signed Demo.alice) (.removeMember (.id Demo.alice) 2) = .ok s' ∧
      checkMembership s.world.items Demo.bob 2 = some 1 ∧ checkMembership s.world.items Demo.alice 2 = none ∧
      isMemberOf s'.world.items 1 Demo.bob = false ∧ isMemberOf s'.world.items 1 Demo.alice = true ∧
      s'.events.head? = some (.memberRemoved Demo.alice 2) :=
  ⟨Demo.chain, _, Demo.chain_reachable _, Demo.env_laws, rfl, by decide, by decide, by decide, by decide, rfl⟩

/-! ## C47 -/

/-- C47, promotion: the stored rank goes up by one, or stays at 255, and the event carries the stored rank; no other
membership changes rank. -/
theorem C47_promote (cfg : Config) (env : Env) (s s' : St) (o : Origin) (m : MId)
    (h : dispatch cfg env s o (.promote m) = .ok s') :
    ∃ c r r', authority cfg s o = some c ∧ rankOf s.world.items c m = some r ∧
      rankOf s'.world.items c m = some r' ∧ r'.toNat = min 255 (r.toNat + 1) ∧
      s'.events = .rankUpdated m r' :: s.events ∧
      ∀ d n, (d ≠ c ∨ n ≠ m) → rankOf s'.world.items d n = rankOf s.world.items d n := by
  obtain ⟨c, r, h1, h2, rfl⟩ := promote_ok h
  refine ⟨c, r, promoteRank r, h1, h2, rankOf_setRank_self _ h2, ?_, rfl, fun d n hd => rankOf_setRank_ne _ hd⟩
  clear h h1 h2
  unfold promoteRank
  split
  · rename_i e; subst e; rfl
  · rename_i e
    have h3 : r.toNat < 255 := by
      have h4 : r.toNat < 256 := r.toNat_lt
      have h5 : r.toNat ≠ 255 := fun h => e (UInt8.toNat_inj.1 h)
      omega
    rw [UInt8.toNat_add]; simp; omega

/-- C47, demotion: the stored rank goes down by one, or stays at 0; no other membership changes rank. Missing: the
event carries the rank before the change. -/
theorem C47_demote_partial (cfg : Config) (env : Env) (s s' : St) (o : Origin) (m : MId)
    (h : dispatch cfg env s o (.demote m) = .ok s') :
    ∃ c r r', authority cfg s o = some c ∧ rankOf s.world.items c m = some r ∧
      rankOf s'.world.items c m = some r' ∧ r'.toNat = r.toNat - 1 ∧
      s'.events = .rankUpdated m r :: s.events ∧
      ∀ d n, (d ≠ c ∨ n ≠ m) → rankOf s'.world.items d n = rankOf s.world.items d n := by
  obtain ⟨c, r, h1, h2, rfl⟩ := demote_ok h
  refine ⟨c, r, demoteRank r, h1, h2, rankOf_setRank_self _ h2, ?_, rfl, fun d n hd => rankOf_setRank_ne _ hd⟩
  unfold demoteRank
  split
  · rename_i e; subst e; rfl
  · rename_i e
    have h3 : 0 < r.toNat := by
      have h5 : r.toNat ≠ 0 := fun h => e (UInt8.toNat_inj.1 h)
      omega
    have : (1 : UInt8) ≤ r := by rw [UInt8.le_iff_toNat_le]; exact h3
    rw [UInt8.toNat_sub_of_le _ _ this]; rfl

/-- C47 fails for demotion's event: bob goes from rank 4 to 3 and the event says 4. -/
theorem C47_demote_event_fails :
    ∃ (s s' : St), Reachable kreivo s ∧ dispatch kreivo Demo.env s (.signed Demo.alice) (.demote 2) = .ok s' ∧
      rankOf s'.world.items 1 2 = some 3 ∧ s'.events.head? = some (.rankUpdated 2 4) :=
  ⟨Demo.chain, _, Demo.chain_reachable _, rfl, by decide, rfl⟩

example : ∃ s', dispatch kreivo Demo.env Demo.chain (.signed Demo.alice) (.promote 2) = .ok s' ∧
    rankOf s'.world.items 1 2 = some 5 := ⟨_, rfl, by decide⟩

/-! ## C58, C59 -/

/-- C58, the part that holds: while a community is blocked (or not registered), neither its own origin nor its admin
is accepted. Missing: on Kreivo its account still is. -/
theorem C58_blocked_partial (cfg : Config) (s : St) (o : Origin) (c : CId) (h : s.info c ≠ some .active)
    (ho : ∀ a, o = .signed a → cfg.accountCommunity a ≠ some c) : authority cfg s o ≠ some c := by
  intro ha
  unfold authority at ha
  cases hE : ensureCommunity s o with
  | some d =>
    rw [hE] at ha
    cases ha
    unfold ensureCommunity at hE
    split at hE
    · cases hE
    · cases hE
    · dsimp only at hE
      split at hE
      · cases hE
      · split at hE
        · rename_i h3; cases hE; exact h h3
        · cases hE
  | none =>
    rw [hE] at ha
    cases o with
    | signed a => exact ho a rfl (by simpa using ha)
    | _ => simp at ha

/-- C58 fails: a blocked community's account is still accepted, so it can, for one, promote its members. -/
theorem C58_blocked_fails :
    ∃ (s s' : St), Reachable kreivo s ∧ s.info 1 = some .blocked ∧
      authority kreivo s (.signed (communityAccount 1)) = some 1 ∧
      dispatch kreivo Demo.env s (.signed (communityAccount 1)) (.promote 2) = .ok s' :=
  ⟨forceState Demo.chain 1 .blocked, _, (Demo.chain_reachable _).step (.force 1 .blocked), by decide, by decide, rfl⟩

/-- C58 fails even for communities that do not exist: the account of an unregistered community is an authority. -/
theorem C58_unregistered_fails :
    ∃ s : St, Reachable kreivo s ∧ s.info 77 = none ∧ authority kreivo s (.signed (communityAccount 77)) = some 77 :=
  ⟨Demo.chain, Demo.chain_reachable _, by decide, by decide⟩

example : (forceState Demo.chain 1 .blocked).info 1 ≠ some .active ∧
    authority kreivo (forceState Demo.chain 1 .blocked) (.signed Demo.alice) = none := by decide

/-- C59, what is accepted, exactly: an origin speaks for `c` iff it is an active community's own origin (the whole
community or a part of it), its registered admin, or an account the configuration reads as `c` (signed by an account
that does not administer an active community). -/
theorem C59_authority_partial (cfg : Config) (s : St) (o : Origin) (c : CId) :
    authority cfg s o = some c ↔
      (s.info c = some .active ∧ ((∃ x, o = .community x ∧ x.community = c) ∨
        (s.adminOf o = some c ∧ o ≠ .root ∧ o ≠ .none ∧ ∀ x, o ≠ .community x))) ∨
      (∃ a, o = .signed a ∧ cfg.accountCommunity a = some c ∧
        ∀ d, s.adminOf o = some d → s.info d ≠ some .active) := by
  unfold authority ensureCommunity
  cases o with
  | root => simp
  | none => simp
  | community x =>
    dsimp only
    by_cases h : s.info x.community = some .active
    · rw [if_pos h]
      simp
      rintro rfl; exact h
    · rw [if_neg h]
      simp
      intro h2 h3; subst h3; exact h h2
  | signed a =>
    dsimp only
    cases hA : s.adminOf (.signed a) with
    | none => simp
    | some d =>
      dsimp only
      by_cases h : s.info d = some .active
      · rw [if_pos h]
        simp
        constructor
        · rintro rfl; exact .inl ⟨h, rfl⟩
        · rintro (⟨_, rfl⟩ | ⟨_, h2⟩)
          · rfl
          · exact absurd h h2
      · rw [if_neg h]
        simp
        constructor
        · intro h2; exact .inr ⟨h2, h⟩
        · rintro (⟨h2, rfl⟩ | ⟨h2, _⟩)
          · exact absurd h2 h
          · exact h2
  | _ =>
    dsimp only
    split
    · rename_i h1; simp [h1]
    · rename_i d h1
      by_cases h : s.info d = some .active
      · rw [if_pos h]; simp [h1]
        rintro rfl; exact h
      · rw [if_neg h]; simp [h1]
        rintro h2 rfl; exact h h2

/-- C59: on Kreivo the authorities among accounts that administer nothing are exactly the accounts laid out as some
pallet's sub-account for `c`; the community's own account is one of them. -/
theorem C59_kreivo_accounts_partial (s : St) (a : AccountId) (c : CId) (hn : s.adminOf (.signed a) = none) :
    (authority kreivo s (.signed a) = some c ↔ accountToCommunityId a = some c) ∧
    authority kreivo s (.signed (communityAccount c)) ≠ none := by
  refine ⟨?_, ?_⟩
  · rw [C59_authority_partial]
    simp [hn, kreivo]
  · have h0 : accountToCommunityId (communityAccount c) = some c := (C60_reversible c).2
    cases h : authority kreivo s (.signed (communityAccount c)) with
    | some d => exact nofun
    | none =>
      unfold authority at h
      simp [kreivo, h0] at h

/-- C59 fails: the treasury's account, which is no community's account, is accepted as community 0, and any pallet's
account would be. -/
theorem C59_own_community_fails :
    ∃ s : St, Reachable kreivo s ∧ authority kreivo s (.signed treasuryAccount) = some 0 ∧
      ∀ c, treasuryAccount ≠ communityAccount c := by
  refine ⟨Demo.chain, Demo.chain_reachable _, by decide +kernel, ?_⟩
  intro c
  exact fun h => (C61_not_system_account c []).1 h.symm

/-- C59 fails in a second way: a part of a community — here a single member's voice — has the whole community's
authority. -/
theorem C59_subset_fails :
    ∃ s : St, Reachable kreivo s ∧ authority kreivo s (.community ⟨1, some (.member 1)⟩) = some 1 :=
  ⟨Demo.chain, Demo.chain_reachable _, by decide⟩

example : authority kreivo Demo.chain (.community ⟨1, none⟩) = some 1 ∧
    authority kreivo Demo.chain (.signed Demo.bob) = some 2 ∧
    authority kreivo Demo.chain .root = none := by decide

/-! ## C62 -/

/-- C62: `dispatch_as_account` is refused without authority, and otherwise is the nested call signed by the account
of the community the caller speaks for, with the same outcome. -/
theorem C62_signed_by_own_community (cfg : Config) (env : Env) (s : St) (o : Origin) (call : Call) :
    (authority cfg s o = none → dispatch cfg env s o (.dispatchAsAccount call) = .error .badOrigin) ∧
    ∀ c, authority cfg s o = some c →
      dispatch cfg env s o (.dispatchAsAccount call) = dispatch cfg env s (.signed (communityAccount c)) call := by
  constructor
  · intro h; rw [dispatch, h]
  · intro c h; rw [dispatch, h]

/-- C62: a failing nested call fails the whole call. -/
theorem C62_failure_returned (cfg : Config) (env : Env) (s : St) (o : Origin) (call : Call) (c : CId) (e : Err)
    (ha : authority cfg s o = some c) (h : dispatch cfg env s (.signed (communityAccount c)) call = .error e) :
    dispatch cfg env s o (.dispatchAsAccount call) = .error e := by
  rw [(C62_signed_by_own_community cfg env s o call).2 c ha, h]

/-- `n` nested `dispatch_as_account`. -/
def nested : Nat → Call → Call
  | 0, call => call
  | n + 1, call => .dispatchAsAccount (nested n call)

/-- C62: however deep the nesting, what takes effect is a plain call signed by the account of some community. -/
theorem C62_leaf_signer (cfg : Config) (env : Env) (s s' : St) (o : Origin) (call : Call)
    (h : dispatch cfg env s o (.dispatchAsAccount call) = .ok s') :
    ∃ c leaf, (∀ inner, leaf ≠ .dispatchAsAccount inner) ∧
      dispatch cfg env s (.signed (communityAccount c)) leaf = .ok s' := by
  induction call generalizing o with
  | dispatchAsAccount inner ih =>
    rw [dispatch] at h
    split at h
    · cases h
    · exact ih _ h
  | _ =>
    rw [dispatch] at h
    split at h
    · cases h
    · rename_i c _
      refine ⟨c, _, ?_, h⟩
      intro i e; cases e

/-- C62: and of the caller's own community when that community's account does not administer another one. -/
theorem C62_nested (cfg : Config) (env : Env) (s s' : St) (o : Origin) (call : Call) (n : Nat) (c : CId)
    (ha : authority cfg s o = some c) (hc : authority cfg s (.signed (communityAccount c)) = some c)
    (h : dispatch cfg env s o (nested (n + 1) call) = .ok s') :
    dispatch cfg env s (.signed (communityAccount c)) call = .ok s' := by
  induction n generalizing o with
  | zero =>
    rw [show nested (0 + 1) call = .dispatchAsAccount call from rfl,
      (C62_signed_by_own_community cfg env s o call).2 c ha] at h
    exact h
  | succ n ih =>
    rw [show nested (n + 1 + 1) call = .dispatchAsAccount (nested (n + 1) call) from rfl,
      (C62_signed_by_own_community cfg env s o _).2 c ha] at h
    exact ih _ hc h

example : authority kreivo Demo.chain (.signed Demo.alice) = some 1 ∧
    authority kreivo Demo.chain (.signed (communityAccount 1)) = some 1 ∧
    ∃ s', dispatch kreivo Demo.env Demo.chain (.signed Demo.alice) (nested 2 (.promote 2)) = .ok s' :=
  ⟨by decide, by decide, _, rfl⟩

end Verif.Communities
