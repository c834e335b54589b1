import Verif.Communities.Demo

/-! # Effects of each call on the registry, and the assumptions on membership management -/

namespace Verif.Communities

open Verif Verif.Accounts

theorem setAdminOrigin_ok {cfg : Config} {s s' : St} {o admin : Origin} (h : setAdminOrigin cfg s o admin = .ok s') :
    ∃ c, authority cfg s o = some c ∧ s.adminOf o = some c ∧
      s' = emit { s with adminOf := fun x => if x = admin then some c else if x = o then none else s.adminOf x }
        (.adminOriginSet c admin) := by
  unfold setAdminOrigin at h
  split at h
  · cases h
  · rename_i c hc
    split at h
    · cases h
    · rename_i h1
      cases h
      exact ⟨c, hc, by simpa using h1, rfl⟩

theorem create_ok {cfg : Config} {env : Env} {s s' : St} {o admin : Origin} {c : CId}
    (h : create cfg env s o admin c = .ok s') :
    ∃ d s1, cfg.createOrigin o = some d ∧ register env s admin c d = .ok s1 ∧
      s' = emit s1 (.communityCreated c admin) := by
  unfold create at h
  split at h
  · cases h
  · rename_i d hd
    obtain ⟨s1, h1, h2⟩ := bind_ok h
    cases h2
    exact ⟨d, s1, hd, h1, rfl⟩

theorem addMember_ok {cfg : Config} {env : Env} {s s' : St} {o : Origin} {a : Address}
    (h : addMember cfg env s o a = .ok s') :
    ∃ c who g m items, authority cfg s o = some c ∧ lookup a = some who ∧
      (userMemberships s.world.items (communityAccount c) none).head? = some (g, m) ∧
      env.assign s.world.items c m who = some items ∧
      s' = emit { s with world := { s.world with items := items } } (.memberAdded who m) := by
  unfold addMember at h
  split at h
  · cases h
  · rename_i c hc
    split at h
    · cases h
    · rename_i who hw
      split at h
      · cases h
      · rename_i g m hm
        split at h
        · cases h
        · rename_i items hi
          cases h
          exact ⟨c, who, g, m, items, hc, hw, hm, hi, rfl⟩

theorem removeMember_ok {cfg : Config} {env : Env} {s s' : St} {o : Origin} {a : Address} {m : MId}
    (h : removeMember cfg env s o a m = .ok s') :
    ∃ c who items, authority cfg s o = some c ∧ lookup a = some who ∧ isMemberOf s.world.items c who = true ∧
      env.release s.world.items c m = some items ∧
      s' = emit { s with world := { s.world with items := items } } (.memberRemoved who m) := by
  unfold removeMember at h
  split at h
  · cases h
  · rename_i c hc
    split at h
    · cases h
    · rename_i who hw
      split at h
      · cases h
      · rename_i hm
        split at h
        · cases h
        · rename_i items hi
          cases h
          exact ⟨c, who, items, hc, hw, by simpa using hm, hi, rfl⟩

theorem promote_ok {cfg : Config} {env : Env} {s s' : St} {o : Origin} {m : MId}
    (h : promote cfg env s o m = .ok s') :
    ∃ c r, authority cfg s o = some c ∧ rankOf s.world.items c m = some r ∧
      s' = emit { s with world := { s.world with items := setRank s.world.items c m (promoteRank r) } }
        (.rankUpdated m (promoteRank r)) := by
  unfold promote at h
  split at h
  · cases h
  · rename_i c hc
    split at h
    · cases h
    · rename_i r hr
      split at h
      · cases h
      · cases h; exact ⟨c, r, hc, hr, rfl⟩

theorem demote_ok {cfg : Config} {env : Env} {s s' : St} {o : Origin} {m : MId}
    (h : demote cfg env s o m = .ok s') :
    ∃ c r, authority cfg s o = some c ∧ rankOf s.world.items c m = some r ∧
      s' = emit { s with world := { s.world with items := setRank s.world.items c m (demoteRank r) } }
        (.rankUpdated m r) := by
  unfold demote at h
  split at h
  · cases h
  · rename_i c hc
    split at h
    · cases h
    · rename_i r hr
      split at h
      · cases h
      · cases h; exact ⟨c, r, hc, hr, rfl⟩

theorem createAsset_same (env : Env) (s : St) (dm : Method) :
    ∃ mins teams, createAsset env s dm = { s with world := { s.world with assetMin := mins, team := teams } } := by
  unfold createAsset
  split
  · split
    · exact ⟨s.world.assetMin, s.world.team, rfl⟩
    · exact ⟨_, _, rfl⟩
  · exact ⟨s.world.assetMin, s.world.team, rfl⟩

theorem setDecisionMethod_ok {cfg : Config} {env : Env} {s s' : St} {o : Origin} {c : CId} {dm : Method}
    (h : setDecisionMethod cfg env s o c dm = .ok s') :
    (∃ d, authority cfg s o = some d) ∧
      ∃ mins teams, s' = emit { s with
                                  world := { s.world with assetMin := mins, team := teams }
                                  method := fun d => if d = c then dm else s.method d } (.decisionMethodSet c) := by
  unfold setDecisionMethod at h
  split at h
  · cases h
  · rename_i d hd
    obtain ⟨mins, teams, hm⟩ := createAsset_same env s dm
    dsimp only at h
    rw [hm] at h
    cases h
    exact ⟨⟨d, hd⟩, mins, teams, rfl⟩

/-- Voting touches neither registry nor memberships. -/
def SameRegistry (s s' : St) : Prop :=
  s'.info = s.info ∧ s'.adminOf = s.adminOf ∧ s'.method = s.method ∧ s'.providers = s.providers ∧
  s'.world.items = s.world.items ∧ s'.world.native = s.world.native ∧ s'.world.asset = s.world.asset ∧
  s'.world.assetMin = s.world.assetMin ∧ s'.world.team = s.world.team ∧
  s'.world.assetIssuance = s.world.assetIssuance

theorem SameRegistry.refl (s : St) : SameRegistry s s := ⟨rfl, rfl, rfl, rfl, rfl, rfl, rfl, rfl, rfl, rfl⟩

theorem SameRegistry.trans {a b c : St} (h : SameRegistry a b) (h' : SameRegistry b c) : SameRegistry a c := by
  obtain ⟨h1, h2, h3, h4, h5, h6, h7, h8, h9, h10⟩ := h
  obtain ⟨g1, g2, g3, g4, g5, g6, g7, g8, g9, g10⟩ := h'
  exact ⟨g1.trans h1, g2.trans h2, g3.trans h3, g4.trans h4, g5.trans h5, g6.trans h6, g7.trans h7,
    g8.trans h8, g9.trans h9, g10.trans h10⟩

theorem SameButLocks.registry {s s' : St} (h : SameButLocks s s') : SameRegistry s s' := by
  obtain ⟨h1, h2, h3, _, h5, _, h7⟩ := h
  exact ⟨h1, h2, h3, h5, by rw [h7], by rw [h7], by rw [h7], by rw [h7], by rw [h7], by rw [h7]⟩

theorem tryVote_registry {env : Env} {s s' : St} {c : CId} {dm : Method} {who : AccountId} {m : MId} {p : PollIx}
    {v : Vote} (h : tryVote env s c dm who m p v = .ok s') : SameRegistry s s' := by
  obtain ⟨t, _, _, h3⟩ := tryVote_ok h
  exact SameRegistry.trans (b := voted s c who m p v t) ⟨rfl, rfl, rfl, rfl, rfl, rfl, rfl, rfl, rfl, rfl⟩
    (updateLocks_same h3).registry

theorem tryRemoveVote_registry {env : Env} {s s' : St} {c : CId} {dm : Method} {m : MId} {p : PollIx}
    (h : tryRemoveVote env s c dm m p = .ok s') : SameRegistry s s' := by
  obtain ⟨t, v, voter, _, _, h3⟩ := tryRemoveVote_ok h
  exact SameRegistry.trans (b := unvoted s c dm m p v t) ⟨rfl, rfl, rfl, rfl, rfl, rfl, rfl, rfl, rfl, rfl⟩
    (updateLocks_same h3).registry

theorem vote_registry {env : Env} {s s' : St} {o : Origin} {m : MId} {p : PollIx} {v : Vote}
    (h : vote env s o m p v = .ok s') : SameRegistry s s' := by
  obtain ⟨who, c, s1, s2, _, _, _, h1, h2, rfl⟩ := vote_ok h
  have a1 : SameRegistry s s1 := by
    rcases h1 with ⟨_, rfl⟩ | ⟨_, h1⟩
    · exact .refl _
    · exact tryRemoveVote_registry h1
  have a2 := tryVote_registry h2
  exact a1.trans (a2.trans ⟨rfl, rfl, rfl, rfl, rfl, rfl, rfl, rfl, rfl, rfl⟩)

theorem removeVote_registry {env : Env} {s s' : St} {o : Origin} {m : MId} {p : PollIx}
    (h : removeVote env s o m p = .ok s') : SameRegistry s s' := by
  obtain ⟨who, c, s1, _, _, h1, rfl⟩ := removeVote_ok h
  exact (tryRemoveVote_registry h1).trans ⟨rfl, rfl, rfl, rfl, rfl, rfl, rfl, rfl, rfl, rfl⟩

theorem unlock_registry {env : Env} {s s' : St} {o : Origin} {p : PollIx}
    (h : unlock env s o p = .ok s') : SameRegistry s s' := by
  obtain ⟨who, v, _, _, _, h1⟩ := unlock_ok h
  exact (updateLocks_same h1).registry

/-- How a step may change which communities exist and who their admins are. -/
inductive RegistryMove (s s' : St) : Prop
  | same (h1 : s'.info = s.info) (h2 : s'.adminOf = s.adminOf)
  | registered (admin : Origin) (c : CId) (h1 : s.info c = none) (h2 : s.adminOf admin = none)
      (h3 : s'.info = fun d => if d = c then some .active else s.info d)
      (h4 : s'.adminOf = fun o => if o = admin then some c else s.adminOf o)
  | admin (o admin : Origin) (c : CId) (h1 : s.adminOf o = some c) (h2 : s'.info = s.info)
      (h3 : s'.adminOf = fun x => if x = admin then some c else if x = o then none else s.adminOf x)
  | forced (c : CId) (st : CState) (h1 : s'.adminOf = s.adminOf)
      (h2 : s'.info = fun d => if d = c then (s.info d).map fun _ => st else s.info d)

theorem register_move {env : Env} {s s' : St} {admin : Origin} {c : CId} {d : Option (Nat × AccountId × AccountId)}
    (h : register env s admin c d = .ok s') : RegistryMove s s' := by
  obtain ⟨h1, h2, w, rfl, _⟩ := register_ok h
  exact .registered admin c h1 h2 rfl rfl

theorem dispatch_move {cfg : Config} {env : Env} {s s' : St} {o : Origin} {call : Call}
    (h : dispatch cfg env s o call = .ok s') : RegistryMove s s' := by
  obtain ⟨o', leaf, hl, h⟩ := dispatch_leaf h
  cases leaf with
  | create admin c =>
    obtain ⟨d, s1, _, hr, rfl⟩ := create_ok h
    obtain ⟨h1, h2, w, rfl, _⟩ := register_ok hr
    exact .registered admin c h1 h2 rfl rfl
  | setAdminOrigin admin =>
    obtain ⟨c, _, h2, rfl⟩ := setAdminOrigin_ok h
    exact .admin o' admin c h2 rfl rfl
  | addMember a => obtain ⟨_, _, _, _, _, _, _, _, _, rfl⟩ := addMember_ok h; exact .same rfl rfl
  | removeMember a m => obtain ⟨_, _, _, _, _, _, _, rfl⟩ := removeMember_ok h; exact .same rfl rfl
  | promote m => obtain ⟨_, _, _, _, rfl⟩ := promote_ok h; exact .same rfl rfl
  | demote m => obtain ⟨_, _, _, _, rfl⟩ := demote_ok h; exact .same rfl rfl
  | setDecisionMethod c dm => obtain ⟨_, _, _, rfl⟩ := setDecisionMethod_ok h; exact .same rfl rfl
  | vote m p v => obtain ⟨h1, h2, _⟩ := vote_registry h; exact .same h1 h2
  | removeVote m p => obtain ⟨h1, h2, _⟩ := removeVote_registry h; exact .same h1 h2
  | unlock p => obtain ⟨h1, h2, _⟩ := unlock_registry h; exact .same h1 h2
  | dispatchAsAccount i => exact absurd rfl (hl i)
  | foreign n =>
    rw [dispatch] at h
    split at h
    · cases h
    · cases h; exact .same rfl rfl

theorem step_move {cfg : Config} {s s' : St} (h : Step cfg s s') : RegistryMove s s' := by
  cases h with
  | call env _ o c h => exact dispatch_move h
  | register env admin c d h => exact register_move h
  | force c st => exact .forced c st rfl rfl
  | world w _ => exact .same rfl rfl

/-! ## Membership management -/

/-- What is assumed of `membership::Manager` (outside `/repo`): assigning gives the membership of that group to the
account, releasing needs it to exist in the group and removes it, and neither touches other groups' memberships,
save those held by the community's own account. -/
structure MgmtLaws (env : Env) : Prop where
  assigned : ∀ {items c m who items'}, env.assign items c m who = some items' →
    ∃ i ∈ items', i.group = c ∧ i.id = m ∧ i.owner = who
  assign_others : ∀ {items c m who items'}, env.assign items c m who = some items' →
    ∀ i : Item, i.group ≠ c → i.owner ≠ communityAccount c → (i ∈ items' ↔ i ∈ items)
  released : ∀ {items c m items'}, env.release items c m = some items' → c ≠ 0 →
    (∃ i ∈ items, i.group = c ∧ i.id = m) ∧ ∀ i ∈ items', ¬ (i.group = c ∧ i.id = m)
  release_others : ∀ {items c m items'}, env.release items c m = some items' →
    ∀ i : Item, (i.group ≠ c ∨ i.id ≠ m) → i.owner ≠ communityAccount c → (i ∈ items' ↔ i ∈ items)

theorem Demo.env_laws : MgmtLaws Demo.env where
  assigned := by
    intro items c m who items' h
    simp only [Demo.env, Demo.assign] at h
    split at h
    · cases h
    · cases h; exact ⟨_, List.mem_cons_self, rfl, rfl, rfl⟩
  assign_others := by
    intro items c m who items' h i hg ho
    simp only [Demo.env, Demo.assign] at h
    split at h
    · cases h
    · cases h
      rw [List.mem_cons, List.mem_filter]
      constructor
      · rintro (rfl | h)
        · exact absurd rfl hg
        · exact h.1
      · intro h; right; exact ⟨h, by simp [ho]⟩
  released := by
    intro items c m items' h hc
    simp only [Demo.env, Demo.release] at h
    split at h
    · rename_i h1
      cases h
      refine ⟨?_, ?_⟩
      · obtain ⟨i, hi, h2⟩ := List.any_eq_true.1 h1
        exact ⟨i, hi, by simpa using h2⟩
      · intro i hi
        rcases List.mem_cons.1 hi with rfl | hi
        · rintro ⟨h3, _⟩; exact hc h3.symm
        · have := (List.mem_filter.1 hi).2
          simp only [Bool.not_eq_true', decide_eq_false_iff_not] at this
          exact this
    · cases h
  release_others := by
    intro items c m items' h i hg ho
    simp only [Demo.env, Demo.release] at h
    split at h
    · cases h
      rw [List.mem_cons, List.mem_filter]
      constructor
      · rintro (rfl | h)
        · exact absurd rfl ho
        · exact h.1
      · intro h; right; exact ⟨h, by simp; tauto⟩
    · cases h

theorem rankOf_setRank_self {items : List Item} {c : CId} {m : MId} {r : UInt8} (q : UInt8)
    (h : rankOf items c m = some r) : rankOf (setRank items c m q) c m = some q := by
  induction items with
  | nil => simp [rankOf] at h
  | cons i l ih =>
    by_cases h1 : i.group = c ∧ i.id = m
    · simp [rankOf, setRank, h1]
    · have h2 : rankOf l c m = some r := by
        simpa [rankOf, h1] using h
      have := ih h2
      simpa [rankOf, setRank, h1] using this

theorem rankOf_setRank_ne {items : List Item} {c d : CId} {m n : MId} (q : UInt8) (h : d ≠ c ∨ n ≠ m) :
    rankOf (setRank items c m q) d n = rankOf items d n := by
  induction items with
  | nil => rfl
  | cons i l ih =>
    by_cases h1 : i.group = c ∧ i.id = m
    · have h2 : ¬ (i.group = d ∧ i.id = n) := by
        rintro ⟨rfl, rfl⟩; rcases h with h | h
        · exact h h1.1
        · exact h h1.2
      have h3 : ¬ (c = d ∧ m = n) := by rw [← h1.1, ← h1.2]; exact h2
      have : rankOf (setRank l c m q) d n = rankOf l d n := ih
      simp [rankOf, setRank, h1, h3] at this ⊢
      exact this
    · by_cases h2 : i.group = d ∧ i.id = n
      · have e : setRank (i :: l) c m q = i :: setRank l c m q := by simp [setRank, h1]
        rw [e]
        simp [rankOf, h2]
      · have : rankOf (setRank l c m q) d n = rankOf l d n := ih
        simp [rankOf, setRank, h1, h2] at this ⊢
        exact this

theorem mem_setRank_other {items : List Item} {c : CId} {m : MId} {q : UInt8} (i : Item)
    (h : i.group ≠ c ∨ i.id ≠ m) : i ∈ setRank items c m q ↔ i ∈ items := by
  unfold setRank
  rw [List.mem_map]
  constructor
  · rintro ⟨j, hj, rfl⟩
    by_cases h1 : j.group = c ∧ j.id = m
    · rw [if_pos h1] at h; simp only at h; tauto
    · rwa [if_neg h1]
  · intro hi
    exact ⟨i, hi, by rw [if_neg]; tauto⟩

end Verif.Communities
