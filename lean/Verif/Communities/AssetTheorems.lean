import Verif.Communities.Assets
import Verif.Communities.RegistryTheorems

/-!
# Assets of communities: theorems (C122, C123)
-/

namespace Verif.Communities

open Verif Verif.Accounts

/-- All roles, not sufficient. -/
def allRoles (a : AccountId) : Team := ⟨a, a, a, a, false⟩

/-! ## How calls change assets -/

theorem moveAsset_same {w w' : World} {k : AssetKey} {min : Nat} {src dst : AccountId} {n : Nat}
    (h : w.moveAsset k min src dst n = some w') :
    w'.assetMin = w.assetMin ∧ w'.team = w.team ∧ w'.assetIssuance = w.assetIssuance ∧
      ∀ l, (∀ a, w.asset l a = 0) → ∀ a, w'.asset l a = 0 := by
  unfold World.moveAsset at h
  split at h
  · cases h
  · rename_i hn
    split at h
    · cases h; exact ⟨rfl, rfl, rfl, fun _ h => h⟩
    · cases h
      refine ⟨rfl, rfl, rfl, ?_⟩
      intro l hz a
      unfold World.setAsset
      dsimp only
      by_cases hl : l = k
      · subst hl
        have h0 := hz src
        have h1 := hz dst
        have hm : leaving min (w.asset l src) n = 0 := by
          unfold leaving
          split <;> omega
        rw [hm]
        split
        · omega
        · split
          · omega
          · exact hz a
      · simp only [hl, false_and, if_false]
        exact hz a

theorem signerAnd_some {w : World} {o : Origin} {k : AssetKey} {a : AccountId} {min : Nat}
    (h : signerAnd w o k = some (a, min)) : o = .signed a ∧ w.assetMin k = some min := by
  unfold signerAnd at h
  split at h
  · rename_i h1; cases h; exact ⟨rfl, h1⟩
  · cases h

/-- What a call of pallet_assets can do to an asset. -/
inductive AssetMove (k : AssetKey) (w : World) (o : Origin) (c : ACall) (w' : World) : Prop
  | created (owner : AccountId) (sufficient : Bool) (min : Nat) (hc : c = .forceCreate k owner sufficient min)
      (ho : o = .root) (h0 : w.assetMin k = none) (h1 : w'.asset = w.asset) (h2 : w'.assetIssuance = w.assetIssuance)
  | managed (ho : o = .root ∨ o = .signed (w.team k).owner) (h0 : w.assetMin k ≠ none)
      (h1 : w'.assetIssuance k ≤ w.assetIssuance k) (h2 : (∀ a, w.asset k a = 0) → ∀ a, w'.asset k a = 0)
  | minted (who : AccountId) (n : Nat) (hc : c = .mint k who n) (ho : o = .signed (w.team k).issuer)
      (h0 : w.assetMin k ≠ none) (h1 : w'.assetMin = w.assetMin) (h2 : w'.team = w.team)
  | left (h : Leaves k w w')

theorem assetCall_move {w w' : World} {o : Origin} {c : ACall} (h : assetCall w o c = some w') (k : AssetKey) :
    AssetMove k w o c w' := by
  have self : Leaves k w w := ⟨rfl, rfl, Nat.le_refl _, fun h => h⟩
  cases c with
  | create => cases h
  | forceCreate l owner sufficient min =>
    unfold assetCall at h
    dsimp only at h
    split at h
    · split at h
      · cases h
      · rename_i h1
        cases h
        by_cases hl : k = l
        · subst hl
          have h0 : w.assetMin k = none := by
            by_contra hx
            exact h1 (Or.inl hx)
          exact .created owner sufficient min rfl rfl h0 rfl rfl
        · refine .left ⟨?_, ?_, Nat.le_refl _, fun h => h⟩ <;> simp [World.define, hl]
    · cases h
  | forceStatus l t min =>
    unfold assetCall at h
    dsimp only at h
    split at h
    · split at h
      · cases h
      · rename_i h1
        cases h
        by_cases hl : k = l
        · subst hl
          exact .managed (Or.inl rfl) (fun hx => h1 (Or.inl hx)) (Nat.le_refl _) (fun h => h)
        · refine .left ⟨?_, ?_, Nat.le_refl _, fun h => h⟩ <;> simp [World.define, hl]
    · cases h
  | transferOwnership l owner =>
    unfold assetCall at h
    dsimp only at h
    split at h
    · rename_i a min hs
      obtain ⟨rfl, hm⟩ := signerAnd_some hs
      split at h
      · rename_i ha
        cases h
        by_cases hl : k = l
        · subst hl
          exact .managed (Or.inr (by rw [ha])) (by rw [hm]; simp) (Nat.le_refl _) (fun h => h)
        · refine .left ⟨?_, ?_, Nat.le_refl _, fun h => h⟩ <;> simp [World.define, hl]
      · cases h
    · cases h
  | setTeam l issuer admin freezer =>
    unfold assetCall at h
    dsimp only at h
    split at h
    · rename_i a min hs
      obtain ⟨rfl, hm⟩ := signerAnd_some hs
      split at h
      · rename_i ha
        cases h
        by_cases hl : k = l
        · subst hl
          exact .managed (Or.inr (by rw [ha])) (by rw [hm]; simp) (Nat.le_refl _) (fun h => h)
        · refine .left ⟨?_, ?_, Nat.le_refl _, fun h => h⟩ <;> simp [World.define, hl]
      · cases h
    · cases h
  | mint l who n =>
    unfold assetCall at h
    dsimp only at h
    split at h
    · rename_i a min hs
      obtain ⟨rfl, hm⟩ := signerAnd_some hs
      split at h
      · rename_i ha
        cases h
        by_cases hl : k = l
        · subst hl
          exact .minted who n rfl (by rw [ha.1]) (by rw [hm]; simp) rfl rfl
        · refine .left ⟨rfl, rfl, ?_, ?_⟩
          · simp [hl]
          · intro hz b
            simp only [World.setAsset, hl, false_and, if_false]
            exact hz b
      · cases h
    · cases h
  | burn l who n =>
    unfold assetCall at h
    dsimp only at h
    split at h
    · rename_i a min hs
      split at h
      · cases h
        refine .left ⟨rfl, rfl, ?_, ?_⟩
        · dsimp only
          split
          · rename_i hl; subst hl; omega
          · exact Nat.le_refl _
        · intro hz b
          simp only [World.setAsset]
          split
          · rename_i hl
            have := hz who
            rw [hl.1] at this
            omega
          · exact hz b
      · cases h
    · cases h
  | transfer l dst n =>
    unfold assetCall at h
    dsimp only at h
    split at h
    · obtain ⟨h1, h2, h3, h4⟩ := moveAsset_same h
      exact .left ⟨by rw [h1], by rw [h2], by rw [h3], h4 k⟩
    · cases h
  | forceTransfer l src dst n =>
    unfold assetCall at h
    dsimp only at h
    split at h
    · split at h
      · obtain ⟨h1, h2, h3, h4⟩ := moveAsset_same h
        exact .left ⟨by rw [h1], by rw [h2], by rw [h3], h4 k⟩
      · cases h
    · cases h
  | destroy l =>
    unfold assetCall at h
    dsimp only at h
    split at h
    · cases h
    · rename_i h0
      split at h
      · rename_i ho
        cases h
        by_cases hl : k = l
        · subst hl
          exact .managed ho h0 (by simp) (by intro _ a; simp)
        · refine .left ⟨?_, rfl, ?_, ?_⟩
          · simp [hl]
          · simp [hl]
          · intro hz a
            simp only [hl, if_false]
            exact hz a
      · cases h

/-- What a call that is not nested can do to an asset. -/
inductive WorldMove (cfg : Config) (env : Env) (k : AssetKey) (s : St) (o : Origin) (call : Call) (s' : St) : Prop
  | asset (n : Nat) (c : ACall) (hc : call = .foreign n) (h1 : assetCall s.world o c = some s'.world)
      (h : AssetMove k s.world o c s'.world)
  | chosen (c : CId) (min : Nat) (hc : call = .setDecisionMethod c (.asset k min)) (ha : authority cfg s o ≠ none)
      (h0 : s.world.assetMin k = none) (h1 : s'.world.assetMin k = some min)
      (h2 : s'.world.team k = allRoles (palletAccount communityPalletId []))
      (h3 : s'.world.asset = s.world.asset) (h4 : s'.world.assetIssuance = s.world.assetIssuance)
  | left (h : Leaves k s.world s'.world)

theorem leaves_of_eq {k : AssetKey} {w w' : World} (h1 : w'.assetMin = w.assetMin) (h2 : w'.team = w.team)
    (h3 : w'.asset = w.asset) (h4 : w'.assetIssuance = w.assetIssuance) : Leaves k w w' :=
  ⟨by rw [h1], by rw [h2], by rw [h4], by rw [h3]; exact fun h => h⟩

theorem createAsset_cases (env : Env) (s : St) (dm : Method) :
    createAsset env s dm = s ∨
      ∃ k min, dm = .asset k min ∧ s.world.assetMin k = none ∧ createAsset env s dm = { s with world := { s.world with
        assetMin := fun k' => if k' = k then some min else s.world.assetMin k'
        team := fun k' => if k' = k then allRoles (palletAccount communityPalletId []) else s.world.team k' } } := by
  unfold createAsset
  split
  · rename_i k min
    split
    · exact Or.inl rfl
    · rename_i hn
      refine Or.inr ⟨k, min, rfl, ?_, rfl⟩
      by_contra hx
      exact hn (Or.inl hx)
  · exact Or.inl rfl

theorem SameRegistry.leaves {s s' : St} (h : SameRegistry s s') (k : AssetKey) : Leaves k s.world s'.world :=
  leaves_of_eq h.2.2.2.2.2.2.2.1 h.2.2.2.2.2.2.2.2.1 h.2.2.2.2.2.2.1 h.2.2.2.2.2.2.2.2.2

theorem register_leaves {env : Env} {s s' : St} {admin : Origin} {c : CId} {d : Option (Nat × AccountId × AccountId)}
    (h : register env s admin c d = .ok s') (k : AssetKey) : Leaves k s.world s'.world := by
  obtain ⟨_, _, w, rfl, hw⟩ := register_ok h
  cases d with
  | none => dsimp only at hw; rw [hw]; exact leaves_of_eq rfl rfl rfl rfl
  | some x =>
    obtain ⟨n, src, dst⟩ := x
    obtain ⟨_, bal, hb, _⟩ := transferNative_ok hw
    have : w = { s.world with native := bal } := congrArg St.world hb
    dsimp only
    rw [this]
    exact leaves_of_eq rfl rfl rfl rfl

theorem dispatch_world {cfg : Config} {env : Env} {k : AssetKey} (he : AssetLaw k env) {s s' : St} {o : Origin}
    {call : Call} (hl : ∀ inner, call ≠ .dispatchAsAccount inner) (h : dispatch cfg env s o call = .ok s') :
    WorldMove cfg env k s o call s' := by
  cases call with
  | create admin c =>
    obtain ⟨d, s1, _, hr, rfl⟩ := create_ok h
    exact .left (register_leaves hr k)
  | setAdminOrigin admin =>
    obtain ⟨c, _, h2, rfl⟩ := setAdminOrigin_ok h
    exact .left (leaves_of_eq rfl rfl rfl rfl)
  | addMember a =>
    obtain ⟨_, _, _, _, _, _, _, _, _, rfl⟩ := addMember_ok h; exact .left (leaves_of_eq rfl rfl rfl rfl)
  | removeMember a m =>
    obtain ⟨_, _, _, _, _, _, _, rfl⟩ := removeMember_ok h; exact .left (leaves_of_eq rfl rfl rfl rfl)
  | promote m => obtain ⟨_, _, _, _, rfl⟩ := promote_ok h; exact .left (leaves_of_eq rfl rfl rfl rfl)
  | demote m => obtain ⟨_, _, _, _, rfl⟩ := demote_ok h; exact .left (leaves_of_eq rfl rfl rfl rfl)
  | setDecisionMethod c dm =>
    rw [dispatch] at h
    unfold setDecisionMethod at h
    split at h
    · cases h
    · rename_i d hd
      dsimp only at h
      cases h
      have ha : authority cfg s o ≠ none := by rw [hd]; simp
      rcases createAsset_cases env s dm with e | ⟨l, min, rfl, h0, e⟩
      · exact .left (by rw [e]; exact leaves_of_eq rfl rfl rfl rfl)
      · by_cases hk : k = l
        · subst hk
          refine .chosen c min rfl ha h0 ?_ ?_ ?_ ?_ <;> rw [e] <;> simp [emit]
        · refine .left ?_
          rw [e]
          refine ⟨?_, ?_, Nat.le_refl _, fun h => h⟩ <;> simp [emit, hk]
  | vote m p v => exact .left ((vote_registry h).leaves k)
  | removeVote m p => exact .left ((removeVote_registry h).leaves k)
  | unlock p => exact .left ((unlock_registry h).leaves k)
  | dispatchAsAccount i => exact absurd rfl (hl i)
  | foreign n =>
    rw [dispatch] at h
    split at h
    · cases h
    · rename_i w hw
      cases h
      rcases he n o s.world w hw with ⟨c, hc⟩ | hL
      · exact .asset n c rfl hc (assetCall_move hc k)
      · exact .left hL

theorem leaf_nested {cfg : Config} {env : Env} {s s' : St} {c : CId} {call : Call}
    (h : dispatch cfg env s (.signed (communityAccount c)) call = .ok s') :
    ∃ d leaf, (∀ inner, leaf ≠ .dispatchAsAccount inner) ∧
      dispatch cfg env s (.signed (communityAccount d)) leaf = .ok s' := by
  induction call generalizing c with
  | dispatchAsAccount inner ih =>
    rw [dispatch] at h
    split at h
    · cases h
    · exact ih h
  | _ => exact ⟨_, _, (by intro i hi; cases hi), h⟩

theorem leaf_signer {cfg : Config} {env : Env} {s s' : St} {o : Origin} {call : Call}
    (h : dispatch cfg env s o call = .ok s') :
    ∃ o' leaf, (∀ inner, leaf ≠ .dispatchAsAccount inner) ∧ dispatch cfg env s o' leaf = .ok s' ∧
      (o' = o ∧ leaf = call ∨ authority cfg s o ≠ none ∧ ∃ c, o' = .signed (communityAccount c)) := by
  cases call with
  | dispatchAsAccount inner =>
    rw [dispatch] at h
    split at h
    · cases h
    · rename_i c hc
      obtain ⟨d, leaf, h1, h2⟩ := leaf_nested h
      exact ⟨_, leaf, h1, h2, Or.inr ⟨by rw [hc]; simp, d, rfl⟩⟩
  | _ => exact ⟨_, _, (by intro i hi; cases hi), h, Or.inl ⟨rfl, rfl⟩⟩

/-! ## C122 -/

/-- C122, what holds: a call that brings an asset into being is root creating it by force, or comes from an origin with
authority over some community and is a `set_decision_method` (as itself or for an account of a community); then the asset has
the minimum named there, is not sufficient, and all its roles are with the account of the communities pallet. Missing: that
only root creates assets, as the configuration says. -/
theorem C122_who_creates_partial (cfg : Config) (env : Env) (k : AssetKey) (he : AssetLaw k env) (s s' : St) (o : Origin)
    (call : Call) (h : dispatch cfg env s o call = .ok s') (h0 : s.world.assetMin k = none)
    (h1 : s'.world.assetMin k ≠ none) :
    (o = .root ∧ ∃ owner sufficient min, assetCall s.world .root (.forceCreate k owner sufficient min) = some s'.world) ∨
    (authority cfg s o ≠ none ∧ ∃ o' c min, authority cfg s o' ≠ none ∧
      dispatch cfg env s o' (.setDecisionMethod c (.asset k min)) = .ok s' ∧
      s'.world.assetMin k = some min ∧ s'.world.team k = allRoles (palletAccount communityPalletId [])) := by
  obtain ⟨o', leaf, hl, hd, ho⟩ := leaf_signer h
  rcases dispatch_world he hl hd with ⟨n, c, rfl, g, m⟩ | ⟨c, min, rfl, g1, g2, g3, g4, _, _⟩ | g
  · rcases m with ⟨owner, sufficient, min, rfl, rfl, _, _, _⟩ | ⟨_, g0, _, _⟩ | ⟨_, _, _, _, g0, _, _⟩ | g'
    · rcases ho with ⟨rfl, _⟩ | ⟨_, c, hc⟩
      · exact Or.inl ⟨rfl, owner, sufficient, min, g⟩
      · cases hc
    · exact absurd h0 g0
    · exact absurd h0 g0
    · exact absurd (g'.1.trans h0) h1
  · refine Or.inr ⟨?_, o', c, min, g1, hd, g3, g4⟩
    rcases ho with ⟨rfl, _⟩ | ⟨ho, _⟩
    · exact g1
    · exact ho
  · exact absurd (g.1.trans h0) h1

/-- C122: an asset that exists is left alone: no call changes its minimum balance or its roles, or removes it, but calls of
pallet_assets by root or by its owner. -/
theorem C122_existing (cfg : Config) (env : Env) (k : AssetKey) (he : AssetLaw k env) (s s' : St) (o : Origin) (call : Call)
    (h : dispatch cfg env s o call = .ok s') (h0 : s.world.assetMin k ≠ none) :
    (s'.world.assetMin k = s.world.assetMin k ∧ s'.world.team k = s.world.team k) ∨
    ∃ o' c, (o' = .root ∨ o' = .signed (s.world.team k).owner) ∧
      (o' = o ∨ authority cfg s o ≠ none ∧ ∃ d, o' = .signed (communityAccount d)) ∧
      assetCall s.world o' c = some s'.world := by
  obtain ⟨o', leaf, hl, hd, ho⟩ := leaf_signer h
  rcases dispatch_world he hl hd with ⟨n, c, rfl, g, m⟩ | ⟨c, min, rfl, g1, g2, g3, g4, _, _⟩ | g
  · rcases m with ⟨owner, sufficient, min, rfl, rfl, g0, _, _⟩ | ⟨g0, _, _, _⟩ | ⟨_, _, _, _, _, g1, g2⟩ | g'
    · exact absurd g0 h0
    · refine Or.inr ⟨o', c, g0, ?_, g⟩
      rcases ho with ⟨rfl, _⟩ | ho
      · exact Or.inl rfl
      · exact Or.inr ho
    · exact Or.inl ⟨by rw [g1], by rw [g2]⟩
    · exact Or.inl ⟨g'.1, g'.2.1⟩
  · exact absurd g2 h0
  · exact Or.inl ⟨g.1, g.2.1⟩

/-- C122 fails: root is not needed. alice, admin of community 1, brings asset 7 into being by choosing it, with a minimum
balance nobody can ever have; root cannot create it any more, and whoever is sent less than that cannot receive it. -/
theorem C122_only_root_fails :
    ∃ (s s' : St), Reachable kreivo s ∧ s.world.assetMin 7 = none ∧
      dispatch kreivo Demo.env s (.signed Demo.alice) (.setDecisionMethod 1 (.asset 7 (2 ^ 128 - 1))) = .ok s' ∧
      s'.world.assetMin 7 = some (2 ^ 128 - 1) ∧
      (∀ owner sufficient min, assetCall s'.world .root (.forceCreate 7 owner sufficient min) = none) ∧
      ∀ issuer who n, s'.world.asset 7 who + n < 2 ^ 128 - 1 → assetCall s'.world (.signed issuer) (.mint 7 who n) = none := by
  refine ⟨Demo.chain, _, Demo.chain_reachable _, rfl, rfl, rfl, ?_, ?_⟩
  · intro owner sufficient min
    unfold assetCall
    dsimp only
    rw [if_pos (Or.inl ?_)]
    show some (2 ^ 128 - 1) ≠ none
    simp
  · intro issuer who n hn
    have hm : ∀ s', dispatch kreivo Demo.env Demo.chain (.signed Demo.alice) (.setDecisionMethod 1 (.asset 7 (2 ^ 128 - 1))) = .ok s' →
        s'.world.assetMin 7 = some (2 ^ 128 - 1) := by
      intro s' h
      cases h
      rfl
    have h1 := hm _ rfl
    unfold assetCall signerAnd
    dsimp only
    rw [h1]
    dsimp only
    rw [if_neg]
    rintro ⟨_, h2⟩
    omega

/-! ## C123 -/

/-- The account that owns the assets of communities is that of community 0. -/
theorem communities_account : palletAccount communityPalletId [] = communityAccount 0 := by decide +kernel

/-- C123 fails: whichever community chooses a new asset, and whoever does it for it, all roles of the asset go to the account
of community 0. -/
theorem C123_owner_fails (cfg : Config) (env : Env) (k : AssetKey) (he : AssetLaw k env) (s s' : St) (o : Origin) (c : CId)
    (min : Nat) (h : dispatch cfg env s o (.setDecisionMethod c (.asset k min)) = .ok s') (h0 : s.world.assetMin k = none)
    (h1 : s'.world.assetMin k ≠ none) :
    s'.world.team k = allRoles (communityAccount 0) ∧ (c ≠ 0 → (s'.world.team k).owner ≠ communityAccount c) := by
  have key : s'.world.team k = allRoles (communityAccount 0) := by
    rw [← communities_account]
    rcases dispatch_world he (by intro i hi; cases hi) h with ⟨n, c, e, _, _⟩ | ⟨c, min, _, _, _, _, g4, _, _⟩ | g
    · cases e
    · exact g4
    · exact absurd (g.1.trans h0) h1
  refine ⟨key, fun hc => ?_⟩
  rw [key]
  intro e
  exact hc (C60_injective _ _ e).symm

/-- C123: units of an asset are issued, by calls, only by its issuer. -/
theorem C123_only_issuer (cfg : Config) (env : Env) (k : AssetKey) (he : AssetLaw k env) (s s' : St) (o : Origin) (call : Call)
    (h : dispatch cfg env s o call = .ok s') (h1 : s.world.assetIssuance k < s'.world.assetIssuance k) :
    (o = .signed (s.world.team k).issuer ∨ authority cfg s o ≠ none ∧ ∃ d, (s.world.team k).issuer = communityAccount d) ∧
      ∃ who n, assetCall s.world (.signed (s.world.team k).issuer) (.mint k who n) = some s'.world := by
  obtain ⟨o', leaf, hl, hd, ho⟩ := leaf_signer h
  rcases dispatch_world he hl hd with ⟨n, c, rfl, g, m⟩ | ⟨c, min, rfl, g1, g2, g3, g4, _, g6⟩ | g
  · rcases m with ⟨owner, sufficient, min, rfl, rfl, g0, _, g2⟩ | ⟨g0, _, g1, _⟩ | ⟨who, n, rfl, rfl, _, g1, g2⟩ | g'
    · rw [g2] at h1; omega
    · omega
    · refine ⟨?_, who, n, g⟩
      rcases ho with ⟨rfl, _⟩ | ⟨ho, d, hd⟩
      · exact Or.inl rfl
      · exact Or.inr ⟨ho, d, by simpa using hd⟩
    · have := g'.2.2.1; omega
  · rw [g6] at h1; omega
  · have := g.2.2.1; omega

/-- Neither root nor an account that counts as community 0. -/
def Ordinary (o : Origin) : Prop := o ≠ .root ∧ ∀ a, o = .signed a → accountToCommunityId a ≠ some 0

/-- Steps of the chain without root and without community 0: calls by ordinary origins, registrations, forced states, and
whatever else does not issue the asset `k`. -/
inductive AStep (k : AssetKey) : St → St → Prop
  | call {s s' : St} (env : Env) (he : AssetLaw k env) (o : Origin) (ho : Ordinary o) (c : Call)
      (h : dispatch kreivo env s o c = .ok s') : AStep k s s'
  | register {s s' : St} (env : Env) (admin : Origin) (c : CId) (hc : c ≠ 0) (d : Option (Nat × AccountId × AccountId))
      (h : register env s admin c d = .ok s') : AStep k s s'
  | force {s : St} (c : CId) (st : CState) : AStep k s (forceState s c st)
  | world {s : St} (w : World) (h : Leaves k s.world w) : AStep k s { s with world := w }

/-- Zero or more of them. -/
inductive ASteps (k : AssetKey) : St → St → Prop
  | refl (s : St) : ASteps k s s
  | tail {s s' s'' : St} (h : ASteps k s s') (st : AStep k s' s'') : ASteps k s s''

/-- The asset exists, belongs to the account of community 0, which does not exist, and nobody has any. -/
structure Orphan (k : AssetKey) (s : St) : Prop where
  zero : s.info 0 = none
  known : s.world.assetMin k ≠ none
  team : s.world.team k = allRoles (communityAccount 0)
  none_ : ∀ a, s.world.asset k a = 0

theorem ordinary_leaf {env : Env} {s s' : St} {o : Origin} {call : Call} (h0 : s.info 0 = none) (ho : Ordinary o)
    (h : dispatch kreivo env s o call = .ok s') :
    ∃ o' leaf, (∀ inner, leaf ≠ .dispatchAsAccount inner) ∧ Ordinary o' ∧ dispatch kreivo env s o' leaf = .ok s' := by
  induction call generalizing o with
  | dispatchAsAccount inner ih =>
    rw [dispatch] at h
    split at h
    · cases h
    · rename_i c hc
      refine ih ⟨by simp, ?_⟩ h
      intro a ha
      cases ha
      rw [(C60_reversible c).2]
      intro e
      obtain rfl := Option.some.inj e
      exact C58_blocked_partial kreivo s o 0 (by rw [h0]; simp) ho.2 hc
  | _ => exact ⟨o, _, (by intro i hi; cases hi), ho, h⟩

theorem call_info {env : Env} {s s' : St} {o : Origin} {leaf : Call} (hl : ∀ inner, leaf ≠ .dispatchAsAccount inner)
    (h : dispatch kreivo env s o leaf = .ok s') : s'.info = s.info := by
  cases leaf with
  | create admin e => obtain ⟨_, _, hx, _, _⟩ := create_ok h; cases hx
  | setAdminOrigin admin => obtain ⟨_, _, _, rfl⟩ := setAdminOrigin_ok h; rfl
  | addMember a => obtain ⟨_, _, _, _, _, _, _, _, _, rfl⟩ := addMember_ok h; rfl
  | removeMember a m => obtain ⟨_, _, _, _, _, _, _, rfl⟩ := removeMember_ok h; rfl
  | promote m => obtain ⟨_, _, _, _, rfl⟩ := promote_ok h; rfl
  | demote m => obtain ⟨_, _, _, _, rfl⟩ := demote_ok h; rfl
  | setDecisionMethod c dm => obtain ⟨_, _, _, rfl⟩ := setDecisionMethod_ok h; rfl
  | vote m p v => rw [(vote_registry h).1]
  | removeVote m p => rw [(removeVote_registry h).1]
  | unlock p => rw [(unlock_registry h).1]
  | dispatchAsAccount i => exact absurd rfl (hl i)
  | foreign n =>
    rw [dispatch] at h
    split at h
    · cases h
    · cases h; rfl

theorem Orphan.leaves {k : AssetKey} {s s' : St} (h : Orphan k s) (h0 : s'.info 0 = none)
    (hL : Leaves k s.world s'.world) : Orphan k s' :=
  ⟨h0, by rw [hL.1]; exact h.known, by rw [hL.2.1]; exact h.team, hL.2.2.2 h.none_⟩

theorem not_zero {o : Origin} (ho : Ordinary o) : o ≠ .signed (communityAccount 0) := by
  intro e
  exact ho.2 _ e (C60_reversible 0).2

theorem Orphan.step {k : AssetKey} {s s' : St} (h : Orphan k s) (st : AStep k s s') : Orphan k s' := by
  cases st with
  | call env he o ho c hc =>
    obtain ⟨o', leaf, hl, ho', hd⟩ := ordinary_leaf h.zero ho hc
    have hi : s'.info 0 = none := by rw [call_info hl hd]; exact h.zero
    rcases dispatch_world he hl hd with ⟨n, c, _, _, m⟩ | ⟨_, _, _, _, g2, _, _, _, _⟩ | g
    · rcases m with ⟨_, _, _, _, e, _, _, _⟩ | ⟨e, _, _, _⟩ | ⟨_, _, _, e, _, _, _⟩ | g'
      · exact absurd e ho'.1
      · rw [h.team] at e
        rcases e with e | e
        · exact absurd e ho'.1
        · exact absurd e (not_zero ho')
      · rw [h.team] at e
        exact absurd e (not_zero ho')
      · exact h.leaves hi g'
    · exact absurd g2 h.known
    · exact h.leaves hi g
  | register env admin c hc d hr =>
    refine h.leaves ?_ (register_leaves hr k)
    obtain ⟨_, _, w, rfl, _⟩ := register_ok hr
    show (if (0 : CId) = c then some CState.active else s.info 0) = none
    rw [if_neg (Ne.symm hc)]
    exact h.zero
  | force c st =>
    refine h.leaves ?_ (leaves_of_eq rfl rfl rfl rfl)
    unfold forceState
    dsimp only
    split
    · simp [h.zero]
    · exact h.zero
  | world w hw => exact h.leaves h.zero hw

theorem Orphan.steps {k : AssetKey} {s s' : St} (h : Orphan k s) (st : ASteps k s s') : Orphan k s' := by
  induction st with
  | refl => exact h
  | tail _ st ih => exact ih.step st

/-- C123 fails: a community that decides by a new asset cannot decide. While community 0 is not registered, and unless root
or an account that counts as community 0 steps in, nobody ever holds the asset, so that, in any community that decides by
it, every vote of anyone in any poll fails, for ever. -/
theorem C123_nobody_votes_fails (k : AssetKey) (env : Env) (he : AssetLaw k env) (s s1 s2 : St) (o : Origin) (c : CId)
    (min : Nat) (hz : s.info 0 = none) (h0 : s.world.assetMin k = none) (hb : ∀ a, s.world.asset k a = 0)
    (h : dispatch kreivo env s o (.setDecisionMethod c (.asset k min)) = .ok s1) (hc : s1.world.assetMin k ≠ none)
    (st : ASteps k s1 s2) :
    (∀ a, s2.world.asset k a = 0) ∧
    ∀ (env' : Env) (who : Origin) (m : MId) (p : PollIx) (v : Vote) (d : CId) (t : Tally) (min' : Nat),
      s2.world.polls p = some (.ongoing t d) → s2.method d = .asset k min' →
      ∀ s3, dispatch kreivo env' s2 who (.vote m p v) ≠ .ok s3 := by
  have hO : Orphan k s1 := by
    refine ⟨?_, hc, (C123_owner_fails kreivo env k he s s1 o c min h h0 hc).1, ?_⟩
    · rw [call_info (by intro i hi; cases hi) h]; exact hz
    · rcases dispatch_world he (by intro i hi; cases hi) h with ⟨n, c, e, _, _⟩ | ⟨_, _, _, _, _, _, _, g5, _⟩ | g
      · cases e
      · rw [g5]; exact hb
      · exact g.2.2.2 hb
  have hO2 := hO.steps st
  refine ⟨hO2.none_, ?_⟩
  intro env' who m p v d t min' hp hm s3 hv
  obtain ⟨a, d', t', rfl, _, hp', hs, hw⟩ := C48_conditions kreivo env' s2 s3 who m p v hv
  rw [hp] at hp'
  cases hp'
  rw [hm] at hs
  cases v with
  | standard b => rcases hs with hs | hs <;> cases hs
  | native b n => cases hs.1
  | asset b l n =>
    obtain ⟨m', e, _, hn⟩ := hs
    cases e
    have := (C55_within_balance kreivo env' s2 s3 a m p _ hv).2 b k n rfl
    rw [hO2.none_ a] at this
    omega

/-- C123 fails the other way where community 0 has a voice: whoever has authority over community 0 issues as much of any
such asset as they like to whomever they like, and so holds the votes of every community that decides by one. -/
theorem C123_zero_mints_fails (cfg : Config) (env : Env) (table : Nat → ACall) (s : St) (o : Origin) (k : AssetKey)
    (i : Nat) (who : AccountId) (n : Nat) (ha : authority cfg s o = some 0) (min : Nat)
    (hm : s.world.assetMin k = some min) (ht : s.world.team k = allRoles (communityAccount 0)) (hn : min ≤ n)
    (hi : table i = .mint k who n) :
    ∃ s', dispatch cfg (withAssets env table) s o (.dispatchAsAccount (.foreign i)) = .ok s' ∧
      s'.world.asset k who = s.world.asset k who + n := by
  have hc : assetCall s.world (.signed (communityAccount 0)) (.mint k who n) = some { s.world.setAsset k who (s.world.asset k who + n) with
               assetIssuance := fun k' => if k' = k then s.world.assetIssuance k + n else s.world.assetIssuance k' } := by
    unfold assetCall signerAnd
    dsimp only
    rw [hm]
    dsimp only
    rw [if_pos ⟨by rw [ht]; rfl, by omega⟩]
  refine ⟨{ s with world := { s.world.setAsset k who (s.world.asset k who + n) with
               assetIssuance := fun k' => if k' = k then s.world.assetIssuance k + n else s.world.assetIssuance k' } }, ?_, ?_⟩
  · rw [dispatch, ha]
    dsimp only
    rw [dispatch]
    show (match assetCall s.world (.signed (communityAccount 0)) (table i) with | none => _ | some w => _) = _
    rw [hi, hc]
  · simp [World.setAsset]

/-- Calls of pallet_assets obey the law, however they are numbered. -/
theorem withAssets_law (env : Env) (table : Nat → ACall) (k : AssetKey) : AssetLaw k (withAssets env table) :=
  fun n _ _ _ h => Or.inl ⟨table n, h⟩

/-- The demo chain on which nobody has any assets. -/
def Demo.bare : St := { Demo.chain with world := { Demo.world1 with asset := fun _ _ => 0, assetIssuance := fun _ => 0 } }

theorem Demo.bare_reachable : Reachable kreivo Demo.bare := by
  refine (Demo.chain_reachable kreivo).step (.world _ ?_)
  exact pollsMove_of_eq rfl

/-- Call 0 mints a thousand of asset 7 for bob, call 1 creates asset 7 by force, anything else transfers it. -/
def Demo.calls : Nat → ACall
  | 0 => .mint 7 Demo.bob 1000
  | 1 => .forceCreate 7 Demo.alice true 5
  | _ => .transfer 7 Demo.bob 5

/-- The demo chain after alice chose asset 7 for community 1. -/
def Demo.chosen : St :=
  after kreivo (withAssets Demo.env Demo.calls) Demo.bare [(.signed Demo.alice, .setDecisionMethod 1 (.asset 7 5))]

/-- Both ways into being happen: by root, and by alice. -/
example : (∃ s', dispatch kreivo (withAssets Demo.env Demo.calls) Demo.bare .root (.foreign 1) = .ok s' ∧
      s'.world.assetMin 7 = some 5 ∧ (s'.world.team 7).owner = Demo.alice) ∧
    dispatch kreivo (withAssets Demo.env Demo.calls) Demo.bare (.signed Demo.alice) (.setDecisionMethod 1 (.asset 7 5)) = .ok Demo.chosen ∧
    Demo.chosen.world.assetMin 7 = some 5 := ⟨⟨_, rfl, rfl, rfl⟩, rfl, rfl⟩

/-- bob cannot change the minimum of asset 7 by choosing it too. -/
example : ∃ s', dispatch kreivo (withAssets Demo.env Demo.calls) Demo.chosen (.signed Demo.bob) (.setDecisionMethod 2 (.asset 7 1)) = .ok s' ∧
    s'.world.assetMin 7 = some 5 := ⟨_, rfl, rfl⟩

theorem Demo.bob_ordinary : Ordinary (.signed Demo.bob) := by
  refine ⟨by simp, ?_⟩
  intro a h
  cases h
  decide +kernel

/-- The hypotheses of `C123_nobody_votes_fails` are met: alice of community 1 chooses asset 7, then bob chooses it for
community 2; poll 0 of community 1 is open, and decided by the asset. -/
example : ∃ s2, ASteps 7 Demo.chosen s2 ∧ Demo.bare.info 0 = none ∧ Demo.bare.world.assetMin 7 = none ∧
    (∀ a, Demo.bare.world.asset 7 a = 0) ∧ Demo.chosen.world.assetMin 7 ≠ none ∧
    s2.world.polls 0 = some (.ongoing .zero 1) ∧ s2.method 1 = .asset 7 5 ∧ s2.method 2 = .asset 7 1 := by
  refine ⟨_, .tail (.refl _) (.call (withAssets Demo.env Demo.calls) (withAssets_law _ _ 7) (.signed Demo.bob)
    Demo.bob_ordinary (.setDecisionMethod 2 (.asset 7 1)) rfl), rfl, rfl, fun _ => rfl, ?_, rfl, rfl, rfl⟩
  show some 5 ≠ none
  simp

/-- Authority over community 0 mints, here as its account, and what is minted then votes in community 1. -/
example : ∃ s' s'', dispatch kreivo (withAssets Demo.env Demo.calls) Demo.chosen (.signed (communityAccount 0))
      (.dispatchAsAccount (.foreign 0)) = .ok s' ∧ s'.world.asset 7 Demo.bob = 1000 ∧
    dispatch kreivo Demo.env s' (.signed Demo.bob) (.vote 2 0 (.asset true 7 900)) = .ok s'' :=
  ⟨_, _, rfl, rfl, rfl⟩

end Verif.Communities
