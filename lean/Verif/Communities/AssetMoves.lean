import Verif.Communities.AssetTheorems

/-!
# Units of assets: theorems (C134)
-/

namespace Verif.Communities

open Verif Verif.Accounts

/-! ## Specification -/

/-- Exactly `m` units of asset `k` go from one account to another, and nothing else about assets, money or polls changes.
Specification only, no code behind it (outside /repo). -/
structure UnitsMoved (k : AssetKey) (src dst : AccountId) (m : Nat) (w w' : World) : Prop where
  had : m ≤ w.asset k src
  left : w'.asset k src = w.asset k src - m
  came : w'.asset k dst = w.asset k dst + m
  others : ∀ l a, (l ≠ k ∨ a ≠ src ∧ a ≠ dst) → w'.asset l a = w.asset l a
  rest : w' = { w with asset := w'.asset }

/-- The amount that leaves when `n` are asked for: all of the balance if what would be left is below the minimum, and
otherwise `n` itself. Specification only, no code behind it (outside /repo). -/
def Due (min balance n m : Nat) : Prop :=
  n ≤ balance ∧ ((min ≤ balance - n ∧ m = n) ∨ (balance - n < min ∧ m = balance))

/-- The balances of an asset add up to its issuance: there is a list without repetitions of accounts, outside of which
nobody has any, and their balances sum up to it. Specification only, no code behind it (outside /repo). -/
def Books (k : AssetKey) (w : World) : Prop :=
  ∃ l : List AccountId, l.Nodup ∧ (∀ a, a ∉ l → w.asset k a = 0) ∧ (l.map (w.asset k)).sum = w.assetIssuance k

/-! ## Lemmas -/

theorem leaving_due {min balance n : Nat} (h : n ≤ balance) : Due min balance n (leaving min balance n) := by
  unfold Due leaving
  refine ⟨h, ?_⟩
  split
  · rename_i hb; exact Or.inr ⟨hb, rfl⟩
  · rename_i hb; exact Or.inl ⟨by omega, rfl⟩

theorem leaving_le {min balance n : Nat} (h : n ≤ balance) : leaving min balance n ≤ balance := by
  unfold leaving; split <;> omega

theorem moveAsset_moved {w w' : World} {k : AssetKey} {min : Nat} {src dst : AccountId} {n : Nat}
    (h : w.moveAsset k min src dst n = some w') :
    n ≤ w.asset k src ∧ min ≤ w.asset k dst + n ∧
      ((src = dst ∧ w' = w) ∨ (src ≠ dst ∧ ∃ m, Due min (w.asset k src) n m ∧ UnitsMoved k src dst m w w')) := by
  unfold World.moveAsset at h
  split at h
  · cases h
  · rename_i hn
    refine ⟨by omega, by omega, ?_⟩
    split at h
    · rename_i e
      cases h
      exact Or.inl ⟨e, rfl⟩
    · rename_i e
      have hle : n ≤ w.asset k src := by omega
      refine Or.inr ⟨e, leaving min (w.asset k src) n, leaving_due hle, ?_⟩
      dsimp only at h
      cases h
      refine ⟨leaving_le hle, ?_, ?_, ?_, rfl⟩
      · simp [World.setAsset, e]
      · simp [World.setAsset]
      · intro l a hla
        unfold World.setAsset
        dsimp only
        rcases hla with hl | ⟨h1, h2⟩
        · simp [hl]
        · simp [h1, h2]

theorem sum_set (l : List AccountId) (hn : l.Nodup) (f g : AccountId → Nat) (x : AccountId) (hx : x ∈ l)
    (hfg : ∀ a, a ≠ x → g a = f a) : (l.map g).sum + f x = (l.map f).sum + g x := by
  induction l with
  | nil => cases hx
  | cons b t ih =>
    have hb := List.nodup_cons.mp hn
    simp only [List.map_cons, List.sum_cons]
    by_cases hbx : b = x
    · subst hbx
      have : t.map g = t.map f := List.map_congr_left fun a ha => hfg a (fun e => hb.1 (e ▸ ha))
      rw [this]; omega
    · have hm : x ∈ t := by
        rcases List.mem_cons.mp hx with e | e
        · exact absurd e.symm hbx
        · exact e
      have := ih hb.2 hm
      rw [hfg b hbx]; omega

theorem le_sum (l : List AccountId) (f : AccountId → Nat) (x : AccountId) (hx : x ∈ l) : f x ≤ (l.map f).sum := by
  induction l with
  | nil => cases hx
  | cons b t ih =>
    simp only [List.map_cons, List.sum_cons]
    rcases List.mem_cons.mp hx with rfl | h
    · omega
    · have := ih h; omega

/-- The list can be taken to have an account in it. -/
theorem Books.with {k : AssetKey} {w : World} (h : Books k w) (x : AccountId) :
    ∃ l : List AccountId, x ∈ l ∧ l.Nodup ∧ (∀ a, a ∉ l → w.asset k a = 0) ∧
      (l.map (w.asset k)).sum = w.assetIssuance k := by
  obtain ⟨l, h1, h2, h3⟩ := h
  by_cases hx : x ∈ l
  · exact ⟨l, hx, h1, h2, h3⟩
  · refine ⟨x :: l, List.mem_cons_self, List.nodup_cons.mpr ⟨hx, h1⟩, ?_, ?_⟩
    · intro a ha
      exact h2 a (fun e => ha (List.mem_cons_of_mem _ e))
    · simp [h2 x hx, h3]

/-- Setting one balance changes the sum by the difference. -/
theorem Books.set {k : AssetKey} {w w' : World} (h : Books k w) (x : AccountId)
    (hs : ∀ a, a ≠ x → w'.asset k a = w.asset k a)
    (hi : w'.assetIssuance k + w.asset k x = w.assetIssuance k + w'.asset k x) : Books k w' := by
  obtain ⟨l, hx, h1, h2, h3⟩ := h.with x
  refine ⟨l, h1, ?_, ?_⟩
  · intro a ha
    rw [hs a (fun e => ha (e ▸ hx))]
    exact h2 a ha
  · have := sum_set l h1 (w.asset k) (w'.asset k) x hx hs
    omega

theorem Books.holds {k : AssetKey} {w : World} (h : Books k w) (x : AccountId) : w.asset k x ≤ w.assetIssuance k := by
  obtain ⟨l, hx, h1, h2, h3⟩ := h.with x
  rw [← h3]
  exact le_sum l _ x hx

theorem Books.moved {k l : AssetKey} {w w' : World} {src dst : AccountId} {m : Nat} (h : Books k w) (hne : src ≠ dst)
    (hm : UnitsMoved l src dst m w w') : Books k w' := by
  have hi : w'.assetIssuance = w.assetIssuance := by rw [hm.rest]
  by_cases hl : k = l
  · subst hl
    let w1 : World := { w with
      asset := fun k' a => if k' = k ∧ a = src then w.asset k src - m else w.asset k' a
      assetIssuance := fun k' => if k' = k then w.assetIssuance k - m else w.assetIssuance k' }
    have hb := h.holds src
    have hd := hm.had
    have b1 : Books k w1 := by
      refine h.set src (fun a ha => ?_) ?_
      · show (if k = k ∧ a = src then _ else _) = _
        rw [if_neg (fun e => ha e.2)]
      · show (if k = k then _ else _) + _ = _ + (if k = k ∧ src = src then _ else _)
        rw [if_pos rfl, if_pos ⟨rfl, rfl⟩]
        omega
    refine b1.set dst (fun a ha => ?_) ?_
    · show _ = (if k = k ∧ a = src then _ else _)
      by_cases e : a = src
      · rw [if_pos ⟨rfl, e⟩, e, hm.left]
      · rw [if_neg (fun x => e x.2)]
        exact hm.others k a (Or.inr ⟨e, ha⟩)
    · show _ + (if k = k ∧ dst = src then _ else _) = (if k = k then _ else _) + _
      rw [if_neg (fun x => hne x.2.symm), if_pos rfl, hi, hm.came]
      omega
  · obtain ⟨L, h1, h2, h3⟩ := h
    have hs : w'.asset k = w.asset k := by
      funext a; exact hm.others k a (Or.inl hl)
    exact ⟨L, h1, by rw [hs]; exact h2, by rw [hs, hi]; exact h3⟩

theorem Books.same {k : AssetKey} {w w' : World} (h : Books k w) (h1 : w'.asset = w.asset)
    (h2 : w'.assetIssuance = w.assetIssuance) : Books k w' := by
  obtain ⟨l, a, b, c⟩ := h
  exact ⟨l, a, by rw [h1]; exact b, by rw [h1, h2]; exact c⟩

theorem assetCall_books {w w' : World} {o : Origin} {c : ACall} (h : assetCall w o c = some w') (k : AssetKey)
    (hb : Books k w) : Books k w' := by
  cases c with
  | create => cases h
  | forceCreate l owner sufficient min =>
    unfold assetCall at h
    dsimp only at h
    split at h
    · split at h
      · cases h
      · cases h; exact hb.same rfl rfl
    · cases h
  | forceStatus l t min =>
    unfold assetCall at h
    dsimp only at h
    split at h
    · split at h
      · cases h
      · cases h; exact hb.same rfl rfl
    · cases h
  | transferOwnership l owner =>
    unfold assetCall at h
    dsimp only at h
    split at h
    · split at h
      · cases h; exact hb.same rfl rfl
      · cases h
    · cases h
  | setTeam l issuer admin freezer =>
    unfold assetCall at h
    dsimp only at h
    split at h
    · split at h
      · cases h; exact hb.same rfl rfl
      · cases h
    · cases h
  | mint l who n =>
    unfold assetCall at h
    dsimp only at h
    split at h
    · split at h
      · cases h
        refine hb.set who (fun a ha => ?_) ?_
        · simp [World.setAsset, ha]
        · by_cases hl : k = l
          · subst hl; simp [World.setAsset]; omega
          · simp [World.setAsset, hl]
      · cases h
    · cases h
  | burn l who n =>
    unfold assetCall at h
    dsimp only at h
    split at h
    · rename_i a min hs
      split at h
      · cases h
        refine hb.set who (fun a ha => ?_) ?_
        · simp [World.setAsset, ha]
        · by_cases hl : k = l
          · subst hl
            have h1 := hb.holds who
            have h2 : leaving min (w.asset k who) (Nat.min n (w.asset k who)) ≤ w.asset k who :=
              leaving_le (Nat.min_le_right _ _)
            simp only [World.setAsset, if_true, and_self]
            omega
          · simp [World.setAsset, hl]
      · cases h
    · cases h
  | transfer l dst n =>
    unfold assetCall at h
    dsimp only at h
    split at h
    · obtain ⟨_, _, ⟨_, rfl⟩ | ⟨hne, m, _, hm⟩⟩ := moveAsset_moved h
      · exact hb
      · exact hb.moved hne hm
    · cases h
  | forceTransfer l src dst n =>
    unfold assetCall at h
    dsimp only at h
    split at h
    · split at h
      · obtain ⟨_, _, ⟨_, rfl⟩ | ⟨hne, m, _, hm⟩⟩ := moveAsset_moved h
        · exact hb
        · exact hb.moved hne hm
      · cases h
    · cases h
  | destroy l =>
    unfold assetCall at h
    dsimp only at h
    split at h
    · cases h
    · split at h
      · cases h
        by_cases hl : k = l
        · subst hl
          exact ⟨[], List.nodup_nil, by intro a _; simp, by simp⟩
        · obtain ⟨L, a, b, c⟩ := hb
          have hs : (fun x => if k = l then 0 else w.asset k x) = w.asset k := by funext x; rw [if_neg hl]
          refine ⟨L, a, ?_, ?_⟩
          · intro x hx; show (if k = l then 0 else w.asset k x) = 0; rw [if_neg hl]; exact b x hx
          · show (L.map (fun x => if k = l then 0 else w.asset k x)).sum = if k = l then 0 else w.assetIssuance k
            rw [hs, if_neg hl]; exact c
      · cases h

/-- Calls other than those of pallet_assets change no balance. -/
theorem dispatch_units {cfg : Config} {env : Env} {table : Nat → ACall} {s s' : St} {o : Origin} {call : Call}
    (hl : ∀ inner, call ≠ .dispatchAsAccount inner) (h : dispatch cfg (withAssets env table) s o call = .ok s') :
    (∃ n, call = .foreign n ∧ assetCall s.world o (table n) = some s'.world) ∨
      (s'.world.asset = s.world.asset ∧ s'.world.assetIssuance = s.world.assetIssuance) := by
  cases call with
  | create admin c =>
    obtain ⟨d, s1, _, hr, rfl⟩ := create_ok h
    refine Or.inr ?_
    obtain ⟨_, _, w, rfl, hw⟩ := register_ok hr
    cases d with
    | none => dsimp only at hw; rw [hw]; exact ⟨rfl, rfl⟩
    | some x =>
      obtain ⟨n, src, dst⟩ := x
      obtain ⟨_, bal, hb, _⟩ := transferNative_ok hw
      have : w = { s.world with native := bal } := congrArg St.world hb
      show w.asset = _ ∧ w.assetIssuance = _
      rw [this]
      exact ⟨rfl, rfl⟩
  | setAdminOrigin admin => obtain ⟨c, _, h2, rfl⟩ := setAdminOrigin_ok h; exact Or.inr ⟨rfl, rfl⟩
  | addMember a => obtain ⟨_, _, _, _, _, _, _, _, _, rfl⟩ := addMember_ok h; exact Or.inr ⟨rfl, rfl⟩
  | removeMember a m => obtain ⟨_, _, _, _, _, _, _, rfl⟩ := removeMember_ok h; exact Or.inr ⟨rfl, rfl⟩
  | promote m => obtain ⟨_, _, _, _, rfl⟩ := promote_ok h; exact Or.inr ⟨rfl, rfl⟩
  | demote m => obtain ⟨_, _, _, _, rfl⟩ := demote_ok h; exact Or.inr ⟨rfl, rfl⟩
  | setDecisionMethod c dm =>
    rw [dispatch] at h
    unfold setDecisionMethod at h
    split at h
    · cases h
    · dsimp only at h
      cases h
      rcases createAsset_cases (withAssets env table) s dm with e | ⟨l, min, rfl, h0, e⟩
      · exact Or.inr (by rw [e]; exact ⟨rfl, rfl⟩)
      · exact Or.inr (by rw [e]; exact ⟨rfl, rfl⟩)
  | vote m p v =>
    exact Or.inr ⟨(vote_registry h).2.2.2.2.2.2.1, (vote_registry h).2.2.2.2.2.2.2.2.2⟩
  | removeVote m p =>
    exact Or.inr ⟨(removeVote_registry h).2.2.2.2.2.2.1, (removeVote_registry h).2.2.2.2.2.2.2.2.2⟩
  | unlock p =>
    exact Or.inr ⟨(unlock_registry h).2.2.2.2.2.2.1, (unlock_registry h).2.2.2.2.2.2.2.2.2⟩
  | dispatchAsAccount i => exact absurd rfl (hl i)
  | foreign n =>
    rw [dispatch] at h
    split at h
    · cases h
    · rename_i w hw
      cases h
      exact Or.inl ⟨n, rfl, hw⟩

/-! ## C134 -/

/-- C134: if a call leaves an account with fewer units of an asset, it was a call of pallet_assets by the account itself (a
transfer), by the asset's admin (a burn or a forced transfer), or by root or the asset's owner, who destroyed the asset; and
whoever made it is the caller, or the account of a community on whose behalf the caller acts. -/
theorem C134_units_leave (cfg : Config) (env : Env) (table : Nat → ACall) (s s' : St) (o : Origin) (call : Call)
    (k : AssetKey) (a : AccountId) (h : dispatch cfg (withAssets env table) s o call = .ok s')
    (hlt : s'.world.asset k a < s.world.asset k a) :
    ∃ o', (o' = o ∨ authority cfg s o ≠ none ∧ ∃ d, o' = .signed (communityAccount d)) ∧
      ((o' = .signed a ∧ ∃ dst n, assetCall s.world o' (.transfer k dst n) = some s'.world) ∨
       (o' = .signed (s.world.team k).admin ∧ ∃ dst n, assetCall s.world o' (.forceTransfer k a dst n) = some s'.world) ∨
       (o' = .signed (s.world.team k).admin ∧ ∃ n, assetCall s.world o' (.burn k a n) = some s'.world) ∨
       ((o' = .root ∨ o' = .signed (s.world.team k).owner) ∧ assetCall s.world o' (.destroy k) = some s'.world ∧
         s'.world.assetMin k = none)) := by
  obtain ⟨o', leaf, hl, hd, ho⟩ := leaf_signer h
  refine ⟨o', ?_, ?_⟩
  · rcases ho with ⟨rfl, _⟩ | ho
    · exact Or.inl rfl
    · exact Or.inr ho
  rcases dispatch_units hl hd with ⟨n, _, hc⟩ | ⟨e, _⟩
  swap
  · rw [e] at hlt; omega
  have hc' := hc
  generalize hcall : table n = c at hc hc'
  cases c with
  | create => cases hc
  | forceCreate l owner sufficient min =>
    unfold assetCall at hc
    dsimp only at hc
    split at hc
    · split at hc
      · cases hc
      · rw [← Option.some.inj hc] at hlt
        exact absurd hlt (Nat.lt_irrefl _)
    · cases hc
  | forceStatus l t min =>
    unfold assetCall at hc
    dsimp only at hc
    split at hc
    · split at hc
      · cases hc
      · rw [← Option.some.inj hc] at hlt
        exact absurd hlt (Nat.lt_irrefl _)
    · cases hc
  | transferOwnership l owner =>
    unfold assetCall at hc
    dsimp only at hc
    split at hc
    · split at hc
      · rw [← Option.some.inj hc] at hlt
        exact absurd hlt (Nat.lt_irrefl _)
      · cases hc
    · cases hc
  | setTeam l issuer admin freezer =>
    unfold assetCall at hc
    dsimp only at hc
    split at hc
    · split at hc
      · rw [← Option.some.inj hc] at hlt
        exact absurd hlt (Nat.lt_irrefl _)
      · cases hc
    · cases hc
  | mint l who n =>
    unfold assetCall at hc
    dsimp only at hc
    split at hc
    · split at hc
      · rw [← Option.some.inj hc] at hlt
        simp only [World.setAsset] at hlt
        split at hlt
        · rename_i e
          rw [e.1, e.2] at hlt
          omega
        · omega
      · cases hc
    · cases hc
  | burn l who n =>
    unfold assetCall at hc
    dsimp only at hc
    split at hc
    · rename_i b min hs
      obtain ⟨rfl, hm⟩ := signerAnd_some hs
      split at hc
      · rename_i hb
        rw [← Option.some.inj hc] at hlt
        simp only [World.setAsset] at hlt
        split at hlt
        · rename_i e
          obtain ⟨rfl, rfl⟩ := e
          exact Or.inr (Or.inr (Or.inl ⟨by rw [hb], n, hc'⟩))
        · omega
      · cases hc
    · cases hc
  | transfer l dst n =>
    unfold assetCall at hc
    dsimp only at hc
    split at hc
    · rename_i b min hs
      obtain ⟨rfl, hm⟩ := signerAnd_some hs
      obtain ⟨_, _, ⟨_, e⟩ | ⟨hne, m, _, g⟩⟩ := moveAsset_moved hc
      · rw [e] at hlt; omega
      · by_cases hk : k = l
        · subst hk
          by_cases hab : a = b
          · subst hab
            exact Or.inl ⟨rfl, dst, n, hc'⟩
          · by_cases had : a = dst
            · subst had
              have := g.came
              omega
            · have := g.others k a (Or.inr ⟨hab, had⟩)
              omega
        · have := g.others k a (Or.inl hk)
          omega
    · cases hc
  | forceTransfer l src dst n =>
    unfold assetCall at hc
    dsimp only at hc
    split at hc
    · rename_i b min hs
      obtain ⟨rfl, hm⟩ := signerAnd_some hs
      split at hc
      · rename_i hb
        obtain ⟨_, _, ⟨_, e⟩ | ⟨hne, m, _, g⟩⟩ := moveAsset_moved hc
        · rw [e] at hlt; omega
        · by_cases hk : k = l
          · subst hk
            by_cases hab : a = src
            · subst hab
              exact Or.inr (Or.inl ⟨by rw [hb], dst, n, hc'⟩)
            · by_cases had : a = dst
              · subst had
                have := g.came
                omega
              · have := g.others k a (Or.inr ⟨hab, had⟩)
                omega
          · have := g.others k a (Or.inl hk)
            omega
      · cases hc
    · cases hc
  | destroy l =>
    unfold assetCall at hc
    dsimp only at hc
    split at hc
    · cases hc
    · split at hc
      · rename_i hw
        by_cases hk : k = l
        · subst hk
          refine Or.inr (Or.inr (Or.inr ⟨hw, hc', ?_⟩))
          rw [← Option.some.inj hc]
          simp
        · rw [← Option.some.inj hc] at hlt
          simp only [if_neg hk] at hlt
          omega
      · cases hc

/-- C134: a transfer moves what was asked for, or the whole balance if the rest would be below the asset's minimum, from the
signer to the account named, and nothing else changes. -/
theorem C134_transfer (cfg : Config) (env : Env) (table : Nat → ACall) (s s' : St) (o : Origin) (i : Nat) (k : AssetKey)
    (dst : AccountId) (n : Nat) (hi : table i = .transfer k dst n)
    (h : dispatch cfg (withAssets env table) s o (.foreign i) = .ok s') :
    ∃ a min, o = .signed a ∧ s.world.assetMin k = some min ∧ n ≤ s.world.asset k a ∧ min ≤ s.world.asset k dst + n ∧
      s' = { s with world := s'.world } ∧
      ((a = dst ∧ s' = s) ∨
       (a ≠ dst ∧ ∃ m, Due min (s.world.asset k a) n m ∧ UnitsMoved k a dst m s.world s'.world)) := by
  rw [dispatch] at h
  split at h
  · cases h
  · rename_i w hw
    cases h
    have hw' : assetCall s.world o (.transfer k dst n) = some w := by rw [← hi]; exact hw
    unfold assetCall at hw'
    dsimp only at hw'
    split at hw'
    · rename_i b min hs
      obtain ⟨rfl, hm⟩ := signerAnd_some hs
      obtain ⟨h1, h2, ⟨e, rfl⟩ | g⟩ := moveAsset_moved hw'
      · exact ⟨b, min, rfl, hm, h1, h2, rfl, Or.inl ⟨e, rfl⟩⟩
      · exact ⟨b, min, rfl, hm, h1, h2, rfl, Or.inr g⟩
    · cases hw'

/-- C134: and a transfer the signer can afford, of an amount the receiver may hold, does succeed. -/
theorem C134_transfer_succeeds (cfg : Config) (env : Env) (table : Nat → ACall) (s : St) (i : Nat) (k : AssetKey)
    (a dst : AccountId) (n min : Nat) (hi : table i = .transfer k dst n) (hm : s.world.assetMin k = some min)
    (hn : n ≤ s.world.asset k a) (hd : min ≤ n) :
    ∃ s', dispatch cfg (withAssets env table) s (.signed a) (.foreign i) = .ok s' := by
  have hc : ∃ w, assetCall s.world (.signed a) (table i) = some w := by
    rw [hi]
    unfold assetCall signerAnd
    dsimp only
    rw [hm]
    dsimp only
    unfold World.moveAsset
    rw [if_neg (by omega)]
    split
    · exact ⟨_, rfl⟩
    · exact ⟨_, rfl⟩
  obtain ⟨w, hw⟩ := hc
  refine ⟨{ s with world := w }, ?_⟩
  rw [dispatch]
  show (match assetCall s.world (.signed a) (table i) with | none => _ | some w => _) = _
  rw [hw]

/-- Any number of calls, on behalf of anybody, of the communities pallet and of pallet_assets, in any order. Part of the
transition system around the code (outside /repo). -/
inductive Dealings (cfg : Config) : St → St → Prop
  | refl (s : St) : Dealings cfg s s
  | tail {s s' s'' : St} (h : Dealings cfg s s') (env : Env) (table : Nat → ACall) (o : Origin) (call : Call)
      (hc : dispatch cfg (withAssets env table) s' o call = .ok s'') : Dealings cfg s s''

/-- C134: whatever calls are made, the balances of an asset go on adding up to its issuance. -/
theorem C134_books (cfg : Config) (s s' : St) (k : AssetKey) (h : Dealings cfg s s') (hb : Books k s.world) :
    Books k s'.world := by
  induction h with
  | refl => exact hb
  | tail _ env table o call hc ih =>
    obtain ⟨o', leaf, hl, hd, _⟩ := leaf_signer hc
    rcases dispatch_units hl hd with ⟨n, _, hn⟩ | ⟨e1, e2⟩
    · exact assetCall_books hn k ih
    · exact ih.same e1 e2

/-- C134: nobody ever has more of an asset than was issued. -/
theorem C134_within_issuance (cfg : Config) (s s' : St) (k : AssetKey) (a : AccountId) (h : Dealings cfg s s')
    (hb : Books k s.world) : s'.world.asset k a ≤ s'.world.assetIssuance k :=
  (C134_books cfg s s' k h hb).holds a

/-! ## Examples -/

/-- Call 0 mints a thousand of asset 7 for bob, call 1 has the signer send alice 30, call 2 has the signer send alice 966,
after which less than the minimum would be left. Example for non-vacuity (outside /repo). -/
def Demo.moves : Nat → ACall
  | 0 => .mint 7 Demo.bob 1000
  | 1 => .transfer 7 Demo.alice 30
  | _ => .transfer 7 Demo.alice 966

/-- Nobody has any of asset 7 on the chain of this example, and the books balance. -/
example : Books 7 Demo.chosen.world := ⟨[], List.nodup_nil, fun _ _ => rfl, rfl⟩

/-- The account of community 0 mints for bob, bob sends some to alice, and then nearly all of the rest, which takes the
rest along. -/
example : ∃ s1 s2 s3, dispatch kreivo (withAssets Demo.env Demo.moves) Demo.chosen (.signed (communityAccount 0)) (.foreign 0) = .ok s1 ∧
    dispatch kreivo (withAssets Demo.env Demo.moves) s1 (.signed Demo.bob) (.foreign 1) = .ok s2 ∧
    dispatch kreivo (withAssets Demo.env Demo.moves) s2 (.signed Demo.bob) (.foreign 2) = .ok s3 ∧
    s2.world.asset 7 Demo.bob = 970 ∧ s2.world.asset 7 Demo.alice = 30 ∧
    s3.world.asset 7 Demo.bob = 0 ∧ s3.world.asset 7 Demo.alice = 1000 ∧ s3.world.assetIssuance 7 = 1000 :=
  ⟨_, _, _, rfl, rfl, rfl, rfl, rfl, rfl, rfl, rfl⟩

end Verif.Communities
