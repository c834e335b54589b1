import Verif.Accounts.Lemmas

/-! # C60, C61, C71–C74, C81: accounts of communities, XCM senders and address lookup -/

namespace Verif.Accounts

open Verif Verif.Xcm

/-! ## C60 -/

/-- C60: the community id is recovered from the community's account. -/
theorem C60_reversible (c : UInt16) :
    trySubAccount (communityAccount c) = some (communityPalletId, c) ∧
    accountToCommunityId (communityAccount c) = some c := by
  refine ⟨trySub_community c, ?_⟩
  simp [accountToCommunityId, trySub_community]

/-- C60: different communities have different accounts. -/
theorem C60_injective (c d : UInt16) (h : communityAccount c = communityAccount d) : c = d := by
  have h1 := trySub_community c
  rw [h, trySub_community d] at h1
  cases h1; rfl

/-- C60: and only a community's account is recognised under the communities pallet id. -/
theorem C60_only_community_accounts (a : AccountId) (hl : a.length = 32) (c : UInt16) :
    trySubAccount a = some (communityPalletId, c) ↔ a = communityAccount c := by
  constructor
  · intro h; exact (trySubAccount_some hl h).2
  · rintro rfl; exact trySub_community c

example : communityAccount 1 = ascii "modlkv/cmtys" ++ [1, 0] ++ List.replicate 18 0 := by decide +kernel
example : communityAccount 0x0102 = ascii "modlkv/cmtys" ++ [2, 1] ++ List.replicate 18 0 := by decide +kernel

/-! ## C61 -/

/-- C61: a community account is never an account of another pallet id, whatever the sub-account. -/
theorem C61_not_other_pallet (c : UInt16) (pid sub : List UInt8) (hl : pid.length = 8)
    (hne : pid ≠ communityPalletId) : communityAccount c ≠ palletAccount pid sub := by
  intro h
  exact hne (palletAccount_pid_inj communityPalletId_length hl h).symm

/-- C61: in particular not the treasury, the collators' pot, a pass account, a payments account or the XCM checking
account. -/
theorem C61_not_system_account (c : UInt16) (sub : List UInt8) :
    communityAccount c ≠ treasuryAccount ∧
    communityAccount c ≠ palletAccount potPalletId sub ∧
    communityAccount c ≠ palletAccount passPalletId sub ∧
    communityAccount c ≠ palletAccount paymentPalletId sub ∧
    communityAccount c ≠ palletAccount xcmCheckPalletId sub := by
  refine ⟨?_, ?_, ?_, ?_, ?_⟩ <;>
    exact C61_not_other_pallet c _ _ (by decide +kernel) (by decide +kernel)

/-- C61: nor the relay chain's account or a sibling parachain's. -/
theorem C61_not_sovereign (c : UInt16) (id : UInt32) :
    communityAccount c ≠ siblingAccount id ∧ communityAccount c ≠ pad32 (ascii "Parent") := by
  have h4 : (communityAccount c).take 4 = modl := palletAccount_take4 _ _
  constructor
  · intro h
    have hs : (siblingAccount id).take 4 = sibl := by
      have := sibl_length
      rw [siblingAccount, pad32_take (by simp [this]) (by omega), ← this, List.take_left]
    rw [h, hs] at h4
    revert h4; decide +kernel
  · intro h
    rw [h] at h4
    revert h4; decide +kernel

/-! ## C71 -/

/-- Index of a community that exists as a 16-bit community id. -/
def Fits (i : UInt32) : Prop := i.toNat < 65536

/-- The senders C71 speaks of: the relay chain, a sibling parachain, or the voice (or part) of a local community. -/
inductive ChainSender
  | parent
  | sibling (id : UInt32)
  | community (index : UInt32) (part : BodyPart)

/-- Their locations, seen from this chain. -/
def ChainSender.location : ChainSender → Location
  | .parent => ⟨1, []⟩
  | .sibling id => ⟨1, [.parachain id]⟩
  | .community i part => ⟨0, [.plurality (.index i) part]⟩

/-- Who speaks: the part of the community does not matter. -/
def ChainSender.SameEntity : ChainSender → ChainSender → Prop
  | .parent, .parent => True
  | .sibling a, .sibling b => a = b
  | .community a _, .community b _ => a = b
  | _, _ => False

theorem loc_parent : locationToAccount (ChainSender.parent.location) = some (pad32 (ascii "Parent")) := by
  simp [locationToAccount, ChainSender.location, parentIsPreset]

theorem loc_sibling (id : UInt32) :
    locationToAccount (ChainSender.sibling id).location = some (siblingAccount id) := by
  simp [locationToAccount, ChainSender.location, parentIsPreset, siblingConverts]

theorem loc_community (i : UInt32) (p : BodyPart) :
    locationToAccount (ChainSender.community i p).location = some (communityAccount (satU16 i)) := by
  simp [locationToAccount, ChainSender.location, parentIsPreset, siblingConverts, pluralityConverts]

theorem siblingAccount_inj {a b : UInt32} (h : siblingAccount a = siblingAccount b) : a = b := by
  have e : ∀ x : UInt32, (siblingAccount x).take 8 = sibl ++ leBytes 4 x.toNat := by
    intro x
    have hs := sibl_length
    have h8 : (sibl ++ leBytes 4 x.toNat).length = 8 := by simp; omega
    rw [siblingAccount, pad32_take (by omega) (by omega), List.take_of_length_le (by omega)]
  have h1 := e a
  rw [h, e b] at h1
  have h2 := List.append_cancel_left h1
  have := leBytes_inj (by have := b.toNat_lt; norm_num; omega) (by have := a.toNat_lt; norm_num; omega) h2
  exact (UInt32.toNat_inj.1 this).symm

theorem satU16_inj {a b : UInt32} (ha : Fits a) (hb : Fits b) (h : satU16 a = satU16 b) : a = b := by
  unfold Fits at ha hb
  unfold satU16 at h
  rw [← UInt16.toNat_inj, UInt16.toNat_ofNat', UInt16.toNat_ofNat'] at h
  rw [← UInt32.toNat_inj]
  omega

/-- C71 (partial: community indices above 65535 are excluded, see `C71_large_indices_collide_fails`): the parent, the
siblings and the communities are given pairwise distinct accounts. -/
theorem C71_distinct_senders_partial (s t : ChainSender)
    (hs : ∀ i p, s = .community i p → Fits i) (ht : ∀ i p, t = .community i p → Fits i)
    (a : AccountId) (h1 : locationToAccount s.location = some a) (h2 : locationToAccount t.location = some a) :
    s.SameEntity t := by
  have parentSib : ∀ id, pad32 (ascii "Parent") ≠ siblingAccount id := by
    intro id h
    have hs : (siblingAccount id).take 4 = sibl := by
      have := sibl_length
      rw [siblingAccount, pad32_take (by simp [this]) (by omega), ← this, List.take_left]
    rw [← h] at hs
    revert hs; decide +kernel
  cases s with
  | parent =>
    rw [loc_parent] at h1
    cases t with
    | parent => trivial
    | sibling id => rw [loc_sibling, ← h1] at h2; exact absurd (Option.some.inj h2).symm (parentSib _)
    | community i p =>
      rw [loc_community, ← h1] at h2
      exact absurd (Option.some.inj h2) (C61_not_sovereign _ 0).2
  | sibling id =>
    rw [loc_sibling] at h1
    cases t with
    | parent => rw [loc_parent, ← h1] at h2; exact absurd (Option.some.inj h2) (parentSib _)
    | sibling id' => rw [loc_sibling, ← h1] at h2; exact (siblingAccount_inj (Option.some.inj h2)).symm
    | community i p =>
      rw [loc_community, ← h1] at h2
      exact absurd (Option.some.inj h2) (C61_not_sovereign _ id).1
  | community i p =>
    rw [loc_community] at h1
    cases t with
    | parent =>
      rw [loc_parent, ← h1] at h2
      exact absurd (Option.some.inj h2).symm (C61_not_sovereign _ 0).2
    | sibling id =>
      rw [loc_sibling, ← h1] at h2
      exact absurd (Option.some.inj h2).symm (C61_not_sovereign _ id).1
    | community j q =>
      rw [loc_community, ← h1] at h2
      exact (satU16_inj (ht j q rfl) (hs i p rfl) (C60_injective _ _ (Option.some.inj h2))).symm

/-- C71 is false for large community indices: two different pluralities share an account. -/
theorem C71_large_indices_collide_fails :
    ∃ i j : UInt32, i ≠ j ∧ ∀ p,
      locationToAccount ⟨0, [.plurality (.index i) p]⟩ = locationToAccount ⟨0, [.plurality (.index j) p]⟩ := by
  refine ⟨65535, 65536, by decide, fun p => ?_⟩
  have h1 := loc_community 65535 p
  have h2 := loc_community 65536 p
  simp only [ChainSender.location] at h1 h2
  rw [h1, h2]
  rfl

/-- C71: the full list of locations that have an account, and the account of each. Account locations, local or on the
relay chain, map to their own bytes. -/
theorem C71_who_has_an_account (l : Location) (a : AccountId) :
    locationToAccount l = some a ↔
      (l = ⟨1, []⟩ ∧ a = pad32 (ascii "Parent")) ∨
      (∃ id, l = ⟨1, [.parachain id]⟩ ∧ a = siblingAccount id) ∨
      (∃ i part, l = ⟨0, [.plurality (.index i) part]⟩ ∧ a = communityAccount (satU16 i)) ∨
      (∃ n, l = ⟨1, [.accountId32 n a]⟩ ∧ (n = none ∨ n = some .kusama)) ∨
      (∃ n, l = ⟨0, [.accountId32 n a]⟩ ∧ (n = none ∨ n = some .kusama)) := by
  constructor
  · intro h
    simp only [locationToAccount, Option.or_eq_some_iff] at h
    rcases h with h | ⟨_, h | ⟨_, h | ⟨_, h | ⟨_, h⟩⟩⟩⟩
    · left
      unfold parentIsPreset at h
      split at h
      · rename_i hl; cases h; exact ⟨hl, rfl⟩
      · cases h
    · right; left
      obtain ⟨ps, int⟩ := l
      unfold siblingConverts at h
      dsimp only at h
      split at h
      · cases h; exact ⟨_, rfl, rfl⟩
      · cases h
    · right; right; left
      obtain ⟨ps, int⟩ := l
      unfold pluralityConverts at h
      dsimp only at h
      split at h
      · cases h; exact ⟨_, _, rfl, rfl⟩
      · cases h
    · right; right; right; left
      obtain ⟨ps, int⟩ := l
      unfold accountFromRelay at h
      dsimp only at h
      split at h
      · split at h
        · rename_i hn; cases h; exact ⟨_, rfl, hn⟩
        · cases h
      · cases h
    · right; right; right; right
      obtain ⟨ps, int⟩ := l
      unfold accountAliases at h
      dsimp only at h
      split at h
      · split at h
        · rename_i hn; cases h; exact ⟨_, rfl, hn⟩
        · cases h
      · cases h
  · rintro (⟨rfl, rfl⟩ | ⟨id, rfl, rfl⟩ | ⟨i, p, rfl, rfl⟩ | ⟨n, rfl, hn⟩ | ⟨n, rfl, hn⟩)
    · exact loc_parent
    · exact loc_sibling id
    · exact loc_community i p
    · simp [locationToAccount, parentIsPreset, siblingConverts, pluralityConverts, accountFromRelay, relayNetwork, hn]
    · simp [locationToAccount, parentIsPreset, siblingConverts, pluralityConverts, accountFromRelay, accountAliases,
        relayNetwork, hn]

example : locationToAccount ⟨1, [.accountId32 (some .polkadot) [1]]⟩ = none := by decide +kernel
example : locationToAccount ⟨1, [.parachain 1000]⟩ ≠ locationToAccount ⟨1, [.parachain 2000]⟩ := by decide +kernel

/-! ## C72 -/

/-- C72 (partial: index below 65536): a community plurality is mapped to the account of the community with that
index, so an account of community `c` is reached only from index `c`. -/
theorem C72_own_community_partial (i : UInt32) (part : BodyPart) (hi : Fits i) (c : UInt16) :
    locationToAccount ⟨0, [.plurality (.index i) part]⟩ = some (communityAccount c) ↔ c.toNat = i.toNat := by
  have h := loc_community i part
  simp only [ChainSender.location] at h
  rw [h]
  unfold Fits at hi
  have hsat : (satU16 i).toNat = i.toNat := by
    unfold satU16; rw [UInt16.toNat_ofNat']; omega
  constructor
  · intro h'
    rw [← C60_injective _ _ (Option.some.inj h'), hsat]
  · intro h'
    have : satU16 i = c := UInt16.toNat_inj.1 (by rw [hsat, h'])
    rw [this]

/-- C72 is false for larger indices: a plurality that is no community of this chain acts as community 65535. -/
theorem C72_index_saturates_fails :
    locationToAccount ⟨0, [.plurality (.index 70000) .voice]⟩ = some (communityAccount 65535) := by
  have h := loc_community 70000 .voice
  simp only [ChainSender.location] at h
  rw [h]; rfl

example : Fits 7 := by unfold Fits; decide

/-! ## C73 -/

variable {Cid Mid : Type}

theorem permill_exact (p : Fin (permill + 1)) :
    permillFromRational (UInt32.ofNat p.val).toNat (UInt32.ofNat permill).toNat = p := by
  have hp := p.isLt
  have e1 : (UInt32.ofNat p.val).toNat = p.val := by
    rw [UInt32.toNat_ofNat', Nat.mod_eq_of_lt]; unfold permill at hp; omega
  have e2 : (UInt32.ofNat permill).toNat = permill := by decide
  rw [e1, e2]
  unfold permillFromRational
  apply Fin.ext
  simp only
  rw [fromRational_exact (by decide) (by unfold permill at hp ⊢; omega) (le_refl _)]
  exact Nat.mul_div_cancel _ (by decide)

/-- C73 (partial: the single-member subset is excluded, see `C73_member_is_lost_fails`): a community origin survives
conversion to a junction and back, for any id type with a faithful 32-bit form. -/
theorem C73_roundtrip_partial (toU32 : Cid → UInt32) (ofU32 : UInt32 → Cid) (hid : ∀ c, ofU32 (toU32 c) = c)
    (o : CommunityOrigin Cid Mid) (hm : ∀ m, o.subset ≠ some (.member m)) (j : Junction)
    (h : originToJunction toU32 o = some j) : junctionToOrigin ofU32 j = some o := by
  obtain ⟨c, s⟩ := o
  match s with
  | none => cases h; simp [junctionToOrigin, hid]
  | some (.member m) => exact absurd rfl (hm m)
  | some (.members n) => cases h; simp [junctionToOrigin, hid]
  | some (.fraction p) => cases h; simp only [junctionToOrigin, hid, permill_exact]
  | some (.atLeastRank r) => cases h

/-- C73: exactly the rank subset is refused on the way out. -/
theorem C73_refused_iff (toU32 : Cid → UInt32) (o : CommunityOrigin Cid Mid) :
    originToJunction toU32 o = none ↔ ∃ r, o.subset = some (.atLeastRank r) := by
  obtain ⟨c, s⟩ := o
  match s with
  | none => simp [originToJunction]
  | some (.member m) => simp [originToJunction]
  | some (.members n) => simp [originToJunction]
  | some (.fraction p) => simp [originToJunction]
  | some (.atLeastRank r) => simp [originToJunction]

/-- C73: the community itself always survives. -/
theorem C73_same_community (toU32 : Cid → UInt32) (ofU32 : UInt32 → Cid) (hid : ∀ c, ofU32 (toU32 c) = c)
    (o : CommunityOrigin Cid Mid) (j : Junction) (h : originToJunction toU32 o = some j) :
    ∃ o' : CommunityOrigin Cid Mid, junctionToOrigin ofU32 j = some o' ∧ o'.community = o.community := by
  obtain ⟨c, s⟩ := o
  match s with
  | none => cases h; exact ⟨_, rfl, hid c⟩
  | some (.member m) => cases h; exact ⟨_, rfl, hid c⟩
  | some (.members n) => cases h; exact ⟨_, rfl, hid c⟩
  | some (.fraction p) => cases h; exact ⟨_, rfl, hid c⟩
  | some (.atLeastRank r) => cases h

/-- C73 is false for a single member: the membership id is lost, so two different members' origins become the same
junction. -/
theorem C73_member_is_lost_fails (toU32 : Cid → UInt32) (c : Cid) (m n : Mid) :
    originToJunction toU32 ⟨c, some (.member m)⟩ = originToJunction toU32 ⟨c, some (.member n)⟩ := rfl

example : originToJunction (Mid := Nat) id ⟨7, some (.fraction ⟨500000, by decide⟩)⟩
    = some (.plurality (.index 7) (.fraction 500000 1000000)) := by decide

/-! ## C74 -/

/-- C74 (partial: for accounts under the communities pallet id; see `C74_treasury_speaks_fails`): a signed account
recognised as derived from the communities pallet is presented as community `c` only if it is the account of `c`. -/
theorem C74_signed_speaks_partial (a : AccountId) (hl : a.length = 32) (l : Location)
    (hpid : ∀ pid c, trySubAccount a = some (pid, c) → pid = communityPalletId)
    (h : canSendXcm (.signed a) = some l) :
    ∃ c : UInt16, a = communityAccount c ∧ l = ⟨0, [.plurality (.index (u16ToU32 c)) .voice]⟩ := by
  simp only [canSendXcm, communityToLocation, signedToPlurality, Option.none_or] at h
  split at h
  · rename_i pid c hs
    cases h
    have := hpid _ _ hs
    subst this
    exact ⟨c, (C60_only_community_accounts a hl c).1 hs, rfl⟩
  · cases h

/-- C74: exactly who can send and as whom: an account derived from some pallet id with a 16-bit sub-account `c` is
presented as community `c`. -/
theorem C74_senders (a : AccountId) (hl : a.length = 32) (l : Location) :
    canSendXcm (.signed a) = some l ↔
      ∃ pid : List UInt8, ∃ c : UInt16, pid.length = 8 ∧ a = palletAccount pid (leBytes 2 c.toNat) ∧
        l = ⟨0, [.plurality (.index (u16ToU32 c)) .voice]⟩ := by
  simp only [canSendXcm, communityToLocation, signedToPlurality, Option.none_or]
  constructor
  · intro h
    split at h
    · rename_i pid c hs
      cases h
      exact ⟨pid, c, (trySubAccount_some hl hs).1, (trySubAccount_some hl hs).2, rfl⟩
    · cases h
  · rintro ⟨pid, c, hp, rfl, rfl⟩
    rw [trySubAccount_palletAccount hp (by simp), fromLE_leBytes_lt (by have := c.toNat_lt; norm_num; omega)]
    simp [originToJunction]

example : ∀ pid c, trySubAccount (communityAccount 3) = some (pid, c) → pid = communityPalletId := by
  intro pid c h; rw [trySub_community] at h; cases h; rfl

/-- C74: a community's own account speaks for it. -/
theorem C74_own_account (c : UInt16) :
    canSendXcm (.signed (communityAccount c)) = some ⟨0, [.plurality (.index (u16ToU32 c)) .voice]⟩ := by
  simp [canSendXcm, communityToLocation, signedToPlurality, trySub_community, originToJunction]

/-- C74 is false of the code: the treasury account is presented to other chains as community 0. -/
theorem C74_treasury_speaks_fails :
    canSendXcm (.signed treasuryAccount) = some ⟨0, [.plurality (.index 0) .voice]⟩ ∧
    ∀ c, treasuryAccount ≠ communityAccount c := by
  refine ⟨?_, fun c => ?_⟩
  · simp only [canSendXcm, communityToLocation, signedToPlurality, trySub_treasury, Option.none_or]
    rfl
  · exact fun h => (C61_not_system_account c []).1 h.symm

/-- C74: an account that executes a message on this chain does so as itself, never as a community, whatever the
account looks like. -/
theorem C74_executes_as_itself (a : AccountId) (l : Location) :
    canExecuteXcm (.signed a) = some l ↔ l = ⟨0, [.accountId32 relayNetwork a]⟩ := by
  simp only [canExecuteXcm, communityToLocation, signedToAccountId32, Option.none_or, Option.some.injEq]
  exact eq_comm

/-- C74: a community origin sends and executes as the same part of its community, and only if that part can be written
as a junction; root, unsigned and custom origins neither send nor execute. -/
theorem C74_other_origins (o : RtOrigin) (h : ∀ a, o ≠ .signed a) :
    canSendXcm o = canExecuteXcm o ∧
    ∀ l, canExecuteXcm o = some l →
      ∃ c j, o = .community c ∧ originToJunction u16ToU32 c = some j ∧ l = ⟨0, [j]⟩ := by
  cases o with
  | signed a => exact absurd rfl (h a)
  | community c =>
    refine ⟨by simp [canSendXcm, canExecuteXcm, signedToPlurality, signedToAccountId32], fun l hl => ?_⟩
    simp only [canExecuteXcm, communityToLocation, signedToAccountId32, Option.or_none, Option.map_eq_some_iff] at hl
    obtain ⟨j, hj, rfl⟩ := hl
    exact ⟨c, j, rfl, hj, rfl⟩
  | _ => exact ⟨rfl, fun l hl => by cases hl⟩

example : canExecuteXcm (.signed (communityAccount 3)) = some ⟨0, [.accountId32 relayNetwork (communityAccount 3)]⟩ ∧
    canExecuteXcm (.community ⟨3, none⟩) = some ⟨0, [.plurality (.index 3) .voice]⟩ ∧ canSendXcm .root = none := by
  refine ⟨rfl, ?_, ?_⟩ <;> rfl

/-! ## C81 -/

/-- C81: lookup answers exactly as documented, and unlookup is a right inverse. -/
theorem C81_lookup :
    (∀ a, lookup (.id a) = some a) ∧
    (∀ c, lookup (.index c) = some (communityAccount c)) ∧
    (∀ x, (∀ a, x ≠ .id a) → (∀ c, x ≠ .index c) → lookup x = none) ∧
    (∀ a, lookup (unlookup a) = some a) := by
  refine ⟨fun _ => rfl, fun _ => rfl, ?_, fun _ => rfl⟩
  intro x h1 h2
  cases x with
  | id a => exact absurd rfl (h1 a)
  | index c => exact absurd rfl (h2 c)
  | raw b => rfl
  | address32 b => rfl
  | address20 b => rfl

/-- C81: two addresses of different communities never resolve to the same account, and a community index resolves to
a given account only if that account is this community's. -/
theorem C81_index_unambiguous (c d : UInt16) (a : AccountId) (h1 : lookup (.index c) = some a)
    (h2 : lookup (.index d) = some a) : c = d ∧ accountToCommunityId a = some c := by
  have e1 : communityAccount c = a := Option.some.inj h1
  have e2 : communityAccount d = a := Option.some.inj h2
  refine ⟨C60_injective _ _ (e1.trans e2.symm), ?_⟩
  rw [← e1]; exact (C60_reversible c).2

example : lookup (.raw [1, 2]) = none := rfl

end Verif.Accounts
