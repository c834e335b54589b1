import Verif.Governance.Members

/-! # What calls do to the holders of memberships -/

namespace Verif.Governance

open Verif Verif.Accounts Verif.Communities

/-- An account holds an item. -/
def Holds (items : List Item) (c : CId) (m : MId) (a : AccountId) : Prop :=
  ∃ i ∈ items, i.group = c ∧ i.id = m ∧ i.owner = a

theorem holder_some {items : List Item} {c : CId} {m : MId} {a : AccountId} (h : holder items c m = some a) :
    Holds items c m a := by
  unfold holder at h
  obtain ⟨i, hi, rfl⟩ := Option.map_eq_some_iff.1 h
  exact ⟨i, List.mem_of_find?_eq_some hi, (by simpa using List.find?_some hi : i.group = c ∧ i.id = m).1,
    (by simpa using List.find?_some hi : i.group = c ∧ i.id = m).2, rfl⟩

theorem holder_of {items : List Item} {c : CId} {m : MId} {a : AccountId} (ho : OneHolder items)
    (h : Holds items c m a) : holder items c m = some a := by
  obtain ⟨i, hi, h1, h2, h3⟩ := h
  cases hf : holder items c m with
  | none =>
    unfold holder at hf
    rw [Option.map_eq_none_iff, List.find?_eq_none] at hf
    exact absurd (decide_eq_true ⟨h1, h2⟩) (hf i hi)
  | some b =>
    obtain ⟨j, hj, g1, g2, g3⟩ := holder_some hf
    rw [← g3, ← h3, ho i hi j hj (h1.trans g1.symm) (h2.trans g2.symm)]

theorem holder_none {items : List Item} {c : CId} {m : MId} (h : holder items c m = none) (a : AccountId) :
    ¬ Holds items c m a := by
  rintro ⟨i, hi, h1, h2, _⟩
  unfold holder at h
  rw [Option.map_eq_none_iff, List.find?_eq_none] at h
  exact absurd (decide_eq_true ⟨h1, h2⟩) (h i hi)

theorem holds_give {items : List Item} {c d : CId} {m k : MId} {dst a : AccountId} :
    Holds (giveItem items c m dst) d k a ↔
      (d = c ∧ k = m ∧ a = dst ∧ ∃ b, Holds items c m b) ∨ (¬ (d = c ∧ k = m) ∧ Holds items d k a) := by
  unfold Holds giveItem
  constructor
  · rintro ⟨i, hi, h1, h2, h3⟩
    obtain ⟨j, hj, rfl⟩ := List.mem_map.1 hi
    by_cases hc : j.group = c ∧ j.id = m
    · rw [if_pos hc] at h1 h2 h3
      exact .inl ⟨h1.symm.trans hc.1, h2.symm.trans hc.2, h3.symm, j.owner, j, hj, hc.1, hc.2, rfl⟩
    · rw [if_neg hc] at h1 h2 h3
      subst h1 h2
      exact .inr ⟨hc, j, hj, rfl, rfl, h3⟩
  · rintro (⟨rfl, rfl, rfl, b, i, hi, h1, h2, _⟩ | ⟨hc, i, hi, rfl, rfl, rfl⟩)
    · exact ⟨{ i with owner := a }, List.mem_map.2 ⟨i, hi, by rw [if_pos ⟨h1, h2⟩]⟩, h1, h2, rfl⟩
    · exact ⟨i, List.mem_map.2 ⟨i, hi, by rw [if_neg hc]⟩, rfl, rfl, rfl⟩

theorem holder_give {items : List Item} {c : CId} {m : MId} {a dst : AccountId} (h : holder items c m = some a) :
    holder (giveItem items c m dst) c m = some dst := by
  have h1 : Holds (giveItem items c m dst) c m dst := holds_give.2 (.inl ⟨rfl, rfl, rfl, a, holder_some h⟩)
  cases hx : holder (giveItem items c m dst) c m with
  | none => exact absurd h1 (holder_none hx _)
  | some b =>
    rcases holds_give.1 (holder_some hx) with ⟨_, _, rfl, _⟩ | ⟨h2, _⟩
    · rfl
    · exact absurd ⟨rfl, rfl⟩ h2

theorem holds_filter {items : List Item} {c d : CId} {m k : MId} {a : AccountId} :
    Holds (items.filter fun i => !decide (i.group = c ∧ i.id = m)) d k a ↔
      ¬ (d = c ∧ k = m) ∧ Holds items d k a := by
  unfold Holds
  constructor
  · rintro ⟨i, hi, rfl, rfl, h3⟩
    obtain ⟨h1, h2⟩ := List.mem_filter.1 hi
    exact ⟨(fun hc => by simp [hc] at h2), i, h1, rfl, rfl, h3⟩
  · rintro ⟨hc, i, hi, rfl, rfl, rfl⟩
    exact ⟨i, List.mem_filter.2 ⟨hi, by rw [decide_eq_false hc]; rfl⟩, rfl, rfl, rfl⟩

theorem holds_cons {items : List Item} {c d : CId} {m k : MId} {dst a : AccountId} {r : UInt8} :
    Holds (⟨c, m, dst, r⟩ :: items) d k a ↔ (d = c ∧ k = m ∧ a = dst) ∨ Holds items d k a := by
  unfold Holds
  constructor
  · rintro ⟨i, hi, h1, h2, h3⟩
    rcases List.mem_cons.1 hi with rfl | hi
    · exact .inl ⟨h1.symm, h2.symm, h3.symm⟩
    · exact .inr ⟨i, hi, h1, h2, h3⟩
  · rintro (⟨rfl, rfl, rfl⟩ | ⟨i, hi, h⟩)
    · exact ⟨_, List.mem_cons_self, rfl, rfl, rfl⟩
    · exact ⟨i, List.mem_cons_of_mem _ hi, h⟩

theorem holds_setRank {items : List Item} {c d : CId} {m k : MId} {a : AccountId} {r : UInt8} :
    Holds (setRank items c m r) d k a ↔ Holds items d k a := by
  unfold Holds setRank
  constructor
  · rintro ⟨i, hi, h1, h2, h3⟩
    obtain ⟨j, hj, rfl⟩ := List.mem_map.1 hi
    refine ⟨j, hj, ?_⟩
    split at h1 <;> rename_i hc
    · rw [if_pos hc] at h2 h3; exact ⟨h1, h2, h3⟩
    · rw [if_neg hc] at h2 h3; exact ⟨h1, h2, h3⟩
  · rintro ⟨i, hi, h1, h2, h3⟩
    refine ⟨_, List.mem_map.2 ⟨i, hi, rfl⟩, ?_⟩
    split <;> exact ⟨h1, h2, h3⟩

theorem oneHolder_iff {items : List Item} :
    OneHolder items ↔ ∀ c m a b, Holds items c m a → Holds items c m b → a = b := by
  unfold OneHolder Holds
  constructor
  · rintro h c m a b ⟨i, hi, h1, h2, h3⟩ ⟨j, hj, g1, g2, g3⟩
    rw [← h3, ← g3, h i hi j hj (h1.trans g1.symm) (h2.trans g2.symm)]
  · intro h i hi j hj h1 h2
    exact h i.group i.id _ _ ⟨i, hi, rfl, rfl, rfl⟩ ⟨j, hj, h1.symm, h2.symm, rfl⟩

theorem member_iff {s : NSt} {c : CId} {a : AccountId} :
    Member s c a ↔ ∃ m, Holds s.m.comm.world.items c m a := by
  unfold Member Holds
  constructor
  · rintro ⟨i, hi, h1, h2⟩; exact ⟨i.id, i, hi, h1, rfl, h2⟩
  · rintro ⟨m, i, hi, h1, _, h2⟩; exact ⟨i, hi, h1, h2⟩

/-- `dispatch_as_account` around calls of the communities pallet. -/
theorem dispatch_speaks {env : Env} {s s' : St} {o : Origin} {call : Call} (h : dispatch kreivo env s o call = .ok s') :
    ∃ o' leaf, Speaks s o o' ∧ (∀ inner, leaf ≠ .dispatchAsAccount inner) ∧ dispatch kreivo env s o' leaf = .ok s' := by
  induction call generalizing o with
  | dispatchAsAccount inner ih =>
    rw [dispatch] at h
    split at h
    · cases h
    · rename_i c hc
      obtain ⟨o', leaf, h1, h2⟩ := ih h
      exact ⟨o', leaf, .account c hc h1, h2⟩
  | _ => exact ⟨o, _, .self o, (by intro i hi; cases hi), h⟩

theorem ndispatch_speaks {env : NEnv} {s s' : NSt} {o : Origin} {call : NCall} (h : ndispatch env s o call = some s') :
    ∃ o' leaf, Speaks s.m.comm o o' ∧ (∀ inner, leaf ≠ .asAccount inner) ∧
      (∀ inner, leaf ≠ .comm (.dispatchAsAccount inner)) ∧ ndispatch env s o' leaf = some s' := by
  induction call generalizing o with
  | asAccount inner ih =>
    rw [ndispatch] at h
    split at h
    · cases h
    · rename_i c hc
      obtain ⟨o', leaf, h1, h2⟩ := ih h
      exact ⟨o', leaf, .account c hc h1, h2⟩
  | comm c =>
    rw [ndispatch] at h
    split at h
    · rename_i c' hc
      obtain ⟨o', leaf, h1, h2, h3⟩ := dispatch_speaks hc
      refine ⟨o', .comm leaf, h1, by simp, by simpa using h2, ?_⟩
      rw [ndispatch, h3]
      exact h
    · cases h
  | _ => exact ⟨o, _, .self o, (by intro i hi; cases hi), (by intro i hi; cases hi), h⟩

/-- What a call of the communities pallet does to the memberships. -/
inductive CommMove (env : Env) (s : St) (o : Origin) (items : List Item) : Call → Prop
  | added (addr : Address) (c : CId) (who : AccountId) (g : CId) (m : MId) (h : authority kreivo s o = some c)
      (hl : lookup addr = some who)
      (hm : (userMemberships s.world.items (communityAccount c) none).head? = some (g, m))
      (ha : env.assign s.world.items c m who = some items) : CommMove env s o items (.addMember addr)
  | removed (addr : Address) (c : CId) (who : AccountId) (m : MId) (h : authority kreivo s o = some c)
      (hl : lookup addr = some who) (hm : isMemberOf s.world.items c who = true)
      (ha : env.release s.world.items c m = some items) : CommMove env s o items (.removeMember addr m)
  | same (call : Call) (h : ∀ c m a, Holds items c m a ↔ Holds s.world.items c m a) : CommMove env s o items call

theorem comm_move {env : Env} (hf : ∀ {n o w w'}, env.foreign n o w = some w' → w'.items = w.items)
    {s s' : St} {o : Origin} {call : Call} (hl : ∀ inner, call ≠ .dispatchAsAccount inner)
    (h : dispatch kreivo env s o call = .ok s') : CommMove env s o s'.world.items call := by
  cases call with
  | create admin c =>
    obtain ⟨d, s1, h1, _, _⟩ := create_ok h
    cases h1
  | setAdminOrigin admin => obtain ⟨c, _, h2, rfl⟩ := setAdminOrigin_ok h; exact .same _ fun _ _ _ => .rfl
  | addMember a =>
    obtain ⟨c, who, g, m, items, h1, h2, h3, h4, rfl⟩ := addMember_ok h
    exact .added a c who g m h1 h2 h3 h4
  | removeMember a m =>
    obtain ⟨c, who, items, h1, h2, h3, h4, rfl⟩ := removeMember_ok h
    exact .removed a c who m h1 h2 h3 h4
  | promote m => obtain ⟨_, _, _, _, rfl⟩ := promote_ok h; exact .same _ fun _ _ _ => holds_setRank
  | demote m => obtain ⟨_, _, _, _, rfl⟩ := demote_ok h; exact .same _ fun _ _ _ => holds_setRank
  | setDecisionMethod c dm => obtain ⟨_, _, _, rfl⟩ := setDecisionMethod_ok h; exact .same _ fun _ _ _ => .rfl
  | vote m p v => exact .same _ fun _ _ _ => by rw [(vote_registry h).2.2.2.2.1]
  | removeVote m p => exact .same _ fun _ _ _ => by rw [(removeVote_registry h).2.2.2.2.1]
  | unlock p => exact .same _ fun _ _ _ => by rw [(unlock_registry h).2.2.2.2.1]
  | dispatchAsAccount c => exact absurd rfl (hl c)
  | foreign n =>
    rw [dispatch] at h
    split at h
    · cases h
    · rename_i w hw
      cases h
      exact .same _ fun _ _ _ => by rw [hf hw]

theorem register_items {env : Env} {s s' : St} {admin : Origin} {c : CId} {d : Option (Nat × AccountId × AccountId)}
    (h : register env s admin c d = .ok s') : s'.world.items = s.world.items := by
  obtain ⟨_, _, w, rfl, hw⟩ := register_ok h
  cases d with
  | none => rw [hw]
  | some d =>
    obtain ⟨n, src, dst⟩ := d
    dsimp only at hw
    unfold transferNative at hw
    split at hw
    · cases hw
    · have hw := congrArg (fun r => r.toOption.map (·.world.items)) hw
      simpa [Except.toOption] using hw.symm

/-- What a call of the manager does to the memberships. -/
theorem mgr_move {env : MEnv} {s s' : MSt} {o : Origin} {call : MCall} (h : mdispatch kreivoManager env s o call = .ok s') :
    s'.comm.world.items = s.comm.world.items ∧ s'.prices = s.prices ∨
    ∃ n start price, call = .createMemberships n start price ∧ kreivoManager.membershipsOrigin o = true ∧
      Minted kreivoManager price s { s' with events := s.events } start.toNat (min n.toNat (2 ^ 32 - start.toNat)) := by
  cases call with
  | register c name a m t =>
    left
    obtain ⟨dep, ac, info, c1, c2, _, _, _, _, h5, h6, _, _, _, rfl⟩ := mregister_ok h
    refine ⟨?_, rfl⟩
    show c2.world.items = _
    rw [← register_items h5]
    cases m with
    | none => rw [h6]
    | some dm => obtain ⟨_, _, _, rfl⟩ := setDecisionMethod_ok h6; rfl
  | createMemberships n start price =>
    right
    simp only [mdispatch, createMemberships] at h
    split at h
    · cases h
    rename_i h1
    split at h
    · cases h
    rename_i h2
    obtain ⟨⟨s1, k⟩, h3, h4⟩ := mbind_ok h
    cases h4
    obtain ⟨hm, _⟩ := mintLoop_ok h3
    refine ⟨n, start, price, rfl, by simpa using h2, ?_⟩
    have := hm.events
    obtain ⟨a1, a2, a3, a4, a5, a6, a7, a8, a9, _⟩ := hm
    exact ⟨a1, a2, a3, a4, a5, a6, a7, a8, a9, rfl⟩

/-- What a call of pallet_nfts does to the holders. -/
inductive NftMove (env : NEnv) (s : NSt) (items : List Item) : Origin → NftCall → Prop
  | minted (c : CId) (m : MId) (dst x : AccountId) (w : Option MId) (col : Collection) (hc : s.m.collections c = some col)
      (hm : s.mayMint c col x w = true) (hf : holder s.m.comm.world.items c m = none)
      (h : items = ⟨c, m, dst, 0⟩ :: s.m.comm.world.items) : NftMove env s items (.signed x) (.mint c m dst w)
  | forced (c : CId) (m : MId) (dst : AccountId) (lk : Bool) (o : Origin) (col : Collection)
      (hc : s.m.collections c = some col) (ho : o = .root ∨ o = .signed col.admin)
      (hf : holder s.m.comm.world.items c m = none)
      (h : items = ⟨c, m, dst, 0⟩ :: s.m.comm.world.items) : NftMove env s items o (.forceMint c m dst lk)
  | preSigned (d : PreSigned) (x : AccountId) (col : Collection) (hc : s.m.collections d.c = some col)
      (hs : env.signs col.admin d = true) (hy : ∀ y ∈ d.only, y = x) (ht : s.now ≤ d.deadline)
      (hf : holder s.m.comm.world.items d.c d.m = none)
      (h : items = ⟨d.c, d.m, x, 0⟩ :: s.m.comm.world.items) :
      NftMove env s items (.signed x) (.mintPreSigned d col.admin)
  | burned (c : CId) (m : MId) (a : AccountId) (o : Origin) (hh : holder s.m.comm.world.items c m = some a)
      (ho : o = .root ∨ o = .signed a)
      (h : items = s.m.comm.world.items.filter fun i => !decide (i.group = c ∧ i.id = m)) :
      NftMove env s items o (.burn c m)
  | moved (c : CId) (m : MId) (a x dst : AccountId) (hh : holder s.m.comm.world.items c m = some a)
      (hx : x = a ∨ ∃ t, s.approved c m x = some t ∧ ∀ d ∈ t, s.now ≤ d) (hl : s.loose c m = true)
      (h : items = giveItem s.m.comm.world.items c m dst) :
      NftMove env s items (.signed x) (.transfer c m dst)
  | bought (c : CId) (m : MId) (a b : AccountId) (p bid : Nat) (hh : holder s.m.comm.world.items c m = some a)
      (hp : s.m.prices c m = some p) (hb : p ≤ bid) (hy : ∀ y ∈ s.onlyFor c m, y = b) (hl : s.loose c m = true)
      (h : items = giveItem s.m.comm.world.items c m b) :
      NftMove env s items (.signed b) (.buy c m bid)
  | swapped (c : CId) (m : MId) (forC : CId) (forM : MId) (a b : AccountId) (w : Offer)
      (ha : holder s.m.comm.world.items forC forM = some a) (hb : holder s.m.comm.world.items c m = some b)
      (hw : s.offers c m = some w) (h1 : w.wantC = forC) (h2 : ∀ k ∈ w.wantM, k = forM) (h3 : s.now ≤ w.deadline)
      (hl1 : s.loose forC forM = true) (hl2 : s.loose c m = true)
      (h : items = giveItem (giveItem s.m.comm.world.items forC forM b) c m a) :
      NftMove env s items (.signed a) (.take c m forC forM w.price)
  | same (o : Origin) (call : NftCall) (h : items = s.m.comm.world.items) : NftMove env s items o call

theorem payFrom_items {env : NEnv} {w w' : World} {x y : AccountId} {p : Nat} (h : payFrom env w x y p = some w') :
    w'.items = w.items := by
  unfold payFrom at h
  split at h
  · cases h; rfl
  · split at h
    · cases h
    · cases h; rfl

theorem holderOrRoot_iff {s : NSt} {c : CId} {m : MId} {o : Origin} (h : s.holderOrRoot c m o = true) :
    ∃ a, holder s.m.comm.world.items c m = some a ∧ (o = .root ∨ o = .signed a) := by
  unfold NSt.holderOrRoot at h
  split at h
  · obtain ⟨a, ha⟩ := Option.isSome_iff_exists.1 h
    exact ⟨a, ha, .inl rfl⟩
  · exact ⟨_, by simpa using h, .inr rfl⟩
  · cases h

theorem mayMove_iff {s : NSt} {c : CId} {m : MId} {o : Origin} (h : s.mayMove c m o = true) :
    ∃ a x, holder s.m.comm.world.items c m = some a ∧ o = .signed x ∧
      (x = a ∨ ∃ t, s.approved c m x = some t ∧ ∀ d ∈ t, s.now ≤ d) := by
  unfold NSt.mayMove at h
  split at h
  · rename_i x
    split at h
    · rename_i a ha
      refine ⟨a, x, ha, rfl, ?_⟩
      rw [Bool.or_eq_true, decide_eq_true_iff, Option.any_eq_true] at h
      rcases h with h | ⟨t, h1, h2⟩
      · exact .inl h
      · refine .inr ⟨t, h1, fun d hd => ?_⟩
        rw [Option.all_eq_true] at h2
        exact of_decide_eq_true (h2 d hd)
    · cases h
  · cases h

/-- The items after a call of pallet_nfts. -/
theorem nft_move {env : NEnv} {s s' : NSt} {o : Origin} {call : NftCall} (hd : nftCall env s o call = some s') :
    NftMove env s s'.m.comm.world.items o call := by
  cases call with
  | mint c m dst w =>
    simp only [nftCall] at hd
    split at hd
    · rename_i x col hcol
      split at hd
      · rename_i hb
        split at hd
        · cases hd; exact .minted c m dst x w col hcol hb.1 hb.2.1 rfl
        · split at hd
          · cases hd; exact .minted c m dst x w col hcol hb.1 hb.2.1 rfl
          · cases hd
      · cases hd
    · cases hd
  | forceMint c m dst lk =>
    simp only [nftCall] at hd
    split at hd
    · rename_i col hcol
      split at hd
      · rename_i hb
        cases hd; exact .forced c m dst lk o col hcol hb.1 hb.2.1 rfl
      · cases hd
    · cases hd
  | mintPreSigned d signer =>
    simp only [nftCall] at hd
    split at hd
    · rename_i x col hcol
      split at hd
      · rename_i hb
        obtain ⟨h1, rfl, h3, h4, h5, h6⟩ := hb
        have h3 : ∀ y ∈ d.only, y = x := fun y hy => of_decide_eq_true ((Option.all_eq_true _ _).1 h3 y hy)
        split at hd
        · cases hd; exact .preSigned d x col hcol h1 h3 h4 h5 rfl
        · split at hd
          · cases hd; exact .preSigned d x col hcol h1 h3 h4 h5 rfl
          · cases hd
      · cases hd
    · cases hd
  | burn c m =>
    simp only [nftCall] at hd
    split at hd
    · rename_i hb
      cases hd
      obtain ⟨a, ha, ho⟩ := holderOrRoot_iff hb
      exact .burned c m a o ha ho rfl
    · cases hd
  | transfer c m dst =>
    simp only [nftCall] at hd
    split at hd
    · rename_i hb
      cases hd
      obtain ⟨a, x, ha, rfl, hx⟩ := mayMove_iff hb.1
      exact .moved c m a x dst ha hx hb.2 rfl
    · cases hd
  | buy c m bid =>
    simp only [nftCall] at hd
    split at hd
    · rename_i b a p hh hp
      split at hd
      · rename_i hb
        split at hd
        · rename_i w hw
          cases hd
          refine .bought c m a b p bid hh hp hb.2.1
            (fun y hy => of_decide_eq_true ((Option.all_eq_true _ _).1 hb.2.2.1 y hy)) hb.2.2.2 ?_
          show giveItem w.items c m b = _
          rw [payFrom_items hw]
        · cases hd
      · cases hd
    · cases hd
  | take c m forC forM price =>
    simp only [nftCall] at hd
    split at hd
    · rename_i x a b w ha hb hw
      split at hd
      · rename_i hx
        obtain ⟨rfl, h1, rfl, h3, h4, h5, h6⟩ := hx
        split at hd
        · rename_i w' hw'
          cases hd
          have hi : w'.items = s.m.comm.world.items := by
            split at hw'
            · cases hw'; rfl
            · exact payFrom_items hw'
            · exact payFrom_items hw'
          refine .swapped c m forC forM x b w ha hb hw h1
            (fun y hy => of_decide_eq_true ((Option.all_eq_true _ _).1 h3 y hy)) h4 h5 h6 ?_
          show giveItem (giveItem w'.items forC forM b) c m x = _
          rw [hi]
        · cases hd
      · cases hd
    · cases hd
  | _ =>
    refine .same o _ ?_
    simp only [nftCall] at hd
    repeat' (first | (cases hd <;> rfl) | split at hd)

/-- The prices after a call of pallet_nfts. -/
theorem nft_prices {env : NEnv} {s s' : NSt} {o : Origin} {call : NftCall} (hd : nftCall env s o call = some s')
    {c : CId} {m : MId} {p : Nat} (hp : s'.m.prices c m = some p) :
    s.m.prices c m = some p ∨ ∃ a only, o = .signed a ∧ holder s.m.comm.world.items c m = some a ∧ s.loose c m = true ∧
      call = .setPrice c m (some p) only := by
  have settle : ∀ (t : NSt) (x : List Item), t.m.prices = s.m.prices → (t.withItems x).m.prices c m = some p →
      s.m.prices c m = some p := by
    intro t x hx hp
    unfold NSt.withItems NSt.settle at hp
    dsimp only at hp
    split at hp
    · rw [hx] at hp; exact hp
    · cases hp
  have give : ∀ (t : NSt) d k b, (t.give d k b).m.prices c m = some p → t.m.prices c m = some p := by
    intro t d k b hp
    unfold NSt.give at hp
    dsimp only at hp
    split at hp
    · cases hp
    · exact hp
  cases call with
  | setPrice d k q only =>
    simp only [nftCall] at hd
    split at hd
    · rename_i x a ha
      split at hd
      · rename_i hx
        obtain ⟨rfl, hx⟩ := hx
        cases hd
        dsimp only at hp
        split at hp
        · rename_i he
          obtain ⟨rfl, rfl⟩ := he
          subst hp
          exact .inr ⟨x, only, rfl, ha, hx, rfl⟩
        · exact .inl hp
      · cases hd
    · cases hd
  | mint d k dst w =>
    refine .inl ?_
    simp only [nftCall] at hd
    split at hd
    · split at hd
      · split at hd
        · cases hd; exact settle s _ rfl hp
        · split at hd
          · rename_i v _
            cases hd; exact settle (s.withWorld v) _ rfl hp
          · cases hd
      · cases hd
    · cases hd
  | forceMint d k dst lk =>
    refine .inl ?_
    simp only [nftCall] at hd
    split at hd
    · split at hd
      · cases hd; exact settle s _ rfl hp
      · cases hd
    · cases hd
  | mintPreSigned d x =>
    refine .inl ?_
    simp only [nftCall] at hd
    split at hd
    · split at hd
      · split at hd
        · cases hd; exact settle s _ rfl hp
        · split at hd
          · rename_i v _
            cases hd; exact settle (s.withWorld v) _ rfl hp
          · cases hd
      · cases hd
    · cases hd
  | burn d k =>
    refine .inl ?_
    simp only [nftCall] at hd
    split at hd
    · cases hd; exact settle s _ rfl hp
    · cases hd
  | transfer d k dst =>
    refine .inl ?_
    simp only [nftCall] at hd
    split at hd
    · cases hd; exact give _ _ _ _ hp
    · cases hd
  | buy d k bid =>
    refine .inl ?_
    simp only [nftCall] at hd
    split at hd
    · split at hd
      · split at hd
        · rename_i v _
          cases hd; exact give (s.withWorld v) _ _ _ hp
        · cases hd
      · cases hd
    · cases hd
  | take d k e l price =>
    refine .inl ?_
    simp only [nftCall] at hd
    split at hd
    · split at hd
      · split at hd
        · rename_i v _
          cases hd; exact give (s.withWorld v) _ _ _ (give _ _ _ _ hp)
        · cases hd
      · cases hd
    · cases hd
  | _ =>
    refine .inl ?_
    simp only [nftCall] at hd
    repeat' (first | (cases hd <;> exact hp) | split at hd)

/-- The collections after a call of pallet_nfts. -/
theorem nft_collections {env : NEnv} {s s' : NSt} {o : Origin} {call : NftCall} (hd : nftCall env s o call = some s') :
    s'.m.collections = s.m.collections ∨
    (∃ c col x, s.m.collections c = some col ∧ (o = .root ∨ o = .signed col.owner) ∧
      ((∃ admin, call = .setTeam c admin ∧ x = some ⟨col.owner, admin⟩) ∨
        (∃ owner, call = .transferOwnership c owner ∧ x = some ⟨owner, col.admin⟩) ∨
        (call = .destroy c ∧ x = none ∧ ∀ i ∈ s.m.comm.world.items, i.group ≠ c)) ∧
      s'.m.collections = fun d => if d = c then x else s.m.collections d) ∨
    (∃ c x, s.m.collections c = none ∧ o = .root ∧ call = .create c x ∧
      s'.m.collections = fun d => if d = c then some ⟨treasuryAccount, x⟩ else s.m.collections d) := by
  cases call with
  | setTeam d x =>
    simp only [nftCall] at hd
    split at hd
    · rename_i col hcol
      split at hd
      · rename_i ho; cases hd; exact .inr (.inl ⟨d, col, _, hcol, ho, .inl ⟨x, rfl, rfl⟩, rfl⟩)
      · cases hd
    · cases hd
  | transferOwnership d x =>
    simp only [nftCall] at hd
    split at hd
    · rename_i col hcol
      split at hd
      · rename_i ho; cases hd; exact .inr (.inl ⟨d, col, _, hcol, ho, .inr (.inl ⟨x, rfl, rfl⟩), rfl⟩)
      · cases hd
    · cases hd
  | create d x =>
    simp only [nftCall] at hd
    split at hd
    · rename_i ho; cases hd; exact .inr (.inr ⟨d, x, ho.2, ho.1, rfl, rfl⟩)
    · cases hd
  | destroy d =>
    simp only [nftCall] at hd
    split at hd
    · rename_i col hcol
      split at hd
      · rename_i ho; cases hd
        exact .inr (.inl ⟨d, col, none, hcol, ho.1, .inr (.inr ⟨rfl, rfl, by simpa using ho.2⟩), rfl⟩)
      · cases hd
    · cases hd
  | _ =>
    refine .inl ?_
    simp only [nftCall] at hd
    repeat' (first | (cases hd <;> rfl) | split at hd)

theorem nft_approved {env : NEnv} {s s' : NSt} {o : Origin} {call : NftCall} (hd : nftCall env s o call = some s')
    {c : CId} {m : MId} {x : AccountId} {t : Option Nat} (hp : s'.approved c m x = some t) :
    s.approved c m x = some t ∨ ∃ length, s.holderOrRoot c m o = true ∧ call = .approve c m x length ∧
      t = length.map (s.now + ·) := by
  have settle : ∀ (r : NSt) (l : List Item), r.approved = s.approved → (r.withItems l).approved c m x = some t →
      s.approved c m x = some t := by
    intro r l hx hp
    unfold NSt.withItems NSt.settle at hp
    dsimp only at hp
    split at hp
    · rw [hx] at hp; exact hp
    · cases hp
  have give : ∀ (r : NSt) d k b, (r.give d k b).approved c m x = some t → r.approved c m x = some t := by
    intro r d k b hp
    unfold NSt.give at hp
    dsimp only at hp
    split at hp
    · cases hp
    · exact hp
  cases call with
  | approve d k y length =>
    simp only [nftCall] at hd
    split at hd
    · rename_i hx
      cases hd
      dsimp only at hp
      split at hp
      · rename_i he
        obtain ⟨rfl, rfl⟩ := he
        dsimp only at hp
        split at hp
        · rename_i hy
          subst hy
          cases hp
          exact .inr ⟨length, hx.1, rfl, rfl⟩
        · exact .inl hp
      · exact .inl hp
    · cases hd
  | cancelApproval d k y =>
    refine .inl ?_
    simp only [nftCall] at hd
    have : ∀ r : NSt, r = { s with approved := fun d' k' => if d' = d ∧ k' = k then
          fun z => if z = y then none else s.approved d' k' z else s.approved d' k' } → r.approved c m x = some t →
        s.approved c m x = some t := by
      rintro _ rfl hp
      dsimp only at hp
      split at hp
      · dsimp only at hp
        split at hp
        · cases hp
        · exact hp
      · exact hp
    split at hd
    · split at hd
      · cases hd; exact this _ rfl hp
      · cases hd
    · split at hd
      · cases hd; exact this _ rfl hp
      · cases hd
    · cases hd
  | clearApprovals d k =>
    refine .inl ?_
    simp only [nftCall] at hd
    split at hd
    · cases hd
      dsimp only at hp
      split at hp
      · cases hp
      · exact hp
    · cases hd
  | mint d k dst w =>
    refine .inl ?_
    simp only [nftCall] at hd
    split at hd
    · split at hd
      · split at hd
        · cases hd; exact settle s _ rfl hp
        · split at hd
          · rename_i v _
            cases hd; exact settle (s.withWorld v) _ rfl hp
          · cases hd
      · cases hd
    · cases hd
  | forceMint d k dst lk =>
    refine .inl ?_
    simp only [nftCall] at hd
    split at hd
    · split at hd
      · cases hd; exact settle s _ rfl hp
      · cases hd
    · cases hd
  | mintPreSigned d x =>
    refine .inl ?_
    simp only [nftCall] at hd
    split at hd
    · split at hd
      · split at hd
        · cases hd; exact settle s _ rfl hp
        · split at hd
          · rename_i v _
            cases hd; exact settle (s.withWorld v) _ rfl hp
          · cases hd
      · cases hd
    · cases hd
  | burn d k =>
    refine .inl ?_
    simp only [nftCall] at hd
    split at hd
    · cases hd; exact settle s _ rfl hp
    · cases hd
  | transfer d k dst =>
    refine .inl ?_
    simp only [nftCall] at hd
    split at hd
    · cases hd; exact give _ _ _ _ hp
    · cases hd
  | buy d k bid =>
    refine .inl ?_
    simp only [nftCall] at hd
    split at hd
    · split at hd
      · split at hd
        · rename_i v _
          cases hd; exact give (s.withWorld v) _ _ _ hp
        · cases hd
      · cases hd
    · cases hd
  | take d k e l price =>
    refine .inl ?_
    simp only [nftCall] at hd
    split at hd
    · split at hd
      · split at hd
        · rename_i v _
          cases hd; exact give (s.withWorld v) _ _ _ (give _ _ _ _ hp)
        · cases hd
      · cases hd
    · cases hd
  | _ =>
    refine .inl ?_
    simp only [nftCall] at hd
    repeat' (first | (cases hd <;> exact hp) | split at hd)

theorem nft_offers {env : NEnv} {s s' : NSt} {o : Origin} {call : NftCall} (hd : nftCall env s o call = some s')
    {c : CId} {m : MId} {w : Offer} (hp : s'.offers c m = some w) :
    s.offers c m = some w ∨ ∃ a length, holder s.m.comm.world.items c m = some a ∧ o = .signed a ∧
      call = .offer c m w.wantC w.wantM w.price length ∧ w.deadline = s.now + length := by
  have settle : ∀ (r : NSt) (l : List Item), r.offers = s.offers → (r.withItems l).offers c m = some w →
      s.offers c m = some w := by
    intro r l hx hp
    unfold NSt.withItems NSt.settle at hp
    dsimp only at hp
    split at hp
    · rw [hx] at hp; exact hp
    · cases hp
  have give : ∀ (r : NSt) d k b, (r.give d k b).offers c m = some w → r.offers c m = some w := by
    intro r d k b hp
    unfold NSt.give at hp
    dsimp only at hp
    split at hp
    · cases hp
    · exact hp
  cases call with
  | offer d k wc wm pr length =>
    unfold nftCall at hd
    dsimp only at hd
    split at hd
    · rename_i x a ha
      split at hd
      · rename_i hx
        obtain ⟨rfl, _⟩ := hx
        cases hd
        dsimp only at hp
        split at hp
        · rename_i he
          obtain ⟨rfl, rfl⟩ := he
          cases hp
          exact .inr ⟨x, length, ha, rfl, rfl, rfl⟩
        · exact .inl hp
      · cases hd
    · cases hd
  | cancelOffer d k =>
    refine .inl ?_
    simp only [nftCall] at hd
    split at hd
    · split at hd
      · cases hd
        dsimp only at hp
        split at hp
        · cases hp
        · exact hp
      · cases hd
    · cases hd
  | mint d k dst w =>
    refine .inl ?_
    simp only [nftCall] at hd
    split at hd
    · split at hd
      · split at hd
        · cases hd; exact settle s _ rfl hp
        · split at hd
          · rename_i v _
            cases hd; exact settle (s.withWorld v) _ rfl hp
          · cases hd
      · cases hd
    · cases hd
  | forceMint d k dst lk =>
    refine .inl ?_
    simp only [nftCall] at hd
    split at hd
    · split at hd
      · cases hd; exact settle s _ rfl hp
      · cases hd
    · cases hd
  | mintPreSigned d x =>
    refine .inl ?_
    simp only [nftCall] at hd
    split at hd
    · split at hd
      · split at hd
        · cases hd; exact settle s _ rfl hp
        · split at hd
          · rename_i v _
            cases hd; exact settle (s.withWorld v) _ rfl hp
          · cases hd
      · cases hd
    · cases hd
  | burn d k =>
    refine .inl ?_
    simp only [nftCall] at hd
    split at hd
    · cases hd; exact settle s _ rfl hp
    · cases hd
  | transfer d k dst =>
    refine .inl ?_
    simp only [nftCall] at hd
    split at hd
    · cases hd; exact give _ _ _ _ hp
    · cases hd
  | buy d k bid =>
    refine .inl ?_
    simp only [nftCall] at hd
    split at hd
    · split at hd
      · split at hd
        · rename_i v _
          cases hd; exact give (s.withWorld v) _ _ _ hp
        · cases hd
      · cases hd
    · cases hd
  | take d k e l price =>
    refine .inl ?_
    simp only [nftCall] at hd
    split at hd
    · split at hd
      · split at hd
        · rename_i v _
          cases hd; exact give (s.withWorld v) _ _ _ (give _ _ _ _ hp)
        · cases hd
      · cases hd
    · cases hd
  | _ =>
    refine .inl ?_
    simp only [nftCall] at hd
    repeat' (first | (cases hd <;> exact hp) | split at hd)

/-- Which collections are frozen after a call of pallet_nfts. -/
theorem nft_frozen {env : NEnv} {s s' : NSt} {o : Origin} {call : NftCall} (hd : nftCall env s o call = some s')
    {c : CId} (h0 : s.frozen c = true) (h1 : s'.frozen c = false) :
    (o = .root ∧ ∃ mt, call = .forceConfig c false mt) ∨ call = .destroy c := by
  cases call with
  | freeze d =>
    simp only [nftCall] at hd
    split at hd
    · split at hd
      · cases hd
        dsimp only at h1
        split at h1
        · cases h1
        · rw [h0] at h1; cases h1
      · cases hd
    · cases hd
  | forceConfig d f mt =>
    simp only [nftCall] at hd
    split at hd
    · rename_i ho
      cases hd
      dsimp only at h1
      split at h1
      · rename_i he
        subst he h1
        exact .inl ⟨ho.1, mt, rfl⟩
      · rw [h0] at h1; cases h1
    · cases hd
  | destroy d =>
    simp only [nftCall] at hd
    split at hd
    · split at hd
      · cases hd
        dsimp only at h1
        split at h1
        · rename_i he
          subst he
          exact .inr rfl
        · rw [h0] at h1; cases h1
      · cases hd
    · cases hd
  | _ =>
    have : s'.frozen = s.frozen := by
      simp only [nftCall] at hd
      repeat' (first | (cases hd <;> rfl) | split at hd)
    rw [this, h0] at h1
    cases h1

/-- Who may mint after a call of pallet_nfts. -/
theorem nft_minting {env : NEnv} {s s' : NSt} {o : Origin} {call : NftCall} (hd : nftCall env s o call = some s')
    {c : CId} (h1 : s'.minting c ≠ s.minting c) :
    ∃ col, s.m.collections c = some col ∧
      ((o = .root ∧ ∃ f, call = .forceConfig c f (s'.minting c)) ∨
       ((o = .root ∨ o = .signed col.admin) ∧ call = .setMinting c (s'.minting c)) ∨
       ((o = .root ∨ o = .signed col.owner) ∧ call = .destroy c ∧ s'.minting c = {})) := by
  cases call with
  | forceConfig d f mt =>
    simp only [nftCall] at hd
    split at hd
    · rename_i ho
      cases hd
      dsimp only at h1 ⊢
      split at h1
      · rename_i he
        subst he
        obtain ⟨col, hc⟩ := Option.ne_none_iff_exists'.1 ho.2
        exact ⟨col, hc, .inl ⟨ho.1, f, by rw [if_pos rfl]⟩⟩
      · exact absurd rfl h1
    · cases hd
  | setMinting d mt =>
    simp only [nftCall] at hd
    split at hd
    · rename_i col hcol
      split at hd
      · rename_i ho
        cases hd
        dsimp only at h1 ⊢
        split at h1
        · rename_i he
          subst he
          exact ⟨col, hcol, .inr (.inl ⟨ho, by rw [if_pos rfl]⟩)⟩
        · exact absurd rfl h1
      · cases hd
    · cases hd
  | destroy d =>
    simp only [nftCall] at hd
    split at hd
    · rename_i col hcol
      split at hd
      · rename_i ho
        cases hd
        dsimp only at h1 ⊢
        split at h1
        · rename_i he
          subst he
          exact ⟨col, hcol, .inr (.inr ⟨ho.1, rfl, by rw [if_pos rfl]⟩)⟩
        · exact absurd rfl h1
      · cases hd
    · cases hd
  | _ =>
    have : s'.minting = s.minting := by
      simp only [nftCall] at hd
      repeat' (first | (cases hd <;> rfl) | split at hd)
    exact absurd (by rw [this]) h1

end Verif.Governance
