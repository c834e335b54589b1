import Verif.Governance.MembersLemmas
import Verif.Governance.ManagerTheorems

/-!
# Who becomes a member of a community, and what a membership costs (C124–C126)

Member of a community is whoever holds an item of its collection. The communities pallet meters them out: `add_member` needs
authority over the community and uses up one of the memberships the community holds, which are made by `create_memberships`
and bought from the treasury. The items are those of an ordinary collection of pallet_nfts however.
-/

namespace Verif.Governance

open Verif Verif.Accounts Verif.Communities

/-! ## Specification -/

/-- The ways to make an item `m` of collection `c` for `a`: the admin of the collection mints it, or whoever may by its
settings, or root does, or `a` shows what the admin signed. -/
inductive Mints (env : NEnv) (s : NSt) (c : CId) (m : MId) (a : AccountId) (o : Origin) : NftCall → Prop
  | admin (w : Option MId) (col : Collection) (hc : s.m.collections c = some col) (hw : (s.minting c).who = .issuer)
      (ho : o = .signed col.admin) : Mints env s c m a o (.mint c m a w)
  | everybody (w : Option MId) (x : AccountId) (hw : (s.minting c).who = .everybody) (ho : o = .signed x) :
      Mints env s c m a o (.mint c m a w)
  | holderOf (d : CId) (k : MId) (x : AccountId) (hw : (s.minting c).who = .holderOf d)
      (hk : holder s.m.comm.world.items d k = some x) (ho : o = .signed x) : Mints env s c m a o (.mint c m a (some k))
  | forced (lk : Bool) (col : Collection) (hc : s.m.collections c = some col) (ho : o = .root ∨ o = .signed col.admin) :
      Mints env s c m a o (.forceMint c m a lk)
  | preSigned (d : PreSigned) (col : Collection) (hd : d.c = c ∧ d.m = m) (hc : s.m.collections c = some col)
      (hs : env.signs col.admin d = true) (hy : ∀ y ∈ d.only, y = a) (ht : s.now ≤ d.deadline) (ho : o = .signed a) :
      Mints env s c m a o (.mintPreSigned d col.admin)

/-- May an account transfer an item for its holder: an approval that has not run out. -/
def Approved (s : NSt) (c : CId) (m : MId) (x : AccountId) : Prop :=
  ∃ t, s.approved c m x = some t ∧ ∀ d ∈ t, s.now ≤ d

/-- An item can be transferred: neither it nor its collection is locked. -/
def Loose (s : NSt) (c : CId) (m : MId) : Prop := s.locked c m = false ∧ s.frozen c = false

/-- The ways to become a member of a community: a call and who has to sign it. -/
inductive Joins (env : NEnv) (s : NSt) (c : CId) (a : AccountId) (o : Origin) : NCall → Prop
  | added (addr : Address) (h : authority kreivo s.m.comm o = some c) (hl : lookup addr = some a) :
      Joins env s c a o (.comm (.addMember addr))
  | minted (m : MId) (call : NftCall) (h : Mints env s c m a o call) : Joins env s c a o (.nft call)
  | given (m : MId) (b x : AccountId) (hb : holder s.m.comm.world.items c m = some b) (hx : x = b ∨ Approved s c m x)
      (ho : o = .signed x) (hl : Loose s c m) : Joins env s c a o (.nft (.transfer c m a))
  | bought (m : MId) (b : AccountId) (p bid : Nat) (hb : holder s.m.comm.world.items c m = some b)
      (ho : o = .signed a) (hp : s.m.prices c m = some p) (hbid : p ≤ bid) (hy : ∀ y ∈ s.onlyFor c m, y = a)
      (hl : Loose s c m) : Joins env s c a o (.nft (.buy c m bid))
  | took (m : MId) (b : AccountId) (d : CId) (k : MId) (w : Offer) (hb : holder s.m.comm.world.items c m = some b)
      (hw : s.offers c m = some w) (hk : holder s.m.comm.world.items d k = some a) (hd : w.wantC = d ∧ ∀ j ∈ w.wantM, j = k)
      (ht : s.now ≤ w.deadline) (ho : o = .signed a) (hl : Loose s c m) : Joins env s c a o (.nft (.take c m d k w.price))
  | offered (m : MId) (b : AccountId) (d : CId) (k : MId) (w : Offer) (hb : holder s.m.comm.world.items c m = some b)
      (hw : s.offers d k = some w) (hk : holder s.m.comm.world.items d k = some a) (hd : w.wantC = c ∧ ∀ j ∈ w.wantM, j = m)
      (ht : s.now ≤ w.deadline) (ho : o = .signed b) (hl : Loose s c m) : Joins env s c a o (.nft (.take d k c m w.price))

/-- The ways to cease to be a member. -/
inductive Leaves (s : NSt) (c : CId) (a : AccountId) (o : Origin) : NCall → Prop
  | removed (addr : Address) (m : MId) (h : authority kreivo s.m.comm o = some c) :
      Leaves s c a o (.comm (.removeMember addr m))
  | gave (m : MId) (x dst : AccountId) (hh : holder s.m.comm.world.items c m = some a) (hx : x = a ∨ Approved s c m x)
      (ho : o = .signed x) (hl : Loose s c m) : Leaves s c a o (.nft (.transfer c m dst))
  | sold (m : MId) (b : AccountId) (p bid : Nat) (ho : o = .signed b) (hh : holder s.m.comm.world.items c m = some a)
      (hp : s.m.prices c m = some p) (hy : ∀ y ∈ s.onlyFor c m, y = b) (hl : Loose s c m) :
      Leaves s c a o (.nft (.buy c m bid))
  | offered (m : MId) (b : AccountId) (d : CId) (k : MId) (w : Offer) (hh : holder s.m.comm.world.items c m = some a)
      (hw : s.offers c m = some w) (hk : holder s.m.comm.world.items d k = some b) (hd : w.wantC = d ∧ ∀ j ∈ w.wantM, j = k)
      (ht : s.now ≤ w.deadline) (ho : o = .signed b) (hl : Loose s c m) : Leaves s c a o (.nft (.take c m d k w.price))
  | took (m : MId) (d : CId) (k : MId) (w : Offer) (hh : holder s.m.comm.world.items c m = some a)
      (hw : s.offers d k = some w) (hd : w.wantC = c ∧ ∀ j ∈ w.wantM, j = m) (ht : s.now ≤ w.deadline)
      (ho : o = .signed a) (hl : Loose s c m) : Leaves s c a o (.nft (.take d k c m w.price))
  | burned (m : MId) (hh : holder s.m.comm.world.items c m = some a) (ho : o = .root ∨ o = .signed a) :
      Leaves s c a o (.nft (.burn c m))

/-- Nobody has a claim on an item but its holder: no price, no approval, no offer. -/
def Bare (s : NSt) (c : CId) (m : MId) : Prop :=
  s.m.prices c m = none ∧ (∀ x, s.approved c m x = none) ∧ s.onlyFor c m = none ∧ s.offers c m = none

theorem loose_iff {s : NSt} {c : CId} {m : MId} (h : s.loose c m = true) : Loose s c m := by
  unfold NSt.loose at h
  unfold Loose
  simpa using h

theorem mints_of {env : NEnv} {s : NSt} {c : CId} {m : MId} {dst x : AccountId} {w : Option MId} {col : Collection}
    (hc : s.m.collections c = some col) (h : s.mayMint c col x w = true) :
    Mints env s c m dst (.signed x) (.mint c m dst w) := by
  unfold NSt.mayMint at h
  rw [Bool.and_eq_true] at h
  have h := h.2
  split at h
  · rename_i hw
    exact .admin w col hc hw (by rw [of_decide_eq_true h])
  · rename_i hw
    exact .everybody w x hw rfl
  · rename_i d hw
    cases w with
    | none => cases h
    | some k => exact .holderOf d k x hw (of_decide_eq_true h) rfl

/-! ## A small chain -/

namespace Demo

/-- A membership manager that keeps the laws: it takes item `m` of the manager's collection from the community's account. -/
def strictAssign (items : List Item) (c : CId) (m : MId) (who : AccountId) : Option (List Item) :=
  if c = 0 ∨ holder items c m ≠ none ∨ holder items 0 m ≠ some (communityAccount c) then none
  else some (⟨c, m, who, 0⟩ :: items.filter fun i => !decide (i.group = 0 ∧ i.id = m))

/-- It gives the item back. -/
def strictRelease (items : List Item) (c : CId) (m : MId) : Option (List Item) :=
  if c = 0 ∨ holder items c m = none ∨ holder items 0 m ≠ none then none
  else some (⟨0, m, communityAccount c, 0⟩ :: items.filter fun i => !decide (i.group = c ∧ i.id = m))

/-- Nothing else is refused. -/
def strictEnv : NEnv :=
  { menv with
    base := { Communities.Demo.env with assign := strictAssign, release := strictRelease }
    signs := fun _ _ => false }

theorem strictEnv_laws : GroupLaws strictEnv.base where
  assign_new := by
    intro items c m who items' h i hi hg
    simp only [strictEnv, strictAssign] at h
    split at h
    · cases h
    · cases h
      rcases List.mem_cons.1 hi with rfl | hi
      · exact .inr ⟨rfl, rfl, rfl⟩
      · exact .inl (List.mem_filter.1 hi).1
  assign_keeps := by
    intro items c m who items' h i hi hg
    simp only [strictEnv, strictAssign] at h
    split at h
    · cases h
    · cases h
      exact List.mem_cons_of_mem _ (List.mem_filter.2 ⟨hi, by simp [hg]⟩)
  assign_uses := by
    intro items c m who items' h
    simp only [strictEnv, strictAssign] at h
    split at h
    · cases h
    · rename_i h1
      cases h
      push Not at h1
      refine ⟨?_, fun i hi => ?_⟩
      · exact holder_some h1.2.2
      · rcases List.mem_cons.1 hi with rfl | hi
        · exact fun h2 => h1.1 h2.1
        · intro h2
          have := (List.mem_filter.1 hi).2
          simp [h2.1, h2.2.1] at this
  assign_zero := by
    intro items c m who items' h i hi hg
    simp only [strictEnv, strictAssign] at h
    split at h
    · cases h
    · rename_i h1
      cases h
      push Not at h1
      rcases List.mem_cons.1 hi with rfl | hi
      · exact absurd hg h1.1
      · exact ⟨i, (List.mem_filter.1 hi).1, hg, rfl⟩
  release_new := by
    intro items c m items' h i hi hg
    simp only [strictEnv, strictRelease] at h
    split at h
    · cases h
    · cases h
      rcases List.mem_cons.1 hi with rfl | hi
      · exact absurd rfl hg
      · exact (List.mem_filter.1 hi).1
  release_keeps := by
    intro items c m items' h i hi hg hn
    simp only [strictEnv, strictRelease] at h
    split at h
    · cases h
    · cases h
      exact List.mem_cons_of_mem _ (List.mem_filter.2 ⟨hi, by rw [decide_eq_false hn]; rfl⟩)
  assign_one := by
    intro items c m who items' h ho
    simp only [strictEnv, strictAssign] at h
    split at h
    · cases h
    · rename_i h1
      cases h
      push Not at h1
      rw [oneHolder_iff] at ho ⊢
      intro d k a b ha hb
      rw [holds_cons, holds_filter] at ha hb
      rcases ha with ⟨rfl, rfl, rfl⟩ | ⟨_, ha⟩ <;> rcases hb with ⟨h2, h3, rfl⟩ | ⟨_, hb⟩
      · rfl
      · exact absurd hb (holder_none h1.2.1 _)
      · subst h2 h3; exact absurd ha (holder_none h1.2.1 _)
      · exact ho _ _ _ _ ha hb
  release_one := by
    intro items c m items' h ho
    simp only [strictEnv, strictRelease] at h
    split at h
    · cases h
    · rename_i h1
      cases h
      push Not at h1
      rw [oneHolder_iff] at ho ⊢
      intro d k a b ha hb
      rw [holds_cons, holds_filter] at ha hb
      rcases ha with ⟨rfl, rfl, rfl⟩ | ⟨_, ha⟩ <;> rcases hb with ⟨h2, h3, rfl⟩ | ⟨_, hb⟩
      · rfl
      · exact absurd hb (holder_none h1.2.2 _)
      · subst h2 h3; exact absurd ha (holder_none h1.2.2 _)
      · exact ho _ _ _ _ ha hb
  foreign := by intro n o w w' h; cases h

/-- Two communities with their collections: alice and bob are members of the first, which alice administers and which has
membership 9 to give out; charlie is a member of the second. -/
def nstart : NSt where
  m := { mstart with
    comm := { Communities.Demo.chain with world := { Communities.Demo.chain.world with
      native := fun _ => 1000000 * units } }
    collections := fun c => if c = 0 then some ⟨treasuryAccount, treasuryAccount⟩
      else if c = 1 then some ⟨communityAccount 1, communityAccount 1⟩
      else if c = 2 then some ⟨communityAccount 2, communityAccount 2⟩ else none }
  locked := fun _ _ => false
  frozen := fun _ => false
  minting := fun _ => {}
  approved := fun _ _ _ => none
  onlyFor := fun _ _ => none
  offers := fun _ _ => none
  now := 10

end Demo

/-! ## C124 -/

/-- The ways an item comes to be held by somebody, item by item. -/
theorem item_joins (env : NEnv) (he : GroupLaws env.base) (s s' : NSt) (o : Origin) (call : NCall)
    (h : ndispatch env s o call = some s') (c : CId) (hc : c ≠ 0) (k : MId) (a : AccountId)
    (h0 : ¬ Holds s.m.comm.world.items c k a) (h1 : Holds s'.m.comm.world.items c k a) :
    ∃ o' leaf, Speaks s.m.comm o o' ∧ Joins env s c a o' leaf ∧ ndispatch env s o' leaf = some s' := by
  obtain ⟨o', leaf, hs, hl1, hl2, hd⟩ := ndispatch_speaks h
  refine ⟨o', leaf, hs, ?_, hd⟩
  cases leaf with
  | comm call =>
    rw [ndispatch] at hd
    split at hd
    · rename_i c' hc'
      cases hd
      have hm := comm_move (fun {n o w w'} => he.foreign (n := n) (o := o) (w := w) (w' := w'))
        (fun i hi => hl2 i (by rw [hi])) hc'
      have h1 : Holds c'.world.items c k a := h1
      cases hm with
      | added addr d who g m ha hlk _ has =>
        obtain ⟨i, hi, g1, g2, g3⟩ := h1
        rcases he.assign_new has i hi (g1 ▸ hc) with hi | ⟨g4, g5, g6⟩
        · exact absurd ⟨i, hi, g1, g2, g3⟩ h0
        · have e1 : c = d := g1.symm.trans g4
          have e2 : a = who := g3.symm.trans g6
          subst e1 e2
          exact .added addr ha hlk
      | removed addr d who m ha hlk _ has =>
        obtain ⟨i, hi, g1, g2, g3⟩ := h1
        exact absurd ⟨i, he.release_new has i hi (g1 ▸ hc), g1, g2, g3⟩ h0
      | same _ hh => exact absurd ((hh c k a).1 h1) h0
    · cases hd
  | mgr call =>
    rw [ndispatch] at hd
    split at hd
    · rename_i m' hm'
      cases hd
      rcases mgr_move hm' with ⟨hi, _⟩ | ⟨n, start, price, _, _, hm⟩
      · have h1 : Holds m'.comm.world.items c k a := h1
        rw [hi] at h1
        exact absurd h1 h0
      · obtain ⟨i, hi, g1, g2, g3⟩ := h1
        rcases (hm.items i).1 hi with hi | ⟨j, _, rfl⟩
        · exact absurd ⟨i, hi, g1, g2, g3⟩ h0
        · exact absurd g1.symm hc
    · cases hd
  | nft call =>
    rw [ndispatch] at hd
    have hm := nft_move hd
    cases hm with
    | minted d m dst x w col hcol hmm _ e =>
      rw [e] at h1
      rcases holds_cons.1 h1 with ⟨rfl, rfl, rfl⟩ | h1
      · exact .minted _ _ (mints_of hcol hmm)
      · exact absurd h1 h0
    | forced d m dst lk o col hcol ho _ e =>
      rw [e] at h1
      rcases holds_cons.1 h1 with ⟨rfl, rfl, rfl⟩ | h1
      · exact .minted _ _ (.forced lk col hcol ho)
      · exact absurd h1 h0
    | preSigned d x col hcol hsg hy ht _ e =>
      rw [e] at h1
      rcases holds_cons.1 h1 with ⟨rfl, rfl, rfl⟩ | h1
      · exact .minted _ _ (.preSigned d col ⟨rfl, rfl⟩ hcol hsg hy ht rfl)
      · exact absurd h1 h0
    | burned d m b o hh ho e => rw [e] at h1; exact absurd (holds_filter.1 h1).2 h0
    | moved d m b x dst hh hx hl e =>
      rw [e] at h1
      rcases holds_give.1 h1 with ⟨rfl, rfl, rfl, _⟩ | ⟨_, h1⟩
      · exact .given _ b x hh hx rfl (loose_iff hl)
      · exact absurd h1 h0
    | bought d m x b p bid hh hp hb hy hl e =>
      rw [e] at h1
      rcases holds_give.1 h1 with ⟨rfl, rfl, rfl, _⟩ | ⟨_, h1⟩
      · exact .bought _ _ p bid hh rfl hp hb hy (loose_iff hl)
      · exact absurd h1 h0
    | swapped d m f n x b w ha hb hw e1 e2 e3 l1 l2 e =>
      rw [e] at h1
      rcases holds_give.1 h1 with ⟨rfl, rfl, rfl, _⟩ | ⟨_, h1⟩
      · exact .took _ b f n w hb hw ha ⟨e1, e2⟩ e3 rfl (loose_iff l2)
      · rcases holds_give.1 h1 with ⟨rfl, rfl, rfl, _⟩ | ⟨_, h1⟩
        · exact .offered _ x d m w ha hw hb ⟨e1, e2⟩ e3 rfl (loose_iff l1)
        · exact absurd h1 h0
    | same o call e => rw [e] at h1; exact absurd h1 h0
  | asAccount inner => exact absurd rfl (hl1 inner)

/-- C124, what holds: who becomes a member of a community does so by one call, signed by the one who signed the whole or by
the account of a community they have authority over: `add_member` with authority over this community, an item minted by the
admin of its collection, an item given by a member, or one bought from a member who put a price on it. -/
theorem C124_how_members_join_partial (env : NEnv) (he : GroupLaws env.base) (s s' : NSt) (o : Origin) (call : NCall)
    (h : ndispatch env s o call = some s') (c : CId) (hc : c ≠ 0) (a : AccountId)
    (h0 : ¬ Member s c a) (h1 : Member s' c a) :
    ∃ o' leaf, Speaks s.m.comm o o' ∧ Joins env s c a o' leaf ∧ ndispatch env s o' leaf = some s' := by
  rw [member_iff] at h0 h1
  obtain ⟨k, h1⟩ := h1
  push Not at h0
  exact item_joins env he s s' o call h c hc k a (h0 k) h1

/-- C124: and who ceases to be a member was removed by somebody with authority over the community, gave the item away, burned
it (or root did), or sold it. -/
theorem C124_how_members_leave (env : NEnv) (he : GroupLaws env.base) (s s' : NSt)
    (hone : OneHolder s.m.comm.world.items) (o : Origin) (call : NCall)
    (h : ndispatch env s o call = some s') (c : CId) (hc : c ≠ 0) (a : AccountId)
    (h0 : Member s c a) (h1 : ¬ Member s' c a) :
    ∃ o' leaf, Speaks s.m.comm o o' ∧ Leaves s c a o' leaf ∧ ndispatch env s o' leaf = some s' := by
  obtain ⟨o', leaf, hs, hl1, hl2, hd⟩ := ndispatch_speaks h
  refine ⟨o', leaf, hs, ?_, hd⟩
  rw [member_iff] at h0 h1
  obtain ⟨k, h0⟩ := h0
  push Not at h1
  replace h1 := h1 k
  have hho := holder_of hone h0
  cases leaf with
  | comm call =>
    rw [ndispatch] at hd
    split at hd
    · rename_i c' hc'
      cases hd
      have hm := comm_move (fun {n o w w'} => he.foreign (n := n) (o := o) (w := w) (w' := w'))
        (fun i hi => hl2 i (by rw [hi])) hc'
      replace h1 : ¬ Holds c'.world.items c k a := h1
      cases hm with
      | added addr d who g m ha hlk _ has =>
        obtain ⟨i, hi, g1, g2, g3⟩ := h0
        exact absurd ⟨i, he.assign_keeps has i hi (g1 ▸ hc), g1, g2, g3⟩ h1
      | removed addr d who m ha hlk _ has =>
        obtain ⟨i, hi, g1, g2, g3⟩ := h0
        by_cases hx : i.group = d ∧ i.id = m
        · have : d = c := hx.1.symm.trans g1
          subst this
          exact .removed addr m ha
        · exact absurd ⟨i, he.release_keeps has i hi (g1 ▸ hc) hx, g1, g2, g3⟩ h1
      | same _ hh => exact absurd ((hh c k a).2 h0) h1
    · cases hd
  | mgr call =>
    rw [ndispatch] at hd
    split at hd
    · rename_i m' hm'
      cases hd
      replace h1 : ¬ Holds m'.comm.world.items c k a := h1
      rcases mgr_move hm' with ⟨hi, _⟩ | ⟨n, start, price, _, _, hm⟩
      · rw [hi] at h1
        exact absurd h0 h1
      · obtain ⟨i, hi, g⟩ := h0
        exact absurd ⟨i, (hm.items i).2 (.inl hi), g⟩ h1
    · cases hd
  | nft call =>
    rw [ndispatch] at hd
    have hm := nft_move hd
    cases hm with
    | minted d m dst x w col hcol hmm _ e => rw [e] at h1; exact absurd (holds_cons.2 (.inr h0)) h1
    | forced d m dst lk o col hcol ho _ e => rw [e] at h1; exact absurd (holds_cons.2 (.inr h0)) h1
    | preSigned d x col hcol hsg hy ht _ e => rw [e] at h1; exact absurd (holds_cons.2 (.inr h0)) h1
    | burned d m b o hh ho e =>
      rw [e] at h1
      by_cases hx : c = d ∧ k = m
      · obtain ⟨rfl, rfl⟩ := hx
        rw [hho] at hh; cases hh
        exact .burned _ hho ho
      · exact absurd (holds_filter.2 ⟨hx, h0⟩) h1
    | moved d m b x dst hh hy hl e =>
      rw [e] at h1
      by_cases hx : c = d ∧ k = m
      · obtain ⟨rfl, rfl⟩ := hx
        rw [hho] at hh; cases hh
        exact .gave _ x dst hho hy rfl (loose_iff hl)
      · exact absurd (holds_give.2 (.inr ⟨hx, h0⟩)) h1
    | bought d m x b p bid hh hp hb hy hl e =>
      rw [e] at h1
      by_cases hx : c = d ∧ k = m
      · obtain ⟨rfl, rfl⟩ := hx
        rw [hho] at hh; cases hh
        exact .sold _ b p bid rfl hho hp hy (loose_iff hl)
      · exact absurd (holds_give.2 (.inr ⟨hx, h0⟩)) h1
    | swapped d m f n x b w ha hb hw e1 e2 e3 l1 l2 e =>
      rw [e] at h1
      by_cases hx : c = d ∧ k = m
      · obtain ⟨rfl, rfl⟩ := hx
        rw [hho] at hb; cases hb
        exact .offered _ x f n w hho hw ha ⟨e1, e2⟩ e3 rfl (loose_iff l2)
      · by_cases hy : c = f ∧ k = n
        · obtain ⟨rfl, rfl⟩ := hy
          rw [hho] at ha; cases ha
          exact .took _ d m w hho hw ⟨e1, e2⟩ e3 rfl (loose_iff l1)
        · exact absurd (holds_give.2 (.inr ⟨hx, holds_give.2 (.inr ⟨hy, h0⟩)⟩)) h1
    | same o call e => rw [e] at h1; exact absurd h0 h1
  | asAccount inner => exact absurd rfl (hl1 inner)

theorem one_cons {items : List Item} {c : CId} {m : MId} {dst : AccountId} {r : UInt8} (hone : OneHolder items)
    (hf : holder items c m = none) : OneHolder (⟨c, m, dst, r⟩ :: items) := by
  rw [oneHolder_iff] at hone ⊢
  intro c k a b ha hb
  rcases holds_cons.1 ha with ⟨rfl, rfl, rfl⟩ | ha' <;> rcases holds_cons.1 hb with ⟨h2, h3, rfl⟩ | hb
  · rfl
  · exact absurd hb (holder_none hf _)
  · subst h2 h3; exact absurd ha' (holder_none hf _)
  · exact hone _ _ _ _ ha' hb

theorem one_give {items : List Item} {c : CId} {m : MId} {dst : AccountId} (hone : OneHolder items) :
    OneHolder (giveItem items c m dst) := by
  rw [oneHolder_iff] at hone ⊢
  intro c k a b ha hb
  rcases holds_give.1 ha with ⟨rfl, rfl, rfl, _⟩ | ⟨h2, ha⟩ <;>
    rcases holds_give.1 hb with ⟨h3, h4, rfl, _⟩ | ⟨h5, hb⟩
  · rfl
  · exact absurd ⟨rfl, rfl⟩ h5
  · exact absurd ⟨h3, h4⟩ h2
  · exact hone _ _ _ _ ha hb

/-- C124: an item keeps having one holder, whatever is called. -/
theorem C124_one_holder (env : NEnv) (he : GroupLaws env.base) (s s' : NSt)
    (hone : OneHolder s.m.comm.world.items) (o : Origin) (call : NCall)
    (h : ndispatch env s o call = some s') : OneHolder s'.m.comm.world.items := by
  obtain ⟨o', leaf, hs, hl1, hl2, hd⟩ := ndispatch_speaks h
  cases leaf with
  | comm call =>
    rw [ndispatch] at hd
    split at hd
    · rename_i c' hc'
      cases hd
      have hm := comm_move (fun {n o w w'} => he.foreign (n := n) (o := o) (w := w) (w' := w'))
        (fun i hi => hl2 i (by rw [hi])) hc'
      show OneHolder c'.world.items
      cases hm with
      | added addr d who g m ha hlk _ has => exact he.assign_one has hone
      | removed addr d who m ha hlk _ has => exact he.release_one has hone
      | same _ hh =>
        rw [oneHolder_iff] at hone ⊢
        intro c m a b ha hb
        exact hone c m a b ((hh _ _ _).1 ha) ((hh _ _ _).1 hb)
    · cases hd
  | mgr call =>
    rw [ndispatch] at hd
    split at hd
    · rename_i m' hm'
      cases hd
      show OneHolder m'.comm.world.items
      rcases mgr_move hm' with ⟨hi, _⟩ | ⟨n, start, price, _, _, hm⟩
      · rw [hi]; exact hone
      · intro i hi j hj g1 g2
        rcases (hm.items i).1 hi with hi | ⟨x, hx, rfl⟩ <;> rcases (hm.items j).1 hj with hj | ⟨y, hy, rfl⟩
        · exact hone i hi j hj g1 g2
        · exact absurd ⟨g1, g2⟩ (hm.fresh y hy i hi)
        · exact absurd ⟨g1.symm, g2.symm⟩ (hm.fresh x hx j hj)
        · rfl
    · cases hd
  | nft call =>
    rw [ndispatch] at hd
    have hm := nft_move hd
    cases hm with
    | minted d m dst x w col hcol hmm hf e => rw [e]; exact one_cons hone hf
    | forced d m dst lk o col hcol ho hf e => rw [e]; exact one_cons hone hf
    | preSigned d x col hcol hsg hy ht hf e => rw [e]; exact one_cons hone hf
    | burned d m b o hh ho e =>
      rw [e]
      rw [oneHolder_iff] at hone ⊢
      intro c k a b ha hb
      exact hone _ _ _ _ (holds_filter.1 ha).2 (holds_filter.1 hb).2
    | moved d m b x dst hh hx hl e => rw [e]; exact one_give hone
    | bought d m x b p bid hh hp hb hy hl e => rw [e]; exact one_give hone
    | swapped d m f n x b w ha hb hw e1 e2 e3 l1 l2 e => rw [e]; exact one_give (one_give hone)
    | same o call e => rw [e]; exact hone
  | asAccount inner => exact absurd rfl (hl1 inner)

/-- C124: a price is put on an item of a community by its holder only. -/
theorem C124_priced_by_holder (env : NEnv) (s s' : NSt) (o : Origin) (call : NCall)
    (h : ndispatch env s o call = some s') (c : CId) (hc : c ≠ 0) (m : MId) (p : Nat)
    (h0 : s.m.prices c m ≠ some p) (h1 : s'.m.prices c m = some p) :
    ∃ a only, holder s.m.comm.world.items c m = some a ∧ Loose s c m ∧ Speaks s.m.comm o (.signed a) ∧
      ndispatch env s (.signed a) (.nft (.setPrice c m (some p) only)) = some s' := by
  obtain ⟨o', leaf, hs, hl1, hl2, hd⟩ := ndispatch_speaks h
  have settle : ∀ (t : NSt) (x : MSt), x.prices = s.m.prices → (t.settle x).m.prices c m ≠ some p := by
    intro t x hx hp
    unfold NSt.settle at hp
    dsimp only at hp
    split at hp
    · rw [hx] at hp; exact h0 hp
    · cases hp
  cases leaf with
  | comm call =>
    rw [ndispatch] at hd
    split at hd
    · cases hd; exact absurd h1 (settle _ _ rfl)
    · cases hd
  | mgr call =>
    rw [ndispatch] at hd
    split at hd
    · rename_i m' hm'
      cases hd
      replace h1 : m'.prices c m = some p := h1
      rcases mgr_move hm' with ⟨_, hi⟩ | ⟨n, start, price, _, _, hm⟩
      · rw [hi] at h1; exact absurd h1 h0
      · have := hm.prices c m
        rw [if_neg (fun hx => hc hx.1)] at this
        exact absurd (this.symm.trans h1) h0
    · cases hd
  | nft call =>
    have hd' := hd
    rw [ndispatch] at hd
    rcases nft_prices hd h1 with hp | ⟨a, only, rfl, ha, hl, rfl⟩
    · exact absurd hp h0
    · exact ⟨a, only, ha, loose_iff hl, hs, hd'⟩
  | asAccount inner => exact absurd rfl (hl1 inner)

theorem item_locked (env : NEnv) (he : GroupLaws env.base) (s s' : NSt) (o : Origin) (call : NCall)
    (h : ndispatch env s o call = some s') (c : CId) (hc : c ≠ 0) (k : MId) (a : AccountId)
    (hlock : s.frozen c = true ∨ ∀ m b, holder s.m.comm.world.items c m = some b → s.locked c m = true)
    (hcol : ∀ col, s.m.collections c = some col → col.admin = communityAccount c)
    (hmint : (s.minting c).who = .issuer) (hkey : ∀ d, env.signs (communityAccount c) d = false)
    (h0 : ¬ Holds s.m.comm.world.items c k a) (h1 : Holds s'.m.comm.world.items c k a) :
    ∃ o', Speaks s.m.comm o o' ∧
      (o' = .root ∨ authority kreivo s.m.comm o' = some c ∨ o' = .signed (communityAccount c)) := by
  obtain ⟨o', leaf, hs, hj, hd⟩ := item_joins env he s s' o call h c hc k a h0 h1
  refine ⟨o', hs, ?_⟩
  have fast : ∀ {m b}, holder s.m.comm.world.items c m = some b → ¬ Loose s c m := by
    intro m b hb hl
    rcases hlock with hf | hf
    · rw [hl.2] at hf; cases hf
    · have := hf m b hb; rw [hl.1] at this; cases this
  cases hj with
  | added addr ha _ => exact .inr (.inl ha)
  | minted m call hm =>
    cases hm with
    | admin w col hx _ ho => exact .inr (.inr (by rw [ho, hcol col hx]))
    | everybody w x hw ho => rw [hmint] at hw; cases hw
    | holderOf d k x hw _ ho => rw [hmint] at hw; cases hw
    | forced lk col hx ho =>
      rcases ho with ho | ho
      · exact .inl ho
      · exact .inr (.inr (by rw [ho, hcol col hx]))
    | preSigned d col _ hx hsg _ _ _ =>
      rw [hcol col hx, hkey] at hsg; cases hsg
  | given m b x hb _ _ hn => exact absurd hn (fast hb)
  | bought m b p bid hb _ _ _ _ hn => exact absurd hn (fast hb)
  | took m b d k w hb _ _ _ _ _ hn => exact absurd hn (fast hb)
  | offered m b d k w hb _ _ _ _ _ hn => exact absurd hn (fast hb)

/-- C124: where the items of the community's collection cannot be transferred, be it that the collection is frozen or that
each item is locked, where its admin is the community's account, which has signed nothing (there is no key to it), and where
minting was not opened, only root and those who have authority over the community make members. -/
theorem C124_locked_partial (env : NEnv) (he : GroupLaws env.base) (s s' : NSt) (o : Origin) (call : NCall)
    (h : ndispatch env s o call = some s') (c : CId) (hc : c ≠ 0) (a : AccountId)
    (hlock : s.frozen c = true ∨ ∀ m b, holder s.m.comm.world.items c m = some b → s.locked c m = true)
    (hcol : ∀ col, s.m.collections c = some col → col.admin = communityAccount c)
    (hmint : (s.minting c).who = .issuer) (hkey : ∀ d, env.signs (communityAccount c) d = false)
    (h0 : ¬ Member s c a) (h1 : Member s' c a) :
    ∃ o', Speaks s.m.comm o o' ∧
      (o' = .root ∨ authority kreivo s.m.comm o' = some c ∨ o' = .signed (communityAccount c)) := by
  rw [member_iff] at h0 h1
  obtain ⟨k, h1⟩ := h1
  push Not at h0
  exact item_locked env he s s' o call h c hc k a hlock hcol hmint hkey (h0 k) h1

/-- C124: an account is approved to transfer an item by the holder only, or root. -/
theorem C124_approved_by_holder (env : NEnv) (s s' : NSt) (o : Origin) (call : NCall)
    (h : ndispatch env s o call = some s') (c : CId) (m : MId) (x : AccountId) (t : Option Nat)
    (h0 : s.approved c m x ≠ some t) (h1 : s'.approved c m x = some t) :
    ∃ a o' length, holder s.m.comm.world.items c m = some a ∧ Speaks s.m.comm o o' ∧ (o' = .root ∨ o' = .signed a) ∧
      t = length.map (s.now + ·) ∧ ndispatch env s o' (.nft (.approve c m x length)) = some s' := by
  obtain ⟨o', leaf, hs, hl1, hl2, hd⟩ := ndispatch_speaks h
  cases leaf with
  | comm call =>
    rw [ndispatch] at hd
    split at hd
    · cases hd
      unfold NSt.settle at h1
      dsimp only at h1
      split at h1
      · exact absurd h1 h0
      · cases h1
    · cases hd
  | mgr call =>
    rw [ndispatch] at hd
    split at hd
    · cases hd; exact absurd h1 h0
    · cases hd
  | nft call =>
    have hd' := hd
    rw [ndispatch] at hd
    rcases nft_approved hd h1 with hp | ⟨length, ho, rfl, ht⟩
    · exact absurd hp h0
    · obtain ⟨a, ha, ho⟩ := holderOrRoot_iff ho
      exact ⟨a, o', length, ha, hs, ho, ht, hd'⟩
  | asAccount inner => exact absurd rfl (hl1 inner)

/-- C124: an item is offered for another one by the holder only. -/
theorem C124_offered_by_holder (env : NEnv) (s s' : NSt) (o : Origin) (call : NCall)
    (h : ndispatch env s o call = some s') (c : CId) (m : MId) (w : Offer)
    (h0 : s.offers c m ≠ some w) (h1 : s'.offers c m = some w) :
    ∃ a length, holder s.m.comm.world.items c m = some a ∧ Speaks s.m.comm o (.signed a) ∧ w.deadline = s.now + length ∧
      ndispatch env s (.signed a) (.nft (.offer c m w.wantC w.wantM w.price length)) = some s' := by
  obtain ⟨o', leaf, hs, hl1, hl2, hd⟩ := ndispatch_speaks h
  cases leaf with
  | comm call =>
    rw [ndispatch] at hd
    split at hd
    · cases hd
      unfold NSt.settle at h1
      dsimp only at h1
      split at h1
      · exact absurd h1 h0
      · cases h1
    · cases hd
  | mgr call =>
    rw [ndispatch] at hd
    split at hd
    · cases hd; exact absurd h1 h0
    · cases hd
  | nft call =>
    have hd' := hd
    rw [ndispatch] at hd
    rcases nft_offers hd h1 with hp | ⟨a, length, ha, rfl, rfl, ht⟩
    · exact absurd hp h0
    · exact ⟨a, length, ha, hs, ht, hd'⟩
  | asAccount inner => exact absurd rfl (hl1 inner)

theorem holder_give_ne {items : List Item} {c d : CId} {m k : MId} {dst : AccountId} (h : ¬ (d = c ∧ k = m)) :
    holder (giveItem items c m dst) d k = holder items d k := by
  unfold holder giveItem
  induction items with
  | nil => rfl
  | cons i l ih =>
    rw [List.map_cons, List.find?_cons, List.find?_cons]
    by_cases hi : i.group = c ∧ i.id = m
    · rw [if_pos hi]
      have : ¬ (i.group = d ∧ i.id = k) := fun hx => h ⟨hx.1.symm.trans hi.1, hx.2.symm.trans hi.2⟩
      simp only [decide_eq_false this]
      exact ih
    · rw [if_neg hi]
      cases decide (i.group = d ∧ i.id = k)
      · exact ih
      · rfl

theorem bare_withItems {s : NSt} {items : List Item} {c : CId} {m : MId}
    (h : holder items c m ≠ holder s.m.comm.world.items c m) : Bare (s.withItems items) c m := by
  unfold Bare NSt.withItems NSt.settle
  simp [h]

theorem bare_give {s : NSt} {c : CId} {m : MId} {dst : AccountId} : Bare (s.give c m dst) c m := by
  unfold Bare NSt.give
  simp

theorem bare_give_of {s : NSt} {c d : CId} {m k : MId} {dst : AccountId} (h : Bare s c m) :
    Bare (s.give d k dst) c m := by
  unfold Bare at h
  obtain ⟨h1, h2, h3, h4⟩ := h
  unfold Bare NSt.give
  dsimp only
  by_cases hx : c = d ∧ m = k
  · simp [hx]
  · simp only [if_neg hx]
    exact ⟨h1, h2, h3, h4⟩

/-- C124: a new holder starts afresh: whoever gets an item from another one owes nothing to the price, the approvals and the
offers that one had made. -/
theorem C124_new_holder_starts_afresh (env : NEnv) (s s' : NSt) (hone : OneHolder s.m.comm.world.items) (o : Origin)
    (call : NCall) (h : ndispatch env s o call = some s') (c : CId) (m : MId) (a : AccountId)
    (h0 : holder s.m.comm.world.items c m = some a) (h1 : holder s'.m.comm.world.items c m ≠ some a) : Bare s' c m := by
  obtain ⟨o', leaf, hs, hl1, hl2, hd⟩ := ndispatch_speaks h
  cases leaf with
  | comm call =>
    rw [ndispatch] at hd
    split at hd
    · rename_i c' _
      cases hd
      have h1 : holder c'.world.items c m ≠ holder s.m.comm.world.items c m := by rw [h0]; exact h1
      unfold Bare NSt.settle
      simp [h1]
    · cases hd
  | mgr call =>
    rw [ndispatch] at hd
    split at hd
    · rename_i m' hm'
      cases hd
      replace h1 : holder m'.comm.world.items c m ≠ some a := h1
      rcases mgr_move hm' with ⟨hi, _⟩ | ⟨n, start, price, _, _, hm⟩
      · rw [hi] at h1; exact absurd h0 h1
      · obtain ⟨i, hi, g1, g2, g3⟩ := holder_some h0
        cases hx : holder m'.comm.world.items c m with
        | none => exact absurd ⟨i, (hm.items i).2 (.inl hi), g1, g2, g3⟩ (holder_none hx a)
        | some b =>
          obtain ⟨j, hj, k1, k2, k3⟩ := holder_some hx
          rcases (hm.items j).1 hj with hj | ⟨y, hy, rfl⟩
          · have := hone i hi j hj (g1.trans k1.symm) (g2.trans k2.symm)
            rw [hx, ← k3, ← this, g3] at h1
            exact absurd rfl h1
          · exact absurd ⟨g1.trans k1.symm, g2.trans k2.symm⟩ (hm.fresh y hy i hi)
    · cases hd
  | nft call =>
    rw [ndispatch] at hd
    have key : ∀ {items : List Item} (r : NSt), r.m.comm.world.items = s.m.comm.world.items →
        holder items c m ≠ some a → Bare (r.withItems items) c m := by
      intro items r hr hx
      exact bare_withItems (by rw [hr, h0]; exact hx)
    cases call with
    | mint d k dst w =>
      simp only [nftCall] at hd
      split at hd
      · split at hd
        · split at hd
          · cases hd; exact key s rfl h1
          · split at hd
            · rename_i v hv
              cases hd; exact key (s.withWorld v) (payFrom_items hv) h1
            · cases hd
        · cases hd
      · cases hd
    | forceMint d k dst lk =>
      simp only [nftCall] at hd
      split at hd
      · split at hd
        · cases hd; exact key s rfl h1
        · cases hd
      · cases hd
    | mintPreSigned d x =>
      simp only [nftCall] at hd
      split at hd
      · split at hd
        · split at hd
          · cases hd; exact key s rfl h1
          · split at hd
            · rename_i v hv
              cases hd; exact key (s.withWorld v) (payFrom_items hv) h1
            · cases hd
        · cases hd
      · cases hd
    | burn d k =>
      simp only [nftCall] at hd
      split at hd
      · cases hd; exact key s rfl h1
      · cases hd
    | transfer d k dst =>
      simp only [nftCall] at hd
      split at hd
      · cases hd
        by_cases hx : c = d ∧ m = k
        · obtain ⟨rfl, rfl⟩ := hx; exact bare_give
        · exact absurd ((holder_give_ne hx).trans h0) h1
      · cases hd
    | buy d k bid =>
      simp only [nftCall] at hd
      split at hd
      · split at hd
        · split at hd
          · rename_i v hv
            cases hd
            by_cases hx : c = d ∧ m = k
            · obtain ⟨rfl, rfl⟩ := hx; exact bare_give
            · refine absurd ((holder_give_ne hx).trans ?_) h1
              show holder v.items c m = _
              rw [payFrom_items hv]; exact h0
          · cases hd
        · cases hd
      · cases hd
    | take d k e l price =>
      simp only [nftCall] at hd
      split at hd
      · split at hd
        · split at hd
          · rename_i v hv
            cases hd
            have hi : v.items = s.m.comm.world.items := by
              split at hv
              · cases hv; rfl
              · exact payFrom_items hv
              · exact payFrom_items hv
            by_cases hx : c = d ∧ m = k
            · obtain ⟨rfl, rfl⟩ := hx; exact bare_give
            · by_cases hy : c = e ∧ m = l
              · obtain ⟨rfl, rfl⟩ := hy; exact bare_give_of bare_give
              · refine absurd ((holder_give_ne hx).trans ((holder_give_ne hy).trans ?_)) h1
                show holder v.items c m = _
                rw [hi]; exact h0
          · cases hd
        · cases hd
      · cases hd
    | _ =>
      have hm := nft_move hd
      cases hm with
      | same _ _ e => rw [e] at h1; exact absurd h0 h1
  | asAccount inner => exact absurd rfl (hl1 inner)

/-- C124: the community can freeze its collection: who has authority over it makes its account, as admin, do so in one call,
which changes nothing else. -/
theorem C124_can_freeze (env : NEnv) (s : NSt) (o : Origin) (c : CId) (ha : authority kreivo s.m.comm o = some c)
    (col : Collection) (hc : s.m.collections c = some col) (had : col.admin = communityAccount c) :
    ndispatch env s o (.asAccount (.nft (.freeze c))) =
      some { s with frozen := fun d => if d = c then true else s.frozen d } := by
  rw [ndispatch, ha]
  show ndispatch env s (.signed (communityAccount c)) (.nft (.freeze c)) = _
  rw [ndispatch]
  unfold nftCall
  dsimp only
  rw [hc]
  dsimp only
  rw [if_pos (by rw [had])]

/-- C124: a collection stays frozen until root says otherwise, or root or its owner destroys it, when it has no members. -/
theorem C124_stays_frozen (env : NEnv) (s s' : NSt) (o : Origin) (call : NCall)
    (h : ndispatch env s o call = some s') (c : CId) (h0 : s.frozen c = true) (h1 : s'.frozen c = false) :
    ∃ o', Speaks s.m.comm o o' ∧
      ((o' = .root ∧ ∃ mt, ndispatch env s o' (.nft (.forceConfig c false mt)) = some s') ∨
       ((∃ col, s.m.collections c = some col ∧ (o' = .root ∨ o' = .signed col.owner)) ∧ (∀ a, ¬ Member s c a) ∧
         ndispatch env s o' (.nft (.destroy c)) = some s')) := by
  obtain ⟨o', leaf, hs, hl1, hl2, hd⟩ := ndispatch_speaks h
  refine ⟨o', hs, ?_⟩
  cases leaf with
  | comm call =>
    rw [ndispatch] at hd
    split at hd
    · cases hd; exact absurd (h0.symm.trans h1) (by decide)
    · cases hd
  | mgr call =>
    rw [ndispatch] at hd
    split at hd
    · cases hd; exact absurd (h0.symm.trans h1) (by decide)
    · cases hd
  | nft call =>
    have hd' := hd
    rw [ndispatch] at hd
    rcases nft_frozen hd h0 h1 with ⟨ho, mt, rfl⟩ | rfl
    · exact .inl ⟨ho, mt, hd'⟩
    · refine .inr ⟨?_, ?_, hd'⟩
      · simp only [nftCall] at hd
        split at hd
        · rename_i col hcol
          split at hd
          · rename_i ho; exact ⟨col, hcol, ho.1⟩
          · cases hd
        · cases hd
      · rintro a ⟨i, hi, hg, _⟩
        simp only [nftCall] at hd
        split at hd
        · split at hd
          · rename_i ho
            have := ho.2
            simp at this
            exact this i hi hg
          · cases hd
        · cases hd
  | asAccount inner => exact absurd rfl (hl1 inner)

/-- C124: who may mint is changed by the admin of the collection or root, or goes back to the default with the collection. -/
theorem C124_minting_opened_by_admin (env : NEnv) (s s' : NSt) (o : Origin) (call : NCall)
    (h : ndispatch env s o call = some s') (c : CId) (h1 : s'.minting c ≠ s.minting c) :
    ∃ o' col, Speaks s.m.comm o o' ∧ s.m.collections c = some col ∧
      (o' = .root ∨ o' = .signed col.admin ∨ (o' = .signed col.owner ∧ s'.minting c = {})) := by
  obtain ⟨o', leaf, hs, hl1, hl2, hd⟩ := ndispatch_speaks h
  cases leaf with
  | comm call =>
    rw [ndispatch] at hd
    split at hd
    · cases hd; exact absurd rfl h1
    · cases hd
  | mgr call =>
    rw [ndispatch] at hd
    split at hd
    · cases hd; exact absurd rfl h1
    · cases hd
  | nft call =>
    rw [ndispatch] at hd
    obtain ⟨col, hc, hx⟩ := nft_minting hd h1
    refine ⟨o', col, hs, hc, ?_⟩
    rcases hx with ⟨ho, _⟩ | ⟨ho | ho, _⟩ | ⟨ho | ho, _, e⟩
    · exact .inl ho
    · exact .inl ho
    · exact .inr (.inl ho)
    · exact .inl ho
    · exact .inr (.inr ⟨ho, e⟩)
  | asAccount inner => exact absurd rfl (hl1 inner)

/-- C124: the community can lock: who has authority over it makes its account, as admin of its collection, lock any item. -/
theorem C124_can_lock (env : NEnv) (s : NSt) (o : Origin) (c : CId) (ha : authority kreivo s.m.comm o = some c)
    (col : Collection) (hc : s.m.collections c = some col) (had : col.admin = communityAccount c) (m : MId) (a : AccountId)
    (hm : holder s.m.comm.world.items c m = some a) :
    ∃ s', ndispatch env s o (.asAccount (.nft (.lock c m))) = some s' ∧ s'.m = s.m ∧ s'.locked c m = true ∧
      ∀ d k, ¬ (d = c ∧ k = m) → s'.locked d k = s.locked d k := by
  refine ⟨{ s with locked := fun d k => if d = c ∧ k = m then true else s.locked d k }, ?_, rfl, ?_, ?_⟩
  · rw [ndispatch, ha]
    show ndispatch env s (.signed (communityAccount c)) (.nft (.lock c m)) = _
    rw [ndispatch]
    unfold nftCall
    dsimp only
    rw [hc]
    dsimp only
    rw [if_pos ⟨had.symm, .inl (by rw [hm]; simp)⟩]
  · simp
  · intro d k hx; simp [hx]

/-- C124: nobody but root or the owner of the collection, at first the community's account, changes the collection; they name
another admin, hand the ownership over, or destroy it once nobody is a member, and each changes nothing else about it. -/
theorem C124_keeper (env : NEnv) (s s' : NSt) (o : Origin) (call : NCall)
    (h : ndispatch env s o call = some s') (c : CId) (col : Collection)
    (h0 : s.m.collections c = some col) (h1 : s'.m.collections c ≠ some col) :
    ∃ o' leaf, Speaks s.m.comm o o' ∧ (o' = .root ∨ o' = .signed col.owner) ∧ ndispatch env s o' leaf = some s' ∧
      ((∃ admin, leaf = .nft (.setTeam c admin) ∧ s'.m.collections c = some ⟨col.owner, admin⟩) ∨
       (∃ owner, leaf = .nft (.transferOwnership c owner) ∧ s'.m.collections c = some ⟨owner, col.admin⟩) ∨
       (leaf = .nft (.destroy c) ∧ s'.m.collections c = none ∧ ∀ a, ¬ Member s c a)) := by
  obtain ⟨o', leaf, hs, hl1, hl2, hd⟩ := ndispatch_speaks h
  refine ⟨o', leaf, hs, ?_⟩
  have hd0 := hd
  cases leaf with
  | comm call =>
    rw [ndispatch] at hd
    split at hd
    · cases hd; exact absurd h0 h1
    · cases hd
  | mgr call =>
    rw [ndispatch] at hd
    split at hd
    · rename_i m' hm'
      cases hd
      replace h1 : m'.collections c ≠ some col := h1
      cases call with
      | register d name a m t =>
        obtain ⟨dep, ac, info, c1, c2, _, _, _, _, _, _, h7, _, _, rfl⟩ := mregister_ok hm'
        dsimp only at h1
        by_cases hx : c = d
        · rw [hx, h7] at h0; cases h0
        · rw [if_neg hx] at h1; exact absurd h0 h1
      | createMemberships n start price =>
        have := (C64_mints_exactly _ _ _ _ _ _ _ _ hm').2.2.2.2.2.2.2.1
        rw [this] at h1; exact absurd h0 h1
    · cases hd
  | nft call =>
    rw [ndispatch] at hd
    rcases nft_collections hd with e | ⟨d, cl, x, hcol, ho, hx', e⟩ | ⟨d, x, hcol, _, _, e⟩
    · rw [e] at h1; exact absurd h0 h1
    · rw [e] at h1
      dsimp only at h1
      by_cases hx : c = d
      · subst hx
        rw [hcol] at h0
        cases h0
        refine ⟨ho, hd0, ?_⟩
        rw [e]
        dsimp only
        rw [if_pos rfl]
        rcases hx' with ⟨ad, rfl, rfl⟩ | ⟨ow, rfl, rfl⟩ | ⟨rfl, rfl, hi⟩
        · exact .inl ⟨ad, rfl, rfl⟩
        · exact .inr (.inl ⟨ow, rfl, rfl⟩)
        · refine .inr (.inr ⟨rfl, rfl, fun a ⟨i, hi1, hi2, _⟩ => hi i hi1 hi2⟩)
      · rw [if_neg hx] at h1; exact absurd h0 h1
    · rw [e] at h1
      dsimp only at h1
      by_cases hx : c = d
      · subst hx; rw [hcol] at h0; cases h0
      · rw [if_neg hx] at h1; exact absurd h0 h1
  | asAccount inner => exact absurd rfl (hl1 inner)

/-- C124 fails as one would put it, that a community decides who its members are: a member gives their membership to whomever
they please, who then votes in their place, and nobody of the community was asked. -/
theorem C124_community_decides_fails :
    ∃ (s s' : NSt) (c : CId) (a : AccountId) (call : NCall), OneHolder s.m.comm.world.items ∧ c ≠ 0 ∧
      authority kreivo s.m.comm (.signed Communities.Demo.bob) ≠ some c ∧
      ndispatch Demo.strictEnv s (.signed Communities.Demo.bob) call = some s' ∧
      ¬ Member s c a ∧ Member s' c a ∧
      ∃ s2, dispatch kreivo Demo.strictEnv.base s'.m.comm (.signed a) (.vote 2 0 (.standard true)) = .ok s2 := by
  refine ⟨Demo.nstart, Demo.nstart.give 1 2 Communities.Demo.charlie, 1,
    Communities.Demo.charlie, .nft (.transfer 1 2 Communities.Demo.charlie), ?_, by decide, ?_, ?_, ?_, ?_, ?_⟩
  · unfold OneHolder; decide +kernel
  · decide +kernel
  · rfl
  · unfold Member; decide +kernel
  · unfold Member; decide +kernel
  · exact ⟨_, rfl⟩

/-- The hypotheses of the theorems above are met. -/
example : GroupLaws Demo.strictEnv.base ∧ OneHolder Demo.nstart.m.comm.world.items ∧
    (∃ s', ndispatch Demo.strictEnv Demo.nstart (.signed Communities.Demo.alice)
      (.asAccount (.comm (.addMember (.id Communities.Demo.charlie)))) = some s' ∧
      ¬ Member Demo.nstart 1 Communities.Demo.charlie ∧ Member s' 1 Communities.Demo.charlie) ∧
    (∃ s', ndispatch Demo.strictEnv Demo.nstart (.signed Communities.Demo.alice)
      (.comm (.removeMember (.id Communities.Demo.bob) 2)) = some s' ∧
      Member Demo.nstart 1 Communities.Demo.bob ∧ ¬ Member s' 1 Communities.Demo.bob) ∧
    (∃ s', ndispatch Demo.strictEnv Demo.nstart (.signed Communities.Demo.bob)
      (.nft (.setPrice 1 2 (some 70) none)) = some s' ∧ Demo.nstart.m.prices 1 2 ≠ some 70 ∧ s'.m.prices 1 2 = some 70) ∧
    authority kreivo Demo.nstart.m.comm (.signed Communities.Demo.alice) = some 1 ∧
    Demo.nstart.m.collections 1 = some ⟨communityAccount 1, communityAccount 1⟩ ∧
    (∃ s', ndispatch Demo.strictEnv Demo.nstart (.signed Communities.Demo.alice)
      (.asAccount (.nft (.setTeam 1 Communities.Demo.charlie))) = some s' ∧
      s'.m.collections 1 ≠ some ⟨communityAccount 1, communityAccount 1⟩) := by
  refine ⟨Demo.strictEnv_laws, by unfold OneHolder; decide +kernel, ⟨_, rfl, ?_, ?_⟩, ⟨_, rfl, ?_, ?_⟩,
    ⟨_, rfl, by decide, rfl⟩, by decide +kernel, rfl, ⟨_, rfl, by decide +kernel⟩⟩
  all_goals unfold Member; decide +kernel

/-- And of those on approvals, offers, freezing and minting: bob approves charlie, who then takes bob's membership; charlie
offers theirs of the other community for it; alice freezes the collection, adds a member all the same, and opens minting. -/
example :
    (∃ s1, ndispatch Demo.strictEnv Demo.nstart (.signed Communities.Demo.bob)
        (.nft (.approve 1 2 Communities.Demo.charlie (some 5))) = some s1 ∧
      Demo.nstart.approved 1 2 Communities.Demo.charlie ≠ some (some 15) ∧
      s1.approved 1 2 Communities.Demo.charlie = some (some 15) ∧
      ∃ s2, ndispatch Demo.strictEnv s1 (.signed Communities.Demo.charlie)
        (.nft (.transfer 1 2 Communities.Demo.charlie)) = some s2 ∧ ¬ Member s1 1 Communities.Demo.charlie ∧
        Member s2 1 Communities.Demo.charlie ∧ holder s1.m.comm.world.items 1 2 = some Communities.Demo.bob ∧
        holder s2.m.comm.world.items 1 2 ≠ some Communities.Demo.bob) ∧
    (∃ s1, ndispatch Demo.strictEnv Demo.nstart (.signed Communities.Demo.charlie)
        (.nft (.offer 2 3 1 none (some (false, 7)) 20)) = some s1 ∧
      Demo.nstart.offers 2 3 ≠ some ⟨1, none, some (false, 7), 30⟩ ∧ s1.offers 2 3 = some ⟨1, none, some (false, 7), 30⟩ ∧
      ∃ s2, ndispatch Demo.strictEnv s1 (.signed Communities.Demo.bob) (.nft (.take 2 3 1 2 (some (false, 7)))) = some s2 ∧
        ¬ Member s1 1 Communities.Demo.charlie ∧ Member s2 1 Communities.Demo.charlie ∧
        Member s1 1 Communities.Demo.bob ∧ ¬ Member s2 1 Communities.Demo.bob) ∧
    (∃ s1, ndispatch Demo.strictEnv Demo.nstart (.signed Communities.Demo.alice) (.asAccount (.nft (.freeze 1))) = some s1 ∧
      s1.frozen 1 = true ∧ (s1.minting 1).who = .issuer ∧ (∀ d, Demo.strictEnv.signs (communityAccount 1) d = false) ∧
      s1.m.collections 1 = some ⟨communityAccount 1, communityAccount 1⟩ ∧
      ndispatch Demo.strictEnv s1 (.signed Communities.Demo.bob) (.nft (.transfer 1 2 Communities.Demo.charlie)) = none ∧
      (∃ s2, ndispatch Demo.strictEnv s1 (.signed Communities.Demo.alice)
        (.comm (.addMember (.id Communities.Demo.charlie))) = some s2 ∧ ¬ Member s1 1 Communities.Demo.charlie ∧
        Member s2 1 Communities.Demo.charlie) ∧
      ∃ s2, ndispatch Demo.strictEnv s1 .root (.nft (.forceConfig 1 false {})) = some s2 ∧ s2.frozen 1 = false) ∧
    ∃ s1, ndispatch Demo.strictEnv Demo.nstart (.signed Communities.Demo.alice)
        (.asAccount (.nft (.setMinting 1 { who := .everybody }))) = some s1 ∧ s1.minting 1 ≠ Demo.nstart.minting 1 ∧
      ∃ s2, ndispatch Demo.strictEnv s1 (.signed Communities.Demo.charlie)
        (.nft (.mint 1 5 Communities.Demo.charlie none)) = some s2 ∧ ¬ Member s1 1 Communities.Demo.charlie ∧
        Member s2 1 Communities.Demo.charlie := by
  refine ⟨⟨_, rfl, by decide +kernel, by decide +kernel, _, rfl, ?_, ?_, by decide +kernel, by decide +kernel⟩,
    ⟨_, rfl, by decide +kernel, by decide +kernel, _, rfl, ?_, ?_, ?_, ?_⟩,
    ⟨_, rfl, rfl, rfl, fun _ => rfl, rfl, rfl, ⟨_, rfl, ?_, ?_⟩, _, rfl, rfl⟩,
    _, rfl, by decide +kernel, _, rfl, ?_, ?_⟩
  all_goals unfold Member; decide +kernel

/-! ## C125 -/

/-- C125, what holds: `add_member` uses up one membership that the community's account holds in the manager's collection. -/
theorem C125_added_uses_one_partial (env : NEnv) (he : GroupLaws env.base) (s s' : NSt) (o : Origin) (addr : Address)
    (h : ndispatch env s o (.comm (.addMember addr)) = some s') :
    ∃ c m, authority kreivo s.m.comm o = some c ∧ Holds s.m.comm.world.items 0 m (communityAccount c) ∧
      ¬ Holds s'.m.comm.world.items 0 m (communityAccount c) := by
  rw [ndispatch] at h
  split at h
  · rename_i c' hc'
    cases h
    obtain ⟨c, who, g, m, items, h1, h2, h3, h4, rfl⟩ := addMember_ok hc'
    obtain ⟨h5, h6⟩ := he.assign_uses h4
    exact ⟨c, m, h1, h5, fun ⟨i, hi, hx⟩ => h6 i hi hx⟩
  · cases h

/-- How a membership can appear in the manager's collection. -/
inductive Appears (env : NEnv) (s : NSt) (o : Origin) (m : MId) : NCall → Prop
  | made (n : UInt16) (start : MId) (price : Nat) (ho : o = .root ∨ o = .custom .createMemberships)
      (hm : start.toNat ≤ m.toNat ∧ m.toNat < start.toNat + n.toNat) : Appears env s o m (.mgr (.createMemberships n start price))
  | minted (a : AccountId) (call : NftCall) (h : Mints env s 0 m a o call) : Appears env s o m (.nft call)
  | returned (addr : Address) (k : MId) (c : CId) (h : authority kreivo s.m.comm o = some c) :
      Appears env s o m (.comm (.removeMember addr k))

/-- C125: memberships appear in the manager's collection by `create_memberships` of root or the origin made for it, at the
hands of the admin of that collection, or by being returned. -/
theorem C125_supply (env : NEnv) (he : GroupLaws env.base) (s s' : NSt) (o : Origin) (call : NCall)
    (h : ndispatch env s o call = some s') (m : MId)
    (h0 : ∀ a, ¬ Holds s.m.comm.world.items 0 m a) (a : AccountId) (h1 : Holds s'.m.comm.world.items 0 m a) :
    ∃ o' leaf, Speaks s.m.comm o o' ∧ Appears env s o' m leaf ∧ ndispatch env s o' leaf = some s' := by
  obtain ⟨o', leaf, hs, hl1, hl2, hd⟩ := ndispatch_speaks h
  refine ⟨o', leaf, hs, ?_, hd⟩
  cases leaf with
  | comm call =>
    rw [ndispatch] at hd
    split at hd
    · rename_i c' hc'
      cases hd
      have hm := comm_move (fun {n o w w'} => he.foreign (n := n) (o := o) (w := w) (w' := w'))
        (fun i hi => hl2 i (by rw [hi])) hc'
      have h1 : Holds c'.world.items 0 m a := h1
      cases hm with
      | added addr d who g k ha hlk _ has =>
        obtain ⟨i, hi, g1, g2, g3⟩ := h1
        obtain ⟨j, hj, g4, g5⟩ := he.assign_zero has i hi g1
        exact absurd ⟨j, hj, g4, g5.trans g2, rfl⟩ (h0 j.owner)
      | removed addr d who k ha hlk _ has => exact .returned addr k d ha
      | same _ hh => exact absurd ((hh _ _ _).1 h1) (h0 a)
    · cases hd
  | mgr call =>
    rw [ndispatch] at hd
    split at hd
    · rename_i m' hm'
      cases hd
      rcases mgr_move hm' with ⟨hi, _⟩ | ⟨n, start, price, rfl, ho, hm⟩
      · have h1 : Holds m'.comm.world.items 0 m a := h1
        rw [hi] at h1
        exact absurd h1 (h0 a)
      · have hx := (C64_mints_exactly _ _ _ _ _ _ _ _ hm').2.2.1
        obtain ⟨i, hi, g1, g2, g3⟩ := h1
        rcases (hx i).1 hi with hi | ⟨_, _, _, g4⟩
        · exact absurd ⟨i, hi, g1, g2, g3⟩ (h0 a)
        · exact .made n start price (by simpa [kreivoManager] using ho) (g2 ▸ g4)
    · cases hd
  | nft call =>
    rw [ndispatch] at hd
    have hm := nft_move hd
    cases hm with
    | minted d k dst x w col hcol hmm _ e =>
      rw [e] at h1
      rcases holds_cons.1 h1 with ⟨rfl, rfl, rfl⟩ | h1
      · exact .minted _ _ (mints_of hcol hmm)
      · exact absurd h1 (h0 a)
    | forced d k dst lk o col hcol ho _ e =>
      rw [e] at h1
      rcases holds_cons.1 h1 with ⟨rfl, rfl, rfl⟩ | h1
      · exact .minted _ _ (.forced lk col hcol ho)
      · exact absurd h1 (h0 a)
    | preSigned d x col hcol hsg hy ht _ e =>
      rw [e] at h1
      rcases holds_cons.1 h1 with ⟨hd0, rfl, rfl⟩ | h1
      · exact .minted _ _ (.preSigned d col ⟨hd0.symm, rfl⟩ (hd0 ▸ hcol) hsg hy ht rfl)
      · exact absurd h1 (h0 a)
    | burned d k b o hh ho e => rw [e] at h1; exact absurd (holds_filter.1 h1).2 (h0 a)
    | moved d k b x dst hh hx hl e =>
      rw [e] at h1
      rcases holds_give.1 h1 with ⟨rfl, rfl, rfl, b, hb⟩ | ⟨_, h1⟩
      · exact absurd hb (h0 b)
      · exact absurd h1 (h0 a)
    | bought d k x b p bid hh hp hb hy hl e =>
      rw [e] at h1
      rcases holds_give.1 h1 with ⟨rfl, rfl, rfl, b, hb⟩ | ⟨_, h1⟩
      · exact absurd hb (h0 b)
      · exact absurd h1 (h0 a)
    | swapped d k f n x b w ha hb hw e1 e2 e3 l1 l2 e =>
      rw [e] at h1
      rcases holds_give.1 h1 with ⟨rfl, rfl, rfl, _⟩ | ⟨_, h1⟩
      · exact absurd (holder_some hb) (h0 _)
      · rcases holds_give.1 h1 with ⟨rfl, rfl, rfl, b, hb⟩ | ⟨_, h1⟩
        · exact absurd hb (h0 b)
        · exact absurd h1 (h0 a)
    | same o call e => rw [e] at h1; exact absurd h1 (h0 a)
  | asAccount inner => exact absurd rfl (hl1 inner)

/-- C125: who buys an item pays its holder exactly the price, no more than they bid, and has the item for themselves. -/
theorem C125_buying_pays (env : NEnv) (s s' : NSt) (b : AccountId) (c : CId) (m : MId)
    (bid : Nat) (h : ndispatch env s (.signed b) (.nft (.buy c m bid)) = some s') :
    ∃ a p, holder s.m.comm.world.items c m = some a ∧ s.m.prices c m = some p ∧ p ≤ bid ∧ a ≠ b ∧
      s'.m.comm.world.native b + p = s.m.comm.world.native b ∧
      s'.m.comm.world.native a = s.m.comm.world.native a + p ∧
      (∀ x, x ≠ a → x ≠ b → s'.m.comm.world.native x = s.m.comm.world.native x) ∧
      holder s'.m.comm.world.items c m = some b ∧ Bare s' c m := by
  rw [ndispatch] at h
  unfold nftCall at h
  dsimp only at h
  split at h
  · rename_i b' a p ho hh hp
    cases ho
    split at h
    · rename_i hb
      split at h
      · rename_i v hv
        cases h
        obtain ⟨h1, h2, h3, h4⟩ := hb
        unfold payFrom at hv
        rw [if_neg h1] at hv
        split at hv
        · cases hv
        · rename_i hx
          cases hv
          push Not at hx
          refine ⟨a, p, hh, hp, h2, fun e => h1 e.symm, ?_, ?_, ?_, holder_give hh, bare_give⟩
          · show (if b = b then s.m.comm.world.native b - p else _) + p = _
            rw [if_pos rfl]; omega
          · show (if a = b then _ else if a = a then s.m.comm.world.native a + p else _) = _
            rw [if_neg (fun e => h1 e.symm), if_pos rfl]
          · intro x hx hy
            show (if x = b then _ else if x = a then _ else s.m.comm.world.native x) = _
            rw [if_neg hy, if_neg hx]
      · cases h
    · cases h
  · cases h

/-- `p` goes from `x` to `y` and no other balance changes. -/
def Paid (n n' : AccountId → Nat) (x y : AccountId) (p : Nat) : Prop :=
  if x = y then n' = n
  else n' x + p = n x ∧ n' y = n y + p ∧ ∀ z, z ≠ x → z ≠ y → n' z = n z

/-- What taking an offer with this price moves between the taker `x` and the one who made it, `b`. -/
def OfferPaid (n n' : AccountId → Nat) (x b : AccountId) : Option (Bool × Nat) → Prop
  | none => n' = n
  | some (true, p) => Paid n n' x b p
  | some (false, p) => Paid n n' b x p

theorem payFrom_paid {env : NEnv} {w w' : World} {x y : AccountId} {p : Nat} (h : payFrom env w x y p = some w') :
    Paid w.native w'.native x y p := by
  unfold payFrom at h
  unfold Paid
  split at h
  · rename_i e; cases h; rw [if_pos e]
  · rename_i e
    rw [if_neg e]
    split at h
    · cases h
    · rename_i hx
      cases h
      push Not at hx
      refine ⟨?_, ?_, ?_⟩
      · show (if x = x then w.native x - p else _) + p = _
        rw [if_pos rfl]; omega
      · show (if y = x then _ else if y = y then w.native y + p else _) = _
        rw [if_neg (fun e' => e e'.symm), if_pos rfl]
      · intro z h1 h2
        show (if z = x then _ else if z = y then _ else w.native z) = _
        rw [if_neg h1, if_neg h2]

/-- C125: who takes an offer gets the item offered for one of theirs that it asks for; the price of the offer goes the way
the offer says, and each has what they got for themselves. -/
theorem C125_swapping_pays (env : NEnv) (s s' : NSt) (x : AccountId) (c d : CId) (m k : MId) (price : Option (Bool × Nat))
    (hne : ¬ (c = d ∧ m = k)) (h : ndispatch env s (.signed x) (.nft (.take c m d k price)) = some s') :
    ∃ b w, holder s.m.comm.world.items c m = some b ∧ holder s.m.comm.world.items d k = some x ∧ s.offers c m = some w ∧
      w.wantC = d ∧ (∀ j ∈ w.wantM, j = k) ∧ w.price = price ∧ s.now ≤ w.deadline ∧
      holder s'.m.comm.world.items c m = some x ∧ holder s'.m.comm.world.items d k = some b ∧ Bare s' c m ∧ Bare s' d k ∧
      OfferPaid s.m.comm.world.native s'.m.comm.world.native x b price := by
  rw [ndispatch] at h
  simp only [nftCall] at h
  split at h
  · rename_i x' a b w ho ha hb hw
    cases ho
    split at h
    · rename_i hx
      obtain ⟨rfl, h1, h2, h3, h4, h5, h6⟩ := hx
      split at h
      · rename_i v hv
        cases h
        have hi : v.items = s.m.comm.world.items ∧ OfferPaid s.m.comm.world.native v.native x b price := by
          split at hv
          · cases hv; exact ⟨rfl, rfl⟩
          · exact ⟨payFrom_items hv, payFrom_paid hv⟩
          · exact ⟨payFrom_items hv, payFrom_paid hv⟩
        have e1 : holder (giveItem v.items d k b) c m = some b := by
          rw [holder_give_ne hne, hi.1]; exact hb
        refine ⟨b, w, hb, ha, hw, h1, fun y hy => of_decide_eq_true ((Option.all_eq_true _ _).1 h3 y hy), h2, h4,
          holder_give e1, ?_, bare_give, bare_give_of bare_give, hi.2⟩
        show holder (giveItem (giveItem v.items d k b) c m x) d k = some b
        rw [holder_give_ne (fun e => hne ⟨e.1.symm, e.2.symm⟩)]
        exact holder_give (a := x) (by rw [hi.1]; exact ha)
      · cases h
    · cases h
  · cases h

/-- C125: who mints pays the owner of the collection what its settings say, and gets a new item. -/
theorem C125_minting_pays (env : NEnv) (s s' : NSt) (x dst : AccountId) (c : CId) (m : MId) (w : Option MId)
    (h : ndispatch env s (.signed x) (.nft (.mint c m dst w)) = some s') :
    ∃ col, s.m.collections c = some col ∧ holder s.m.comm.world.items c m = none ∧
      holder s'.m.comm.world.items c m = some dst ∧
      (∀ t ∈ (s.minting c).start, t ≤ s.now) ∧ (∀ t ∈ (s.minting c).stop, s.now ≤ t) ∧
      (match (s.minting c).price with
      | none => s'.m.comm.world.native = s.m.comm.world.native
      | some p => Paid s.m.comm.world.native s'.m.comm.world.native x col.owner p) := by
  rw [ndispatch] at h
  simp only [nftCall] at h
  split at h
  · rename_i x' col ho hc
    cases ho
    split at h
    · rename_i hx
      obtain ⟨h1, h2, h3⟩ := hx
      have hnew : ∀ items : List Item, holder (⟨c, m, dst, 0⟩ :: items) c m = some dst := by
        intro items; simp [holder]
      unfold NSt.mayMint at h1
      rw [Bool.and_eq_true, Bool.and_eq_true] at h1
      have g1 : ∀ t ∈ (s.minting c).start, t ≤ s.now :=
        fun t ht => of_decide_eq_true ((Option.all_eq_true _ _).1 h1.1.1 t ht)
      have g2 : ∀ t ∈ (s.minting c).stop, s.now ≤ t :=
        fun t ht => of_decide_eq_true ((Option.all_eq_true _ _).1 h1.1.2 t ht)
      split at h
      · rename_i hp
        cases h
        exact ⟨col, hc, h2, hnew _, g1, g2, by rw [hp]; rfl⟩
      · rename_i p hp
        split at h
        · rename_i v hv
          cases h
          exact ⟨col, hc, h2, hnew _, g1, g2, by rw [hp]; exact (payFrom_paid hv : Paid _ v.native _ _ _)⟩
        · cases h
    · cases h
  · cases h

/-- C125 fails as one would put it, that every member of a community has a membership made by `create_memberships` and paid to
the treasury: a community mints memberships of its own, for nothing and as many as it likes, whose holders vote. -/
theorem C125_paid_for_fails :
    ∃ (s : NSt) (c : CId) (a o : AccountId), authority kreivo s.m.comm (.signed o) = some c ∧ ¬ Member s c a ∧
      ∃ s', ndispatch Demo.strictEnv s (.signed o) (.asAccount (.nft (.mint c 5 a none))) = some s' ∧ Member s' c a ∧
        s'.m.comm.world.native = s.m.comm.world.native ∧
        (∀ m b, Holds s'.m.comm.world.items 0 m b ↔ Holds s.m.comm.world.items 0 m b) ∧
        ∃ s2, dispatch kreivo Demo.strictEnv.base s'.m.comm (.signed a) (.vote 5 0 (.standard true)) = .ok s2 := by
  refine ⟨Demo.nstart, 1, Communities.Demo.charlie, Communities.Demo.alice, by decide +kernel, ?_, _, rfl, ?_, rfl, ?_, _,
    rfl⟩
  · unfold Member; decide +kernel
  · unfold Member; decide +kernel
  · intro m b
    refine (holds_cons (c := 1) (m := 5) (dst := Communities.Demo.charlie) (r := 0)
      (items := Communities.Demo.items)).trans ⟨?_, .inr⟩
    rintro (⟨h, _⟩ | h)
    · cases h
    · exact h

/-- The hypotheses of the theorems above are met: memberships are made, bought for the community and used. -/
example :
    (∃ s', ndispatch Demo.strictEnv Demo.nstart (.signed Communities.Demo.alice)
      (.comm (.addMember (.id Communities.Demo.charlie))) = some s') ∧
    (∀ a, ¬ Holds Demo.nstart.m.comm.world.items 0 11 a) ∧
    ∃ s1, ndispatch Demo.strictEnv Demo.nstart (.custom .createMemberships)
        (.mgr (.createMemberships 3 10 70)) = some s1 ∧ Holds s1.m.comm.world.items 0 11 treasuryAccount ∧
      ∃ s2, ndispatch Demo.strictEnv s1 (.signed (communityAccount 1)) (.nft (.buy 0 11 70)) = some s2 ∧
        Holds s2.m.comm.world.items 0 11 (communityAccount 1) := by
  refine ⟨⟨_, rfl⟩, ?_, _, rfl, ?_, _, rfl, ?_⟩
  · intro a ⟨i, hi, h1, h2, _⟩
    have : ∀ i ∈ Demo.nstart.m.comm.world.items, ¬ (i.group = 0 ∧ i.id = 11) := by decide +kernel
    exact this i hi ⟨h1, h2⟩
  · unfold Holds; decide +kernel
  · unfold Holds; decide +kernel

/-- An offer is taken, and an item minted at a price. -/
example :
    (∃ s1, ndispatch Demo.strictEnv Demo.nstart (.signed Communities.Demo.charlie)
        (.nft (.offer 2 3 1 none (some (false, 7)) 20)) = some s1 ∧
      ∃ s2, ndispatch Demo.strictEnv s1 (.signed Communities.Demo.bob) (.nft (.take 2 3 1 2 (some (false, 7)))) = some s2) ∧
    ∃ s1, ndispatch Demo.strictEnv Demo.nstart (.signed Communities.Demo.alice)
        (.asAccount (.nft (.setMinting 1 { who := .holderOf 2, price := some 50, stop := some 11 }))) = some s1 ∧
      ∃ s2, ndispatch Demo.strictEnv s1 (.signed Communities.Demo.charlie)
        (.nft (.mint 1 5 Communities.Demo.charlie (some 3))) = some s2 :=
  ⟨⟨_, rfl, _, rfl⟩, _, rfl, _, rfl⟩

/-! ## C126 -/

/-- C126, what holds: a community whose account holds nothing but memberships to give out, at least one, adds a member; the
first condition is that the manager accepts to assign those. -/
theorem C126_can_add_partial (env : NEnv) (s : NSt) (o : Origin) (c : CId) (addr : Address) (a : AccountId)
    (hacc : ∀ m, Holds s.m.comm.world.items 0 m (communityAccount c) →
      ∃ items, env.base.assign s.m.comm.world.items c m a = some items)
    (hauth : authority kreivo s.m.comm o = some c) (haddr : lookup addr = some a)
    (hjunk : ∀ d m, Holds s.m.comm.world.items d m (communityAccount c) → d = 0)
    (hleft : ∃ m, Holds s.m.comm.world.items 0 m (communityAccount c)) :
    ∃ s', ndispatch env s o (.comm (.addMember addr)) = some s' := by
  obtain ⟨m, i, hi, h1, h2, h3⟩ := hleft
  cases hu : (userMemberships s.m.comm.world.items (communityAccount c) none).head? with
  | none =>
    rw [List.head?_eq_none_iff] at hu
    have : (i.group, i.id) ∈ userMemberships s.m.comm.world.items (communityAccount c) none :=
      List.mem_map.2 ⟨i, List.mem_filter.2 ⟨hi, by simp [h3]⟩, rfl⟩
    rw [hu] at this; cases this
  | some p =>
    obtain ⟨d, k⟩ := p
    have hmem := List.mem_of_head? hu
    obtain ⟨j, hj, e⟩ := List.mem_map.1 hmem
    obtain ⟨hj, hjo⟩ := List.mem_filter.1 hj
    have hjo : j.owner = communityAccount c := by simpa using hjo
    have e1 : j.group = d := congrArg Prod.fst e
    have e2 : j.id = k := congrArg Prod.snd e
    have hd := hjunk d k ⟨j, hj, e1, e2, hjo⟩
    subst hd
    obtain ⟨items, has⟩ := hacc k ⟨j, hj, e1, e2, hjo⟩
    have : ∃ t, dispatch kreivo env.base s.m.comm o (.addMember addr) = .ok t := by
      rw [dispatch]
      unfold addMember
      rw [hauth]; dsimp only
      rw [haddr]; dsimp only
      rw [hu]; dsimp only
      rw [has]
      exact ⟨_, rfl⟩
    obtain ⟨t, ht⟩ := this
    exact ⟨_, by rw [ndispatch, ht]⟩

/-- C126: and a community rids itself of any other item its account holds, even of one that is locked: who has authority over
it makes the account burn the item, and only that one is gone. -/
theorem C126_burns_junk (env : NEnv) (s : NSt) (hone : OneHolder s.m.comm.world.items) (o : Origin) (c d : CId) (m : MId)
    (hauth : authority kreivo s.m.comm o = some c) (hh : Holds s.m.comm.world.items d m (communityAccount c)) :
    ∃ s', ndispatch env s o (.asAccount (.nft (.burn d m))) = some s' ∧
      ∀ e k a, Holds s'.m.comm.world.items e k a ↔ Holds s.m.comm.world.items e k a ∧ ¬ (e = d ∧ k = m) := by
  have hh := holder_of hone hh
  refine ⟨s.withItems (s.m.comm.world.items.filter fun i => !decide (i.group = d ∧ i.id = m)), ?_, ?_⟩
  · rw [ndispatch, hauth]
    show ndispatch env s (.signed (communityAccount c)) (.nft (.burn d m)) = _
    rw [ndispatch]
    unfold nftCall
    dsimp only
    rw [if_pos (by unfold NSt.holderOrRoot; simp [hh])]
  · intro e k a
    exact holds_filter.trans and_comm

/-- C126 fails as one would put it, that a community with memberships left can add members: anybody who holds a membership of
another community sends it to this community's account, `add_member` picks that one and fails. -/
theorem C126_memberships_left_fails :
    ∃ (s : NSt) (c : CId) (o b : AccountId) (addr : Address), OneHolder s.m.comm.world.items ∧
      authority kreivo s.m.comm (.signed o) = some c ∧
      authority kreivo s.m.comm (.signed b) = none ∧ ¬ Member s c b ∧
      (∃ m, Holds s.m.comm.world.items 0 m (communityAccount c)) ∧
      (∃ s1, ndispatch Demo.strictEnv s (.signed o) (.comm (.addMember addr)) = some s1) ∧
      ∃ s', ndispatch Demo.strictEnv s (.signed b) (.nft (.transfer 2 3 (communityAccount c))) = some s' ∧
        (∃ m, Holds s'.m.comm.world.items 0 m (communityAccount c)) ∧
        ndispatch Demo.strictEnv s' (.signed o) (.comm (.addMember addr)) = none := by
  refine ⟨Demo.nstart, 1, Communities.Demo.alice, Communities.Demo.charlie, .id (List.replicate 32 7),
    by unfold OneHolder; decide +kernel, by decide +kernel, by decide +kernel, by unfold Member; decide +kernel,
    ⟨9, by unfold Holds; decide +kernel⟩, ⟨_, rfl⟩, _, rfl, ⟨9, by unfold Holds; decide +kernel⟩, rfl⟩

/-- The hypotheses of the theorems above are met. -/
example : (∀ m, Holds Demo.nstart.m.comm.world.items 0 m (communityAccount 1) →
      ∃ items, Demo.strictEnv.base.assign Demo.nstart.m.comm.world.items 1 m Communities.Demo.charlie = some items) ∧
    (∀ d m, Holds Demo.nstart.m.comm.world.items d m (communityAccount 1) → d = 0) ∧
    Holds Demo.nstart.m.comm.world.items 0 9 (communityAccount 1) := by
  have h : ∀ i ∈ Demo.nstart.m.comm.world.items, i.owner = communityAccount 1 → i.group = 0 ∧ i.id = 9 := by
    decide +kernel
  refine ⟨?_, ?_, by unfold Holds; decide +kernel⟩
  · rintro m ⟨i, hi, _, h2, h3⟩
    have := (h i hi h3).2
    subst h2
    rw [this]
    exact ⟨_, rfl⟩
  · rintro d m ⟨i, hi, h1, _, h3⟩
    exact h1.symm.trans (h i hi h3).1

end Verif.Governance
