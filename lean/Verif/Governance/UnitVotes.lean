import Verif.Governance.OnceTheorems
import Verif.Runtime.AssetGivenTheorems

/-!
# C216: votes cast in an asset

The communities pallet and the assets pallet together: what a vote freezes is written where the assets pallet looks for it, and
what the assets pallet moves is what the votes are of.
-/

namespace Verif.Governance

open Verif Verif.Accounts Verif.Communities Verif.Runtime

/-! ## The two pallets together -/

/-- What is frozen for votes, in the books of the freezer of assets, which forgets accounts with nothing frozen.
`T::Assets::set_frozen`: pallets/communities/src/functions.rs 161-162 and 179;
runtime/kreivo/src/configuration/monetary_stuff.rs 50-55 (pallet_assets_freezer, outside /repo). -/
def freezeAs (c : Communities.St) (u : Units.St) : Units.St :=
  { u with ice := fun k a => if c.frozenA k a = 0 then none else some (c.frozenA k a) }

/-- The units the communities pallet sees, and what of them it sees frozen. `type Assets` of
runtime/kreivo/src/communities/mod.rs; the amounts are those of runtime/kreivo/src/configuration/monetary_stuff.rs 50-99
(pallet_assets and pallet_assets_freezer, outside /repo). -/
def unitsIn (c : Communities.St) (u : Units.St) : Communities.St :=
  { c with
    world := { c.world with asset := u.has, assetIssuance := u.supply }
    frozenA := fun k a => (u.ice k a).getD 0 }

/-- Anything but freezing, which is left to the communities pallet. Part of the transition system around the code (outside
/repo). -/
def Thawed : Units.Step → Prop
  | .other (.setFrozen _ _ _) => False
  | _ => True

/-- The step gives nobody's account up while units on it are frozen for votes, neither by its holder nor because the asset is
destroyed, and sets no other minimum by force. Specification only, no code behind it (outside /repo). -/
def Careful (c : Communities.St) (x : Units.Step) : Prop :=
  Units.Unforced x ∧ (∀ k a, x = .call (.signed a) (.refund k true) → c.frozenA k a = 0) ∧
  ∀ o k l, x = .call o (.destroyAccounts k l) → ∀ a ∈ l, c.frozenA k a = 0

/-- Histories of both pallets, from before either was used. Steps of the communities pallet move no units: where a community
moves some, that is a call of the assets pallet. In `careful` ones no account has two votes on record in a poll, native money
that is frozen is not taken, and accounts are not given up with frozen units on them. Part of the transition system around the
code (outside /repo). -/
inductive Joint (cfg : Config) (careful : Bool) : Communities.St → Units.St → Prop
  | start {c : Communities.St} (h : Genesis c) (h1 : c.world.asset = Units.genesis.has)
      (h2 : c.world.assetIssuance = Units.genesis.supply) : Joint cfg careful c Units.genesis
  | votes {c c' : Communities.St} {u : Units.St} (h : Joint cfg careful c u) (st : Communities.Step cfg c c')
      (h1 : c'.world.asset = c.world.asset) (h2 : c'.world.assetIssuance = c.world.assetIssuance)
      (h3 : careful = true → Solo c' ∧ ∀ a, c'.world.native a < c.world.native a → c.frozenN a ≤ c'.world.native a) :
      Joint cfg careful c' (freezeAs c' u)
  | units {c : Communities.St} {u u' : Units.St} (h : Joint cfg careful c u) (env : Units.Env) (x : Units.Step)
      (hs : Units.step env u x = some u') (hx : Thawed x) (hc : careful = true → Careful c x) :
      Joint cfg careful (unitsIn c u') u'

/-! ## Lemmas about units -/

/-- What is frozen on an account changes only by being forgotten with the account. -/
theorem ice_step {env : Units.Env} {s s' : Units.St} {x : Units.Step} (h : Units.step env s x = some s') (hx : Thawed x)
    (k : Units.Key) (a : AccountId) : s'.ice k a = s.ice k a ∨ (s'.ice k a = none ∧ s'.has k a = 0) := by
  have moved : ∀ {q src dst n keep s'}, Units.move env s q src dst n keep = some s' →
      s'.ice k a = s.ice k a ∨ (s'.ice k a = none ∧ s'.has k a = 0) := by
    intro q src dst n keep s' h
    rcases Units.move_facts h with rfl | ⟨d, y, m, hne, hn, hi, ha, h1, h2, hl, hk, hf, hg, rfl⟩
    · exact .inl rfl
    · rw [Units.moved_ice hne hi ha]
      split
      · rename_i e
        obtain ⟨rfl, rfl, hg⟩ := e
        refine .inr ⟨rfl, ?_⟩
        rw [Units.has_none]
        rw [Units.moved_acct hne hi ha, if_pos ⟨rfl, rfl⟩, if_pos hg]
      · exact .inl rfl
  have dropped : ∀ {t : Units.St} {q who}, t.ice = s.ice → (Units.drop t q who).ice k a = s.ice k a ∨
      ((Units.drop t q who).ice k a = none ∧ (Units.drop t q who).has k a = 0) := by
    intro t q who e
    cases hi : t.info q with
    | none => unfold Units.drop; rw [hi]; exact .inl (by rw [e])
    | some d =>
      rw [Units.drop_ice hi]
      split
      · rename_i e1; obtain ⟨rfl, rfl⟩ := e1
        exact .inr ⟨rfl, Units.has_none (by rw [Units.drop_acct hi, if_pos ⟨rfl, rfl⟩])⟩
      · exact .inl (by rw [e])
  have burnt : ∀ {q by_ who n best s'}, Units.burn s q by_ who n best = some s' →
      s'.ice k a = s.ice k a ∨ (s'.ice k a = none ∧ s'.has k a = 0) := by
    intro q by_ who n best s' h
    rcases Units.burn_facts h with rfl | ⟨d, y, m, hi, ha, _, _, _, rfl⟩
    · exact .inl rfl
    · rw [Units.setSupply_ice, Units.has_of_acct (Units.setSupply_acct _ _ _), Units.take_ice hi ha]
      split
      · rename_i e; obtain ⟨rfl, rfl, hg⟩ := e
        refine .inr ⟨rfl, Units.has_none ?_⟩
        rw [Units.take_acct hi ha, if_pos ⟨rfl, rfl⟩, if_pos hg]
      · exact .inl rfl
  have minted : ∀ {q by_ who n s'}, Units.mint env s q by_ who n = some s' → s'.ice k a = s.ice k a := by
    intro q by_ who n s' h
    rcases Units.mint_facts h with rfl | ⟨d, _, _, _, _, _, _, rfl⟩
    · rfl
    · rw [Units.setSupply_ice, Units.give_ice]
  cases x with
  | other y =>
    cases y with
    | make q o z n => exact .inl (by rw [(Units.byRoot_acct (show Units.byRoot s (.forceCreate q o z n) = some s' from h)).2])
    | mintInto q who n => exact .inl (minted h)
    | burnFrom q who n best => exact burnt h
    | transfer q src dst n keep => exact moved h
    | setFrozen q who f => exact hx.elim
  | call o c =>
    cases o with
    | root => exact .inl (by rw [(Units.byRoot_acct (show Units.byRoot s c = some s' from h)).2])
    | none => cases h
    | community _ => cases h
    | custom _ => cases h
    | other _ => cases h
    | signed by_ =>
      replace h : Units.bySigner env s by_ c = some s' := h
      cases c <;> simp only [Units.bySigner] at h
      case destroyAccounts q l =>
        split at h
        · split at h
          · cases h
            have key : ∀ (l : List AccountId) (t : Units.St),
                (t.ice k a = s.ice k a ∨ (t.ice k a = none ∧ t.has k a = 0)) →
                (l.foldl (Units.destroyAccount q) t).ice k a = s.ice k a ∨
                  ((l.foldl (Units.destroyAccount q) t).ice k a = none ∧ (l.foldl (Units.destroyAccount q) t).has k a = 0) := by
              intro l
              induction l with
              | nil => exact fun t ht => ht
              | cons y l ih =>
                intro t ht
                rw [List.foldl_cons]
                refine ih _ ?_
                rcases Units.destroyAccount_facts q t y with ⟨_, e⟩ | ⟨z, hz, e⟩
                · rw [e]; exact ht
                · rw [e]
                  obtain ⟨e1, e2, _, e4⟩ := Units.payBack_eq t y z.reason
                  generalize ht' : Units.payBack t y z.reason = t' at *
                  cases hi : t'.info q with
                  | none =>
                    unfold Units.drop; rw [hi]; dsimp only
                    rw [e4, Units.has_of_acct e2]; exact ht
                  | some d =>
                    rw [Units.drop_ice hi, Units.drop_has hi]
                    by_cases hq : k = q ∧ a = y
                    · rw [if_pos hq, if_pos hq]; exact .inr ⟨rfl, rfl⟩
                    · rw [if_neg hq, if_neg hq, e4, Units.has_of_acct e2]; exact ht
            exact key l s (.inl rfl)
          · cases h
        · cases h
      case destroyApprovals q l =>
        split at h
        · split at h
          · cases h; exact .inl (by rw [(Units.destroyApprovals_acct q l s).2])
          · cases h
        · cases h
      case mint q who n => exact .inl (minted h)
      case burn q who n => exact burnt h
      case transfer q dst n => exact moved h
      case transferKeepAlive q dst n => exact moved h
      case forceTransfer q src dst n =>
        split at h
        · split at h
          · exact moved h
          · cases h
        · split at h
          · cases h; exact .inl rfl
          · cases h
      case approveTransfer q g n =>
        obtain ⟨d, _, _, rfl⟩ := Units.approve_facts h
        exact .inl rfl
      case transferApproved q o dst n =>
        obtain ⟨d, p, s1, _, _, _, _, hm, e1, e2, _⟩ := Units.transferApproved_facts h
        rw [e2, Units.has_of_acct e1]
        exact moved hm
      case touch q =>
        obtain ⟨d, _, _, _, rfl⟩ := Units.touch_facts h
        exact .inl rfl
      case touchOther q who =>
        split at h
        · split at h
          · obtain ⟨d, _, _, _, rfl⟩ := Units.touch_facts h
            exact .inl rfl
          · cases h
        · cases h
      case refund q burning =>
        obtain ⟨d, y, _, _, _, _, ⟨_, rfl⟩ | ⟨n, _, rfl⟩⟩ := Units.refund_facts h
        · exact dropped rfl
        · exact dropped rfl
      case refundOther q who =>
        obtain ⟨d, y, lender, n, _, _, _, _, _, rfl⟩ := Units.refundOther_facts h
        exact dropped rfl
      all_goals
        first
        | (cases h; done)
        | (split at h
           · first
             | (split at h
                · first
                  | (cases h; exact .inl rfl)
                  | (exact .inl (by rw [(Units.setHand_has h).2]))
                  | (exact .inl (by rw [(Units.unapprove_acct h).2]))
                · cases h)
             | (cases h; exact .inl rfl)
           · cases h)

/-- Burning leaves what is frozen. -/
theorem burn_keeps {s s' : Units.St} {q k : Units.Key} {by_ : Option AccountId} {who a : AccountId} {n f : Nat} {best : Bool}
    (h : Units.burn s q by_ who n best = some s') (hfed : Units.Fed s) (hf : s.ice k a = some f) (hle : f ≤ s.has k a) :
    f ≤ s'.has k a := by
  rcases Units.burn_facts h with rfl | ⟨d, y, m, hi, ha, _, _, hm, rfl⟩
  · exact hle
  · rw [Units.has_of_acct (Units.setSupply_acct _ _ _)]
    obtain ⟨d', y', hi', ha', _, _, hmb, hice, _, _⟩ := Units.debit_facts hm
    rw [hi] at hi'; cases hi'
    rw [ha] at ha'; cases ha'
    by_cases e : k = q ∧ a = who
    · obtain ⟨rfl, rfl⟩ := e
      have hh := Units.has_some ha
      unfold Units.St.has
      rw [Units.take_acct hi ha, if_pos ⟨rfl, rfl⟩]
      have := hice f hf
      by_cases hg : Units.Goes d y m
      · exfalso
        obtain ⟨g1, g2⟩ := hg
        have := hfed k d a y hi ha g2
        omega
      · rw [if_neg hg]
        show f ≤ y.balance - m
        omega
    · unfold Units.St.has
      rw [Units.take_acct hi ha, if_neg e]
      exact hle

/-- Careful steps leave what is frozen. -/
theorem careful_keeps {env : Units.Env} {s s' : Units.St} {x : Units.Step} {k : Units.Key} {a : AccountId}
    {f : Nat} (h : Units.step env s x = some s') (hx : Thawed x) (hr : x = .call (.signed a) (.refund k true) → f = 0)
    (hd : ∀ o l, x = .call o (.destroyAccounts k l) → a ∈ l → f = 0) (hfed : Units.Fed s)
    (hf : s.ice k a = some f) (h0 : 0 < f) (hle : f ≤ s.has k a) :
    f ≤ s'.has k a ∧ s'.ice k a = some f := by
  have key : f ≤ s'.has k a := by
    cases x with
    | other y =>
      by_cases hlt : s'.has k a < s.has k a
      · cases y with
        | make q o z n =>
          rw [Units.has_of_acct (Units.byRoot_acct (show Units.byRoot s (.forceCreate q o z n) = some s' from h)).1] at hlt
          omega
        | mintInto q who n => have := Units.mint_has h k a; omega
        | burnFrom q who n best => exact burn_keeps h hfed hf hle
        | transfer q src dst n keep =>
          obtain ⟨rfl, rfl, _, ⟨d', _, _, g⟩, _⟩ := Units.move_loss h hlt
          have := g f hf; omega
        | setFrozen q who z => exact hx.elim
      · omega
    | call o w =>
      by_cases hlt : s'.has k a < s.has k a
      · have sp : ∀ n m, Units.Spends s k a n m → f + m ≤ s.has k a := by
          rintro n m ⟨d', _, _, g⟩
          have := g f hf; omega
        have ht := Units.C200_taken env s s' o w h k a hlt
        generalize hm : s.has k a - s'.has k a = m at ht
        cases ht with
        | sent dst n _ hs => have := sp _ _ hs; omega
        | kept dst n _ hs _ => have := sp _ _ hs; omega
        | delegated g dst n p _ _ _ hs => have := sp _ _ hs; omega
        | forced g dst n _ _ hs => have := sp _ _ hs; omega
        | burnt g n _ _ hb =>
          exact burn_keeps (show Units.burn s k (some g) a n true = some s' from h) hfed hf hle
        | givenUp _ => have := hr rfl; omega
        | destroyed g l hg hal _ => have := hd _ l rfl hal; omega
      · omega
  refine ⟨key, ?_⟩
  rcases ice_step h hx k a with e | ⟨_, e⟩
  · rw [e]; exact hf
  · omega

/-- Accounts nobody left a deposit for keep the minimum. -/
theorem fed_step {env : Units.Env} {s s' : Units.St} {x : Units.Step} (hs : Units.step env s x = some s')
    (hx : Units.Unforced x) (hc : Units.CountedA s) (hf : Units.Fed s) : Units.Fed s' := by
  by_cases ht : Units.Tidy x
  · exact ((Units.step_acts true hs fun _ => ht).keep (P := fun s => Units.CountedA s ∧ Units.Fed s)
      (fun a b h1 h2 => ⟨Units.act_countedA a b h1 h2.1, Units.act_fed a b h1 h2.1 h2.2⟩) ⟨hc, hf⟩).2
  · unfold Units.Tidy at ht
    split at ht
    · rename_i o k
      cases o with
      | signed by_ =>
        obtain ⟨d, a, hi, ha, _, _, ⟨_, rfl⟩ | ⟨n, _, rfl⟩⟩ :=
          Units.refund_facts (show Units.refund s k by_ true = some s' from hs)
        · exact Units.fed_drop hf _ _
        · exact Units.fed_drop (Units.fed_same (s' := s.unreserve by_ n) rfl rfl hf) _ _
      | _ => cases hs
    · rename_i o k l
      cases o with
      | signed by_ =>
        simp only [Units.step, Units.call, Units.bySigner] at hs
        split at hs
        · split at hs
          · cases hs; exact Units.fed_destroy k l s hf
          · cases hs
        · cases hs
      | _ => cases hs
    · exact hx.elim
    · exact (ht trivial).elim

/-! ## What holds throughout -/

/-- The books of the two pallets agree. Specification only, no code behind it (outside /repo). -/
structure Agree (c : Communities.St) (u : Units.St) : Prop where
  units : c.world.asset = u.has
  supply : c.world.assetIssuance = u.supply
  ice : ∀ k a, u.ice k a = if c.frozenA k a = 0 then none else some (c.frozenA k a)

theorem joint_agree {cfg : Config} {c : Communities.St} {u : Units.St} (h : Joint cfg true c u) :
    OnceHistory cfg c ∧ Agree c u ∧ Units.CountedA u ∧ Units.Fed u ∧ ∀ k, ∃ x, Units.AddsUp u k x := by
  induction h with
  | @start c h h1 h2 =>
    refine ⟨.start h, ⟨h1, h2, fun k a => ?_⟩, fun k => (Units.genesis_counted k).1, (fun k d a x hi => nomatch hi),
      fun k => ⟨0, Units.addsUp_zero (fun _ => rfl) rfl⟩⟩
    rw [if_pos (h.2.2.2.2.2.1 k a)]
    rfl
  | @votes c c' u h st h1 h2 h3 ih =>
    obtain ⟨i1, i2, i3, i4, i5⟩ := ih
    obtain ⟨g1, g2⟩ := h3 rfl
    refine ⟨i1.step st g1 ⟨g2, fun k a hlt => ?_⟩, ⟨h1.trans i2.units, h2.trans i2.supply, fun k a => rfl⟩, i3, i4, i5⟩
    rw [h1] at hlt
    omega
  | @units c u u' h env x hs hx hc ih =>
    obtain ⟨i1, i2, i3, i4, i5⟩ := ih
    have hc := hc rfl
    have cov := fun a => (once_covered i1 a).2
    have same : ∀ k a, u'.ice k a = u.ice k a ∧ (0 < c.frozenA k a → c.frozenA k a ≤ u'.has k a) := by
      intro k a
      by_cases hz : c.frozenA k a = 0
      · refine ⟨?_, by omega⟩
        have := i2.ice k a
        rw [if_pos hz] at this
        rcases ice_step hs hx k a with e | ⟨e, _⟩
        · exact e
        · rw [e, this]
      · have hi := i2.ice k a
        rw [if_neg hz] at hi
        obtain ⟨g1, g2⟩ := careful_keeps hs hx (hc.2.1 k a) (fun o l e hal => hc.2.2 o k l e a hal) i4 hi (by omega)
          (by rw [← i2.units]; exact cov a k)
        exact ⟨by rw [g2, hi], fun _ => g1⟩
    have hice : (fun k a => (u'.ice k a).getD 0) = c.frozenA := by
      funext k a
      rw [(same k a).1, i2.ice k a]
      split
      · rename_i e; rw [e]; rfl
      · rfl
    have eq : unitsIn c u' = { c with world := { c.world with asset := u'.has, assetIssuance := u'.supply } } := by
      unfold unitsIn
      rw [hice]
    have hcount := (Units.step_acts false hs fun e => nomatch e).keep Units.act_countedA i3
    refine ⟨?_, ⟨rfl, rfl, fun k a => ?_⟩, hcount, fed_step hs hc.1 i3 i4, fun k => ?_⟩
    · rw [eq]
      refine i1.step (.world _ (pollsMove_of_eq rfl)) i1.solo.solo ⟨fun a hlt => ?_, fun k a hlt => ?_⟩
      · exact absurd hlt (Nat.lt_irrefl _)
      · by_cases hz : c.frozenA k a = 0
        · rw [hz]; exact Nat.zero_le _
        · exact (same k a).2 (by omega)
    · rw [eq, (same k a).1]
      exact i2.ice k a
    · have := (Units.step_acts false hs fun e => nomatch e).keep
        (P := fun s => Units.CountedA s ∧ ∃ x, Units.AddsUp s k x) (fun s s' ha hp => by
          obtain ⟨hc, x, hx⟩ := hp
          obtain ⟨y, hy, _⟩ := Units.act_addsUp s s' ha hc k x hx (fun e => nomatch e)
          exact ⟨Units.act_countedA s s' ha hc, y, hy⟩) ⟨i3, i5 k⟩
      exact this.2

/-- The accounts of a list have no more together than all have. -/
theorem sumsTo_list {f : AccountId → Nat} {t : Nat} (h : Units.SumsTo f t) (l : List AccountId) (hl : l.Nodup) :
    (l.map f).sum ≤ t := by
  obtain ⟨K, h1, h2⟩ := h
  have e : (l.map f).sum = ∑ a ∈ l.toFinset, f a := (List.sum_toFinset f hl).symm
  rw [e, h2]
  have : ∑ a ∈ l.toFinset, f a ≤ ∑ a ∈ l.toFinset ∪ K, f a :=
    Finset.sum_le_sum_of_subset Finset.subset_union_left
  refine this.trans ?_
  rw [← Finset.sum_subset (Finset.subset_union_right (s₁ := l.toFinset)) fun a _ ha => h1 a ha]

/-! ## C216 -/

/-- **C216, full claim**: every vote in an asset on record in an open poll is of units its voter has, and all of them together
are of no more than the supply, whatever calls of either pallet are made.
**Proved part**: in histories in which nobody gives an account up, or has it destroyed with the asset, while units on it are
frozen for votes, root sets no other minimum, and no account has two votes on record in a poll. -/
theorem C216_units_partial (cfg : Config) (c : Communities.St) (u : Units.St) (h : Joint cfg true c u) (p : PollIx) (t : Tally)
    (i : CId) (hp : c.world.polls p = some (.ongoing t i)) :
    (∀ m b k n w, aget (c.votes p) m = some (.asset b k n, w) → n ≤ u.has k w) ∧
    ∀ k, castAsset c k p ≤ u.supply k := by
  obtain ⟨h1, h2, _, _, h5⟩ := joint_agree h
  have ok := (reachable_aok h1.solo.reachable).1 p
  have each : ∀ k m v w, aget (c.votes p) m = some (v, w) → lockedAsset k v ≤ u.has k w := by
    intro k m v w hv
    rw [← h2.units]
    by_cases hb : ∃ b, v = .standard b
    · obtain ⟨b, rfl⟩ := hb
      exact Nat.zero_le _
    · obtain ⟨_, _, g⟩ := C53_backed_partial cfg c h1.solo p t i m v w hp hv fun b e => hb ⟨b, e⟩
      exact (g k).trans ((once_covered h1 w).2 k)
  constructor
  · intro m b k n w hv
    have := each k m _ w hv
    unfold lockedAsset at this
    simpa using this
  · intro k
    obtain ⟨x, s, g1, g2⟩ := h5 k
    have hn := voters_nodup ok h1.solo.solo
    have h3 : castAsset c k p ≤ (((c.votes p).map (·.2.2)).map (u.has k)).sum :=
      asum_le_voters fun e he => each k e.1 e.2.1 e.2.2 (aget_of_mem ok he)
    have h4 := sumsTo_list g1 _ hn
    omega

/-- **C216, full claim**: whoever has a lock of a poll that is over can remove it, in either currency.
**Proved part**: in the histories of `C216_units_partial`. -/
theorem C216_unlocks_partial (cfg : Config) (env : Env) (c : Communities.St) (u : Units.St) (h : Joint cfg true c u)
    (who : AccountId) (p : PollIx) (v : Vote) (hp : ∀ t i, c.world.polls p ≠ some (.ongoing t i))
    (hl : aget (c.locks who) p = some v) (d1 : ∀ x a n, env.denyFreezeN x a n = false)
    (d2 : ∀ x k a n, env.denyFreezeA x k a n = false) :
    ∃ c', dispatch cfg env c (.signed who) (.unlock p) = .ok c' ∧ aget (c'.locks who) p = none := by
  have h1 := (joint_agree h).1
  obtain ⟨c', g1, g2, _⟩ := C54_afterwards cfg env c h1.solo.reachable who p v hp hl (once_covered h1 who).1
    (once_covered h1 who).2 d1 d2
  exact ⟨c', g1, g2⟩

/-- **C52** with the assets pallet beside, **proved part**: in the histories of `C216_units_partial` what the freezer of assets
has on record for an account is at least each of its locks. -/
theorem C52_freezer_partial (cfg : Config) (c : Communities.St) (u : Units.St) (h : Joint cfg true c u) (a : AccountId)
    (p : PollIx) (b : Bool) (k : AssetKey) (n : Nat) (hl : aget (c.locks a) p = some (.asset b k n)) :
    n ≤ (u.ice k a).getD 0 := by
  obtain ⟨h1, h2, _⟩ := joint_agree h
  have := (C52_frozen_covers cfg c h1.solo.reachable a p _ hl).2 k
  rw [h2.ice k a]
  have e : n ≤ c.frozenA k a := by simpa [lockedAsset] using this
  split
  · rename_i hz; rw [hz] at e; exact e
  · exact e

/-! ## Examples, and what goes wrong -/

/-- Example (outside /repo): before anything; nobody has units of any asset. -/
def Demo.unitless : Communities.St :=
  { Communities.Demo.start with world := { Communities.Demo.world0 with
      asset := Units.genesis.has, assetIssuance := Units.genesis.supply } }

/-- Example (outside /repo): community 1 with polls 0 and 1 open. -/
def Demo.pollsOpen (w : World) : World :=
  { w with polls := fun p => if p = 0 ∨ p = 1 then some (.ongoing .zero 1) else none, assetMin := fun _ => some 10 }

theorem Demo.pollsOpen_move {w : World} (h : ∀ p, w.polls p = none) : PollsMove w (Demo.pollsOpen w) := by
  intro p
  rw [h p]
  show (Demo.pollsOpen w).polls p = none ∨ ∃ c, (Demo.pollsOpen w).polls p = some (.ongoing .zero c)
  unfold Demo.pollsOpen
  dsimp only
  split
  · exact .inr ⟨1, rfl⟩
  · exact .inl rfl

theorem Demo.noVotes {s : Communities.St} (hs : s.votes = fun _ => []) : Solo s := by
  intro p m m' v v' w h; rw [hs] at h; cases h

/-- The poll is over. Example (outside /repo). -/
def Demo.over (c : Communities.St) (p : PollIx) : Communities.St :=
  { c with world := { c.world with polls := fun q => if q = p then some .ended else c.world.polls q } }

theorem Demo.over_step {cfg : Config} {c : Communities.St} {p : PollIx} {t : Tally} {i : CId}
    (h : c.world.polls p = some (.ongoing t i)) : Communities.Step cfg c (Demo.over c p) := by
  refine .world _ fun q => ?_
  dsimp only
  by_cases e : q = p
  · subst e; rw [h]; exact .inr (if_pos rfl)
  · rw [if_neg e]
    cases c.world.polls q with
    | none => exact .inl rfl
    | some y => cases y with
      | ended => rfl
      | ongoing t i => exact .inl rfl

/-- Alice's community 1 is registered, its polls 0 and 1 are open, root makes asset 7, of which alice issues 100 to bob, and the
community decides by it. Bob votes with 60 in both polls: the units are there and frozen. Then bob can give the account up, and
nothing is left of either; once poll 0 is over bob cannot unlock. -/
theorem Demo.story (careful : Bool) : ∃ c u u', Joint kreivo careful c u ∧ Solo c ∧
    c.world.polls 0 = some (.ongoing ⟨60, 0, 60⟩ 1) ∧ c.world.polls 1 = some (.ongoing ⟨60, 0, 60⟩ 1) ∧
    c.votes 0 = [(2, (.asset true 7 60, Communities.Demo.bob))] ∧ u.has 7 Communities.Demo.bob = 100 ∧
    u.ice 7 Communities.Demo.bob = some 60 ∧ u.supply 7 = 100 ∧
    Units.step Units.Demo.env u (.call (.signed Communities.Demo.bob) (.refund 7 true)) = some u' ∧
    u'.has 7 Communities.Demo.bob = 0 ∧ u'.ice 7 Communities.Demo.bob = none ∧
    aget (c.locks Communities.Demo.bob) 0 = some (.asset true 7 60) ∧
    dispatch kreivo Communities.Demo.env (Demo.over (unitsIn c u') 0) (.signed Communities.Demo.bob) (.unlock 0) =
      .error .fundsUnavailable := by
  have single : ∀ {c : Communities.St} {x}, (∀ p, c.votes p = [] ∨ c.votes p = [x]) → Solo c := by
    intro c x hc p m m' v v' w h1 h2
    rcases hc p with e | e
    · rw [e] at h1; cases h1
    · rw [e] at h1 h2
      unfold aget at h1 h2
      simp only [List.find?_cons, List.find?_nil] at h1 h2
      split at h1
      · split at h2
        · simp_all
        · cases h2
      · cases h1
  have h1 : Joint kreivo careful Demo.unitless Units.genesis :=
    .start ⟨fun _ => rfl, fun _ => rfl, fun _ => rfl, fun _ => rfl, fun _ => rfl, fun _ _ => rfl, fun _ => rfl⟩ rfl rfl
  have h2 := h1.votes (.register Communities.Demo.env (.signed Communities.Demo.alice) 1 none rfl) rfl rfl
    fun _ => ⟨Demo.noVotes rfl, fun a h => absurd h (Nat.lt_irrefl _)⟩
  have h3 := h2.votes (.world (Demo.pollsOpen _) (Demo.pollsOpen_move fun _ => rfl)) rfl rfl
    fun _ => ⟨Demo.noVotes rfl, fun a h => absurd h (Nat.lt_irrefl _)⟩
  have h4 := h3.units Units.Demo.env (.call .root (.forceCreate 7 Communities.Demo.alice false 10)) rfl trivial
    fun _ => ⟨trivial, fun _ _ e => (nomatch e), fun _ _ _ e => (nomatch e)⟩
  have h5 := h4.units Units.Demo.env (.call (.signed Communities.Demo.alice) (.mint 7 Communities.Demo.bob 100)) rfl trivial
    fun _ => ⟨trivial, fun _ _ e => (nomatch e), fun _ _ _ e => (nomatch e)⟩
  have h6 := h5.votes (.call Communities.Demo.env Communities.Demo.env_lawful (.signed Communities.Demo.alice)
    (.setDecisionMethod 1 (.asset 7 1)) rfl) rfl rfl
    fun _ => ⟨Demo.noVotes rfl, fun a h => absurd h (Nat.lt_irrefl _)⟩
  have h7 := h6.votes (.call Communities.Demo.env Communities.Demo.env_lawful (.signed Communities.Demo.bob)
    (.vote 2 0 (.asset true 7 60)) rfl) rfl rfl
    fun _ => ⟨single (x := (2, (.asset true 7 60, Communities.Demo.bob))) (fun p => by
      by_cases e : p = 0
      · subst e; exact .inr rfl
      · exact .inl (if_neg e)), fun a h => absurd h (Nat.lt_irrefl _)⟩
  have h8 := h7.votes (.call Communities.Demo.env Communities.Demo.env_lawful (.signed Communities.Demo.bob)
    (.vote 2 1 (.asset true 7 60)) rfl) rfl rfl
    fun _ => ⟨single (x := (2, (.asset true 7 60, Communities.Demo.bob))) (fun p => by
      by_cases e : p = 1
      · subst e; exact .inr rfl
      · by_cases e0 : p = 0
        · subst e0; exact .inr rfl
        · exact .inl ((if_neg e).trans (if_neg e0))), fun a h => absurd h (Nat.lt_irrefl _)⟩
  refine ⟨_, _, _, h8, single (x := (2, (.asset true 7 60, Communities.Demo.bob))) (fun p => by
      by_cases e : p = 1
      · subst e; exact .inr rfl
      · by_cases e0 : p = 0
        · subst e0; exact .inr rfl
        · exact .inl ((if_neg e).trans (if_neg e0))), rfl, rfl, rfl, rfl, rfl, rfl, rfl, rfl, rfl, rfl, rfl⟩

/-- The hypotheses of `C216_units_partial` are met, with a vote of 60 in an open poll. -/
example : ∃ c u, Joint kreivo true c u ∧ (∃ t, c.world.polls 0 = some (.ongoing t 1)) ∧
    c.votes 0 = [(2, (.asset true 7 60, Communities.Demo.bob))] := by
  obtain ⟨c, u, u', h, _, h1, _, h2, _⟩ := Demo.story true
  exact ⟨c, u, h, ⟨_, h1⟩, h2⟩

/-- The hypotheses of `C216_unlocks_partial` are met once the poll is over. -/
example : ∃ c u, Joint kreivo true c u ∧ c.world.polls 0 = some .ended ∧
    aget (c.locks Communities.Demo.bob) 0 = some (.asset true 7 60) := by
  obtain ⟨c, u, u', h, hs, h1, _, _, _, _, _, _, _, _, h9, _⟩ := Demo.story true
  exact ⟨Demo.over c 0, _, h.votes (Demo.over_step h1) rfl rfl fun _ => ⟨hs, fun a h => absurd h (Nat.lt_irrefl _)⟩,
    rfl, h9⟩

/-- **C216 fails** in full: a voter gives the account with the units frozen for the vote up, and the vote stands in the open
poll while its voter has no unit left. No account has two votes on record in a poll. -/
theorem C216_units_fails : ∃ c u, Joint kreivo false c u ∧ Solo c ∧ c.world.polls 0 = some (.ongoing ⟨60, 0, 60⟩ 1) ∧
    c.votes 0 = [(2, (.asset true 7 60, Communities.Demo.bob))] ∧ u.has 7 Communities.Demo.bob = 0 := by
  obtain ⟨c, u, u', h, hs, h1, _, h2, _, _, _, h6, h7, _, _, _⟩ := Demo.story false
  exact ⟨_, u', h.units Units.Demo.env _ h6 trivial (fun e => nomatch e), hs, h1, h2, h7⟩

/-- **C216 fails** in full for the way back too: the same voter, who voted in two polls, cannot remove the lock of the one that
is over, since the lock of the other is of more than is left, although nothing is frozen any more. -/
theorem C216_unlocks_fails : ∃ c u, Joint kreivo false c u ∧ Solo c ∧ c.world.polls 0 = some .ended ∧
    aget (c.locks Communities.Demo.bob) 0 = some (.asset true 7 60) ∧ c.frozenA 7 Communities.Demo.bob = 0 ∧
    dispatch kreivo Communities.Demo.env c (.signed Communities.Demo.bob) (.unlock 0) = .error .fundsUnavailable := by
  obtain ⟨c, u, u', h, hs, h1, _, _, _, _, _, h6, _, h8, h9, h10⟩ := Demo.story false
  refine ⟨Demo.over (unitsIn c u') 0, _, (h.units Units.Demo.env _ h6 trivial (fun e => nomatch e)).votes
    (Demo.over_step (c := unitsIn c u') h1) rfl rfl (fun e => nomatch e), hs, rfl, h9, ?_, h10⟩
  show (u'.ice 7 Communities.Demo.bob).getD 0 = 0
  rw [h8]
  rfl

/-- **C52 fails** with the assets pallet beside: an account that is given up takes the freeze along, and the lock stands. -/
theorem C52_freezer_fails : ∃ c u, Joint kreivo false c u ∧ Solo c ∧ c.world.polls 0 = some (.ongoing ⟨60, 0, 60⟩ 1) ∧
    aget (c.locks Communities.Demo.bob) 0 = some (.asset true 7 60) ∧ c.frozenA 7 Communities.Demo.bob = 0 ∧
    u.ice 7 Communities.Demo.bob = none := by
  obtain ⟨c, u, u', h, hs, h1, _, _, _, _, _, h6, _, h8, h9, _⟩ := Demo.story false
  refine ⟨_, u', h.units Units.Demo.env _ h6 trivial (fun e => nomatch e), hs, h1, h9, ?_, h8⟩
  show (u'.ice 7 Communities.Demo.bob).getD 0 = 0
  rw [h8]
  rfl

/-- The hypotheses of `C52_freezer_partial` are met. -/
example : ∃ c u, Joint kreivo true c u ∧ aget (c.locks Communities.Demo.bob) 0 = some (.asset true 7 60) ∧
    u.ice 7 Communities.Demo.bob = some 60 := by
  obtain ⟨c, u, u', h, _, _, _, _, _, h5, _, _, _, _, h9, _⟩ := Demo.story true
  exact ⟨c, u, h, h9, h5⟩

end Verif.Governance
