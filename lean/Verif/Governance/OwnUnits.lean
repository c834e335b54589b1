import Verif.Governance.OwnOnce
import Verif.Governance.UnitVotes

/-!
# C216 for one account, whatever the others do
-/

namespace Verif.Governance

open Verif Verif.Accounts Verif.Communities Verif.Runtime

/-- The step does not give account `a` up while units on it are frozen for votes, neither by its holder nor because the asset is
destroyed, and sets no other minimum by force. Specification only, no code behind it (outside /repo). -/
def CarefulOf (a : AccountId) (c : Communities.St) (x : Units.Step) : Prop :=
  Units.Unforced x ∧ (∀ k, x = .call (.signed a) (.refund k true) → c.frozenA k a = 0) ∧
  ∀ o k l, x = .call o (.destroyAccounts k l) → a ∈ l → c.frozenA k a = 0

/-- Histories of both pallets, from before either was used, in which account `a` has never two votes on record in a poll, does not
lose native money that is frozen, and is not given up with frozen units on it. The other accounts do as they like: they may vote
with several memberships, give accounts up and lose what is frozen. Part of the transition system around the code (outside
/repo). -/
inductive JointOf (cfg : Config) (a : AccountId) : Communities.St → Units.St → Prop
  | start {c : Communities.St} (h : Genesis c) (h1 : c.world.asset = Units.genesis.has)
      (h2 : c.world.assetIssuance = Units.genesis.supply) : JointOf cfg a c Units.genesis
  | votes {c c' : Communities.St} {u : Units.St} (h : JointOf cfg a c u) (st : Communities.Step cfg c c')
      (h1 : c'.world.asset = c.world.asset) (h2 : c'.world.assetIssuance = c.world.assetIssuance) (h3 : OneVoteEach a c')
      (h4 : c'.world.native a < c.world.native a → c.frozenN a ≤ c'.world.native a) :
      JointOf cfg a c' (freezeAs c' u)
  | units {c : Communities.St} {u u' : Units.St} (h : JointOf cfg a c u) (env : Units.Env) (x : Units.Step)
      (hs : Units.step env u x = some u') (hx : Thawed x) (hc : CarefulOf a c x) :
      JointOf cfg a (unitsIn c u') u'

/-- What such histories keep about the account. Specification only, no code behind it (outside /repo). -/
structure AgreeOf (a : AccountId) (c : Communities.St) (u : Units.St) : Prop where
  one : OneVoteEach a c
  matched : MatchedFor a c
  agree : Agree c u
  counted : Units.CountedA u
  fed : Units.Fed u
  native : c.frozenN a ≤ c.world.native a
  asset : ∀ k, c.frozenA k a ≤ c.world.asset k a

theorem matchedFor_covers {a : AccountId} {s : Communities.St} (h : MatchedFor a s) :
    maxLockN (s.locks a) ≤ s.frozenN a ∧ ∀ k, maxLockA k (s.locks a) ≤ s.frozenA k a :=
  ⟨by rw [h.frozenN], fun k => by rw [h.frozenA k]⟩

theorem matchedFor_genesis {a : AccountId} {s : Communities.St} (h : Genesis s) : MatchedFor a s :=
  (OwnHistory.start (cfg := kreivo) h).matched

/-- One step of the communities pallet. -/
theorem matchedFor_step {cfg : Config} {a : AccountId} {s s' : Communities.St} (ih : MatchedFor a s) (h0 : OneVoteEach a s)
    (st : Communities.Step cfg s s') (hs : OneVoteEach a s') : MatchedFor a s' := by
  cases step_voteMove st with
  | same h1 h2 h3 h4 h5 => exact matchedFor_same ih h1 h2 h3 h4 h5
  | vote env o m p v h =>
    obtain ⟨who, c, s1, s2, _, _, _, _, h4, ⟨t, h5⟩, rfl⟩ := vote_parts h
    have hs2 : OneVoteEach a s2 := hs
    have hm2 : MatchedFor a s2 := by
      rcases h4 with ⟨hn, rfl⟩ | ⟨t', u, voter, h4⟩
      · exact matchedFor_cast ih hs2 hn h5
      · refine matchedFor_cast (matchedFor_uncast ih h0 h4).1 hs2 ?_ h5
        rw [h4.votes p, if_pos rfl, aget_adel_self]
    exact matchedFor_same hm2 rfl rfl rfl rfl (pollsMove_of_eq rfl)
  | remove env o m p h =>
    obtain ⟨who, c, s1, _, _, ⟨t, u, voter, h4⟩, rfl⟩ := removeVote_parts h
    exact matchedFor_same (matchedFor_uncast ih h0 h4).1 rfl rfl rfl rfl (pollsMove_of_eq rfl)
  | unlock env o p h =>
    obtain ⟨who, v, _, h1⟩ := unlock_unlocked h
    exact matchedFor_unlock ih h1

theorem jointOf_agree {cfg : Config} {a : AccountId} {c : Communities.St} {u : Units.St} (h : JointOf cfg a c u) :
    AgreeOf a c u := by
  induction h with
  | @start c h h1 h2 =>
    refine ⟨(OwnHistory.start (cfg := cfg) h).one, matchedFor_genesis h, ⟨h1, h2, fun k b => ?_⟩,
      fun k => (Units.genesis_counted k).1, (fun k d a x hi => nomatch hi), ?_, fun k => ?_⟩
    · rw [if_pos (h.2.2.2.2.2.1 k b)]; rfl
    · rw [h.2.2.2.2.1 a]; exact Nat.zero_le _
    · rw [h.2.2.2.2.2.1 k a]; exact Nat.zero_le _
  | @votes c c' u h st h1 h2 h3 h4 ih =>
    obtain ⟨g1, g2⟩ := step_frozen_of (matchedFor_covers ih.matched) st
    refine ⟨h3, matchedFor_step ih.matched ih.one st h3, ⟨h1.trans ih.agree.units, h2.trans ih.agree.supply, fun k b => rfl⟩,
      ih.counted, ih.fed, ?_, fun k => ?_⟩
    · have := ih.native; omega
    · have := ih.asset k
      have := g2 k
      rw [h1] at this ⊢
      omega
  | @units c u u' h env x hs hx hc ih =>
    have same : ∀ k, u'.ice k a = u.ice k a ∧ (0 < c.frozenA k a → c.frozenA k a ≤ u'.has k a) := by
      intro k
      by_cases hz : c.frozenA k a = 0
      · refine ⟨?_, by omega⟩
        have := ih.agree.ice k a
        rw [if_pos hz] at this
        rcases ice_step hs hx k a with e | ⟨e, _⟩
        · exact e
        · rw [e, this]
      · have hi := ih.agree.ice k a
        rw [if_neg hz] at hi
        obtain ⟨g1, g2⟩ := careful_keeps hs hx (hc.2.1 k) (fun o l e hal => hc.2.2 o k l e hal) ih.fed hi (by omega)
          (by rw [← ih.agree.units]; exact ih.asset k)
        exact ⟨by rw [g2, hi], fun _ => g1⟩
    have ice : ∀ k, (unitsIn c u').frozenA k a = c.frozenA k a := by
      intro k
      show (u'.ice k a).getD 0 = _
      rw [(same k).1, ih.agree.ice k a]
      split
      · rename_i e; rw [e]; rfl
      · rfl
    have hm := ih.matched
    refine ⟨ih.one, ⟨hm.fwd, hm.bwd, hm.frozenN, fun k => (ice k).trans (hm.frozenA k), hm.unborn, hm.bal, hm.okl⟩,
      ⟨rfl, rfl, fun k b => ?_⟩, (Units.step_acts false hs fun e => nomatch e).keep Units.act_countedA ih.counted,
      fed_step hs hc.1 ih.counted ih.fed, ih.native, fun k => ?_⟩
    · show u'.ice k b = if (u'.ice k b).getD 0 = 0 then none else some ((u'.ice k b).getD 0)
      rcases ice_step hs hx k b with e | ⟨e, _⟩
      · rw [e, ih.agree.ice k b]
        by_cases hz : c.frozenA k b = 0
        · simp [hz]
        · simp [hz]
      · rw [e]; rfl
    · rw [ice k]
      show _ ≤ u'.has k a
      by_cases hz : c.frozenA k a = 0
      · omega
      · exact (same k).2 (by omega)

/-- C216 (partial: for one account, whatever the others do): each vote in an asset that the account has on record in an open poll
is of units it has, and these are frozen in the books of the assets' freezer. Missing: accounts that have two votes on record in
a poll, or are given up with frozen units on them, and minimums set by force. -/
theorem C216_own_partial (cfg : Config) (a : AccountId) (c : Communities.St) (u : Units.St) (h : JointOf cfg a c u) (p : PollIx)
    (t : Tally) (i : CId) (hp : c.world.polls p = some (.ongoing t i)) (m : MId) (b : Bool) (k : AssetKey) (n : Nat)
    (hv : aget (c.votes p) m = some (.asset b k n, a)) : n ≤ u.has k a ∧ n ≤ (u.ice k a).getD 0 := by
  have ih := jointOf_agree h
  have hl := ih.matched.fwd p t i m _ hp hv rfl
  have h1 := le_maxLockA (k := k) (mem_of_aget hl)
  rw [← ih.matched.frozenA k] at h1
  have h2 : n ≤ c.frozenA k a := by
    refine Nat.le_trans (Nat.le_of_eq ?_) h1
    rw [← lockedA_eq]
    simp [lockedAsset]
  have h3 := ih.asset k
  rw [ih.agree.units] at h3
  refine ⟨h2.trans h3, ?_⟩
  rw [ih.agree.ice k a]
  split
  · rename_i e; rw [e] at h2; exact h2
  · exact h2

/-- C52 with the assets pallet beside (partial, likewise): what the freezer of assets has on record for the account is at least each
of its locks, whatever the others do. -/
theorem C52_own_freezer_partial (cfg : Config) (a : AccountId) (c : Communities.St) (u : Units.St) (h : JointOf cfg a c u)
    (p : PollIx) (b : Bool) (k : AssetKey) (n : Nat) (hl : aget (c.locks a) p = some (.asset b k n)) :
    n ≤ (u.ice k a).getD 0 := by
  have ih := jointOf_agree h
  have h1 := le_maxLockA (k := k) (mem_of_aget hl)
  rw [← ih.matched.frozenA k, ← lockedA_eq] at h1
  have h2 : n ≤ c.frozenA k a := by simpa [lockedAsset] using h1
  rw [ih.agree.ice k a]
  split
  · rename_i e; rw [e] at h2; exact h2
  · exact h2

/-- C216 (partial, likewise): when the poll is over the account can remove the lock, whatever the others do. -/
theorem C216_own_unlocks_partial (cfg : Config) (env : Env) (a : AccountId) (c : Communities.St) (u : Units.St)
    (h : JointOf cfg a c u) (p : PollIx) (v : Vote) (hp : ∀ t i, c.world.polls p ≠ some (.ongoing t i))
    (hl : aget (c.locks a) p = some v) (d1 : ∀ x a n, env.denyFreezeN x a n = false)
    (d2 : ∀ x k a n, env.denyFreezeA x k a n = false) :
    ∃ c', dispatch cfg env c (.signed a) (.unlock p) = .ok c' ∧ aget (c'.locks a) p = none := by
  have ih := jointOf_agree h
  obtain ⟨hN, hA⟩ := matchedFor_covers ih.matched
  have hover : isOngoing c p = false := by
    unfold isOngoing
    split
    · rename_i t i h; exact absurd h (hp t i)
    · rfl
  have hgo : ∃ c', updateLocks env c a p v .remove = .ok c' := by
    have hb := ih.matched.bal p v hl
    cases v with
    | standard b => cases hb
    | native b n =>
      simp only [updateLocks, setFrozenN]
      rw [if_neg]
      · exact ⟨_, rfl⟩
      · simp only [d1, Bool.false_eq_true, or_false, Nat.not_lt, if_true]
        exact (maxLockN_adel_le hN).trans ih.native
    | asset b k n =>
      simp only [updateLocks, setFrozenA]
      rw [if_neg]
      · exact ⟨_, rfl⟩
      · simp only [d2, Bool.false_eq_true, or_false, Nat.not_lt, if_true]
        exact (maxLockA_adel_le (hA k)).trans (ih.asset k)
  obtain ⟨c', hgo⟩ := hgo
  have hcall : dispatch cfg env c (.signed a) (.unlock p) = .ok c' := by
    show unlock env c (.signed a) p = _
    unfold unlock
    simp only [ensureSigned, hover, hl]
    exact hgo
  refine ⟨c', hcall, ?_⟩
  obtain ⟨who', v', e1, hu⟩ := unlock_unlocked (show unlock env c (.signed a) p = .ok c' from hcall)
  cases e1
  have hv := hu.recorded
  rw [hl] at hv
  cases hv
  have := hu.locks a
  rw [if_pos ⟨rfl, ih.matched.bal p v hl⟩] at this
  rw [this]
  exact aget_adel_self _ _

/-- Example: alice and bob vote with 50 and 60 units of asset 7 in an open poll. Then alice gives the account with the frozen units
up, and has nothing left. Bob's history is one of the above all the same. -/
example : ∃ c u, JointOf kreivo Communities.Demo.bob c u ∧ (∃ t, c.world.polls 0 = some (.ongoing t 1)) ∧
    c.votes 0 = [(1, (.asset true 7 50, Communities.Demo.alice)), (2, (.asset true 7 60, Communities.Demo.bob))] ∧
    u.has 7 Communities.Demo.alice = 0 ∧ u.has 7 Communities.Demo.bob = 100 := by
  have unvoted : ∀ {c : Communities.St}, c.votes = (fun _ => []) → OneVoteEach Communities.Demo.bob c := by
    intro c hs p m m' v v' h; rw [hs] at h; cases h
  have few : ∀ {c : Communities.St}, (∀ p, p ≠ 0 → c.votes p = []) →
      (∀ e ∈ c.votes 0, e.2.2 = Communities.Demo.bob → e.1 = 2) → OneVoteEach Communities.Demo.bob c := by
    intro c h0 hc p m m' v v' h1 h2
    by_cases e : p = 0
    · subst e; exact (hc _ (mem_of_aget h1) rfl).trans (hc _ (mem_of_aget h2) rfl).symm
    · rw [h0 p e] at h1; cases h1
  have h1 : JointOf kreivo Communities.Demo.bob Demo.unitless Units.genesis :=
    .start ⟨fun _ => rfl, fun _ => rfl, fun _ => rfl, fun _ => rfl, fun _ => rfl, fun _ _ => rfl, fun _ => rfl⟩ rfl rfl
  have h2 := h1.votes (.register Communities.Demo.env (.signed Communities.Demo.alice) 1 none rfl) rfl rfl
    (unvoted rfl) fun h => absurd h (Nat.lt_irrefl _)
  have h3 := h2.votes (.world (Demo.pollsOpen _) (Demo.pollsOpen_move fun _ => rfl)) rfl rfl
    (unvoted rfl) fun h => absurd h (Nat.lt_irrefl _)
  have h4 := h3.units Units.Demo.env (.call .root (.forceCreate 7 Communities.Demo.alice false 10)) rfl trivial
    ⟨trivial, fun _ e => (nomatch e), fun _ _ _ e => (nomatch e)⟩
  have h5 := h4.units Units.Demo.env (.call (.signed Communities.Demo.alice) (.mint 7 Communities.Demo.bob 100)) rfl trivial
    ⟨trivial, fun _ e => (nomatch e), fun _ _ _ e => (nomatch e)⟩
  have h5 := h5.units Units.Demo.env (.call (.signed Communities.Demo.alice) (.mint 7 Communities.Demo.alice 100)) rfl trivial
    ⟨trivial, fun _ e => (nomatch e), fun _ _ _ e => (nomatch e)⟩
  have h6 := h5.votes (.call Communities.Demo.env Communities.Demo.env_lawful (.signed Communities.Demo.alice)
    (.setDecisionMethod 1 (.asset 7 1)) rfl) rfl rfl (unvoted rfl) fun h => absurd h (Nat.lt_irrefl _)
  have h7 := h6.votes (.call Communities.Demo.env Communities.Demo.env_lawful (.signed Communities.Demo.bob)
    (.vote 2 0 (.asset true 7 60)) rfl) rfl rfl (few (fun p hp => if_neg hp) (by
      intro e he _
      rcases List.mem_singleton.1 he with rfl
      rfl)) fun h => absurd h (Nat.lt_irrefl _)
  have h8 := h7.votes (.call Communities.Demo.env Communities.Demo.env_lawful (.signed Communities.Demo.alice)
    (.vote 1 0 (.asset true 7 50)) rfl) rfl rfl (few (fun p hp => (if_neg hp).trans (if_neg hp)) (by
      intro e he hb
      rcases List.mem_cons.1 he with rfl | he
      · exact absurd hb (by decide)
      · rcases List.mem_singleton.1 he with rfl
        rfl)) fun h => absurd h (Nat.lt_irrefl _)
  have h9 := h8.units Units.Demo.env (.call (.signed Communities.Demo.alice) (.refund 7 true)) rfl trivial
    ⟨trivial, fun k e => absurd (show Communities.Demo.alice = Communities.Demo.bob by injection e with e1; injection e1)
      (by decide), fun _ _ _ e => (nomatch e)⟩
  exact ⟨_, _, h9, ⟨_, rfl⟩, rfl, rfl, rfl⟩

end Verif.Governance
