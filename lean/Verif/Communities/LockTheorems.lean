import Verif.Communities.TallyTheorems
import Verif.Communities.LockLemmas

/-!
# Vote locks (C52–C54, C87)

A lock is an entry of `locks`: account, poll, vote. `frozenN` and `frozenA` are the amounts frozen for voting.
-/

namespace Verif.Communities

open Verif Verif.Accounts

/-! ## C52 -/

/-- C52: in every reachable state an account's frozen amount covers each of its standing locks, in every currency. -/
theorem C52_frozen_covers (cfg : Config) (s : St) (h : Reachable cfg s) (a : AccountId) (p : PollIx) (v : Vote)
    (hl : aget (s.locks a) p = some v) :
    lockedNative v ≤ s.frozenN a ∧ ∀ k, lockedAsset k v ≤ s.frozenA k a := by
  simp only [lockedN_eq, lockedA_eq]
  revert a p v
  refine vote_invariant (I := fun s => ∀ a p v, aget (s.locks a) p = some v →
    lockN v ≤ s.frozenN a ∧ ∀ k, lockA k v ≤ s.frozenA k a) ?_ ?_ ?_ ?_ ?_ h
  · intro s hg a p v hl; rw [hg.2.2.2.1 a] at hl; cases hl
  · intro s s' hi h1 h2 h3 h4 _; rw [h2, h3, h4]; exact hi
  · intro s s' c who m p v t hi hc a q u hl
    rw [hc.locks a] at hl
    rw [hc.frozenN a]
    have hA := fun k => hc.frozenA k a
    simp only [hA]
    by_cases ha : a = who
    · subst ha
      simp only [true_and, if_true] at hl ⊢
      by_cases hb : v.isBalance = true
      · rw [if_pos hb, aget_aset] at hl
        split at hl
        · cases hl; exact ⟨Nat.le_max_right _ _, fun k => Nat.le_max_right _ _⟩
        · obtain ⟨g1, g2⟩ := hi _ _ _ hl
          exact ⟨Nat.le_trans g1 (Nat.le_max_left _ _), fun k => Nat.le_trans (g2 k) (Nat.le_max_left _ _)⟩
      · rw [if_neg hb] at hl
        obtain ⟨g1, g2⟩ := hi _ _ _ hl
        exact ⟨Nat.le_trans g1 (Nat.le_max_left _ _), fun k => Nat.le_trans (g2 k) (Nat.le_max_left _ _)⟩
    · simp only [ha, false_and, if_false] at hl ⊢
      exact hi _ _ _ hl
  · intro s s' c dm voter m p v t hi hc a q u hl
    rw [hc.locks a] at hl
    rw [hc.frozenN a]
    have hA := fun k => hc.frozenA k a
    simp only [hA]
    by_cases ha : a = voter
    · subst ha
      simp only [true_and] at hl ⊢
      have hu : aget (s.locks a) q = some u ∧ (v.isBalance = true → (q, u) ∈ adel (s.locks a) p) := by
        by_cases hb : v.isBalance = true
        · rw [if_pos hb] at hl
          refine ⟨?_, fun _ => mem_of_aget hl⟩
          rw [aget_adel] at hl
          split at hl
          · cases hl
          · exact hl
        · rw [if_neg hb] at hl; exact ⟨hl, fun h => absurd h hb⟩
      obtain ⟨g1, g2⟩ := hi _ _ _ hu.1
      refine ⟨?_, fun k => ?_⟩
      · split
        · rename_i hn
          exact le_maxLockN (e := (q, u)) (hu.2 (by cases v <;> simp_all [Vote.isNative, Vote.isBalance]))
        · exact g1
      · split
        · rename_i hn
          exact le_maxLockA (e := (q, u)) (hu.2 (by cases v <;> simp_all [Vote.isAsset, Vote.isBalance]))
        · exact g2 k
    · simp only [ha, false_and, if_false] at hl ⊢
      exact hi _ _ _ hl
  · intro s s' who p v hi hc a q u hl
    rw [hc.locks a] at hl
    rw [hc.frozenN a]
    have hA := fun k => hc.frozenA k a
    simp only [hA]
    by_cases ha : a = who
    · subst ha
      simp only [true_and] at hl ⊢
      have hu : aget (s.locks a) q = some u ∧ (v.isBalance = true → (q, u) ∈ adel (s.locks a) p) := by
        by_cases hb : v.isBalance = true
        · rw [if_pos hb] at hl
          refine ⟨?_, fun _ => mem_of_aget hl⟩
          rw [aget_adel] at hl
          split at hl
          · cases hl
          · exact hl
        · rw [if_neg hb] at hl; exact ⟨hl, fun h => absurd h hb⟩
      obtain ⟨g1, g2⟩ := hi _ _ _ hu.1
      refine ⟨?_, fun k => ?_⟩
      · split
        · rename_i hn
          exact le_maxLockN (e := (q, u)) (hu.2 (by cases v <;> simp_all [Vote.isNative, Vote.isBalance]))
        · exact g1
      · split
        · rename_i hn
          exact le_maxLockA (e := (q, u)) (hu.2 (by cases v <;> simp_all [Vote.isAsset, Vote.isBalance]))
        · exact g2 k
    · simp only [ha, false_and, if_false] at hl ⊢
      exact hi _ _ _ hl

/-- C52: when a vote is taken back, the voter's lock for that poll goes and the freeze in the vote's currency becomes
exactly the largest lock left; nothing else changes for the voter, and nothing for anyone else. -/
theorem C52_after_removal (cfg : Config) (env : Env) (s s' : St) (h0 : Reachable cfg s) (o : Origin) (m : MId)
    (p : PollIx) (h : dispatch cfg env s o (.removeVote m p) = .ok s') :
    ∃ v voter, aget (s.votes p) m = some (v, voter) ∧ aget (s'.votes p) m = none ∧
      (v.isBalance = true → aget (s'.locks voter) p = none) ∧
      (∀ a q, (a ≠ voter ∨ q ≠ p) → aget (s'.locks a) q = aget (s.locks a) q) ∧
      (∀ b n, v = .native b n → LargestNative s' voter (s'.frozenN voter)) ∧
      (∀ b k n, v = .asset b k n → LargestAsset s' k voter (s'.frozenA k voter)) ∧
      ∀ a, a ≠ voter → s'.frozenN a = s.frozenN a ∧ ∀ k, s'.frozenA k a = s.frozenA k a := by
  obtain ⟨who, c, s1, _, _, ⟨t, v, voter, h5⟩, rfl⟩ := removeVote_parts h
  have ok1 : AOk (s1.locks voter) := by
    rw [h5.locks]; split
    · exact aok_adel ((reachable_aok h0).2 _) _
    · exact (reachable_aok h0).2 _
  refine ⟨v, voter, h5.recorded, ?_, ?_, ?_, ?_, ?_, ?_⟩
  · show aget (s1.votes p) m = none
    rw [h5.votes p, if_pos rfl, aget_adel_self]
  · intro hb
    show aget (s1.locks voter) p = none
    rw [h5.locks, if_pos ⟨rfl, hb⟩, aget_adel_self]
  · intro a q haq
    show aget (s1.locks a) q = _
    rw [h5.locks]
    split
    · rename_i h1
      rcases haq with h2 | h2
      · exact absurd h1.1 h2
      · rw [aget_adel_ne _ h2]
    · rfl
  · rintro b n rfl
    have : s1.frozenN voter = maxLockN (s1.locks voter) := by
      rw [h5.frozenN, h5.locks]; simp [Vote.isNative, Vote.isBalance]
    show LargestNative s1 voter (s1.frozenN voter)
    rw [this]; exact largestN_max ok1
  · rintro b k n rfl
    have : s1.frozenA k voter = maxLockA k (s1.locks voter) := by
      rw [h5.frozenA, h5.locks]; simp [Vote.isAsset, Vote.isBalance]
    show LargestAsset s1 k voter (s1.frozenA k voter)
    rw [this]; exact largestA_max ok1
  · intro a ha
    refine ⟨?_, fun k => ?_⟩
    · show s1.frozenN a = _; rw [h5.frozenN]; simp [ha]
    · show s1.frozenA k a = _; rw [h5.frozenA]; simp [ha]

example :
    let s := after kreivo Demo.env Demo.twice [(.signed Demo.alice, .vote 1 0 (.native true 100))]
    Reachable kreivo s ∧ aget (s.locks Demo.alice) 0 = some (.native true 100) ∧ s.frozenN Demo.alice = 100 ∧
    ∃ s', dispatch kreivo Demo.env s (.signed Demo.alice) (.removeVote 1 0) = .ok s' :=
  ⟨after_reachable Demo.env_lawful Demo.twice_reachable _, by decide +kernel, by decide +kernel, _, rfl⟩

/-! ## C54 -/

/-- C54: while the poll is ongoing nobody can unlock. -/
theorem C54_not_before (cfg : Config) (env : Env) (s : St) (who : AccountId) (p : PollIx) (t : Tally) (c : CId)
    (hp : s.world.polls p = some (.ongoing t c)) :
    dispatch cfg env s (.signed who) (.unlock p) = .error .alreadyOngoing := by
  show unlock env s (.signed who) p = _
  unfold unlock
  simp [ensureSigned, isOngoing, hp]

/-- C54: only with a lock for that poll. -/
theorem C54_needs_lock (cfg : Config) (env : Env) (s s' : St) (o : Origin) (p : PollIx)
    (h : dispatch cfg env s o (.unlock p) = .ok s') :
    ∃ who v, o = .signed who ∧ aget (s.locks who) p = some v ∧ ∀ t c, s.world.polls p ≠ some (.ongoing t c) := by
  obtain ⟨who, v, h1, h2⟩ := unlock_unlocked h
  refine ⟨who, v, h1, h2.recorded, ?_⟩
  intro t c hp
  have := h2.over
  simp [isOngoing, hp] at this

/-- C54: once the poll is no longer ongoing, a voter with a lock whose frozen funds are within their balance can
unlock: exactly that lock goes, and the freeze in its currency becomes the largest lock left. (Currency pallets keep
freezes within balances and are assumed not to refuse lowering one.) -/
theorem C54_afterwards (cfg : Config) (env : Env) (s : St) (h0 : Reachable cfg s) (who : AccountId) (p : PollIx)
    (v : Vote) (hp : ∀ t c, s.world.polls p ≠ some (.ongoing t c)) (hl : aget (s.locks who) p = some v)
    (hN : s.frozenN who ≤ s.world.native who) (hA : ∀ k, s.frozenA k who ≤ s.world.asset k who)
    (d1 : ∀ x a n, env.denyFreezeN x a n = false) (d2 : ∀ x k a n, env.denyFreezeA x k a n = false) :
    ∃ s', dispatch cfg env s (.signed who) (.unlock p) = .ok s' ∧ aget (s'.locks who) p = none ∧
      (∀ a q, (a ≠ who ∨ q ≠ p) → aget (s'.locks a) q = aget (s.locks a) q) ∧
      (∀ b n, v = .native b n → LargestNative s' who (s'.frozenN who)) ∧
      (∀ b k n, v = .asset b k n → LargestAsset s' k who (s'.frozenA k who)) ∧
      (∀ a, a ≠ who → s'.frozenN a = s.frozenN a ∧ ∀ k, s'.frozenA k a = s.frozenA k a) := by
  have hover : isOngoing s p = false := by
    unfold isOngoing
    split
    · rename_i t c h; exact absurd h (hp t c)
    · rfl
  have hcov := C52_frozen_covers cfg s h0 who
  have okl := (reachable_aok h0).2 who
  have hgo : ∃ s', updateLocks env s who p v .remove = .ok s' := by
    have hb := reachable_lock_balance h0 who p v hl
    cases v with
    | standard b => cases hb
    | native b n =>
      simp only [updateLocks, setFrozenN]
      rw [if_neg]
      · exact ⟨_, rfl⟩
      · simp only [d1, Bool.false_eq_true, or_false, Nat.not_lt, if_true]
        rcases maxLockN_attained (adel (s.locks who) p) with h | ⟨e, he, h⟩
        · rw [h]; exact Nat.zero_le _
        · rw [← h]
          have := (hcov e.1 e.2 (aget_of_mem okl (mem_adel.1 he).1)).1
          rw [lockedN_eq] at this
          omega
    | asset b k n =>
      simp only [updateLocks, setFrozenA]
      rw [if_neg]
      · exact ⟨_, rfl⟩
      · simp only [d2, Bool.false_eq_true, or_false, Nat.not_lt, if_true]
        rcases maxLockA_attained k (adel (s.locks who) p) with h | ⟨e, he, h⟩
        · rw [h]; exact Nat.zero_le _
        · rw [← h]
          have := (hcov e.1 e.2 (aget_of_mem okl (mem_adel.1 he).1)).2 k
          rw [lockedA_eq] at this
          exact Nat.le_trans this (hA k)
  obtain ⟨s', hgo⟩ := hgo
  have hcall : dispatch cfg env s (.signed who) (.unlock p) = .ok s' := by
    show unlock env s (.signed who) p = _
    unfold unlock
    simp only [ensureSigned, hover, hl]
    exact hgo
  obtain ⟨who', v', e1, hu⟩ := unlock_unlocked (show unlock env s (.signed who) p = .ok s' from hcall)
  cases e1
  have := hu.recorded
  rw [hl] at this; cases this
  have hb := reachable_lock_balance h0 who p v hl
  have ok1 : AOk (s'.locks who) := by
    rw [hu.locks, if_pos ⟨rfl, hb⟩]; exact aok_adel okl _
  refine ⟨s', hcall, ?_, ?_, ?_, ?_, ?_⟩
  · rw [hu.locks, if_pos ⟨rfl, hb⟩, aget_adel_self]
  · intro a q haq
    rw [hu.locks]
    split
    · rename_i h1
      rcases haq with h2 | h2
      · exact absurd h1.1 h2
      · rw [aget_adel_ne _ h2]
    · rfl
  · rintro b n rfl
    have : s'.frozenN who = maxLockN (s'.locks who) := by
      rw [hu.frozenN, hu.locks]; simp [Vote.isNative, Vote.isBalance]
    rw [this]; exact largestN_max ok1
  · rintro b k n rfl
    have : s'.frozenA k who = maxLockA k (s'.locks who) := by
      rw [hu.frozenA, hu.locks]; simp [Vote.isAsset, Vote.isBalance]
    rw [this]; exact largestA_max ok1
  · intro a ha
    refine ⟨?_, fun k => ?_⟩
    · rw [hu.frozenN]; simp [ha]
    · rw [hu.frozenA]; simp [ha]

/-- Poll 0 has ended. -/
def Demo.closed (s : St) : St :=
  { s with world := { s.world with polls := fun p => if p = 0 then some .ended else s.world.polls p } }

theorem Demo.closed_reachable {cfg : Config} {s : St} (h : Reachable cfg s)
    (hp : ∃ t c, s.world.polls 0 = some (.ongoing t c)) : Reachable cfg (Demo.closed s) := by
  obtain ⟨t, c, hp⟩ := hp
  refine h.step (.world { s.world with polls := fun p => if p = 0 then some .ended else s.world.polls p } ?_)
  intro p
  by_cases h0 : p = 0
  · subst h0; rw [hp]; exact .inr rfl
  · have h1 := pollsMove_of_eq (w := s.world) (w' := s.world) rfl p
    have h2 : (if p = 0 then some Poll.ended else s.world.polls p) = s.world.polls p := if_neg h0
    dsimp only
    rw [h2]
    exact h1

/-- The hypotheses are met once the poll alice voted in has ended. -/
example :
    let s := after kreivo Demo.env Demo.twice [(.signed Demo.alice, .vote 1 0 (.native true 100))]
    aget ((Demo.closed s).locks Demo.alice) 0 = some (.native true 100) ∧ (Demo.closed s).world.polls 0 = some .ended ∧
    (Demo.closed s).frozenN Demo.alice ≤ (Demo.closed s).world.native Demo.alice ∧
    (after kreivo Demo.env (Demo.closed s) [(.signed Demo.alice, .unlock 0)]).frozenN Demo.alice = 0 := by
  decide +kernel

/-! ## C53 and C87: one vote per account and poll -/

/-- C53: in histories where no account votes with two memberships in one poll, every balance vote on record in an
ongoing poll is backed by the voter's lock for exactly that vote. Missing: accounts that use several memberships. -/
theorem C53_backed_partial (cfg : Config) (s : St) (h : SoloHistory cfg s) (p : PollIx) (t : Tally) (c : CId) (m : MId)
    (v : Vote) (w : AccountId) (hp : s.world.polls p = some (.ongoing t c)) (hv : aget (s.votes p) m = some (v, w))
    (hb : ∀ b, v ≠ .standard b) :
    aget (s.locks w) p = some v ∧ lockedNative v ≤ s.frozenN w ∧ ∀ k, lockedAsset k v ≤ s.frozenA k w := by
  have hb' : v.isBalance = true := by cases v <;> first | rfl | exact absurd rfl (hb _)
  have hl := h.matched.fwd p t c m v w hp hv hb'
  exact ⟨hl, C52_frozen_covers cfg s h.reachable w p v hl⟩

/-- C53 fails for an account with two memberships: alice votes 100 with one and 50 with the other, removes the second
vote, and the first counts 100 with nothing locked or frozen. -/
theorem C53_backed_fails :
    ∃ s, Reachable kreivo s ∧ s.world.polls 0 = some (.ongoing ⟨100, 0, 100⟩ 1) ∧
      s.votes 0 = [(1, (.native true 100, Demo.alice))] ∧ s.locks Demo.alice = [] ∧ s.frozenN Demo.alice = 0 :=
  ⟨after kreivo Demo.env Demo.twice
      [(.signed Demo.alice, .vote 1 0 (.native true 100)), (.signed Demo.alice, .vote 2 0 (.native true 50)),
        (.signed Demo.alice, .removeVote 2 0)],
    after_reachable Demo.env_lawful Demo.twice_reachable _, by decide +kernel, by decide +kernel, by decide +kernel,
    by decide +kernel⟩

/-- C87: in the same histories a voter's frozen amount is, at all times, exactly the largest of their standing locks in
that currency; so nothing is frozen for someone without locks. -/
theorem C87_freeze_exact_partial (cfg : Config) (s : St) (h : SoloHistory cfg s) (a : AccountId) :
    LargestNative s a (s.frozenN a) ∧ ∀ k, LargestAsset s k a (s.frozenA k a) := by
  have hm := h.matched
  refine ⟨?_, fun k => ?_⟩
  · rw [hm.frozenN a]; exact largestN_max (hm.okl a)
  · rw [hm.frozenA k a]; exact largestA_max (hm.okl a)

/-- C87 fails for an account with two memberships when the community's decision method changes during a poll: alice's
native lock is replaced by an asset lock, and once the poll is over and unlocked no lock is left but 100 of the native
currency stay frozen. -/
theorem C87_freeze_exact_fails :
    ∃ s, Reachable kreivo s ∧ s.locks Demo.alice = [] ∧ s.frozenN Demo.alice = 100 ∧ s.world.polls 0 = some .ended :=
  ⟨after kreivo Demo.env (Demo.closed (after kreivo Demo.env Demo.twice
      [(.signed Demo.alice, .vote 1 0 (.native true 100)), (.signed Demo.alice, .setDecisionMethod 1 (.asset 7 1)),
        (.signed Demo.alice, .vote 2 0 (.asset true 7 50))])) [(.signed Demo.alice, .unlock 0)],
    after_reachable Demo.env_lawful (Demo.closed_reachable
      (after_reachable Demo.env_lawful Demo.twice_reachable _) ⟨_, _, rfl⟩) _, by decide +kernel, by decide +kernel,
    by decide +kernel⟩

/-- A history with one vote per account, with a lock standing. -/
example :
    let s := after kreivo Demo.env Demo.twice [(.signed Demo.alice, .vote 1 0 (.native true 100))]
    SoloHistory kreivo s ∧ s.votes 0 = [(1, (.native true 100, Demo.alice))] := by
  refine ⟨?_, by decide +kernel⟩
  have noVotes : ∀ s : St, s.votes = (fun _ => []) → Solo s := by
    intro s hs p m m' v v' w h; rw [hs] at h; cases h
  have h1 : SoloHistory kreivo Demo.start := .start Demo.start_genesis
  have h2 := h1.step (.register Demo.env (.signed Demo.alice) 1 none rfl) (noVotes _ rfl)
  have h3 : SoloHistory kreivo { Demo.chain with world := Demo.world0 } := by
    refine h2.step (.register Demo.env (.signed Demo.bob) 2 none ?_) (noVotes _ rfl)
    unfold register payDeposit
    rw [if_neg (by decide), if_neg (by decide)]
    rfl
  have h4 : SoloHistory kreivo Demo.chain := h3.step (.world Demo.world1 Demo.polls_open) (noVotes _ rfl)
  have h5 : SoloHistory kreivo { Demo.chain with world := Demo.worldTwice } :=
    h4.step (.world Demo.worldTwice (pollsMove_of_eq rfl)) (noVotes _ rfl)
  have h6 : SoloHistory kreivo Demo.twice :=
    h5.step (.call Demo.env Demo.env_lawful (.signed Demo.alice) (.setDecisionMethod 1 .native) rfl) (noVotes _ rfl)
  refine h6.step (.call Demo.env Demo.env_lawful (.signed Demo.alice) (.vote 1 0 (.native true 100)) rfl) ?_
  suffices hsolo : Solo (after kreivo Demo.env Demo.twice [(.signed Demo.alice, .vote 1 0 (.native true 100))]) from hsolo
  intro p m m' v v' w h1 h2
  have hv : ∀ p, (after kreivo Demo.env Demo.twice [(.signed Demo.alice, .vote 1 0 (.native true 100))]).votes p =
      if p = 0 then [(1, (.native true 100, Demo.alice))] else [] := by
    intro p
    by_cases hp : p = 0
    · subst hp; rfl
    · show (if p = 0 then _ else _) = _
      rw [if_neg hp, if_neg hp]; rfl
  rw [hv p] at h1 h2
  split at h1
  · rename_i hp
    rw [if_pos hp] at h2
    rw [aget_cons] at h1 h2
    split at h1
    · split at h2
      · rename_i e1 e2; exact e1.symm.trans e2
      · cases h2
    · cases h1
  · cases h1

end Verif.Communities
