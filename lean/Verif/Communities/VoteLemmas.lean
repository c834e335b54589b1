import Verif.Communities.RegistryLemmas

/-! # Effects of voting, lock by lock -/

namespace Verif.Communities

open Verif Verif.Accounts

/-- A vote in the native currency. -/
def Vote.isNative : Vote → Bool
  | .native _ _ => true
  | _ => false

/-- A vote in a given asset. -/
def Vote.isAsset (k : AssetKey) : Vote → Bool
  | .asset _ a _ => decide (a = k)
  | _ => false

/-- A vote that locks funds. -/
def Vote.isBalance : Vote → Bool
  | .standard _ => false
  | _ => true

/-- What recording a vote does. -/
structure Cast (s s' : St) (c : CId) (who : AccountId) (m : MId) (p : PollIx) (v : Vote) (t : Tally) : Prop where
  poll : s.world.polls p = some (.ongoing t c)
  votes : ∀ i, s'.votes i = if i = p then aset (s.votes i) m (v, who) else s.votes i
  polls : ∀ i, s'.world.polls i = if i = p then
    some (.ongoing (t.addVote v.say (mul32 (multiplier s (s.method c) c m) v.weight) v.weight) c) else s.world.polls i
  locks : ∀ a, s'.locks a = if a = who ∧ v.isBalance = true then aset (s.locks a) p v else s.locks a
  frozenN : ∀ a, s'.frozenN a = if a = who then max (s.frozenN a) (lockN v) else s.frozenN a
  frozenA : ∀ k a, s'.frozenA k a = if a = who then max (s.frozenA k a) (lockA k v) else s.frozenA k a
  method : s'.method = s.method
  items : s'.world.items = s.world.items
  native : s'.world.native = s.world.native
  asset : s'.world.asset = s.world.asset
  enoughN : lockN v ≤ s.world.native who
  enoughA : ∀ k, lockA k v ≤ s.world.asset k who

/-- What taking a vote off the record does. -/
structure Uncast (s s' : St) (c : CId) (dm : Method) (voter : AccountId) (m : MId) (p : PollIx) (v : Vote)
    (t : Tally) : Prop where
  poll : s.world.polls p = some (.ongoing t c)
  recorded : aget (s.votes p) m = some (v, voter)
  votes : ∀ i, s'.votes i = if i = p then adel (s.votes i) m else s.votes i
  polls : ∀ i, s'.world.polls i = if i = p then
    some (.ongoing (t.removeVote v.say (mul32 (multiplier s dm c m) v.weight) v.weight) c) else s.world.polls i
  locks : ∀ a, s'.locks a = if a = voter ∧ v.isBalance = true then adel (s.locks a) p else s.locks a
  frozenN : ∀ a, s'.frozenN a = if a = voter ∧ v.isNative = true then maxLockN (adel (s.locks a) p) else s.frozenN a
  frozenA : ∀ k a, s'.frozenA k a =
    if a = voter ∧ v.isAsset k = true then maxLockA k (adel (s.locks a) p) else s.frozenA k a
  method : s'.method = s.method
  items : s'.world.items = s.world.items
  native : s'.world.native = s.world.native
  asset : s'.world.asset = s.world.asset

theorem tryVote_cast {env : Env} {s s' : St} {c : CId} {dm : Method} {who : AccountId} {m : MId} {p : PollIx}
    {v : Vote} (h : tryVote env s c dm who m p v = .ok s') :
    ∃ t, checkVote v dm = .ok v.say ∧ Cast s s' c who m p v t := by
  obtain ⟨t, h1, h2, h3⟩ := tryVote_ok h
  obtain ⟨_, _, g3, g4, _, _, g7⟩ := updateLocks_same h3
  refine ⟨t, h2, h1, ?_, ?_, ?_, ?_, ?_, g3, by rw [g7]; rfl, by rw [g7]; rfl, by rw [g7]; rfl,
    (updateLocks_add_balance h3).1, (updateLocks_add_balance h3).2⟩
  · intro i; rw [g4]; rfl
  · intro i; rw [g7]; rfl
  · intro a
    rw [updateLocks_locks h3 a]
    by_cases ha : a = who <;> cases v <;> simp [ha, locksAfter, Vote.isBalance, voted, setPoll]
  · intro a
    rw [updateLocks_frozenN h3 a]
    by_cases ha : a = who <;> cases v <;> simp [ha, lockN, voted, setPoll]
  · intro k a
    rw [updateLocks_frozenA h3 k a]
    by_cases ha : a = who
    · cases v with
      | asset b k' n =>
        by_cases hk : k = k'
        · simp [ha, lockA, voted, setPoll, hk]
        · simp [ha, lockA, voted, setPoll, hk, Ne.symm hk]
      | _ => simp [ha, lockA, voted, setPoll]
    · simp [ha, voted, setPoll]

theorem tryRemoveVote_uncast {env : Env} {s s' : St} {c : CId} {dm : Method} {m : MId} {p : PollIx}
    (h : tryRemoveVote env s c dm m p = .ok s') : ∃ t v voter, Uncast s s' c dm voter m p v t := by
  obtain ⟨t, v, voter, h1, h2, h3⟩ := tryRemoveVote_ok h
  obtain ⟨_, _, g3, g4, _, _, g7⟩ := updateLocks_same h3
  refine ⟨t, v, voter, h1, h2, ?_, ?_, ?_, ?_, ?_, g3, by rw [g7]; rfl, by rw [g7]; rfl, by rw [g7]; rfl⟩
  · intro i; rw [g4]; rfl
  · intro i; rw [g7]; rfl
  · intro a
    rw [updateLocks_locks h3 a]
    by_cases ha : a = voter <;> cases v <;> simp [ha, locksAfter, Vote.isBalance, unvoted, setPoll]
  · intro a
    rw [updateLocks_frozenN h3 a]
    by_cases ha : a = voter <;> cases v <;> simp [ha, Vote.isNative, unvoted, setPoll]
  · intro k a
    rw [updateLocks_frozenA h3 k a]
    by_cases ha : a = voter
    · cases v with
      | asset b k' n =>
        by_cases hk : k = k'
        · simp [ha, Vote.isAsset, unvoted, setPoll, hk]
        · simp [ha, Vote.isAsset, unvoted, setPoll, hk, Ne.symm hk]
      | _ => simp [ha, Vote.isAsset, unvoted, setPoll]
    · simp [ha, unvoted, setPoll]

/-- What `unlock` does. -/
structure Unlocked (s s' : St) (who : AccountId) (p : PollIx) (v : Vote) : Prop where
  over : isOngoing s p = false
  recorded : aget (s.locks who) p = some v
  votes : s'.votes = s.votes
  polls : s'.world = s.world
  locks : ∀ a, s'.locks a = if a = who ∧ v.isBalance = true then adel (s.locks a) p else s.locks a
  frozenN : ∀ a, s'.frozenN a = if a = who ∧ v.isNative = true then maxLockN (adel (s.locks a) p) else s.frozenN a
  frozenA : ∀ k a, s'.frozenA k a =
    if a = who ∧ v.isAsset k = true then maxLockA k (adel (s.locks a) p) else s.frozenA k a
  method : s'.method = s.method

theorem unlock_unlocked {env : Env} {s s' : St} {o : Origin} {p : PollIx} (h : unlock env s o p = .ok s') :
    ∃ who v, o = .signed who ∧ Unlocked s s' who p v := by
  obtain ⟨who, v, h0, h1, h2, h3⟩ := unlock_ok h
  obtain ⟨_, _, g3, g4, _, _, g7⟩ := updateLocks_same h3
  refine ⟨who, v, h0, h1, h2, g4, g7, ?_, ?_, ?_, g3⟩
  · intro a
    rw [updateLocks_locks h3 a]
    by_cases ha : a = who <;> cases v <;> simp [ha, locksAfter, Vote.isBalance]
  · intro a
    rw [updateLocks_frozenN h3 a]
    by_cases ha : a = who <;> cases v <;> simp [ha, Vote.isNative]
  · intro k a
    rw [updateLocks_frozenA h3 k a]
    by_cases ha : a = who
    · cases v with
      | asset b k' n =>
        by_cases hk : k = k'
        · simp [ha, Vote.isAsset, hk]
        · simp [ha, Vote.isAsset, hk, Ne.symm hk]
      | _ => simp [ha, Vote.isAsset]
    · simp [ha]

theorem pollsMove_of_eq {w w' : World} (h : w'.polls = w.polls) : PollsMove w w' := by
  intro p
  rw [h]
  cases hp : w.polls p with
  | none => exact .inl rfl
  | some q => cases q with
    | ongoing t c => exact .inl rfl
    | ended => rfl

/-- How a step may change votes, locks and polls. -/
inductive VoteMove (s s' : St) : Prop
  | same (h1 : s'.votes = s.votes) (h2 : s'.locks = s.locks) (h3 : s'.frozenN = s.frozenN)
      (h4 : s'.frozenA = s.frozenA) (h5 : PollsMove s.world s'.world)
  | vote (env : Env) (o : Origin) (m : MId) (p : PollIx) (v : Vote) (h : vote env s o m p v = .ok s')
  | remove (env : Env) (o : Origin) (m : MId) (p : PollIx) (h : removeVote env s o m p = .ok s')
  | unlock (env : Env) (o : Origin) (p : PollIx) (h : unlock env s o p = .ok s')

theorem register_voteMove {env : Env} {s s' : St} {admin : Origin} {c : CId}
    {d : Option (Nat × AccountId × AccountId)} (h : register env s admin c d = .ok s') :
    s'.votes = s.votes ∧ s'.locks = s.locks ∧ s'.frozenN = s.frozenN ∧ s'.frozenA = s.frozenA ∧
      s'.world.polls = s.world.polls := by
  unfold register at h
  split at h
  · cases h
  split at h
  · cases h
  obtain ⟨s1, h1, h2⟩ := bind_ok h
  cases h2
  cases d with
  | none => cases h1; exact ⟨rfl, rfl, rfl, rfl, rfl⟩
  | some x =>
    obtain ⟨n, src, dst⟩ := x
    obtain ⟨g1, bal, rfl, g2⟩ := transferNative_ok h1
    exact ⟨rfl, rfl, rfl, rfl, rfl⟩

theorem dispatch_voteMove {cfg : Config} {env : Env} (he : Lawful env) {s s' : St} {o : Origin} {call : Call}
    (h : dispatch cfg env s o call = .ok s') : VoteMove s s' := by
  obtain ⟨o', leaf, hl, h⟩ := dispatch_leaf h
  cases leaf with
  | create admin c =>
    obtain ⟨d, s1, _, hr, rfl⟩ := create_ok h
    obtain ⟨h1, h2, h3, h4, h5⟩ := register_voteMove hr
    exact .same h1 h2 h3 h4 (pollsMove_of_eq h5)
  | setAdminOrigin admin =>
    obtain ⟨_, _, _, rfl⟩ := setAdminOrigin_ok h
    exact .same rfl rfl rfl rfl (pollsMove_of_eq rfl)
  | addMember a =>
    obtain ⟨_, _, _, _, _, _, _, _, _, rfl⟩ := addMember_ok h
    exact .same rfl rfl rfl rfl (pollsMove_of_eq rfl)
  | removeMember a m =>
    obtain ⟨_, _, _, _, _, _, _, rfl⟩ := removeMember_ok h
    exact .same rfl rfl rfl rfl (pollsMove_of_eq rfl)
  | promote m =>
    obtain ⟨_, _, _, _, rfl⟩ := promote_ok h
    exact .same rfl rfl rfl rfl (pollsMove_of_eq rfl)
  | demote m =>
    obtain ⟨_, _, _, _, rfl⟩ := demote_ok h
    exact .same rfl rfl rfl rfl (pollsMove_of_eq rfl)
  | setDecisionMethod c dm =>
    obtain ⟨_, _, _, rfl⟩ := setDecisionMethod_ok h
    exact .same rfl rfl rfl rfl (pollsMove_of_eq rfl)
  | vote m p v => exact .vote env o' m p v h
  | removeVote m p => exact .remove env o' m p h
  | unlock p => exact .unlock env o' p h
  | dispatchAsAccount i => exact absurd rfl (hl i)
  | foreign n =>
    rw [dispatch] at h
    split at h
    · cases h
    · rename_i w hw
      cases h
      exact .same rfl rfl rfl rfl (he n o' _ _ hw)

theorem step_voteMove {cfg : Config} {s s' : St} (h : Step cfg s s') : VoteMove s s' := by
  cases h with
  | call env he o c h => exact dispatch_voteMove he h
  | register env admin c d h =>
    obtain ⟨h1, h2, h3, h4, h5⟩ := register_voteMove h
    exact .same h1 h2 h3 h4 (pollsMove_of_eq h5)
  | force c st => exact .same rfl rfl rfl rfl (pollsMove_of_eq rfl)
  | world w hw => exact .same rfl rfl rfl rfl hw

/-- A relation between votes, locks, freezes and polls that holds for recording and for taking back one vote holds
for the calls. -/
theorem vote_parts {env : Env} {s s' : St} {o : Origin} {m : MId} {p : PollIx} {v : Vote}
    (h : vote env s o m p v = .ok s') :
    ∃ who c s1 s2, o = .signed who ∧ 0 < v.weight ∧ checkMembership s.world.items who m = some c ∧
      checkVote v (s.method c) = .ok v.say ∧
      ((aget (s.votes p) m = none ∧ s1 = s) ∨
        (∃ t u voter, Uncast s s1 c (s.method c) voter m p u t)) ∧
      (∃ t, Cast s1 s2 c who m p v t) ∧ s' = emit s2 (.voteCasted who p v) := by
  obtain ⟨who, c, s1, s2, h1, h2, h3, h4, h5, h6⟩ := vote_ok h
  obtain ⟨t, h7, h8⟩ := tryVote_cast h5
  refine ⟨who, c, s1, s2, h1, h2, h3, h7, ?_, ⟨t, h8⟩, h6⟩
  rcases h4 with h4 | ⟨_, h4⟩
  · exact .inl h4
  · exact .inr (tryRemoveVote_uncast h4)

theorem removeVote_parts {env : Env} {s s' : St} {o : Origin} {m : MId} {p : PollIx}
    (h : removeVote env s o m p = .ok s') :
    ∃ who c s1, o = .signed who ∧ checkMembership s.world.items who m = some c ∧
      (∃ t u voter, Uncast s s1 c (s.method c) voter m p u t) ∧ s' = emit s1 (.voteRemoved who p) := by
  obtain ⟨who, c, s1, h1, h2, h3, h4⟩ := removeVote_ok h
  exact ⟨who, c, s1, h1, h2, tryRemoveVote_uncast h3, h4⟩

/-- States reached by moves of votes, locks, freezes and polls, whatever else happens. Specification only, no code behind it
(outside /repo). -/
inductive VoteMoved : St → Prop
  | start {s : St} (h : Genesis s) : VoteMoved s
  | move {s s' : St} (h : VoteMoved s) (st : VoteMove s s') : VoteMoved s'

theorem Reachable.moved {cfg : Config} {s : St} (h : Reachable cfg s) : VoteMoved s :=
  invariant (I := VoteMoved) (fun _ h => .start h) (fun _ _ hi st => hi.move (step_voteMove st)) h

/-- Properties of votes, locks, freezes and polls that recording, taking back, unlocking and the rest of the chain
preserve hold wherever moves lead. -/
theorem moved_invariant {I : St → Prop} (h0 : ∀ s, Genesis s → I s)
    (hsame : ∀ s s', I s → s'.votes = s.votes → s'.locks = s.locks → s'.frozenN = s.frozenN →
      s'.frozenA = s.frozenA → PollsMove s.world s'.world → I s')
    (hcast : ∀ s s' c who m p v t, I s → Cast s s' c who m p v t → I s')
    (huncast : ∀ s s' c dm voter m p v t, I s → Uncast s s' c dm voter m p v t → I s')
    (hunlock : ∀ s s' who p v, I s → Unlocked s s' who p v → I s')
    {s : St} (h : VoteMoved s) : I s := by
  induction h with
  | start h => exact h0 _ h
  | move h st hi =>
    cases st with
    | same h1 h2 h3 h4 h5 => exact hsame _ _ hi h1 h2 h3 h4 h5
    | vote env o m p v h =>
      obtain ⟨who, c, s1, s2, _, _, _, _, h4, ⟨t, h5⟩, rfl⟩ := vote_parts h
      have i1 : I s1 := by
        rcases h4 with ⟨_, rfl⟩ | ⟨t, u, voter, h4⟩
        · exact hi
        · exact huncast _ _ _ _ _ _ _ _ _ hi h4
      exact hsame _ _ (hcast _ _ _ _ _ _ _ _ i1 h5) rfl rfl rfl rfl (pollsMove_of_eq rfl)
    | remove env o m p h =>
      obtain ⟨who, c, s1, _, _, ⟨t, u, voter, h4⟩, rfl⟩ := removeVote_parts h
      exact hsame _ _ (huncast _ _ _ _ _ _ _ _ _ hi h4) rfl rfl rfl rfl (pollsMove_of_eq rfl)
    | unlock env o p h =>
      obtain ⟨who, v, _, h1⟩ := unlock_unlocked h
      exact hunlock _ _ _ _ _ hi h1

/-- And so in every reachable state. -/
theorem vote_invariant {cfg : Config} {I : St → Prop} (h0 : ∀ s, Genesis s → I s)
    (hsame : ∀ s s', I s → s'.votes = s.votes → s'.locks = s.locks → s'.frozenN = s.frozenN →
      s'.frozenA = s.frozenA → PollsMove s.world s'.world → I s')
    (hcast : ∀ s s' c who m p v t, I s → Cast s s' c who m p v t → I s')
    (huncast : ∀ s s' c dm voter m p v t, I s → Uncast s s' c dm voter m p v t → I s')
    (hunlock : ∀ s s' who p v, I s → Unlocked s s' who p v → I s')
    {s : St} (h : Reachable cfg s) : I s :=
  moved_invariant h0 hsame hcast huncast hunlock h.moved

/-- No membership has two votes in a poll, no account two locks for a poll. -/
theorem moved_aok {s : St} (h : VoteMoved s) :
    (∀ p, AOk (s.votes p)) ∧ ∀ a, AOk (s.locks a) := by
  refine moved_invariant (I := fun s => (∀ p, AOk (s.votes p)) ∧ ∀ a, AOk (s.locks a)) ?_ ?_ ?_ ?_ ?_ h
  · intro s hg; exact ⟨fun p => by rw [hg.2.2.1 p]; exact aok_nil, fun a => by rw [hg.2.2.2.1 a]; exact aok_nil⟩
  · intro s s' hi h1 h2 _ _ _; rw [h1, h2]; exact hi
  · intro s s' c who m p v t hi hc
    refine ⟨fun i => ?_, fun a => ?_⟩
    · rw [hc.votes i]; split
      · exact aok_aset (hi.1 i) _ _
      · exact hi.1 i
    · rw [hc.locks a]; split
      · exact aok_aset (hi.2 a) _ _
      · exact hi.2 a
  · intro s s' c dm voter m p v t hi hc
    refine ⟨fun i => ?_, fun a => ?_⟩
    · rw [hc.votes i]; split
      · exact aok_adel (hi.1 i) _
      · exact hi.1 i
    · rw [hc.locks a]; split
      · exact aok_adel (hi.2 a) _
      · exact hi.2 a
  · intro s s' who p v hi hc
    refine ⟨fun i => ?_, fun a => ?_⟩
    · rw [hc.votes]; exact hi.1 i
    · rw [hc.locks a]; split
      · exact aok_adel (hi.2 a) _
      · exact hi.2 a

theorem reachable_aok {cfg : Config} {s : St} (h : Reachable cfg s) :
    (∀ p, AOk (s.votes p)) ∧ ∀ a, AOk (s.locks a) := moved_aok h.moved

/-- Nothing is on record or locked for a poll that has not begun. -/
theorem moved_unborn {s : St} (h : VoteMoved s) :
    ∀ p, s.world.polls p = none → s.votes p = [] ∧ ∀ a, aget (s.locks a) p = none := by
  refine moved_invariant (I := fun s => ∀ p, s.world.polls p = none → s.votes p = [] ∧ ∀ a, aget (s.locks a) p = none)
    ?_ ?_ ?_ ?_ ?_ h
  · intro s hg p _; exact ⟨hg.2.2.1 p, fun a => by rw [hg.2.2.2.1 a]; rfl⟩
  · intro s s' hi h1 h2 _ _ hm p hp
    rw [h1, h2]
    apply hi
    have := hm p
    cases hq : s.world.polls p with
    | none => rfl
    | some q =>
      rw [hq] at this
      cases q with
      | ended => rw [hp] at this; cases this
      | ongoing t c => rw [hp] at this; rcases this with h | h <;> cases h
  · intro s s' c who m p v t hi hc i hp
    have hne : i ≠ p := by
      rintro rfl; rw [hc.polls i, if_pos rfl] at hp; cases hp
    rw [hc.polls i, if_neg hne] at hp
    refine ⟨by rw [hc.votes i, if_neg hne]; exact (hi i hp).1, fun a => ?_⟩
    rw [hc.locks a]; split
    · rw [aget_aset_ne _ _ hne]; exact (hi i hp).2 a
    · exact (hi i hp).2 a
  · intro s s' c dm voter m p v t hi hc i hp
    have hne : i ≠ p := by
      rintro rfl; rw [hc.polls i, if_pos rfl] at hp; cases hp
    rw [hc.polls i, if_neg hne] at hp
    refine ⟨by rw [hc.votes i, if_neg hne]; exact (hi i hp).1, fun a => ?_⟩
    rw [hc.locks a]; split
    · rw [aget_adel_ne _ hne]; exact (hi i hp).2 a
    · exact (hi i hp).2 a
  · intro s s' who p v hi hc i hp
    rw [hc.polls] at hp
    refine ⟨by rw [hc.votes]; exact (hi i hp).1, fun a => ?_⟩
    rw [hc.locks a]; split
    · rw [aget_adel]; split
      · rfl
      · exact (hi i hp).2 a
    · exact (hi i hp).2 a

theorem reachable_unborn {cfg : Config} {s : St} (h : Reachable cfg s) :
    ∀ p, s.world.polls p = none → s.votes p = [] ∧ ∀ a, aget (s.locks a) p = none := moved_unborn h.moved

theorem maxLockN_cons (e : PollIx × Vote) (l : List (PollIx × Vote)) :
    maxLockN (e :: l) = max (maxLockN l) (lockN e.2) := rfl
theorem maxLockA_cons (k : AssetKey) (e : PollIx × Vote) (l : List (PollIx × Vote)) :
    maxLockA k (e :: l) = max (maxLockA k l) (lockA k e.2) := rfl

theorem le_maxLockN {l : List (PollIx × Vote)} {e : PollIx × Vote} (h : e ∈ l) : lockN e.2 ≤ maxLockN l := by
  induction l with
  | nil => cases h
  | cons x l ih =>
    simp only [maxLockN, List.foldr_cons]
    rcases List.mem_cons.1 h with rfl | h
    · exact Nat.le_max_right _ _
    · exact Nat.le_trans (ih h) (Nat.le_max_left _ _)

theorem le_maxLockA {k : AssetKey} {l : List (PollIx × Vote)} {e : PollIx × Vote} (h : e ∈ l) :
    lockA k e.2 ≤ maxLockA k l := by
  induction l with
  | nil => cases h
  | cons x l ih =>
    simp only [maxLockA, List.foldr_cons]
    rcases List.mem_cons.1 h with rfl | h
    · exact Nat.le_max_right _ _
    · exact Nat.le_trans (ih h) (Nat.le_max_left _ _)

theorem maxLockN_attained (l : List (PollIx × Vote)) : maxLockN l = 0 ∨ ∃ e ∈ l, lockN e.2 = maxLockN l := by
  induction l with
  | nil => exact .inl rfl
  | cons x l ih =>
    rw [maxLockN_cons]
    rcases Nat.le_total (maxLockN l) (lockN x.2) with h | h
    · right; exact ⟨x, by simp, by rw [Nat.max_eq_right h]⟩
    · rw [Nat.max_eq_left h]
      rcases ih with ih | ⟨e, he, h2⟩
      · left; exact ih
      · right; exact ⟨e, List.mem_cons_of_mem _ he, h2⟩

theorem maxLockA_attained (k : AssetKey) (l : List (PollIx × Vote)) :
    maxLockA k l = 0 ∨ ∃ e ∈ l, lockA k e.2 = maxLockA k l := by
  induction l with
  | nil => exact .inl rfl
  | cons x l ih =>
    rw [maxLockA_cons]
    rcases Nat.le_total (maxLockA k l) (lockA k x.2) with h | h
    · right; exact ⟨x, by simp, by rw [Nat.max_eq_right h]⟩
    · rw [Nat.max_eq_left h]
      rcases ih with ih | ⟨e, he, h2⟩
      · left; exact ih
      · right; exact ⟨e, List.mem_cons_of_mem _ he, h2⟩

end Verif.Communities
