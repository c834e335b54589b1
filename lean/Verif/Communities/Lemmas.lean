import Verif.Communities.Model

/-! # Inversion lemmas for the communities pallet -/

namespace Verif.Communities

open Verif Verif.Accounts

theorem bind_ok {α β ε : Type} {x : Except ε α} {f : α → Except ε β} {b : β} (h : (x >>= f) = .ok b) :
    ∃ a, x = .ok a ∧ f a = .ok b := by
  cases x with
  | error e => cases h
  | ok a => exact ⟨a, rfl, h⟩

/-- Everything but locks and freezes is the same. -/
def SameButLocks (s s' : St) : Prop :=
  s'.info = s.info ∧ s'.adminOf = s.adminOf ∧ s'.method = s.method ∧ s'.votes = s.votes ∧
  s'.providers = s.providers ∧ s'.events = s.events ∧ s'.world = s.world

theorem setFrozenN_ok {env : Env} {s s' : St} {who : AccountId} {n : Nat} (h : setFrozenN env s who n = .ok s') :
    n ≤ s.world.native who ∧ s' = { s with frozenN := fun a => if a = who then n else s.frozenN a } := by
  unfold setFrozenN at h
  split at h
  · cases h
  · rename_i h1
    cases h
    exact ⟨by omega, rfl⟩

theorem setFrozenA_ok {env : Env} {s s' : St} {k : AssetKey} {who : AccountId} {n : Nat}
    (h : setFrozenA env s k who n = .ok s') :
    n ≤ s.world.asset k who ∧
    s' = { s with frozenA := fun k' a => if k' = k ∧ a = who then n else s.frozenA k' a } := by
  unfold setFrozenA at h
  split at h
  · cases h
  · rename_i h1
    cases h
    exact ⟨by omega, rfl⟩

theorem updateLocks_same {env : Env} {s s' : St} {who : AccountId} {p : PollIx} {v : Vote} {u : LockUpdate}
    (h : updateLocks env s who p v u = .ok s') : SameButLocks s s' := by
  unfold updateLocks at h
  cases v with
  | standard b =>
    cases u <;> · dsimp only at h; cases h; exact ⟨rfl, rfl, rfl, rfl, rfl, rfl, rfl⟩
  | native b n =>
    cases u <;> · dsimp only at h; obtain ⟨_, rfl⟩ := setFrozenN_ok h; exact ⟨rfl, rfl, rfl, rfl, rfl, rfl, rfl⟩
  | asset b k n =>
    cases u <;> · dsimp only at h; obtain ⟨_, rfl⟩ := setFrozenA_ok h; exact ⟨rfl, rfl, rfl, rfl, rfl, rfl, rfl⟩

/-- The locks after an update: an added balance vote replaces the lock, a removed one deletes it. -/
def locksAfter (l : List (PollIx × Vote)) (p : PollIx) (v : Vote) : LockUpdate → List (PollIx × Vote)
  | .add => match v with | .standard _ => l | _ => aset l p v
  | .remove => match v with | .standard _ => l | _ => adel l p

theorem updateLocks_locks {env : Env} {s s' : St} {who : AccountId} {p : PollIx} {v : Vote} {u : LockUpdate}
    (h : updateLocks env s who p v u = .ok s') (a : AccountId) :
    s'.locks a = if a = who then locksAfter (s.locks a) p v u else s.locks a := by
  unfold updateLocks at h
  cases v with
  | standard b => cases u <;> · dsimp only at h; cases h; simp [locksAfter]
  | native b n =>
    cases u <;> · dsimp only at h; obtain ⟨_, rfl⟩ := setFrozenN_ok h; simp [locksAfter]
  | asset b k n =>
    cases u <;> · dsimp only at h; obtain ⟨_, rfl⟩ := setFrozenA_ok h; simp [locksAfter]

theorem updateLocks_frozenN {env : Env} {s s' : St} {who : AccountId} {p : PollIx} {v : Vote} {u : LockUpdate}
    (h : updateLocks env s who p v u = .ok s') (a : AccountId) :
    s'.frozenN a = if a = who then
      (match u, v with
        | .add, .native _ n => max (s.frozenN who) n
        | .remove, .native _ _ => maxLockN (adel (s.locks who) p)
        | _, _ => s.frozenN a)
      else s.frozenN a := by
  unfold updateLocks at h
  cases v with
  | standard b => cases u <;> · dsimp only at h; cases h; simp
  | native b n =>
    cases u <;> · dsimp only at h; obtain ⟨_, rfl⟩ := setFrozenN_ok h; simp
  | asset b k n =>
    cases u <;> · dsimp only at h; obtain ⟨_, rfl⟩ := setFrozenA_ok h; simp

theorem updateLocks_frozenA {env : Env} {s s' : St} {who : AccountId} {p : PollIx} {v : Vote} {u : LockUpdate}
    (h : updateLocks env s who p v u = .ok s') (k : AssetKey) (a : AccountId) :
    s'.frozenA k a = if a = who then
      (match u, v with
        | .add, .asset _ k' n => if k = k' then max (s.frozenA k who) n else s.frozenA k a
        | .remove, .asset _ k' _ => if k = k' then maxLockA k (adel (s.locks who) p) else s.frozenA k a
        | _, _ => s.frozenA k a)
      else s.frozenA k a := by
  unfold updateLocks at h
  cases v with
  | standard b => cases u <;> · dsimp only at h; cases h; simp
  | native b n =>
    cases u <;> · dsimp only at h; obtain ⟨_, rfl⟩ := setFrozenN_ok h; simp
  | asset b k' n =>
    cases u
    · dsimp only at h; obtain ⟨_, rfl⟩ := setFrozenA_ok h
      by_cases h1 : a = who <;> by_cases h2 : k = k' <;> simp_all
    · dsimp only at h; obtain ⟨_, rfl⟩ := setFrozenA_ok h
      by_cases h1 : a = who <;> by_cases h2 : k = k' <;> simp_all

/-- Adding a balance lock needs that much balance. -/
theorem updateLocks_add_balance {env : Env} {s s' : St} {who : AccountId} {p : PollIx} {v : Vote}
    (h : updateLocks env s who p v .add = .ok s') :
    lockN v ≤ s.world.native who ∧ ∀ k, lockA k v ≤ s.world.asset k who := by
  unfold updateLocks at h
  cases v with
  | standard b => simp [lockN, lockA]
  | native b n =>
    dsimp only at h; obtain ⟨h1, _⟩ := setFrozenN_ok h
    simp only [lockN, lockA]
    dsimp only at h1
    exact ⟨by omega, fun _ => Nat.zero_le _⟩
  | asset b k' n =>
    dsimp only at h; obtain ⟨h1, _⟩ := setFrozenA_ok h
    simp only [lockN, lockA]
    dsimp only at h1
    refine ⟨Nat.zero_le _, fun k => ?_⟩
    split
    · subst_vars; omega
    · omega

/-- The state between the tally update and the lock update of `try_vote`. -/
def voted (s : St) (c : CId) (who : AccountId) (m : MId) (p : PollIx) (v : Vote) (t : Tally) : St :=
  let s1 := setPoll s p
    (.ongoing (t.addVote v.say (mul32 (multiplier s (s.method c) c m) v.weight) v.weight) c)
  { s1 with votes := fun i => if i = p then aset (s1.votes i) m (v, who) else s1.votes i }

theorem checkVote_say {v : Vote} {dm : Method} {b : Bool} (h : checkVote v dm = .ok b) : b = v.say := by
  unfold checkVote at h
  split at h
  · split at h
    · split at h
      · cases h
      · cases h; rfl
    · cases h
  all_goals first | (cases h; rfl) | cases h

theorem tryVote_ok {env : Env} {s s' : St} {c : CId} {dm : Method} {who : AccountId} {m : MId} {p : PollIx}
    {v : Vote} (h : tryVote env s c dm who m p v = .ok s') :
    ∃ t, s.world.polls p = some (.ongoing t c) ∧ checkVote v dm = .ok v.say ∧
      updateLocks env (voted s c who m p v t) who p v .add = .ok s' := by
  unfold tryVote at h
  split at h
  · rename_i t cls h1
    split at h
    · cases h
    · rename_i h2
      have h2 : c = cls := by simpa using h2
      subst h2
      obtain ⟨say, h3, h4⟩ := bind_ok h
      have := checkVote_say h3
      subst this
      exact ⟨t, h1, h3, h4⟩
  · cases h

/-- The state between the tally update and the lock update of `try_remove_vote`. -/
def unvoted (s : St) (c : CId) (dm : Method) (m : MId) (p : PollIx) (v : Vote) (t : Tally) : St :=
  let s1 := setPoll s p
    (.ongoing (t.removeVote v.say (mul32 (multiplier s dm c m) v.weight) v.weight) c)
  { s1 with votes := fun i => if i = p then adel (s1.votes i) m else s1.votes i }

theorem tryRemoveVote_ok {env : Env} {s s' : St} {c : CId} {dm : Method} {m : MId} {p : PollIx}
    (h : tryRemoveVote env s c dm m p = .ok s') :
    ∃ t v voter, s.world.polls p = some (.ongoing t c) ∧ aget (s.votes p) m = some (v, voter) ∧
      updateLocks env (unvoted s c dm m p v t) voter p v .remove = .ok s' := by
  unfold tryRemoveVote at h
  split at h
  · rename_i t cls h1
    split at h
    · cases h
    · rename_i h2
      have h2 : c = cls := by simpa using h2
      subst h2
      split at h
      · cases h
      · rename_i v voter h3
        exact ⟨t, v, voter, h1, h3, h⟩
  · cases h

theorem vote_ok {env : Env} {s s' : St} {o : Origin} {m : MId} {p : PollIx} {v : Vote}
    (h : vote env s o m p v = .ok s') :
    ∃ who c s1 s2, o = .signed who ∧ 0 < v.weight ∧ checkMembership s.world.items who m = some c ∧
      ((aget (s.votes p) m = none ∧ s1 = s) ∨
        ((aget (s.votes p) m).isSome ∧ tryRemoveVote env s c (s.method c) m p = .ok s1)) ∧
      tryVote env s1 c (s.method c) who m p v = .ok s2 ∧ s' = emit s2 (.voteCasted who p v) := by
  unfold vote at h
  split at h
  · cases h
  · rename_i hw
    cases o with
    | signed who =>
      simp only [ensureSigned] at h
      split at h
      · cases h
      · rename_i c hc
        obtain ⟨s1, h1, h2⟩ := bind_ok h
        obtain ⟨s2, h3, h4⟩ := bind_ok h2
        cases h4
        refine ⟨who, c, s1, s2, rfl, by omega, hc, ?_, h3, rfl⟩
        unfold dropVote at h1
        split at h1
        · right; exact ⟨‹_›, h1⟩
        · rename_i h5
          left
          cases h1
          exact ⟨by simpa using h5, rfl⟩
    | root => cases h
    | none => cases h
    | community _ => cases h
    | custom _ => cases h
    | other _ => cases h

theorem removeVote_ok {env : Env} {s s' : St} {o : Origin} {m : MId} {p : PollIx}
    (h : removeVote env s o m p = .ok s') :
    ∃ who c s1, o = .signed who ∧ checkMembership s.world.items who m = some c ∧
      tryRemoveVote env s c (s.method c) m p = .ok s1 ∧ s' = emit s1 (.voteRemoved who p) := by
  unfold removeVote at h
  cases o with
  | signed who =>
    simp only [ensureSigned] at h
    split at h
    · cases h
    · rename_i c hc
      obtain ⟨s1, h1, h2⟩ := bind_ok h
      cases h2
      exact ⟨who, c, s1, rfl, hc, h1, rfl⟩
  | root => cases h
  | none => cases h
  | community _ => cases h
  | custom _ => cases h
  | other _ => cases h

theorem unlock_ok {env : Env} {s s' : St} {o : Origin} {p : PollIx} (h : unlock env s o p = .ok s') :
    ∃ who v, o = .signed who ∧ isOngoing s p = false ∧ aget (s.locks who) p = some v ∧
      updateLocks env s who p v .remove = .ok s' := by
  unfold unlock at h
  cases o with
  | signed who =>
    simp only [ensureSigned] at h
    split at h
    · cases h
    · rename_i h1
      split at h
      · cases h
      · rename_i v hv
        exact ⟨who, v, rfl, by simpa using h1, hv, h⟩
  | root => cases h
  | none => cases h
  | community _ => cases h
  | custom _ => cases h
  | other _ => cases h

theorem transferNative_ok {env : Env} {s s' : St} {src dst : AccountId} {n : Nat}
    (h : transferNative env s src dst n = .ok s') :
    n ≤ s.world.native src ∧ ∃ bal, s' = { s with world := { s.world with native := bal } } ∧
      ∀ a, bal a = (if a = dst then (if a = src then s.world.native a - n else s.world.native a) + n
        else if a = src then s.world.native a - n else s.world.native a) := by
  unfold transferNative at h
  split at h
  · cases h
  · rename_i h1
    cases h
    exact ⟨by omega, _, rfl, fun a => rfl⟩

theorem register_ok {env : Env} {s s' : St} {admin : Origin} {c : CId} {d : Option (Nat × AccountId × AccountId)}
    (h : register env s admin c d = .ok s') :
    s.info c = none ∧ s.adminOf admin = none ∧
    ∃ w, s' = { s with
        adminOf := fun o => if o = admin then some c else s.adminOf o
        info := fun d => if d = c then some .active else s.info d
        providers := fun a => if a = communityAccount c then s.providers a + 1 else s.providers a
        world := w } ∧
      (match d with
        | none => w = s.world
        | some (n, src, dst) => transferNative env s src dst n = .ok { s with world := w }) := by
  unfold register at h
  split at h
  · cases h
  · rename_i h1
    split at h
    · cases h
    · rename_i h2
      obtain ⟨s1, h3, h4⟩ := bind_ok h
      refine ⟨by simpa using h1, by simpa using h2, ?_⟩
      cases h4
      cases d with
      | none => cases h3; exact ⟨s.world, rfl, rfl⟩
      | some x =>
        obtain ⟨n, src, dst⟩ := x
        unfold payDeposit at h3
        obtain ⟨h5, bal, h6, _⟩ := transferNative_ok h3
        subst h6
        exact ⟨_, rfl, h3⟩

/-- A nested call runs as a leaf call with the account of a community as its signer. -/
theorem dispatch_leaf {cfg : Config} {env : Env} {s s' : St} {o : Origin} {call : Call}
    (h : dispatch cfg env s o call = .ok s') :
    ∃ o' leaf, (∀ inner, leaf ≠ .dispatchAsAccount inner) ∧ dispatch cfg env s o' leaf = .ok s' := by
  induction call generalizing o with
  | dispatchAsAccount inner ih =>
    rw [dispatch] at h
    split at h
    · cases h
    · exact ih h
  | _ => exact ⟨o, _, (by intro i hi; cases hi), h⟩

end Verif.Communities
