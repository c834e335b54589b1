import Verif.Communities.RegistryTheorems
import Verif.Communities.TallyTheorems

/-!
# What the events of the communities pallet tell (C181–C183)

Wallets and indexers follow the chain by its events. `Tells` says what the event of each call says; `follow` and
`standing` are what somebody who sees nothing but the events takes the admins and the votes to be.
-/

namespace Verif.Communities

open Verif Verif.Accounts

/-! ## Specification -/

/-- What the one event of a call by `o` says of the states before and after it. Specification only, no code behind it
(outside /repo). -/
inductive Tells (cfg : Config) (s s' : St) : Origin → Call → Event → Prop
  | create {o admin : Origin} {c : CId} (h0 : s.info c = none) (h1 : s'.info c = some .active)
      (h2 : s'.adminOf admin = some c) : Tells cfg s s' o (.create admin c) (.communityCreated c admin)
  | admin {o admin : Origin} {c : CId} (h0 : s.adminOf o = some c) (h1 : s'.adminOf admin = some c) :
      Tells cfg s s' o (.setAdminOrigin admin) (.adminOriginSet c admin)
  | added {o : Origin} {a : Address} {c : CId} {who : AccountId} {m : MId} (h0 : authority cfg s o = some c)
      (h1 : lookup a = some who) (h2 : ∃ i ∈ s'.world.items, i.group = c ∧ i.id = m ∧ i.owner = who) :
      Tells cfg s s' o (.addMember a) (.memberAdded who m)
  | removed {o : Origin} {a : Address} {c : CId} {who : AccountId} {m : MId} (h0 : authority cfg s o = some c)
      (h1 : lookup a = some who) (h2 : c ≠ 0 → ∀ i ∈ s'.world.items, ¬ (i.group = c ∧ i.id = m)) :
      Tells cfg s s' o (.removeMember a m) (.memberRemoved who m)
  | promoted {o : Origin} {c : CId} {m : MId} {r : UInt8} (h0 : authority cfg s o = some c)
      (h1 : rankOf s'.world.items c m = some r) : Tells cfg s s' o (.promote m) (.rankUpdated m r)
  | demoted {o : Origin} {c : CId} {m : MId} {r : UInt8} (h0 : authority cfg s o = some c)
      (h1 : rankOf s.world.items c m = some r) : Tells cfg s s' o (.demote m) (.rankUpdated m r)
  | method {o : Origin} {c : CId} {dm : Method} (h0 : s'.method c = dm) :
      Tells cfg s s' o (.setDecisionMethod c dm) (.decisionMethodSet c)
  | voted {who : AccountId} {m : MId} {p : PollIx} {v : Vote} (h0 : aget (s'.votes p) m = some (v, who)) :
      Tells cfg s s' (.signed who) (.vote m p v) (.voteCasted who p v)
  | unvoted {who : AccountId} {m : MId} {p : PollIx} (h0 : aget (s.votes p) m ≠ none)
      (h1 : aget (s'.votes p) m = none) : Tells cfg s s' (.signed who) (.removeVote m p) (.voteRemoved who p)
  | nested {o : Origin} {c : CId} {call : Call} {e : Event} (h0 : authority cfg s o = some c)
      (h1 : Tells cfg s s' (.signed (communityAccount c)) call e) : Tells cfg s s' o (.dispatchAsAccount call) e

/-- The calls without an event of this pallet: `unlock`, calls of other pallets, and these made as the community's account.
Specification only, no code behind it (outside /repo). -/
def Call.Silent : Call → Prop
  | .unlock _ => True
  | .foreign _ => True
  | .dispatchAsAccount call => call.Silent
  | _ => False

/-- What somebody who took `k` for the admins takes them for after an event. Specification only, no code behind it
(outside /repo). -/
def follow (k : Origin → Option CId) : Event → Origin → Option CId
  | .communityCreated c o => fun x => if x = o then some c else k x
  | .adminOriginSet c o => fun x => if x = o then some c else if k x = some c then none else k x
  | _ => k

/-- The same for many events, the newest first. Specification only, no code behind it (outside /repo). -/
def followAll (k : Origin → Option CId) : List Event → Origin → Option CId
  | [] => k
  | e :: l => follow (followAll k l) e

/-- The vote of an account on a poll, going by the events, the newest first. Specification only, no code behind it (outside
/repo). -/
def standing (p : PollIx) (a : AccountId) : List Event → Option Vote
  | [] => none
  | .voteCasted who q v :: l => if q = p ∧ who = a then some v else standing p a l
  | .voteRemoved who q :: l => if q = p ∧ who = a then none else standing p a l
  | _ :: l => standing p a l

/-- A history all of whose states are as `P` says. Part of the transition system around the code (outside /repo). -/
inductive Through (cfg : Config) (P : St → Prop) : St → St → Prop
  | refl {s : St} (h : P s) : Through cfg P s s
  | tail {s s' s'' : St} (h : Through cfg P s s') (st : Step cfg s' s'') (hp : P s'') : Through cfg P s s''

/-- In this state only accounts of `own` vote on poll `p`, each with the membership `own` says, and `p` is a poll of `cls`.
Specification only, no code behind it (outside /repo). -/
def VotesAs (own : MId → Option AccountId) (p : PollIx) (cls : CId) (s : St) : Prop :=
  (∀ who m, checkMembership s.world.items who m = some cls → own m = some who) ∧
    ∀ t c, s.world.polls p = some (.ongoing t c) → c = cls

/-! ## Lemmas -/

theorem tryVote_events {env : Env} {s s' : St} {c : CId} {dm : Method} {who : AccountId} {m : MId} {p : PollIx}
    {v : Vote} (h : tryVote env s c dm who m p v = .ok s') : s'.events = s.events := by
  obtain ⟨t, _, _, h3⟩ := tryVote_ok h
  obtain ⟨_, _, _, _, _, g6, _⟩ := updateLocks_same h3
  exact g6

theorem tryRemoveVote_events {env : Env} {s s' : St} {c : CId} {dm : Method} {m : MId} {p : PollIx}
    (h : tryRemoveVote env s c dm m p = .ok s') : s'.events = s.events := by
  obtain ⟨t, v, w, _, _, h3⟩ := tryRemoveVote_ok h
  obtain ⟨_, _, _, _, _, g6, _⟩ := updateLocks_same h3
  exact g6

theorem register_events {env : Env} {s s' : St} {admin : Origin} {c : CId}
    {d : Option (Nat × AccountId × AccountId)} (h : register env s admin c d = .ok s') : s'.events = s.events := by
  obtain ⟨_, _, w, rfl, _⟩ := register_ok h
  rfl

/-- The effect of a vote on the record of votes and on the events. -/
theorem vote_record {env : Env} {s s' : St} {o : Origin} {m : MId} {p : PollIx} {v : Vote}
    (h : vote env s o m p v = .ok s') :
    ∃ who c, o = .signed who ∧ checkMembership s.world.items who m = some c ∧
      (∃ t, s.world.polls p = some (.ongoing t c)) ∧
      (∀ i n, aget (s'.votes i) n = if i = p ∧ n = m then some (v, who) else aget (s.votes i) n) ∧
      s'.events = .voteCasted who p v :: s.events := by
  obtain ⟨who, c, s1, s2, ho, _, hc, h1, h2, rfl⟩ := vote_ok h
  have h3 := tryVote_events h2
  obtain ⟨t, _, hcast⟩ := tryVote_cast h2
  have hv : ∀ i n, aget (s2.votes i) n = if i = p ∧ n = m then some (v, who) else aget (s1.votes i) n := by
    intro i n
    rw [hcast.votes i]
    by_cases hi : i = p
    · rw [if_pos hi, aget_aset]
      simp [hi]
    · simp [hi]
  rcases h1 with ⟨_, rfl⟩ | ⟨_, h1⟩
  · exact ⟨who, c, ho, hc, ⟨t, hcast.poll⟩, hv, by simp only [emit]; rw [h3]⟩
  · obtain ⟨t', u, w, hu⟩ := tryRemoveVote_uncast h1
    refine ⟨who, c, ho, hc, ⟨t', hu.poll⟩, fun i n => ?_, by simp only [emit]; rw [h3, tryRemoveVote_events h1]⟩
    show aget (s2.votes i) n = _
    rw [hv i n, hu.votes i]
    by_cases hi : i = p
    · rw [if_pos hi, aget_adel]
      by_cases hn : n = m <;> simp [hi, hn]
    · simp [hi]

/-- The effect of taking a vote back on the record of votes and on the events. -/
theorem removeVote_record {env : Env} {s s' : St} {o : Origin} {m : MId} {p : PollIx}
    (h : removeVote env s o m p = .ok s') :
    ∃ who c, o = .signed who ∧ checkMembership s.world.items who m = some c ∧
      (∃ t, s.world.polls p = some (.ongoing t c)) ∧ aget (s.votes p) m ≠ none ∧
      (∀ i n, aget (s'.votes i) n = if i = p ∧ n = m then none else aget (s.votes i) n) ∧
      s'.events = .voteRemoved who p :: s.events := by
  obtain ⟨who, c, s1, ho, hc, h1, rfl⟩ := removeVote_ok h
  obtain ⟨t', u, w, hu⟩ := tryRemoveVote_uncast h1
  refine ⟨who, c, ho, hc, ⟨t', hu.poll⟩, by rw [hu.recorded]; simp, fun i n => ?_,
    by simp only [emit]; rw [tryRemoveVote_events h1]⟩
  show aget (s1.votes i) n = _
  rw [hu.votes i]
  by_cases hi : i = p
  · rw [if_pos hi, aget_adel]
    by_cases hn : n = m <;> simp [hi, hn]
  · simp [hi]

/-! ## C181 -/

/-- C181, what holds: every successful call of the pallet other than `unlock`, also one made as a community's account, adds
exactly one event, which says what happened. (That the event of a demotion has the rank before it is C47, that of a removal
the account named is C46.) Missing: `unlock`, see below. -/
theorem C181_one_event_partial (cfg : Config) (env : Env) (he : MgmtLaws env) (s s' : St) (o : Origin) (call : Call)
    (h : dispatch cfg env s o call = .ok s') (hs : ¬ call.Silent) :
    ∃ e, s'.events = e :: s.events ∧ Tells cfg s s' o call e := by
  induction call generalizing o with
  | create admin c =>
    obtain ⟨d, s1, _, hr, rfl⟩ := create_ok h
    obtain ⟨h1, _, w, rfl, _⟩ := register_ok hr
    exact ⟨_, rfl, .create h1 (by simp [emit]) (by simp [emit])⟩
  | setAdminOrigin admin =>
    obtain ⟨c, _, h2, rfl⟩ := setAdminOrigin_ok h
    exact ⟨_, rfl, .admin h2 (by simp [emit])⟩
  | addMember a =>
    obtain ⟨c, who, g, m, items, h1, h2, _, h4, rfl⟩ := addMember_ok h
    exact ⟨_, rfl, .added h1 h2 (he.assigned h4)⟩
  | removeMember a m =>
    obtain ⟨c, who, items, h1, h2, _, h4, rfl⟩ := removeMember_ok h
    exact ⟨_, rfl, .removed h1 h2 fun hc => (he.released h4 hc).2⟩
  | promote m =>
    obtain ⟨c, r, h1, h2, rfl⟩ := promote_ok h
    exact ⟨_, rfl, .promoted h1 (rankOf_setRank_self _ h2)⟩
  | demote m =>
    obtain ⟨c, r, h1, h2, rfl⟩ := demote_ok h
    exact ⟨_, rfl, .demoted h1 h2⟩
  | setDecisionMethod c dm =>
    obtain ⟨_, mins, teams, rfl⟩ := setDecisionMethod_ok h
    exact ⟨_, rfl, .method (by simp [emit])⟩
  | vote m p v =>
    obtain ⟨who, c, rfl, _, _, h4, h5⟩ := vote_record (show vote env s o m p v = .ok s' from h)
    exact ⟨_, h5, .voted (by rw [h4, if_pos ⟨rfl, rfl⟩])⟩
  | removeVote m p =>
    obtain ⟨who, c, rfl, _, _, h3, h4, h5⟩ := removeVote_record (show removeVote env s o m p = .ok s' from h)
    exact ⟨_, h5, .unvoted h3 (by rw [h4, if_pos ⟨rfl, rfl⟩])⟩
  | unlock p => exact absurd trivial hs
  | foreign n => exact absurd trivial hs
  | dispatchAsAccount call ih =>
    rw [dispatch] at h
    split at h
    · cases h
    · rename_i c hc
      obtain ⟨e, h1, h2⟩ := ih _ h hs
      exact ⟨e, h1, .nested hc h2⟩

/-- C181: the other calls add none. -/
theorem C181_silent (cfg : Config) (env : Env) (s s' : St) (o : Origin) (call : Call)
    (h : dispatch cfg env s o call = .ok s') (hs : call.Silent) : s'.events = s.events := by
  induction call generalizing o with
  | unlock p =>
    obtain ⟨who, v, _, _, _, h3⟩ := unlock_ok (show unlock env s o p = .ok s' from h)
    obtain ⟨_, _, _, _, _, g6, _⟩ := updateLocks_same h3
    exact g6
  | foreign n =>
    rw [dispatch] at h
    split at h
    · cases h
    · cases h; rfl
  | dispatchAsAccount call ih =>
    rw [dispatch] at h
    split at h
    · cases h
    · exact ih _ h hs
  | _ => exact absurd hs (fun x => x)

namespace Demo

/-- The chain of `Demo.chain`, where community 1 decides with native tokens. Example for non-vacuity (outside /repo). -/
def nativeChain : St := after kreivo env chain [(.signed alice, .setDecisionMethod 1 .native),
  (.signed alice, .vote 1 0 (.native true 10))]

/-- The same, and its poll is over. Example for non-vacuity (outside /repo). -/
def overChain : St :=
  { nativeChain with world := { nativeChain.world with
    polls := fun p => if p = 0 then some .ended else nativeChain.world.polls p } }

theorem pollsMove_end (w : World) (q : PollIx) (t : Tally) (c : CId) (h : w.polls q = some (.ongoing t c)) :
    PollsMove w { w with polls := fun p => if p = q then some .ended else w.polls p } := by
  intro p
  by_cases hp : p = q
  · subst hp
    rw [h]
    right; simp
  · simp only [if_neg hp]
    cases w.polls p with
    | none => exact .inl rfl
    | some x => cases x with
      | ended => rfl
      | ongoing t c => exact .inl rfl

theorem overChain_reachable : Reachable kreivo overChain :=
  (after_reachable env_lawful (chain_reachable kreivo) _).step
    (Step.world _ (pollsMove_end nativeChain.world 0 ⟨10, 0, 10⟩ 1 (by decide +kernel)))

end Demo

/-- C181 fails: `unlock` sets frozen funds free and drops the record of the lock, and no event says so. -/
theorem C181_unlock_fails :
    ∃ (s s' : St), Reachable kreivo s ∧ dispatch kreivo Demo.env s (.signed Demo.alice) (.unlock 0) = .ok s' ∧
      s.frozenN Demo.alice = 10 ∧ s'.frozenN Demo.alice = 0 ∧ s.locks Demo.alice ≠ [] ∧ s'.locks Demo.alice = [] ∧
      s'.events = s.events :=
  ⟨Demo.overChain, _, Demo.overChain_reachable, rfl, by decide +kernel, by decide +kernel, by decide +kernel,
    by decide +kernel, rfl⟩

example : ∃ s', dispatch kreivo Demo.env Demo.chain (.signed (communityAccount 1)) (.dispatchAsAccount (.setDecisionMethod 1 .rank))
    = .ok s' ∧ s'.events = [.decisionMethodSet 1] ∧ ¬ (Call.dispatchAsAccount (.setDecisionMethod 1 .rank)).Silent :=
  ⟨_, rfl, rfl, fun h => h⟩
example : MgmtLaws Demo.env := Demo.env_laws

/-! ## C182 -/

/-- What somebody takes the admins to be who starts from `s.adminOf`, then sees the events of the pallet, and the transactions
by which communities are registered, but nothing else. Part of the transition system around the code (outside /repo). -/
inductive Followed (cfg : Config) (g : St) : St → (Origin → Option CId) → Prop
  | start : Followed cfg g g g.adminOf
  | call {s s' : St} {k : Origin → Option CId} {new : List Event} (h : Followed cfg g s k) (env : Env) (he : Lawful env)
      (o : Origin) (c : Call) (hc : dispatch cfg env s o c = .ok s') (hn : s'.events = new ++ s.events) :
      Followed cfg g s' (followAll k new)
  | register {s s' : St} {k : Origin → Option CId} (h : Followed cfg g s k) (env : Env) (admin : Origin) (c : CId)
      (d : Option (Nat × AccountId × AccountId)) (hr : register env s admin c d = .ok s') :
      Followed cfg g s' (fun x => if x = admin then some c else k x)
  | force {s : St} {k : Origin → Option CId} (h : Followed cfg g s k) (c : CId) (st : CState) :
      Followed cfg g (forceState s c st) k
  | world {s : St} {k : Origin → Option CId} (h : Followed cfg g s k) (w : World) (hw : PollsMove s.world w) :
      Followed cfg g { s with world := w } k

/-- The events of a call tell how it changes the admins. -/
theorem call_follow {cfg : Config} {env : Env} {s s' : St} (hr : Reachable cfg s) {o : Origin} {call : Call}
    {new : List Event} (h : dispatch cfg env s o call = .ok s') (hn : s'.events = new ++ s.events) :
    s'.adminOf = followAll s.adminOf new := by
  have one : ∀ e, s'.events = e :: s.events → new = [e] := by
    intro e h1
    rw [hn] at h1
    exact List.append_cancel_right (by simpa using h1)
  have none_ : s'.events = s.events → new = [] := by
    intro h1
    rw [hn] at h1
    exact List.append_cancel_right (bs := s.events) (by simpa using h1)
  obtain ⟨o', leaf, hl, h⟩ := dispatch_leaf h
  cases leaf with
  | create admin c =>
    obtain ⟨d, s1, _, h2, rfl⟩ := create_ok h
    obtain ⟨_, _, w, rfl, _⟩ := register_ok h2
    rw [one _ rfl]; rfl
  | setAdminOrigin admin =>
    obtain ⟨c, _, h2, rfl⟩ := setAdminOrigin_ok h
    rw [one _ rfl]
    funext x
    simp only [followAll, follow, emit]
    by_cases hx : x = admin
    · simp [hx]
    · simp only [hx, if_false]
      by_cases ho : x = o'
      · subst ho; simp [h2]
      · have : s.adminOf x ≠ some c := fun e => ho ((C41_one_admin cfg s hr).2 _ _ _ e h2)
        simp [ho, this]
  | addMember a => obtain ⟨_, _, _, _, _, _, _, _, _, rfl⟩ := addMember_ok h; rw [one _ rfl]; rfl
  | removeMember a m => obtain ⟨_, _, _, _, _, _, _, rfl⟩ := removeMember_ok h; rw [one _ rfl]; rfl
  | promote m => obtain ⟨_, _, _, _, rfl⟩ := promote_ok h; rw [one _ rfl]; rfl
  | demote m => obtain ⟨_, _, _, _, rfl⟩ := demote_ok h; rw [one _ rfl]; rfl
  | setDecisionMethod d dm => obtain ⟨_, _, _, rfl⟩ := setDecisionMethod_ok h; rw [one _ rfl]; rfl
  | vote m p v =>
    have h1 := (vote_registry h).2.1
    obtain ⟨_, _, _, _, _, _, h5⟩ := vote_record (show vote env s o' m p v = .ok s' from h)
    rw [one _ h5, h1]; rfl
  | removeVote m p =>
    have h1 := (removeVote_registry h).2.1
    obtain ⟨_, _, _, _, _, _, _, h5⟩ := removeVote_record (show removeVote env s o' m p = .ok s' from h)
    rw [one _ h5, h1]; rfl
  | unlock p =>
    have h1 := (unlock_registry h).2.1
    rw [none_ (C181_silent cfg env s s' o' _ h trivial), h1]; rfl
  | dispatchAsAccount i => exact absurd rfl (hl i)
  | foreign n =>
    rw [none_ (C181_silent cfg env s s' o' _ h trivial)]
    rw [dispatch] at h
    split at h
    · cases h
    · cases h; rfl

/-- C182, what holds: whoever follows the events, and the transactions that register communities, always knows exactly which
origin administers which community. Missing: the first admin of a community is in no event, see
`C182_first_admin_fails`. -/
theorem C182_admins_partial (cfg : Config) (g s : St) (k : Origin → Option CId) (hg : Reachable cfg g)
    (h : Followed cfg g s k) : s.adminOf = k := by
  have both : s.adminOf = k ∧ Reachable cfg s := by
    induction h with
    | start => exact ⟨rfl, hg⟩
    | call _ env he o c hc hn ih =>
      obtain ⟨h1, h2⟩ := ih
      refine ⟨?_, h2.step (.call env he o c hc)⟩
      rw [call_follow h2 hc hn, h1]
    | register _ env admin c d hr ih =>
      obtain ⟨h1, h2⟩ := ih
      refine ⟨?_, h2.step (.register env admin c d hr)⟩
      obtain ⟨_, _, w, rfl, _⟩ := register_ok hr
      funext x
      simp only [h1]
    | force _ c st ih => exact ⟨ih.1, ih.2.step (.force c st)⟩
    | world _ w hw ih => exact ⟨ih.1, ih.2.step (.world w hw)⟩
  exact both.1

/-- C182: each call's events can be told apart from earlier ones: a call only adds events. -/
theorem C182_events_stay (cfg : Config) (s s' : St) (h : Step cfg s s') : ∃ new, s'.events = new ++ s.events ∧ new.length ≤ 1 := by
  cases h with
  | call env he o c h =>
    obtain ⟨o', leaf, hl, h⟩ := dispatch_leaf h
    cases leaf with
    | create admin c =>
      obtain ⟨d, s1, _, h2, rfl⟩ := create_ok h
      obtain ⟨_, _, w, rfl, _⟩ := register_ok h2
      exact ⟨[_], rfl, Nat.le_refl _⟩
    | setAdminOrigin admin => obtain ⟨_, _, _, rfl⟩ := setAdminOrigin_ok h; exact ⟨[_], rfl, Nat.le_refl _⟩
    | addMember a => obtain ⟨_, _, _, _, _, _, _, _, _, rfl⟩ := addMember_ok h; exact ⟨[_], rfl, Nat.le_refl _⟩
    | removeMember a m => obtain ⟨_, _, _, _, _, _, _, rfl⟩ := removeMember_ok h; exact ⟨[_], rfl, Nat.le_refl _⟩
    | promote m => obtain ⟨_, _, _, _, rfl⟩ := promote_ok h; exact ⟨[_], rfl, Nat.le_refl _⟩
    | demote m => obtain ⟨_, _, _, _, rfl⟩ := demote_ok h; exact ⟨[_], rfl, Nat.le_refl _⟩
    | setDecisionMethod d dm => obtain ⟨_, _, _, rfl⟩ := setDecisionMethod_ok h; exact ⟨[_], rfl, Nat.le_refl _⟩
    | vote m p v =>
      obtain ⟨_, _, _, _, _, _, h5⟩ := vote_record (show vote env s o' m p v = .ok s' from h)
      exact ⟨[_], h5, Nat.le_refl _⟩
    | removeVote m p =>
      obtain ⟨_, _, _, _, _, _, _, h5⟩ := removeVote_record (show removeVote env s o' m p = .ok s' from h)
      exact ⟨[_], h5, Nat.le_refl _⟩
    | unlock p => exact ⟨[], C181_silent cfg env s s' o' _ h trivial, Nat.zero_le _⟩
    | dispatchAsAccount i => exact absurd rfl (hl i)
    | foreign n => exact ⟨[], C181_silent cfg env s s' o' _ h trivial, Nat.zero_le _⟩
  | register env admin c d h => exact ⟨[], register_events h, Nat.zero_le _⟩
  | force c st => exact ⟨[], rfl, Nat.zero_le _⟩
  | world w h => exact ⟨[], rfl, Nat.zero_le _⟩

/-- Two registered communities, one of which is handed over: the admins as followed. -/
example : ∃ s', dispatch kreivo Demo.env Demo.chain (.signed Demo.alice) (.setAdminOrigin (.signed Demo.charlie)) = .ok s' ∧
    Followed kreivo Demo.chain s' (followAll Demo.chain.adminOf [.adminOriginSet 1 (.signed Demo.charlie)]) ∧
    followAll Demo.chain.adminOf [.adminOriginSet 1 (.signed Demo.charlie)] (.signed Demo.charlie) = some 1 ∧
    followAll Demo.chain.adminOf [.adminOriginSet 1 (.signed Demo.charlie)] (.signed Demo.alice) = none ∧
    followAll Demo.chain.adminOf [.adminOriginSet 1 (.signed Demo.charlie)] (.signed Demo.bob) = some 2 :=
  ⟨_, rfl, .call .start Demo.env Demo.env_lawful (.signed Demo.alice) (.setAdminOrigin (.signed Demo.charlie)) rfl rfl, by decide, by decide, by decide⟩

/-! ## C183 -/

/-- One step keeps the record of votes on a poll what the events say. -/
theorem standing_step {cfg : Config} {own : MId → Option AccountId} (hinj : ∀ m n a, own m = some a → own n = some a → m = n)
    {p : PollIx} {cls : CId} {s s' : St} (hP : VotesAs own p cls s)
    (hi : ∀ m, (aget (s.votes p) m).map Prod.fst = (own m).bind fun a => standing p a s.events) (st : Step cfg s s') :
    ∀ m, (aget (s'.votes p) m).map Prod.fst = (own m).bind fun a => standing p a s'.events := by
  have skip : ∀ e, s'.votes = s.votes → s'.events = e :: s.events →
      (∀ a, standing p a (e :: s.events) = standing p a s.events) →
      ∀ m, (aget (s'.votes p) m).map Prod.fst = (own m).bind fun a => standing p a s'.events := by
    intro e h1 h2 h3 m
    rw [h1, h2, hi m]
    simp only [h3]
  have same : s'.votes = s.votes → s'.events = s.events →
      ∀ m, (aget (s'.votes p) m).map Prod.fst = (own m).bind fun a => standing p a s'.events := by
    intro h1 h2 m
    rw [h1, h2]; exact hi m
  cases st with
  | call env he o c h =>
    obtain ⟨o', leaf, hl, h⟩ := dispatch_leaf h
    cases leaf with
    | create admin c =>
      obtain ⟨d, s1, _, h2, rfl⟩ := create_ok h
      obtain ⟨_, _, w, rfl, _⟩ := register_ok h2
      exact skip _ rfl rfl (fun _ => rfl)
    | setAdminOrigin admin => obtain ⟨_, _, _, rfl⟩ := setAdminOrigin_ok h; exact skip _ rfl rfl (fun _ => rfl)
    | addMember a => obtain ⟨_, _, _, _, _, _, _, _, _, rfl⟩ := addMember_ok h; exact skip _ rfl rfl (fun _ => rfl)
    | removeMember a m => obtain ⟨_, _, _, _, _, _, _, rfl⟩ := removeMember_ok h; exact skip _ rfl rfl (fun _ => rfl)
    | promote m => obtain ⟨_, _, _, _, rfl⟩ := promote_ok h; exact skip _ rfl rfl (fun _ => rfl)
    | demote m => obtain ⟨_, _, _, _, rfl⟩ := demote_ok h; exact skip _ rfl rfl (fun _ => rfl)
    | setDecisionMethod d dm =>
      obtain ⟨_, _, _, rfl⟩ := setDecisionMethod_ok h; exact skip _ rfl rfl (fun _ => rfl)
    | vote m q v =>
      obtain ⟨who, c, _, hc, ⟨t, ht⟩, h4, h5⟩ := vote_record (show vote env s o' m q v = .ok s' from h)
      intro n
      rw [h4, h5]
      by_cases hq : p = q
      · subst hq
        have hcls := hP.2 t c ht
        subst hcls
        have hown := hP.1 who m hc
        by_cases hn : n = m
        · subst hn
          simp [hown, standing]
        · have : ∀ a, own n = some a → a ≠ who := fun a h1 h2 => hn (hinj n m who (h2 ▸ h1) hown)
          rw [if_neg (by simp [hn]), hi n]
          cases hon : own n with
          | none => rfl
          | some a =>
            have h6 := this a hon
            simp [standing, Ne.symm h6]
      · rw [if_neg (by simp [hq]), hi n]
        simp [standing, Ne.symm hq]
    | removeVote m q =>
      obtain ⟨who, c, _, hc, ⟨t, ht⟩, _, h4, h5⟩ := removeVote_record (show removeVote env s o' m q = .ok s' from h)
      intro n
      rw [h4, h5]
      by_cases hq : p = q
      · subst hq
        have hcls := hP.2 t c ht
        subst hcls
        have hown := hP.1 who m hc
        by_cases hn : n = m
        · subst hn
          simp [hown, standing]
        · have : ∀ a, own n = some a → a ≠ who := fun a h1 h2 => hn (hinj n m who (h2 ▸ h1) hown)
          rw [if_neg (by simp [hn]), hi n]
          cases hon : own n with
          | none => rfl
          | some a =>
            have h6 := this a hon
            simp [standing, Ne.symm h6]
      · rw [if_neg (by simp [hq]), hi n]
        simp [standing, Ne.symm hq]
    | unlock q =>
      obtain ⟨_, _, _, hu⟩ := unlock_unlocked (show unlock env s o' q = .ok s' from h)
      exact same hu.votes (C181_silent cfg env s s' o' _ h trivial)
    | dispatchAsAccount i => exact absurd rfl (hl i)
    | foreign n =>
      have h1 := C181_silent cfg env s s' o' _ h trivial
      refine same ?_ h1
      rw [dispatch] at h
      split at h
      · cases h
      · cases h; rfl
  | register env admin c d h =>
    obtain ⟨_, _, w, rfl, _⟩ := register_ok h
    exact same rfl rfl
  | force c st => exact same rfl rfl
  | world w h => exact same rfl rfl

/-- C183, what holds: if all along each account votes on the poll with one membership, and each membership is voted with by one
account, then the votes on record are exactly those the events tell: of each membership the last vote of its account that
was not taken back, and no other. Missing: accounts with several memberships, see below. -/
theorem C183_votes_partial (cfg : Config) (g s : St) (own : MId → Option AccountId)
    (hinj : ∀ m n a, own m = some a → own n = some a → m = n) (p : PollIx) (cls : CId) (hg : Genesis g)
    (he : g.events = []) (h : Through cfg (VotesAs own p cls) g s) (m : MId) :
    (aget (s.votes p) m).map Prod.fst = (own m).bind fun a => standing p a s.events := by
  have both : VotesAs own p cls s ∧
      ∀ m, (aget (s.votes p) m).map Prod.fst = (own m).bind fun a => standing p a s.events := by
    induction h with
    | refl hp =>
      refine ⟨hp, fun m => ?_⟩
      rw [hg.2.2.1 p, he]
      cases own m <;> rfl
    | tail _ st hp ih => exact ⟨hp, standing_step hinj ih.1 ih.2 st⟩
  exact both.2 m

namespace Demo

/-- Alice has two memberships of community 1, whose poll 0 is open. Example for non-vacuity (outside /repo). -/
def cards : St := { chain with world := { world1 with items := [⟨1, 1, alice, 0⟩, ⟨1, 2, alice, 4⟩] } }

theorem cards_reachable : Reachable kreivo cards :=
  (chain_reachable kreivo).step (Step.world _ (pollsMove_of_eq rfl))

/-- Alice votes aye with the one and nay with the other, and takes the vote of `m` back. Example for non-vacuity (outside
/repo). -/
def takenBack (m : MId) : St := after kreivo env cards [(.signed alice, .vote 1 0 (.standard true)),
  (.signed alice, .vote 2 0 (.standard false)), (.signed alice, .removeVote m 0)]

end Demo

/-- C183 fails: alice votes aye with one membership and nay with the other, and takes one vote back. The events are the same
whichever it was, but once it is an aye that stands, and once a nay. -/
theorem C183_votes_fails :
    ∃ (s s' : St), Reachable kreivo s ∧ Reachable kreivo s' ∧ s.events = s'.events ∧
      s.world.polls 0 = some (.ongoing ⟨0, 1, 0⟩ 1) ∧ s'.world.polls 0 = some (.ongoing ⟨1, 0, 1⟩ 1) :=
  ⟨Demo.takenBack 1, Demo.takenBack 2, after_reachable Demo.env_lawful Demo.cards_reachable _,
    after_reachable Demo.env_lawful Demo.cards_reachable _, by decide +kernel, by decide +kernel, by decide +kernel⟩

namespace Demo

/-- Memberships 1 and 2 are alice's and bob's. Example for non-vacuity (outside /repo). -/
def owners (m : MId) : Option AccountId :=
  if m = 1 then some alice else if m = 2 then some bob else if m = 3 then some charlie else none

theorem votesAs_of {s : St} (h : s.world.items = items) (hp : ∀ t c, s.world.polls 0 = some (.ongoing t c) → c = 1) :
    VotesAs owners 0 1 s := by
  refine ⟨fun who m hm => ?_, hp⟩
  rw [h] at hm
  unfold checkMembership at hm
  obtain ⟨i, hi, hg⟩ := Option.map_eq_some_iff.1 hm
  have h1 := List.find?_some hi
  have h2 := List.mem_of_find?_eq_some hi
  simp only [decide_eq_true_eq] at h1
  obtain ⟨rfl, rfl⟩ := h1
  simp only [items, List.mem_cons, List.not_mem_nil, or_false] at h2
  rcases h2 with rfl | rfl | rfl | rfl
  · rfl
  · rfl
  · cases hg
  · cases hg

theorem owners_inj (m n : MId) (a : AccountId) (hm : owners m = some a) (hn : owners n = some a) : m = n := by
  unfold owners at hm hn
  split at hm <;> split at hn
  all_goals (try split at hm) <;> (try split at hn) <;> (try split at hm) <;> (try split at hn)
  all_goals first
    | (subst_vars; rfl)
    | (exfalso; cases hm; done)
    | (exfalso; cases hn; done)
    | (exfalso; rw [← hm] at hn; revert hn; decide)

/-- The chain of `Demo.chain` after both members voted and alice took the vote back and voted again. Example for non-vacuity
(outside /repo). -/
def voted3 : St := after kreivo env chain [(.signed alice, .vote 1 0 (.standard true)),
  (.signed bob, .vote 2 0 (.standard true)), (.signed alice, .removeVote 1 0), (.signed alice, .vote 1 0 (.standard false))]

theorem through_calls {own : MId → Option AccountId} {g s : St} (h : Through kreivo (VotesAs own 0 1) g s)
    (l : List (Origin × Call)) (hl : ∀ k ≤ l.length, VotesAs own 0 1 (after kreivo env s (l.take k))) :
    Through kreivo (VotesAs own 0 1) g (after kreivo env s l) := by
  induction l generalizing s with
  | nil => exact h
  | cons x l ih =>
    obtain ⟨o, c⟩ := x
    have h1 := hl 1 (by simp)
    rw [show List.take 1 ((o, c) :: l) = [(o, c)] from rfl] at h1
    have hrest : ∀ s1, after kreivo env s [(o, c)] = s1 → after kreivo env s ((o, c) :: l) = after kreivo env s1 l := by
      intro s1 e
      subst e
      simp only [after]
      cases dispatch kreivo env s o c <;> rfl
    have hk : ∀ k ≤ l.length, VotesAs own 0 1 (after kreivo env (after kreivo env s [(o, c)]) (l.take k)) := by
      intro k hk
      have := hl (k + 1) (by simp; omega)
      rw [List.take_succ_cons] at this
      have e2 : after kreivo env s ((o, c) :: l.take k) = after kreivo env (after kreivo env s [(o, c)]) (l.take k) := by
        simp only [after]
        cases dispatch kreivo env s o c <;> rfl
      rwa [e2] at this
    rw [hrest _ rfl]
    refine ih ?_ hk
    cases hd : dispatch kreivo env s o c with
    | error e =>
      have : after kreivo env s [(o, c)] = s := by simp only [after, hd]
      rw [this]; exact h
    | ok s' =>
      have : after kreivo env s [(o, c)] = s' := by simp only [after, hd]
      rw [this] at h1 ⊢
      exact .tail h (.call env env_lawful o c hd) h1

theorem chain_through : Through kreivo (VotesAs owners 0 1) start chain := by
  have none_ : ∀ {s : St}, s.world.polls 0 = none → ∀ t c, s.world.polls 0 = some (.ongoing t c) → c = 1 := by
    intro s h t c e; rw [h] at e; cases e
  refine Through.tail (Through.tail (Through.tail (Through.refl (votesAs_of rfl (none_ rfl)))
    (Step.register env (.signed alice) 1 none rfl) (votesAs_of rfl (none_ rfl)))
    (Step.register env (.signed bob) 2 none ?_) (votesAs_of rfl (none_ rfl))) (s' := { chain with world := world0 })
    (Step.world world1 polls_open) (votesAs_of rfl ?_)
  · unfold register payDeposit
    rw [if_neg (by decide), if_neg (by decide)]
    rfl
  · intro t c e; cases e; rfl

theorem voted3_through : Through kreivo (VotesAs owners 0 1) start voted3 := by
  refine through_calls chain_through _ ?_
  intro k hk
  have : k = 0 ∨ k = 1 ∨ k = 2 ∨ k = 3 ∨ k = 4 := by simp at hk; omega
  rcases this with rfl | rfl | rfl | rfl | rfl <;>
  · refine votesAs_of rfl ?_
    intro t c e
    cases e
    rfl

end Demo

/-- Both members voted, alice twice: the record is what the events say. -/
example : Genesis Demo.start ∧ Demo.start.events = [] ∧ Through kreivo (VotesAs Demo.owners 0 1) Demo.start Demo.voted3 ∧
    standing 0 Demo.alice Demo.voted3.events = some (.standard false) ∧
    standing 0 Demo.bob Demo.voted3.events = some (.standard true) ∧
    aget (Demo.voted3.votes 0) 1 = some (.standard false, Demo.alice) :=
  ⟨Demo.start_genesis, rfl, Demo.voted3_through, by decide +kernel, by decide +kernel, by decide +kernel⟩
example : ∀ m n a, Demo.owners m = some a → Demo.owners n = some a → m = n := Demo.owners_inj

end Verif.Communities
