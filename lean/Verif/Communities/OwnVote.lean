import Verif.Communities.EventTheorems

/-!
# C183: what the events tell about the vote of one account

`C183_votes_partial` asks of all accounts that they vote with one membership each. The vote of one account is told by the
events whatever the others do, if this account votes with one membership, and nobody else with that.
-/

namespace Verif.Communities

open Accounts

/-- As long as poll `p` is open, the only membership of its community that account `a` has is `m0`, and nobody else has `m0`.
Specification only, no code behind it (outside /repo). -/
def OwnCard (a : AccountId) (m0 : MId) (p : PollIx) (s : St) : Prop :=
  (∀ t c m, s.world.polls p = some (.ongoing t c) → checkMembership s.world.items a m = some c → m = m0) ∧
    ∀ t c who, s.world.polls p = some (.ongoing t c) → checkMembership s.world.items who m0 = some c → who = a

/-- One step keeps the vote on record what the events say. -/
theorem own_standing_step {cfg : Config} {a : AccountId} {m0 : MId} {p : PollIx} {s s' : St} (hP : OwnCard a m0 p s)
    (hi : (aget (s.votes p) m0).map Prod.fst = standing p a s.events) (st : Step cfg s s') :
    (aget (s'.votes p) m0).map Prod.fst = standing p a s'.events := by
  have skip : ∀ e, s'.votes = s.votes → s'.events = e :: s.events →
      standing p a (e :: s.events) = standing p a s.events →
      (aget (s'.votes p) m0).map Prod.fst = standing p a s'.events := by
    intro e h1 h2 h3
    rw [h1, h2, hi, h3]
  have same : s'.votes = s.votes → s'.events = s.events →
      (aget (s'.votes p) m0).map Prod.fst = standing p a s'.events := by
    intro h1 h2
    rw [h1, h2]; exact hi
  cases st with
  | call env he o c h =>
    obtain ⟨o', leaf, hl, h⟩ := dispatch_leaf h
    cases leaf with
    | create admin c =>
      obtain ⟨d, s1, _, h2, rfl⟩ := create_ok h
      obtain ⟨_, _, w, rfl, _⟩ := register_ok h2
      exact skip _ rfl rfl rfl
    | setAdminOrigin admin => obtain ⟨_, _, _, rfl⟩ := setAdminOrigin_ok h; exact skip _ rfl rfl rfl
    | addMember a => obtain ⟨_, _, _, _, _, _, _, _, _, rfl⟩ := addMember_ok h; exact skip _ rfl rfl rfl
    | removeMember a m => obtain ⟨_, _, _, _, _, _, _, rfl⟩ := removeMember_ok h; exact skip _ rfl rfl rfl
    | promote m => obtain ⟨_, _, _, _, rfl⟩ := promote_ok h; exact skip _ rfl rfl rfl
    | demote m => obtain ⟨_, _, _, _, rfl⟩ := demote_ok h; exact skip _ rfl rfl rfl
    | setDecisionMethod d dm =>
      obtain ⟨_, _, _, rfl⟩ := setDecisionMethod_ok h; exact skip _ rfl rfl rfl
    | vote m q v =>
      obtain ⟨who, c, _, hc, ⟨t, ht⟩, h4, h5⟩ := vote_record (show vote env s o' m q v = .ok s' from h)
      rw [h4, h5]
      by_cases hq : p = q
      · subst hq
        by_cases hn : m0 = m
        · subst hn
          have := hP.2 t c who ht hc
          subst this
          simp [standing]
        · have hw : who ≠ a := by rintro rfl; exact hn (hP.1 t c m ht hc).symm
          rw [if_neg (by simp [hn]), hi]
          simp [standing, hw]
      · rw [if_neg (by simp [hq]), hi]
        simp [standing, Ne.symm hq]
    | removeVote m q =>
      obtain ⟨who, c, _, hc, ⟨t, ht⟩, _, h4, h5⟩ := removeVote_record (show removeVote env s o' m q = .ok s' from h)
      rw [h4, h5]
      by_cases hq : p = q
      · subst hq
        by_cases hn : m0 = m
        · subst hn
          have := hP.2 t c who ht hc
          subst this
          simp [standing]
        · have hw : who ≠ a := by rintro rfl; exact hn (hP.1 t c m ht hc).symm
          rw [if_neg (by simp [hn]), hi]
          simp [standing, hw]
      · rw [if_neg (by simp [hq]), hi]
        simp [standing, Ne.symm hq]
    | unlock q =>
      obtain ⟨_, _, _, hu⟩ := unlock_unlocked (show unlock env s o' q = .ok s' from h)
      exact same hu.votes (C181_silent cfg env s s' o' _ h trivial)
    | dispatchAsAccount i => exact absurd rfl (hl i)
    | foreign n =>
      have h1 := C181_silent cfg env s s' o' _ h trivial
      refine same ?_ h1
      rw [dispatch] at h
      split at h
      · cases h
      · cases h; rfl
  | register env admin c d h =>
    obtain ⟨_, _, w, rfl, _⟩ := register_ok h
    exact same rfl rfl
  | force c st => exact same rfl rfl
  | world w h => exact same rfl rfl

/-- C183 for one account, whatever memberships the others have and vote with (partial: not for accounts with several
memberships, see `C183_votes_fails`): the vote on record of its membership is exactly the last vote of the account that the
events tell of and that was not taken back. -/
theorem C183_own_vote_partial (cfg : Config) (g s : St) (a : AccountId) (m0 : MId) (p : PollIx) (hg : Genesis g)
    (he : g.events = []) (h : Through cfg (OwnCard a m0 p) g s) :
    (aget (s.votes p) m0).map Prod.fst = standing p a s.events := by
  have both : OwnCard a m0 p s ∧ (aget (s.votes p) m0).map Prod.fst = standing p a s.events := by
    induction h with
    | refl hp =>
      refine ⟨hp, ?_⟩
      rw [hg.2.2.1 p, he]
      rfl
    | tail _ st hp ih => exact ⟨hp, own_standing_step ih.1 ih.2 st⟩
  exact both.2

namespace Demo

theorem ownCard_of {s : St} {a : AccountId} {m0 : MId} {p : PollIx}
    (h : ∀ i ∈ s.world.items, (i.owner = a ↔ i.id = m0)) : OwnCard a m0 p s := by
  have key : ∀ who m c, checkMembership s.world.items who m = some c → (who = a ↔ m = m0) := by
    intro who m c hm
    unfold checkMembership at hm
    obtain ⟨i, hi, _⟩ := Option.map_eq_some_iff.1 hm
    have h1 := List.find?_some hi
    have h2 := h i (List.mem_of_find?_eq_some hi)
    simp only [decide_eq_true_eq] at h1
    obtain ⟨rfl, rfl⟩ := h1
    exact h2
  exact ⟨fun _ _ m _ hm => (key _ _ _ hm).1 rfl, fun _ _ who _ hm => (key _ _ _ hm).2 rfl⟩

theorem through_calls' {P : St → Prop} {g s : St} (h : Through kreivo P g s)
    (l : List (Origin × Call)) (hl : ∀ k ≤ l.length, P (after kreivo env s (l.take k))) :
    Through kreivo P g (after kreivo env s l) := by
  induction l generalizing s with
  | nil => exact h
  | cons x l ih =>
    obtain ⟨o, c⟩ := x
    have h1 := hl 1 (by simp)
    rw [show List.take 1 ((o, c) :: l) = [(o, c)] from rfl] at h1
    have hrest : ∀ s1, after kreivo env s [(o, c)] = s1 → after kreivo env s ((o, c) :: l) = after kreivo env s1 l := by
      intro s1 e
      subst e
      simp only [after]
      cases dispatch kreivo env s o c <;> rfl
    have hk : ∀ k ≤ l.length, P (after kreivo env (after kreivo env s [(o, c)]) (l.take k)) := by
      intro k hk
      have := hl (k + 1) (by simp; omega)
      rw [List.take_succ_cons] at this
      have e2 : after kreivo env s ((o, c) :: l.take k) = after kreivo env (after kreivo env s [(o, c)]) (l.take k) := by
        simp only [after]
        cases dispatch kreivo env s o c <;> rfl
      rwa [e2] at this
    rw [hrest _ rfl]
    refine ih ?_ hk
    cases hd : dispatch kreivo env s o c with
    | error e =>
      have : after kreivo env s [(o, c)] = s := by simp only [after, hd]
      rw [this]; exact h
    | ok s' =>
      have : after kreivo env s [(o, c)] = s' := by simp only [after, hd]
      rw [this] at h1 ⊢
      exact .tail h (.call env env_lawful o c hd) h1

/-- Alice has two memberships of community 1, bob one. Example for non-vacuity (outside /repo). -/
def crowd : St := { chain with world := { world1 with items := [⟨1, 1, alice, 0⟩, ⟨1, 4, alice, 0⟩, ⟨1, 2, bob, 4⟩] } }

/-- Alice votes both ways and takes one of the votes back; bob votes, takes the vote back and votes again. Example for
non-vacuity (outside /repo). -/
def crowdVotes : List (Origin × Call) :=
  [(.signed alice, .vote 1 0 (.standard true)), (.signed bob, .vote 2 0 (.standard true)),
   (.signed alice, .vote 4 0 (.standard false)), (.signed bob, .removeVote 2 0), (.signed alice, .removeVote 4 0),
   (.signed bob, .vote 2 0 (.standard false))]

theorem crowd_through : Through kreivo (OwnCard bob 2 0) start (after kreivo env crowd crowdVotes) := by
  have ok0 : ∀ {s : St}, s.world.items = items → OwnCard bob 2 0 s := fun h => ownCard_of (by rw [h]; decide)
  have ok1 : ∀ {s : St}, s.world.items = crowd.world.items → OwnCard bob 2 0 s := fun h => ownCard_of (by rw [h]; decide)
  refine through_calls' ?_ _ ?_
  · refine Through.tail (Through.tail (Through.tail (Through.tail (Through.refl (ok0 rfl))
      (Step.register env (.signed alice) 1 none rfl) (ok0 rfl)) (Step.register env (.signed bob) 2 none ?_) (ok0 rfl))
      (s' := { chain with world := world0 }) (Step.world world1 polls_open) (ok0 rfl)) (s' := chain)
      (Step.world crowd.world (pollsMove_of_eq rfl)) (ok1 rfl)
    unfold register payDeposit
    rw [if_neg (by decide), if_neg (by decide)]
    rfl
  · intro k hk
    have : k = 0 ∨ k = 1 ∨ k = 2 ∨ k = 3 ∨ k = 4 ∨ k = 5 ∨ k = 6 := by simp [crowdVotes] at hk; omega
    rcases this with rfl | rfl | rfl | rfl | rfl | rfl | rfl <;> exact ok1 rfl

/-- The vote of bob is told by the events, though alice votes with two memberships. -/
example : Genesis start ∧ start.events = [] ∧ Through kreivo (OwnCard bob 2 0) start (after kreivo env crowd crowdVotes) ∧
    standing 0 bob (after kreivo env crowd crowdVotes).events = some (.standard false) ∧
    standing 0 alice (after kreivo env crowd crowdVotes).events = none ∧
    aget ((after kreivo env crowd crowdVotes).votes 0) 1 = some (.standard true, alice) :=
  ⟨start_genesis, rfl, crowd_through, by decide +kernel, by decide +kernel, by decide +kernel⟩

end Demo

end Verif.Communities
