import Verif.Communities.TallyLemmas
import Verif.Communities.Demo

/-!
# Votes and tallies (C48–C51, C55–C57, C63)

The statements use the definitions of `Spec`: `Suits`, `power`, `onRecord`, `Fits`.
-/

namespace Verif.Communities

open Verif Verif.Accounts

/-! ## C48 -/

/-- C48: a successful vote comes from a signed holder of the membership, on an ongoing poll of that membership's
community, with a vote that suits the community's decision method (which includes a positive amount and the asset's
minimum). -/
theorem C48_conditions (cfg : Config) (env : Env) (s s' : St) (o : Origin) (m : MId) (p : PollIx) (v : Vote)
    (h : dispatch cfg env s o (.vote m p v) = .ok s') :
    ∃ who c t, o = .signed who ∧ (∃ i ∈ s.world.items, i.owner = who ∧ i.id = m ∧ i.group = c) ∧
      s.world.polls p = some (.ongoing t c) ∧ Suits (s.method c) v ∧ 0 < plainWeight v := by
  obtain ⟨who, c, s1, s2, h1, h2, h3, h4, h5, ⟨t, h6⟩, rfl⟩ := vote_parts h
  have hp : ∃ t, s.world.polls p = some (.ongoing t c) := by
    rcases h5 with ⟨_, rfl⟩ | ⟨t', u, voter, h5⟩
    · exact ⟨t, h6.poll⟩
    · exact ⟨t', h5.poll⟩
  obtain ⟨t0, hp⟩ := hp
  refine ⟨who, c, t0, h1, ?_, hp, ?_, by rw [← weight_eq]; exact h2⟩
  · unfold checkMembership at h3
    cases hf : s.world.items.find? fun i => decide (i.owner = who ∧ i.id = m) with
    | none => rw [hf] at h3; cases h3
    | some i =>
      rw [hf] at h3
      have h7 := List.find?_some hf
      refine ⟨i, List.mem_of_find?_eq_some hf, ?_⟩
      simp only [decide_eq_true_eq] at h7
      refine ⟨h7.1, h7.2, by simpa using h3⟩
  · rw [weight_eq] at h2
    cases v with
    | standard b => cases hm : s.method c <;> simp [checkVote, hm] at h4 <;> simp [Suits]
    | native b n =>
      cases hm : s.method c <;> simp [checkVote, hm] at h4
      simp only [Suits, true_and]; simp only [plainWeight] at h2; omega
    | asset b a n =>
      cases hm : s.method c <;> simp [checkVote, hm] at h4
      rename_i a' min'
      simp only [plainWeight] at h2
      by_cases ha : a = a'
      · subst ha
        by_cases hn : n < min'
        · simp [hn] at h4
        · exact ⟨min', rfl, by omega, by omega⟩
      · simp [ha] at h4

/-- C48, the other direction: under these conditions a first vote succeeds if the voter's balance covers the amount
and what is frozen already, and the currency pallets do not refuse the freeze. -/
theorem C48_sufficient (cfg : Config) (env : Env) (s : St) (who : AccountId) (m : MId) (p : PollIx) (v : Vote)
    (c : CId) (t : Tally) (hm : checkMembership s.world.items who m = some c)
    (hp : s.world.polls p = some (.ongoing t c)) (hs : Suits (s.method c) v) (hn : aget (s.votes p) m = none)
    (hN : max (s.frozenN who) (lockedNative v) ≤ s.world.native who)
    (hA : ∀ k, max (s.frozenA k who) (lockedAsset k v) ≤ s.world.asset k who)
    (d1 : ∀ x a n, env.denyFreezeN x a n = false) (d2 : ∀ x k a n, env.denyFreezeA x k a n = false) :
    ∃ s', dispatch cfg env s (.signed who) (.vote m p v) = .ok s' ∧ aget (s'.votes p) m = some (v, who) := by
  have hw : v.weight ≠ 0 := by
    rw [weight_eq]
    cases v <;> simp only [Suits, plainWeight] at hs ⊢
    · obtain ⟨_, _, _, h⟩ := hs; omega
    · omega
    · omega
  have hc : checkVote v (s.method c) = .ok v.say := by
    cases v with
    | standard b => rcases hs with hs | hs <;> simp [checkVote, hs, Vote.say]
    | native b n => simp [checkVote, hs.1, Vote.say]
    | asset b a n =>
      obtain ⟨min', h1, h2, _⟩ := hs
      simp [checkVote, h1, Vote.say, show ¬ n < min' by omega]
  have hl : ∃ s2, updateLocks env (voted s c who m p v t) who p v .add = .ok s2 := by
    cases v with
    | standard b => exact ⟨_, rfl⟩
    | native b n =>
      simp only [updateLocks, setFrozenN]
      rw [if_neg]
      · exact ⟨_, rfl⟩
      · simp only [d1, Bool.false_eq_true, or_false, Nat.not_lt]; exact hN
    | asset b k n =>
      simp only [updateLocks, setFrozenA]
      rw [if_neg]
      · exact ⟨_, rfl⟩
      · simp only [d2, Bool.false_eq_true, or_false, Nat.not_lt]
        have := hA k
        simp only [lockedAsset, if_true] at this
        exact this
  obtain ⟨s2, hl⟩ := hl
  refine ⟨emit s2 (.voteCasted who p v), ?_, ?_⟩
  · show vote env s (.signed who) m p v = _
    unfold vote
    rw [if_neg hw]
    simp only [ensureSigned, hm]
    rw [show dropVote env s c (s.method c) m p = .ok s by simp [dropVote, hn]]
    show (tryVote env s c (s.method c) who m p v >>= _) = _
    rw [show tryVote env s c (s.method c) who m p v = .ok s2 by
      unfold tryVote
      rw [hp]
      simp only [ne_eq, not_true_eq_false, if_false]
      rw [hc]
      exact hl]
    rfl
  · show aget (s2.votes p) m = _
    rw [(updateLocks_same hl).2.2.2.1]
    simp [voted]

example : checkMembership Demo.chain.world.items Demo.alice 1 = some 1 ∧
    Demo.chain.world.polls 0 = some (.ongoing .zero 1) ∧ Suits (Demo.chain.method 1) (.standard true) ∧
    ∃ s', dispatch kreivo Demo.env Demo.chain (.signed Demo.alice) (.vote 1 0 (.standard true)) = .ok s' :=
  ⟨by decide, by decide, .inl rfl, _, rfl⟩

/-! ## C49 -/

/-- C49: in every reachable state a membership has at most one vote on record in a poll. -/
theorem C49_one_vote (cfg : Config) (s : St) (h : Reachable cfg s) (p : PollIx) (m : MId) :
    ((s.votes p).filter fun e => decide (e.1 = m)).length ≤ 1 := by
  have ok := (reachable_aok h).1 p
  generalize s.votes p = l at ok
  induction l with
  | nil => simp
  | cons e l ih =>
    have ok' : e.1 ∉ l.map (·.1) ∧ AOk l := by simpa [AOk] using ok
    by_cases he : e.1 = m
    · have : (l.filter fun e => decide (e.1 = m)) = [] := by
        rw [List.filter_eq_nil_iff]
        intro x hx h1
        apply ok'.1
        rw [he]; simp only [decide_eq_true_eq] at h1
        rw [← h1]; exact List.mem_map.2 ⟨x, hx, rfl⟩
      simp [he, this]
    · simpa [he] using ih ok'.2

/-- C49: voting records the vote under the membership and the signer, in place of whatever vote of that membership
was there, no matter who cast it; other memberships' votes and other polls stay. -/
theorem C49_vote_replaces (cfg : Config) (env : Env) (s s' : St) (who : AccountId) (m : MId) (p : PollIx) (v : Vote)
    (h : dispatch cfg env s (.signed who) (.vote m p v) = .ok s') :
    aget (s'.votes p) m = some (v, who) ∧ (∀ n, n ≠ m → aget (s'.votes p) n = aget (s.votes p) n) ∧
      ∀ q, q ≠ p → s'.votes q = s.votes q := by
  obtain ⟨who', c, s1, s2, h1, h2, h3, h4, h5, ⟨t, h6⟩, rfl⟩ := vote_parts h
  cases h1
  refine ⟨?_, ?_, ?_⟩
  · show aget (s2.votes p) m = _
    rw [h6.votes p, if_pos rfl, aget_aset_self]
  · intro n hn
    show aget (s2.votes p) n = _
    rw [h6.votes p, if_pos rfl, aget_aset_ne _ _ hn]
    rcases h5 with ⟨_, rfl⟩ | ⟨t', u, voter, h5⟩
    · rfl
    · rw [h5.votes p, if_pos rfl, aget_adel_ne _ hn]
  · intro q hq
    show s2.votes q = _
    rw [h6.votes q, if_neg hq]
    rcases h5 with ⟨_, rfl⟩ | ⟨t', u, voter, h5⟩
    · rfl
    · rw [h5.votes q, if_neg hq]

theorem revote_tally {env : Env} {s s' : St} (h0 : VoteMoved s) {o : Origin} {m : MId} {p : PollIx} {v : Vote} {c : CId}
    (h : vote env s o m p v = .ok s') (ht : s.world.polls p = some (.ongoing (onRecord s c p) c))
    (hf : Fits (onRecord s c p)) (hf' : Fits (onRecord s' c p)) :
    s'.world.polls p = some (.ongoing (onRecord s' c p) c) := by
  obtain ⟨who', c', s1, s2, h1, h2, h3, h4, h5, ⟨t, h6⟩, rfl⟩ := vote_parts h
  have ok := (moved_aok h0).1 p
  show s2.world.polls p = some (.ongoing (onRecord s2 c p) c)
  rcases h5 with ⟨hn, rfl⟩ | ⟨t', u, voter, h5⟩
  · have := h6.poll
    rw [ht] at this; cases this
    exact cast_onRecord h6 hn rfl hf'
  · have e := h5.poll
    rw [ht] at e; cases e
    obtain ⟨g1, g2⟩ := uncast_onRecord h5 ok rfl hf
    have e2 := h6.poll
    rw [g1] at e2; cases e2
    refine cast_onRecord h6 ?_ rfl hf'
    rw [h5.votes p, if_pos rfl, aget_adel_self]

/-- C49: and the tally: if it agreed with the votes on record before and the sums fit, it does so after voting, first
time or again. So a re-vote leaves no trace of the earlier vote. -/
theorem C49_revote_tally (cfg : Config) (env : Env) (s s' : St) (h0 : Reachable cfg s) (o : Origin) (m : MId)
    (p : PollIx) (v : Vote) (c : CId)
    (h : dispatch cfg env s o (.vote m p v) = .ok s') (ht : s.world.polls p = some (.ongoing (onRecord s c p) c))
    (hf : Fits (onRecord s c p)) (hf' : Fits (onRecord s' c p)) :
    s'.world.polls p = some (.ongoing (onRecord s' c p) c) :=
  revote_tally h0.moved h ht hf hf'

/-- After alice voted aye, transferred their membership to charlie, charlie's nay replaces it. -/
example :
    let s := after kreivo Demo.env Demo.chain [(.signed Demo.alice, .vote 1 0 (.standard true))]
    let s1 := { s with world := { s.world with items := s.world.items.map fun i =>
      if i.id = 1 then { i with owner := Demo.charlie } else i } }
    let s2 := after kreivo Demo.env s1 [(.signed Demo.charlie, .vote 1 0 (.standard false))]
    s.world.polls 0 = some (.ongoing ⟨1, 0, 1⟩ 1) ∧ s2.world.polls 0 = some (.ongoing ⟨0, 1, 0⟩ 1) ∧
      s2.votes 0 = [(1, (.standard false, Demo.charlie))] := by decide +kernel

/-! ## C50 -/

/-- A step that does not change how much the votes on record in the poll count (no rank change of a membership that
voted, no switch to or from deciding by rank while votes stand), after which the sums fit a vote weight. -/
def CalmStep (c : CId) (p : PollIx) (s s' : St) : Prop :=
  (∀ e ∈ s.votes p, power s' c e.1 e.2.1 = power s c e.1 e.2.1) ∧ Fits (onRecord s' c p)

/-- Histories of calm steps from the start of the chain. -/
inductive CalmHistory (cfg : Config) (c : CId) (p : PollIx) : St → Prop
  | start {s : St} (h : Genesis s) : CalmHistory cfg c p s
  | step {s s' : St} (h : CalmHistory cfg c p s) (st : Step cfg s s') (hc : CalmStep c p s s') : CalmHistory cfg c p s'

theorem CalmHistory.reachable {cfg : Config} {c : CId} {p : PollIx} {s : St} (h : CalmHistory cfg c p s) :
    Reachable cfg s := by
  induction h with
  | start h => exact ⟨_, h, .refl _⟩
  | step _ st _ ih => exact ih.step st

theorem CalmHistory.fits {cfg : Config} {c : CId} {p : PollIx} {s : St} (h : CalmHistory cfg c p s) :
    Fits (onRecord s c p) := by
  cases h with
  | start h => unfold onRecord; rw [h.2.2.1 p]; simp [Fits]
  | step _ _ hc => exact hc.2

/-- Moves that are calm. Specification only, no code behind it (outside /repo). -/
inductive CalmMoves (c : CId) (p : PollIx) : St → Prop
  | start {s : St} (h : Genesis s) : CalmMoves c p s
  | move {s s' : St} (h : CalmMoves c p s) (st : VoteMove s s') (hc : CalmStep c p s s') : CalmMoves c p s'

theorem CalmMoves.moved {c : CId} {p : PollIx} {s : St} (h : CalmMoves c p s) : VoteMoved s := by
  induction h with
  | start h => exact .start h
  | move _ st _ ih => exact ih.move st

theorem CalmMoves.fits {c : CId} {p : PollIx} {s : St} (h : CalmMoves c p s) : Fits (onRecord s c p) := by
  cases h with
  | start h => unfold onRecord; rw [h.2.2.1 p]; simp [Fits]
  | move _ _ hc => exact hc.2

theorem CalmHistory.moves {cfg : Config} {c : CId} {p : PollIx} {s : St} (h : CalmHistory cfg c p s) : CalmMoves c p s := by
  induction h with
  | start h => exact .start h
  | step _ st hc ih => exact ih.move (step_voteMove st) hc

theorem calm_tally {c : CId} {p : PollIx} {s : St} (h : CalmMoves c p s) (t : Tally)
    (ht : s.world.polls p = some (.ongoing t c)) : t = onRecord s c p := by
  induction h generalizing t with
  | start h => rw [h.2.2.2.2.2.2 p] at ht; cases ht
  | @move s s' hs st hc ih =>
    have ok := (moved_aok hs.moved).1 p
    cases st with
    | same h1 h2 h3 h4 h5 =>
      have e : onRecord s' c p = onRecord s c p := onRecord_same (by rw [h1]) hc.1
      have := h5 p
      cases hq : s.world.polls p with
      | none =>
        rw [hq] at this
        rcases this with h | ⟨d, h⟩
        · rw [h] at ht; cases ht
        · rw [h] at ht; cases ht
          rw [e]; unfold onRecord
          rw [(moved_unborn hs.moved p hq).1]; rfl
      | some q =>
        rw [hq] at this
        cases q with
        | ended => rw [ht] at this; cases this
        | ongoing t' c' =>
          rcases this with h | h
          · rw [h] at ht; cases ht; rw [e]; exact ih _ hq
          · rw [h] at ht; cases ht
    | vote env o m q v h =>
      have hcall := h
      obtain ⟨who', c', s1, s2, h1, h2, h3, h4, h5, ⟨t', h6⟩, rfl⟩ := vote_parts h
      by_cases hqp : q = p
      · subst hqp
        have hs2 : s2.world.polls q = some (.ongoing t c) := ht
        have hcc : c' = c := by rw [h6.polls q, if_pos rfl] at hs2; cases hs2; rfl
        subst hcc
        have hp : ∃ t0, s.world.polls q = some (.ongoing t0 c') := by
          rcases h5 with ⟨_, rfl⟩ | ⟨t0, u, voter, h5⟩
          · exact ⟨_, h6.poll⟩
          · exact ⟨_, h5.poll⟩
        obtain ⟨t0, hp⟩ := hp
        have e0 := ih t0 hp
        subst e0
        have := revote_tally hs.moved hcall hp hs.fits hc.2
        rw [ht] at this; cases this; rfl
      · have e1 : s2.votes p = s.votes p := by
          rw [h6.votes p, if_neg (Ne.symm hqp)]
          rcases h5 with ⟨_, rfl⟩ | ⟨t0, u, voter, h5⟩
          · rfl
          · rw [h5.votes p, if_neg (Ne.symm hqp)]
        have e2 : s2.world.polls p = s.world.polls p := by
          rw [h6.polls p, if_neg (Ne.symm hqp)]
          rcases h5 with ⟨_, rfl⟩ | ⟨t0, u, voter, h5⟩
          · rfl
          · rw [h5.polls p, if_neg (Ne.symm hqp)]
        have e3 : onRecord (emit s2 (.voteCasted who' q v)) c p = onRecord s c p := onRecord_same e1 hc.1
        rw [e3]
        apply ih
        rw [← e2]; exact ht
    | remove env o m q h =>
      obtain ⟨who', c', s1, h1, h2, ⟨t', u, voter, h5⟩, rfl⟩ := removeVote_parts h
      have ht' : s1.world.polls p = some (.ongoing t c) := ht
      show t = onRecord s1 c p
      by_cases hqp : q = p
      · subst hqp
        have hcc : c' = c := by rw [h5.polls q, if_pos rfl] at ht'; cases ht'; rfl
        subst hcc
        have e0 := ih _ h5.poll
        have := (uncast_onRecord h5 ok e0 hs.fits).1
        rw [ht'] at this; cases this; rfl
      · have e1 : s1.votes p = s.votes p := by rw [h5.votes p, if_neg (Ne.symm hqp)]
        have e2 : s1.world.polls p = s.world.polls p := by rw [h5.polls p, if_neg (Ne.symm hqp)]
        have e3 : onRecord s1 c p = onRecord s c p := onRecord_same e1 hc.1
        rw [e3]
        apply ih
        rw [← e2]; exact ht'
    | unlock env o q h =>
      obtain ⟨who, v, _, h1⟩ := unlock_unlocked h
      have e3 : onRecord s' c p = onRecord s c p := onRecord_same (by rw [h1.votes]) hc.1
      rw [e3]
      apply ih
      rw [← h1.polls]; exact ht

/-- C50: after any history of calm steps the tally of an ongoing poll is the sum of the votes on record. Missing from
the full property: steps that change ranks or switch to or from deciding by rank while votes stand, and sums beyond
`2^32 - 1`; see the `_fails` theorems. -/
theorem C50_tally_is_sum_partial (cfg : Config) (c : CId) (p : PollIx) (s : St) (h : CalmHistory cfg c p s) (t : Tally)
    (ht : s.world.polls p = some (.ongoing t c)) : t = onRecord s c p :=
  calm_tally h.moves t ht

/-- Natural calm steps: the community does not decide by rank before or after. -/
theorem calm_not_rank {c : CId} {p : PollIx} {s s' : St} (h : s.method c ≠ .rank) (h' : s'.method c ≠ .rank)
    (hf : Fits (onRecord s' c p)) : CalmStep c p s s' :=
  ⟨fun e _ => by rw [weight_le_power_or s c _ _ h, weight_le_power_or s' c _ _ h'], hf⟩

/-- Natural calm steps: it decides by rank throughout and the voters' ranks stay. -/
theorem calm_rank {c : CId} {p : PollIx} {s s' : St} (h : s.method c = .rank) (h' : s'.method c = .rank)
    (hr : ∀ e ∈ s.votes p, rankOf s'.world.items c e.1 = rankOf s.world.items c e.1)
    (hf : Fits (onRecord s' c p)) : CalmStep c p s s' :=
  ⟨fun e he => by unfold power; rw [if_pos h, if_pos h', hr e he], hf⟩

/-- The demonstration chain with a vote on record is the end of a calm history. -/
example : CalmHistory kreivo 1 0 (after kreivo Demo.env Demo.chain [(.signed Demo.alice, .vote 1 0 (.standard true))]) ∧
    onRecord (after kreivo Demo.env Demo.chain [(.signed Demo.alice, .vote 1 0 (.standard true))]) 1 0 = ⟨1, 0, 1⟩ := by
  refine ⟨?_, by decide +kernel⟩
  have h1 : CalmHistory kreivo 1 0 Demo.start := .start Demo.start_genesis
  have h2 := h1.step (.register Demo.env (.signed Demo.alice) 1 none rfl)
    (calm_not_rank (by decide) (by decide) ⟨by decide, by decide, by decide⟩)
  have h3 : CalmHistory kreivo 1 0 { Demo.chain with world := Demo.world0 } := by
    refine h2.step (.register Demo.env (.signed Demo.bob) 2 none ?_)
      (calm_not_rank (by decide) (by decide) ⟨by decide, by decide, by decide⟩)
    unfold register payDeposit
    rw [if_neg (by decide), if_neg (by decide)]
    rfl
  have h4 : CalmHistory kreivo 1 0 Demo.chain := h3.step (.world Demo.world1 Demo.polls_open)
    (calm_not_rank (by decide) (by decide) ⟨by decide, by decide, by decide⟩)
  exact h4.step (.call Demo.env Demo.env_lawful (.signed Demo.alice) (.vote 1 0 (.standard true)) rfl)
    (calm_not_rank (by decide) (by decide +kernel) ⟨by decide +kernel, by decide +kernel, by decide +kernel⟩)

/-- C50 fails when ranks change under standing votes: community 1 decides by rank, bob votes with rank 4, is demoted
to 3 and removes the vote. No vote is on record and the tally still counts one aye. -/
theorem C50_rank_change_fails :
    ∃ s, Reachable kreivo s ∧ s.world.polls 0 = some (.ongoing ⟨1, 0, 0⟩ 1) ∧ s.votes 0 = [] :=
  ⟨after kreivo Demo.env Demo.chain
      [(.signed Demo.alice, .setDecisionMethod 1 .rank), (.signed Demo.bob, .vote 2 0 (.standard true)),
        (.signed Demo.alice, .demote 2), (.signed Demo.bob, .removeVote 2 0)],
    after_reachable Demo.env_lawful (Demo.chain_reachable _) _, by decide +kernel, by decide +kernel⟩

/-- Everybody owns `10^13` of the native currency. -/
def Demo.rich : St := { Demo.chain with world := { Demo.world1 with native := fun _ => 10 ^ 13 } }

theorem Demo.rich_reachable (cfg : Config) : Reachable cfg Demo.rich :=
  (Demo.chain_reachable cfg).step (.world _ (pollsMove_of_eq rfl))

/-- C50 fails when the sums do not fit: alice and bob vote aye with one unit (`10^12`) each, bob takes it back. Alice's
vote stands, but the tally is zero. -/
theorem C50_saturation_fails :
    ∃ s, Reachable kreivo s ∧ s.world.polls 0 = some (.ongoing ⟨0, 0, 0⟩ 1) ∧
      s.votes 0 = [(1, (.native true (10 ^ 12), Demo.alice))] :=
  ⟨after kreivo Demo.env Demo.rich
      [(.signed Demo.alice, .setDecisionMethod 1 .native), (.signed Demo.alice, .vote 1 0 (.native true (10 ^ 12))),
        (.signed Demo.bob, .vote 2 0 (.native true (10 ^ 12))), (.signed Demo.bob, .removeVote 2 0)],
    after_reachable Demo.env_lawful (Demo.rich_reachable _) _, by decide +kernel, by decide +kernel⟩

/-! ## C63 -/

theorem power_le {v : Vote} {s : St} {c : CId} (h : checkVote v (s.method c) = .ok v.say) (m : MId) :
    power s c m v ≤ 2 ^ 32 - 1 := by
  unfold power
  split
  · rename_i hr
    rw [hr] at h
    cases v with
    | standard b =>
      simp only [plainWeight, Nat.mul_one]
      split
      · rename_i r _; have := r.toNat_lt; omega
      · omega
    | _ => simp [checkVote] at h
  · cases v <;> simp only [plainWeight] <;> omega

/-- Tallies of ongoing polls are always made of vote weights. -/
theorem reachable_fits {cfg : Config} {s : St} (h : Reachable cfg s) :
    ∀ p t c, s.world.polls p = some (.ongoing t c) → Fits t := by
  refine vote_invariant (I := fun s => ∀ p t c, s.world.polls p = some (.ongoing t c) → Fits t) ?_ ?_ ?_ ?_ ?_ h
  · intro s hg p t c h; rw [hg.2.2.2.2.2.2 p] at h; cases h
  · intro s s' hi _ _ _ _ h5 p t c ht
    have := h5 p
    cases hq : s.world.polls p with
    | none =>
      rw [hq] at this
      rcases this with h | ⟨d, h⟩
      · rw [h] at ht; cases ht
      · rw [h] at ht; cases ht; simp [Fits, Tally.zero]
    | some q =>
      rw [hq] at this
      cases q with
      | ended => rw [ht] at this; cases this
      | ongoing t' c' =>
        rcases this with h | h
        · rw [h] at ht; cases ht; exact hi _ _ _ hq
        · rw [h] at ht; cases ht
  · intro s s' c who m p v t hi hc q t' c' hq
    rw [hc.polls q] at hq
    split at hq
    · cases hq
      obtain ⟨f1, f2, f3⟩ := hi _ _ _ hc.poll
      unfold Tally.addVote satAdd32 WMAX
      split <;> simp only [Fits] <;> omega
    · exact hi _ _ _ hq
  · intro s s' c dm voter m p v t hi hc q t' c' hq
    rw [hc.polls q] at hq
    split at hq
    · cases hq
      obtain ⟨f1, f2, f3⟩ := hi _ _ _ hc.poll
      unfold Tally.removeVote
      split <;> simp only [Fits] <;> omega
    · exact hi _ _ _ hq
  · intro s s' who p v hi hc q t c hq
    rw [hc.polls] at hq; exact hi _ _ _ hq

/-- C63: a first vote adds exactly its power to its side of the tally — the amount capped at `2^32 - 1`, or the
membership's rank — stopping at `2^32 - 1`; an aye also adds its plain weight to the bare ayes. Nothing wraps. -/
theorem C63_adds_exactly (cfg : Config) (env : Env) (s s' : St) (o : Origin) (m : MId) (p : PollIx) (v : Vote)
    (t : Tally) (c : CId) (hp : s.world.polls p = some (.ongoing t c)) (hn : aget (s.votes p) m = none)
    (h : dispatch cfg env s o (.vote m p v) = .ok s') :
    power s c m v ≤ 2 ^ 32 - 1 ∧
    s'.world.polls p = some (.ongoing (if v.say then
        { ayes := min (t.ayes + power s c m v) (2 ^ 32 - 1), nays := t.nays,
          bareAyes := min (t.bareAyes + plainWeight v) (2 ^ 32 - 1) }
      else { ayes := t.ayes, nays := min (t.nays + power s c m v) (2 ^ 32 - 1), bareAyes := t.bareAyes }) c) := by
  obtain ⟨who, c', s1, s2, h1, h2, h3, h4, h5, ⟨t', h6⟩, rfl⟩ := vote_parts h
  have hs : s1 = s := by
    rcases h5 with ⟨_, rfl⟩ | ⟨_, u, voter, h5⟩
    · rfl
    · rw [h5.recorded] at hn; cases hn
  subst hs
  have := h6.poll
  rw [hp] at this; cases this
  have hle := power_le h4 m
  refine ⟨hle, ?_⟩
  show s2.world.polls p = _
  rw [h6.polls p, if_pos rfl, mul32_power _ _ _ _ hle, weight_eq]
  rfl

/-- C63: so in reachable states no component of the tally goes down when a vote is added. -/
theorem C63_never_decreases (cfg : Config) (env : Env) (s s' : St) (h0 : Reachable cfg s) (o : Origin) (m : MId)
    (p : PollIx) (v : Vote) (t : Tally) (c : CId) (hp : s.world.polls p = some (.ongoing t c))
    (hn : aget (s.votes p) m = none) (h : dispatch cfg env s o (.vote m p v) = .ok s') :
    ∃ t', s'.world.polls p = some (.ongoing t' c) ∧ t.ayes ≤ t'.ayes ∧ t.nays ≤ t'.nays ∧ t.bareAyes ≤ t'.bareAyes := by
  obtain ⟨f1, f2, f3⟩ := reachable_fits h0 _ _ _ hp
  obtain ⟨_, h2⟩ := C63_adds_exactly cfg env s s' o m p v t c hp hn h
  refine ⟨_, h2, ?_⟩
  split <;> dsimp only <;> omega

example :
    let s := after kreivo Demo.env Demo.rich
      [(.signed Demo.alice, .setDecisionMethod 1 .native), (.signed Demo.alice, .vote 1 0 (.native true (10 ^ 12)))]
    s.world.polls 0 = some (.ongoing ⟨4294967295, 0, 4294967295⟩ 1) ∧ aget (s.votes 0) 2 = none ∧
    (after kreivo Demo.env s [(.signed Demo.bob, .vote 2 0 (.native false 7))]).world.polls 0 =
      some (.ongoing ⟨4294967295, 7, 4294967295⟩ 1) := by decide +kernel

/-! ## C51 -/

theorem add_remove (t : Tally) (b : Bool) (x w : Nat) (h1 : b = true → t.ayes + x ≤ WMAX)
    (h2 : b = false → t.nays + x ≤ WMAX) (h3 : b = true → t.bareAyes + w ≤ WMAX) :
    (t.addVote b x w).removeVote b x w = t := by
  cases b
  · have := h2 rfl
    simp [Tally.addVote, Tally.removeVote, satAdd32, Nat.min_eq_left this]
  · have g1 := h1 rfl
    have g3 := h3 rfl
    simp [Tally.addVote, Tally.removeVote, satAdd32, Nat.min_eq_left g1, Nat.min_eq_left g3]

theorem largestN_unique {s : St} {a : AccountId} (ok : AOk (s.locks a)) {n : Nat} (h : LargestNative s a n) :
    n = maxLockN (s.locks a) := by
  have hd : ∀ v, lockedNative v = lockN v := fun v => by cases v <;> rfl
  obtain ⟨h1, h2⟩ := h
  apply Nat.le_antisymm
  · rcases h2 with rfl | ⟨p, v, h3, h4⟩
    · exact Nat.zero_le _
    · rw [← h4, hd]; exact le_maxLockN (mem_of_aget h3)
  · rcases maxLockN_attained (s.locks a) with h3 | ⟨e, he, h3⟩
    · omega
    · rw [← h3, ← hd]; exact h1 e.1 e.2 (aget_of_mem ok he)

theorem largestA_unique {s : St} {k : AssetKey} {a : AccountId} (ok : AOk (s.locks a)) {n : Nat}
    (h : LargestAsset s k a n) : n = maxLockA k (s.locks a) := by
  have hd : ∀ v, lockedAsset k v = lockA k v := fun v => by cases v <;> rfl
  obtain ⟨h1, h2⟩ := h
  apply Nat.le_antisymm
  · rcases h2 with rfl | ⟨p, v, h3, h4⟩
    · exact Nat.zero_le _
    · rw [← h4, hd]; exact le_maxLockA (mem_of_aget h3)
  · rcases maxLockA_attained k (s.locks a) with h3 | ⟨e, he, h3⟩
    · omega
    · rw [← h3, ← hd]; exact h1 e.1 e.2 (aget_of_mem ok he)

theorem checkMembership_same {s s' : St} (h : s'.world.items = s.world.items) (who : AccountId) (m : MId) :
    checkMembership s'.world.items who m = checkMembership s.world.items who m := by rw [h]

/-- C51: casting a membership's first vote in a poll and removing it again restores polls, votes, locks and freezes,
if the sums have room for the vote, the voter has no lock for this poll from another membership, and the voter's
freezes were exactly the largest locks. Missing: the cases in which one of these does not hold. -/
theorem C51_undo_partial (cfg : Config) (env env' : Env) (s s1 s2 : St) (h0 : Reachable cfg s) (who : AccountId)
    (m : MId) (p : PollIx) (v : Vote) (t : Tally) (c : CId)
    (hv : dispatch cfg env s (.signed who) (.vote m p v) = .ok s1)
    (hr : dispatch cfg env' s1 (.signed who) (.removeVote m p) = .ok s2)
    (hp : s.world.polls p = some (.ongoing t c)) (hfresh : aget (s.votes p) m = none)
    (hroom : t.ayes + power s c m v ≤ 2 ^ 32 - 1 ∧ t.nays + power s c m v ≤ 2 ^ 32 - 1 ∧
      t.bareAyes + plainWeight v ≤ 2 ^ 32 - 1)
    (halone : aget (s.locks who) p = none)
    (hN : LargestNative s who (s.frozenN who)) (hA : ∀ k, LargestAsset s k who (s.frozenA k who)) :
    s2.world.polls = s.world.polls ∧ s2.votes = s.votes ∧ s2.locks = s.locks ∧ s2.frozenN = s.frozenN ∧
      s2.frozenA = s.frozenA := by
  obtain ⟨who', c', s0, sv, e1, g2, g3, g4, g5, ⟨t', g6⟩, rfl⟩ := vote_parts hv
  cases e1
  have hs : s0 = s := by
    rcases g5 with ⟨_, rfl⟩ | ⟨_, u, voter, h5⟩
    · rfl
    · rw [h5.recorded] at hfresh; cases hfresh
  subst hs
  have := g6.poll
  rw [hp] at this; cases this
  obtain ⟨who', c', sr, e1, k2, ⟨t', u, voter, k5⟩, rfl⟩ := removeVote_parts hr
  cases e1
  have hcc : c' = c := by
    have : checkMembership sv.world.items who m = some c' := k2
    rw [g6.items, g3] at this; cases this; rfl
  subst hcc
  have hrec := k5.recorded
  have hvv : aget (sv.votes p) m = some (v, who) := by rw [g6.votes p, if_pos rfl, aget_aset_self]
  rw [show (emit sv (.voteCasted who p v)).votes p = sv.votes p from rfl, hvv] at hrec
  cases hrec
  have hle := power_le g4 m
  have okl := (reachable_aok h0).2
  refine ⟨?_, ?_, ?_, ?_, ?_⟩
  · funext i
    show sr.world.polls i = _
    rw [k5.polls i]
    split
    · rename_i hi; subst hi
      have hq := k5.poll
      rw [show (emit sv (.voteCasted who i v)).world.polls i = sv.world.polls i from rfl, g6.polls i, if_pos rfl] at hq
      cases hq
      rw [hp]
      congr 2
      have hm : multiplier (emit sv (.voteCasted who i v)) ((emit sv (.voteCasted who i v)).method c') c' m
          = multiplier s0 (s0.method c') c' m := by
        show multiplier sv (sv.method c') c' m = _
        unfold multiplier; rw [g6.method, g6.items]
      rw [hm, mul32_power _ _ _ _ hle, weight_eq]
      exact add_remove t v.say _ _ (fun _ => hroom.1) (fun _ => hroom.2.1) (fun _ => hroom.2.2)
    · rename_i hi
      show sv.world.polls i = _
      rw [g6.polls i, if_neg hi]
  · funext i
    show sr.votes i = _
    rw [k5.votes i]
    show (if i = p then adel (sv.votes i) m else sv.votes i) = _
    rw [g6.votes i]
    split
    · rename_i hi; subst hi; rw [adel_aset, adel_of_none hfresh]
    · rfl
  · funext a
    show sr.locks a = _
    rw [k5.locks a]
    show (if a = who ∧ v.isBalance = true then adel (sv.locks a) p else sv.locks a) = _
    rw [g6.locks a]
    split
    · rename_i ha; rw [adel_aset, ha.1, adel_of_none halone]
    · rfl
  · funext a
    show sr.frozenN a = _
    rw [k5.frozenN a]
    show (if a = who ∧ v.isNative = true then maxLockN (adel (sv.locks a) p) else sv.frozenN a) = _
    rw [g6.locks a, g6.frozenN a]
    by_cases ha : a = who
    · subst ha
      cases v with
      | native b n =>
        simp only [Vote.isNative, Vote.isBalance, and_self, if_true]
        rw [adel_aset, adel_of_none halone]
        exact (largestN_unique (okl a) hN).symm
      | _ => simp [Vote.isNative, lockN]
    · simp [ha]
  · funext k a
    show sr.frozenA k a = _
    rw [k5.frozenA k a]
    show (if a = who ∧ v.isAsset k = true then maxLockA k (adel (sv.locks a) p) else sv.frozenA k a) = _
    rw [g6.locks a, g6.frozenA k a]
    by_cases ha : a = who
    · subst ha
      cases v with
      | asset b k' n =>
        by_cases hk : k' = k
        · subst hk
          simp only [Vote.isAsset, Vote.isBalance, and_self, if_true, decide_true]
          rw [adel_aset, adel_of_none halone]
          exact (largestA_unique (okl a) (hA k')).symm
        · simp [Vote.isAsset, lockA, hk]
      | _ => simp [Vote.isAsset, lockA]
    · simp [ha]

/-- The hypotheses are met by bob's first vote in the demonstration chain. -/
example : (∃ s1 s2, dispatch kreivo Demo.env Demo.chain (.signed Demo.bob) (.vote 2 0 (.standard false)) = .ok s1 ∧
      dispatch kreivo Demo.env s1 (.signed Demo.bob) (.removeVote 2 0) = .ok s2) ∧
    aget (Demo.chain.votes 0) 2 = none ∧ aget (Demo.chain.locks Demo.bob) 0 = none ∧
    LargestNative Demo.chain Demo.bob (Demo.chain.frozenN Demo.bob) :=
  ⟨⟨_, _, rfl, rfl⟩, rfl, rfl, ⟨fun p v h => (by cases h), .inl rfl⟩⟩

/-- C51 fails when the sums saturate: bob's vote and its removal wipe out alice's. -/
theorem C51_saturation_fails :
    let s := after kreivo Demo.env Demo.rich
      [(.signed Demo.alice, .setDecisionMethod 1 .native), (.signed Demo.alice, .vote 1 0 (.native true (10 ^ 12)))]
    Reachable kreivo s ∧ s.world.polls 0 = some (.ongoing ⟨4294967295, 0, 4294967295⟩ 1) ∧
    ∃ s1 s2, dispatch kreivo Demo.env s (.signed Demo.bob) (.vote 2 0 (.native true (10 ^ 12))) = .ok s1 ∧
      dispatch kreivo Demo.env s1 (.signed Demo.bob) (.removeVote 2 0) = .ok s2 ∧
      s2.world.polls 0 = some (.ongoing ⟨0, 0, 0⟩ 1) :=
  ⟨after_reachable Demo.env_lawful (Demo.rich_reachable _) _, by decide +kernel, _, _, rfl, rfl, by decide +kernel⟩

/-- Alice also holds membership 2 of community 1, which decides by native currency. -/
def Demo.worldTwice : World := { Demo.world1 with items := [⟨1, 1, Demo.alice, 0⟩, ⟨1, 2, Demo.alice, 0⟩] }

/-- Alice uses their two memberships. -/
def Demo.twice : St := after kreivo Demo.env { Demo.chain with world := Demo.worldTwice }
  [(.signed Demo.alice, .setDecisionMethod 1 .native)]

theorem Demo.twice_reachable : Reachable kreivo Demo.twice :=
  after_reachable Demo.env_lawful ((Demo.chain_reachable _).step (.world Demo.worldTwice (pollsMove_of_eq rfl))) _

/-- C51 fails for a voter with two memberships: casting and removing the second vote removes the lock of the first,
which still counts. -/
theorem C51_shared_lock_fails :
    let s := after kreivo Demo.env Demo.twice [(.signed Demo.alice, .vote 1 0 (.native true 100))]
    Reachable kreivo s ∧ s.locks Demo.alice = [(0, .native true 100)] ∧ s.frozenN Demo.alice = 100 ∧
    ∃ s1 s2, dispatch kreivo Demo.env s (.signed Demo.alice) (.vote 2 0 (.native true 50)) = .ok s1 ∧
      dispatch kreivo Demo.env s1 (.signed Demo.alice) (.removeVote 2 0) = .ok s2 ∧
      s2.locks Demo.alice = [] ∧ s2.frozenN Demo.alice = 0 ∧
      s2.votes 0 = [(1, (.native true 100, Demo.alice))] :=
  ⟨after_reachable Demo.env_lawful Demo.twice_reachable _, by decide +kernel, by decide +kernel, _, _, rfl, rfl,
    by decide +kernel, by decide +kernel, by decide +kernel⟩

/-! ## C55 -/

/-- C55: a successful balance vote is covered by the voter's balance in its currency. -/
theorem C55_within_balance (cfg : Config) (env : Env) (s s' : St) (who : AccountId) (m : MId) (p : PollIx) (v : Vote)
    (h : dispatch cfg env s (.signed who) (.vote m p v) = .ok s') :
    (∀ b n, v = .native b n → n ≤ s.world.native who) ∧ ∀ b k n, v = .asset b k n → n ≤ s.world.asset k who := by
  obtain ⟨who', c, s1, s2, e1, h2, h3, h4, h5, ⟨t, h6⟩, rfl⟩ := vote_parts h
  cases e1
  have e : s1.world.native = s.world.native ∧ s1.world.asset = s.world.asset := by
    rcases h5 with ⟨_, rfl⟩ | ⟨_, u, voter, h5⟩
    · exact ⟨rfl, rfl⟩
    · exact ⟨h5.native, h5.asset⟩
  have a1 := h6.enoughN
  have a2 := h6.enoughA
  rw [e.1] at a1
  rw [e.2] at a2
  constructor
  · rintro b n rfl; exact a1
  · rintro b k n rfl
    have := a2 k
    simpa [lockA] using this

example : ∃ s1, dispatch kreivo Demo.env Demo.twice (.signed Demo.alice) (.vote 1 0 (.native true 1000)) = .ok s1 ∧
    Demo.twice.world.native Demo.alice = 1000 := ⟨_, rfl, by decide +kernel⟩

/-! ## C56 -/

/-- C56: up to a total of `10^9` votes, approval is the fraction of ayes among all votes, rounded down to a billionth. -/
theorem C56_approval_exact_partial (t : Tally) (h : t.ayes + t.nays ≤ 10 ^ 9) :
    approval t = t.ayes * 10 ^ 9 / (t.ayes + t.nays) := by
  unfold approval perbill
  rw [Nat.mod_eq_of_lt (by omega)]
  rcases Nat.eq_zero_or_pos (t.ayes + t.nays) with h0 | h0
  · have : t.ayes = 0 := by omega
    rw [h0, this]; simp [fromRational_zero]
  · rw [Nat.max_eq_right h0]
    exact fromRational_exact h0 (by omega) h

/-- C56: as long as the total fits 32 bits, approval is within two billionths of the fraction of ayes among all votes: at most
one above it and less than two below. -/
theorem C56_approval_near_partial (t : Tally) (h0 : 0 < t.ayes + t.nays) (h : t.ayes + t.nays < 2 ^ 32) :
    approval t * (t.ayes + t.nays) ≤ t.ayes * 10 ^ 9 + (t.ayes + t.nays) ∧
    t.ayes * 10 ^ 9 < (approval t + 2) * (t.ayes + t.nays) := by
  unfold approval perbill
  rw [Nat.mod_eq_of_lt h, Nat.max_eq_right h0]
  exact fromRational_near (by omega) h0 (by omega)

/-- C56: and support, whatever the maximum support, within two billionths of the fraction of bare ayes in it, if that is not
exceeded. -/
theorem C56_support_near_partial (s : St) (t : Tally) (c : CId) (h0 : 0 < maxSupport s c)
    (hb : t.bareAyes ≤ maxSupport s c) :
    support s t c * maxSupport s c ≤ t.bareAyes * 10 ^ 9 + maxSupport s c ∧
    t.bareAyes * 10 ^ 9 < (support s t c + 2) * maxSupport s c :=
  fromRational_near (by unfold perbill; omega) h0 hb

example : approval ⟨2000000001, 2000000000, 7⟩ = 500000000 ∧ approval ⟨2000000003, 2000000000, 7⟩ = 500000000 ∧
    approval ⟨3, 4000000000, 3⟩ = 0 := by decide +kernel

/-- C56: support is the fraction of bare ayes in the maximum support, rounded down to a billionth, when the maximum
is positive, at most `10^9` and not exceeded. -/
theorem C56_support_exact_partial (s : St) (t : Tally) (c : CId) (h0 : 0 < maxSupport s c)
    (h : maxSupport s c ≤ 10 ^ 9) (hb : t.bareAyes ≤ maxSupport s c) :
    support s t c = t.bareAyes * 10 ^ 9 / maxSupport s c := by
  exact fromRational_exact h0 hb h

/-- C56: the maximum support is the number of memberships of the community, the sum of their ranks, or the issuance of the
currency votes are weighed by, up to a vote weight. -/
theorem C56_maximum (s : St) (c : CId) :
    (s.method c = .membership → maxSupport s c = s.world.items.countP fun i => i.group == c) ∧
    (s.method c = .rank →
      maxSupport s c = (s.world.items.map fun i => if i.group = c then i.rank.toNat else 0).sum) ∧
    (s.method c = .native → maxSupport s c = min s.world.nativeIssuance (2 ^ 32 - 1)) ∧
    ∀ k n, s.method c = .asset k n → maxSupport s c = min (s.world.assetIssuance k) (2 ^ 32 - 1) := by
  unfold maxSupport
  refine ⟨fun h => ?_, fun h => ?_, fun h => by rw [h]; rfl, fun k n h => by rw [h]; rfl⟩
  · rw [h]
    simp only [membersTotal, List.countP_eq_length_filter]
    congr 1
  · rw [h]
    simp only [ranksTotal]
    induction s.world.items with
    | nil => rfl
    | cons i l ih =>
      by_cases hi : i.group = c
      · simp only [List.filter_cons, hi, decide_true, if_true, List.map_cons, List.sum_cons, ih]
      · simp only [List.filter_cons, hi, decide_false, Bool.false_eq_true, if_false, List.map_cons, List.sum_cons, ih,
          Nat.zero_add]

/-- C56: both are always between 0 and 100%. -/
theorem C56_range (s : St) (t : Tally) (c : CId) : approval t ≤ 10 ^ 9 ∧ support s t c ≤ 10 ^ 9 :=
  ⟨fromRational_le _ _ _, fromRational_le _ _ _⟩

/-- C56: without an aye approval is zero, and so is support if the maximum support is not zero. -/
theorem C56_no_ayes (s : St) (t : Tally) (c : CId) :
    (t.ayes = 0 → approval t = 0) ∧ (t.bareAyes = 0 → 0 < maxSupport s c → support s t c = 0) := by
  constructor
  · intro h; unfold approval; rw [h]; exact fromRational_zero (by omega)
  · intro h h1; unfold support; rw [h]; exact fromRational_zero h1

example : approval ⟨2, 1, 2⟩ = 666666666 ∧ support Demo.chain ⟨1, 0, 1⟩ 1 = 500000000 := by decide +kernel

/-- C56 fails for sums beyond a vote weight: one aye and one nay of one unit (`10^12`) each, in a reachable state, and
approval is 100%. -/
theorem C56_wrapped_sum_fails :
    ∃ s t, Reachable kreivo s ∧ s.world.polls 0 = some (.ongoing t 1) ∧
      s.votes 0 = [(2, (.native false (10 ^ 12), Demo.bob)), (1, (.native true (10 ^ 12), Demo.alice))] ∧
      approval t = 10 ^ 9 :=
  ⟨after kreivo Demo.env Demo.rich
      [(.signed Demo.alice, .setDecisionMethod 1 .native), (.signed Demo.alice, .vote 1 0 (.native true (10 ^ 12))),
        (.signed Demo.bob, .vote 2 0 (.native false (10 ^ 12)))], _,
    after_reachable Demo.env_lawful (Demo.rich_reachable _) _, rfl, by decide +kernel, by decide +kernel⟩

/-- C56 fails for an empty electorate: with no maximum support, support is 100% although nobody voted. -/
theorem C56_empty_electorate_fails :
    ∃ s t, Reachable kreivo s ∧ s.world.polls 0 = some (.ongoing t 1) ∧ t.bareAyes = 0 ∧ maxSupport s 1 = 0 ∧
      support s t 1 = 10 ^ 9 :=
  ⟨{ Demo.chain with world := { Demo.world1 with items := [] } }, _,
    (Demo.chain_reachable _).step (.world _ (pollsMove_of_eq rfl)), rfl, rfl, rfl, by decide +kernel⟩

/-! ## C57 -/

/-- C57: while the total stays within `10^9`, an added aye never lowers approval and an added nay never raises it. -/
theorem C57_monotone_partial (t : Tally) (w x : Nat) (h : t.ayes + t.nays + w ≤ 10 ^ 9) :
    approval t ≤ approval (t.addVote true w x) ∧ approval (t.addVote false w x) ≤ approval t := by
  have e1 : t.addVote true w x = ⟨t.ayes + w, t.nays, satAdd32 t.bareAyes x⟩ := by
    simp only [Tally.addVote, if_true, satAdd32, WMAX]
    rw [Nat.min_eq_left (by omega)]
  have e2 : t.addVote false w x = ⟨t.ayes, t.nays + w, t.bareAyes⟩ := by
    simp only [Tally.addVote, Bool.false_eq_true, if_false, satAdd32, WMAX]
    rw [Nat.min_eq_left (by omega)]
  rw [e1, e2, C56_approval_exact_partial t (by omega), C56_approval_exact_partial _ (by dsimp only; omega),
    C56_approval_exact_partial _ (by dsimp only; omega)]
  dsimp only
  constructor
  · rcases Nat.eq_zero_or_pos (t.ayes + w + t.nays) with h0 | h0
    · have : t.ayes = 0 := by omega
      rw [this]; simp
    · rw [Nat.le_div_iff_mul_le h0]
      have h1 := Nat.div_mul_le_self (t.ayes * 10 ^ 9) (t.ayes + t.nays)
      have h2 : t.ayes * 10 ^ 9 / (t.ayes + t.nays) ≤ 10 ^ 9 := by
        apply Nat.div_le_of_le_mul
        exact Nat.mul_le_mul_right _ (by omega)
      generalize t.ayes * 10 ^ 9 / (t.ayes + t.nays) = q at h1 h2
      have h3 := Nat.mul_le_mul_right w h2
      calc q * (t.ayes + w + t.nays) = q * (t.ayes + t.nays) + q * w := by ring
        _ ≤ t.ayes * 10 ^ 9 + 10 ^ 9 * w := by omega
        _ = (t.ayes + w) * 10 ^ 9 := by ring
  · rcases Nat.eq_zero_or_pos (t.ayes + t.nays) with h0 | h0
    · have : t.ayes = 0 := by omega
      rw [this]; simp
    · exact Nat.div_le_div_left (by omega) h0

example : approval ⟨3, 1, 3⟩ = 750000000 ∧ approval (Tally.addVote ⟨3, 1, 3⟩ true 4 4) = 875000000 ∧
    approval (Tally.addVote ⟨3, 1, 3⟩ false 4 4) = 375000000 := by decide +kernel

/-- C57: and as long as the total fits 32 bits, an added aye lowers approval by at most two parts in a billion, and an added
nay raises it by at most as much. -/
theorem C57_nearly_monotone_partial (t : Tally) (w x : Nat) (h : t.ayes + t.nays + w < 2 ^ 32) :
    approval t ≤ approval (t.addVote true w x) + 2 ∧ approval (t.addVote false w x) ≤ approval t + 2 := by
  have e1 : t.addVote true w x = ⟨t.ayes + w, t.nays, satAdd32 t.bareAyes x⟩ := by
    simp only [Tally.addVote, if_true, satAdd32, WMAX]
    rw [Nat.min_eq_left (by omega)]
  have e2 : t.addVote false w x = ⟨t.ayes, t.nays + w, t.bareAyes⟩ := by
    simp only [Tally.addVote, Bool.false_eq_true, if_false, satAdd32, WMAX]
    rw [Nat.min_eq_left (by omega)]
  rw [e1, e2]
  by_cases h0 : t.ayes = 0
  · have hz : ∀ u : Tally, u.ayes = 0 → approval u = 0 := by
      intro u hu; unfold approval; rw [hu]; exact fromRational_zero (by omega)
    rw [hz t h0, hz ⟨t.ayes, t.nays + w, t.bareAyes⟩ h0]
    omega
  · obtain ⟨a1, a2⟩ := C56_approval_near_partial t (by omega) (by omega)
    obtain ⟨b1, b2⟩ := C56_approval_near_partial ⟨t.ayes + w, t.nays, satAdd32 t.bareAyes x⟩ (by dsimp only; omega)
      (by dsimp only; omega)
    obtain ⟨c1, c2⟩ := C56_approval_near_partial ⟨t.ayes, t.nays + w, t.bareAyes⟩ (by dsimp only; omega)
      (by dsimp only; omega)
    have hr : approval t ≤ 10 ^ 9 := fromRational_le _ _ _
    have hr3 : approval ⟨t.ayes, t.nays + w, t.bareAyes⟩ ≤ 10 ^ 9 := fromRational_le _ _ _
    dsimp only at b1 b2 c1 c2
    generalize approval t = r at *
    generalize approval ⟨t.ayes + w, t.nays, satAdd32 t.bareAyes x⟩ = r1 at *
    generalize approval ⟨t.ayes, t.nays + w, t.bareAyes⟩ = r2 at *
    constructor
    · by_contra hc
      have k : (r1 + 2) * (t.ayes + w + t.nays) ≤ (r - 1) * (t.ayes + w + t.nays) :=
        Nat.mul_le_mul_right _ (by omega)
      have k2 : (r - 1) * (t.ayes + t.nays) + (t.ayes + t.nays) = r * (t.ayes + t.nays) := by
        conv_rhs => rw [show r = (r - 1) + 1 by omega]
        ring
      have k3 : (r - 1) * (t.ayes + w + t.nays) = (r - 1) * (t.ayes + t.nays) + (r - 1) * w := by ring
      have k4 : (r - 1) * w ≤ 10 ^ 9 * w := Nat.mul_le_mul_right _ (by omega)
      have k5 : (t.ayes + w) * 10 ^ 9 = t.ayes * 10 ^ 9 + 10 ^ 9 * w := by ring
      omega
    · by_contra hc
      have k : (r + 2) * (t.ayes + t.nays) ≤ (r2 - 1) * (t.ayes + t.nays) := Nat.mul_le_mul_right _ (by omega)
      have k2 : (r2 - 1) * (t.ayes + (t.nays + w)) + (t.ayes + (t.nays + w)) = r2 * (t.ayes + (t.nays + w)) := by
        conv_rhs => rw [show r2 = (r2 - 1) + 1 by omega]
        ring
      have k3 : (r2 - 1) * (t.ayes + t.nays) ≤ (r2 - 1) * (t.ayes + (t.nays + w)) := Nat.mul_le_mul_left _ (by omega)
      omega

example : approval ⟨2000000001, 2000000000, 7⟩ ≤ approval (Tally.addVote ⟨2000000001, 2000000000, 7⟩ true 5 5) + 2 ∧
    approval (Tally.addVote ⟨2000000001, 2000000000, 7⟩ false 200000000 0) = 476190476 := by decide +kernel

/-- C57 fails beyond `10^9`: one more aye lowers approval, since large totals are divided down first. -/
theorem C57_aye_lowers_fails :
    approval ⟨1000000000, 1, 1000000000⟩ = 1000000000 ∧
    approval (Tally.addVote ⟨1000000000, 1, 1000000000⟩ true 1 1) = 999999998 := by decide +kernel

/-- C57 fails where the total wraps: one more nay takes approval from almost nothing to 100%. -/
theorem C57_nay_raises_fails :
    approval ⟨10, 4294967285, 10⟩ < 10 ∧ approval (Tally.addVote ⟨10, 4294967285, 10⟩ false 1 1) = 1000000000 := by
  decide +kernel

end Verif.Communities
