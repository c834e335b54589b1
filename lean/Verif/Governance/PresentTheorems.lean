import Verif.Governance.SlotTheorems

/-!
# C128: the votes that decide are those of present members

Neither the ranked collective nor the communities pallet takes the votes of somebody who leaves off the tally
(`remove_member`, pallets/communities/src/lib.rs 439-455; collective/mod.rs 21-49).
-/

namespace Verif.Governance

open Verif Verif.Accounts Verif.Communities

/-! ## Histories in which nobody leaves -/

/-- A member of the collective stays, with the same rank. Specification only, no code behind it (outside /repo). -/
def SeatStays (a : AccountId) (s s' : GSt) : Prop := ∀ k, s.m.seats a = some k → s'.m.seats a = some k

/-- Histories all of whose steps have a property. Specification only, no code behind it (outside /repo). -/
inductive ReachBy (P : GSt → GSt → Prop) (g : GSt) : GSt → Prop
  | start : ReachBy P g g
  | step {s s' : GSt} (h : ReachBy P g s) (st : GStep s s') (hp : P s s') : ReachBy P g s'

theorem ReachBy.reach {P : GSt → GSt → Prop} {g s : GSt} (h : ReachBy P g s) : GReach g s := by
  induction h with
  | start => exact .start
  | step _ st _ ih => exact .step ih st

/-- The votes in the collective after a step: as before, or one more, which counts the rank of the member who casts it. -/
theorem cvotes_step {s s' : GSt} (st : GStep s s') :
    s'.cvotes = s.cvotes ∨ ∃ who p aye rank, s.m.seats who = some rank ∧ 1 ≤ rank ∧
      s'.cvotes = (fun q => if q = p then aset (s.cvotes p) who (aye, rank) else s.cvotes q) ∧ s'.m.seats = s.m.seats := by
  have hleaf : ∀ (env : GEnv) (s1 : GSt) (o : Origin), s1.cvotes = s.cvotes → s1.m = s.m → Leaf env s1 o s' →
      s'.cvotes = s.cvotes ∨ ∃ who p aye rank, s.m.seats who = some rank ∧ 1 ≤ rank ∧
        s'.cvotes = (fun q => if q = p then aset (s.cvotes p) who (aye, rank) else s.cvotes q) ∧
        s'.m.seats = s.m.seats := by
    intro env s1 o e1 e2 hl
    cases hl with
    | cvote who p aye rank n r h1 h2 h3 =>
      right
      unfold rankToVotes minRank at h3
      split at h3
      · cases h3
      · rename_i hr
        have hr : 1 ≤ rank := by omega
        have hn : n = rank := by
          have := Option.some.inj h3
          omega
        subst hn
        refine ⟨who, p, aye, n, by rw [← e2]; exact h1, hr, ?_, by rw [← e2]⟩
        dsimp only
        rw [e1]
    | _ => exact .inl e1
  cases st with
  | call env he o ho c hd =>
    obtain ⟨o', _, hl⟩ := gdispatch_leaf hd
    exact hleaf env s o' rfl rfl hl
  | run env he pre post t ha hw =>
    rcases run_cases (env := env) (s := { s with agenda := pre ++ post }) (o := t.origin) (c := t.call) with h2 | h2
    · rw [h2]; exact .inl rfl
    · obtain ⟨o', _, hl⟩ := gdispatch_leaf h2
      exact hleaf env { s with agenda := pre ++ post } o' rfl rfl hl
  | apart pre post rest t ha hr hw => exact .inl rfl
  | collective env q h => exact .inl (serviceCollective_same h).2.1
  | community env q h => exact .inl (serviceCommunity_same h).2.2.2.1
  | time n => exact .inl rfl
  | world w hw => exact .inl rfl

/-- C128 (partial: of accounts that do not leave the collective nor change rank, whoever else does): every vote they have on
record is that of a member, and counts the rank they have. -/
theorem C128_collective_partial (g : GSt) (hg : GGenesis g) (s : GSt) (who : AccountId)
    (hr : ReachBy (SeatStays who) g s) (p : Nat) (aye : Bool) (n : Nat) (hv : aget (s.cvotes p) who = some (aye, n)) :
    s.m.seats who = some n ∧ 1 ≤ n := by
  induction hr generalizing p aye n with
  | start => rw [hg.votes p] at hv; cases hv
  | @step s s' hr st hp ih =>
    rcases cvotes_step st with h | ⟨w, q, b, rank, h1, h2, h3, h4⟩
    · rw [h] at hv
      obtain ⟨a, b⟩ := ih p aye n hv
      exact ⟨hp _ a, b⟩
    · rw [h3] at hv
      dsimp only at hv
      split at hv
      · rename_i hpq
        by_cases hw : who = w
        · subst hw
          rw [aget_aset] at hv
          simp only [if_true] at hv
          cases hv
          exact ⟨hp _ h1, h2⟩
        · rw [aget_aset, if_neg hw] at hv
          obtain ⟨a, b⟩ := ih q aye n hv
          exact ⟨hp _ a, b⟩
      · obtain ⟨a, b⟩ := ih p aye n hv
        exact ⟨hp _ a, b⟩

/-! ## Communities -/

/-- A membership stays with its holder; its rank may change. Specification only, no code behind it (outside /repo). -/
def MembershipStays (c : CId) (m : MId) (s s' : St) : Prop :=
  ∀ i ∈ s.world.items, i.group = c → i.id = m → ∃ j ∈ s'.world.items, j.group = c ∧ j.id = m ∧ j.owner = i.owner

/-- Histories of the communities pallet in which a membership stays with its holder. Specification only, no code
behind it (outside /repo). -/
inductive LoyalSteps (cfg : Config) (c : CId) (m : MId) (g : St) : St → Prop
  | refl : LoyalSteps cfg c m g g
  | tail {s s' : St} (h : LoyalSteps cfg c m g s) (st : Step cfg s s') (hp : MembershipStays c m s s') :
      LoyalSteps cfg c m g s'

theorem LoyalSteps.reachable {cfg : Config} {c : CId} {m : MId} {g s : St} (hg : Genesis g) (h : LoyalSteps cfg c m g s) :
    Reachable cfg s := by
  induction h with
  | refl => exact ⟨g, hg, .refl _⟩
  | tail _ st _ ih => exact ih.step st

theorem checkMembership_held {items : List Item} {who : AccountId} {m : MId} {c : CId}
    (h : checkMembership items who m = some c) : ∃ i ∈ items, i.group = c ∧ i.id = m ∧ i.owner = who := by
  unfold checkMembership at h
  rw [Option.map_eq_some_iff] at h
  obtain ⟨i, hi, rfl⟩ := h
  have h1 := List.find?_some hi
  simp only [decide_eq_true_eq] at h1
  exact ⟨i, List.mem_of_find?_eq_some hi, rfl, h1.2, h1.1⟩

theorem MembershipStays.held {s s' : St} {c : CId} {m : MId} (h : MembershipStays c m s s') {who : AccountId}
    (hi : ∃ i ∈ s.world.items, i.group = c ∧ i.id = m ∧ i.owner = who) :
    ∃ i ∈ s'.world.items, i.group = c ∧ i.id = m ∧ i.owner = who := by
  obtain ⟨i, hi, rfl, rfl, rfl⟩ := hi
  exact h i hi rfl rfl

/-- C128 (partial: of memberships that stay with their holder, whatever becomes of others): a vote on record with one of them
in an open poll of a community was cast by who still holds that membership of that community. -/
theorem C128_community_partial (cfg : Config) (g : St) (hg : Genesis g) (s : St) (c : CId) (m : MId)
    (hr : LoyalSteps cfg c m g s) (p : PollIx)
    (t : Tally) (hp : s.world.polls p = some (.ongoing t c)) (v : Vote) (who : AccountId)
    (hv : aget (s.votes p) m = some (v, who)) : ∃ i ∈ s.world.items, i.group = c ∧ i.id = m ∧ i.owner = who := by
  induction hr generalizing p t v who with
  | refl => rw [hg.2.2.2.2.2.2 p] at hp; cases hp
  | @tail s s' hr st hstay ih =>
    have hr' := hr.reachable hg
    have hong : ∀ {w : World}, PollsMove s.world w → w.polls p = some (.ongoing t c) →
        s.votes p ≠ [] → s.world.polls p = some (.ongoing t c) := by
      intro w hm hw hne
      have := hm p
      cases hq : s.world.polls p with
      | none => exact absurd (reachable_unborn hr' p hq).1 hne
      | some x =>
        rw [hq] at this
        cases x with
        | ended => rw [hw] at this; cases this
        | ongoing t' c' =>
          rcases this with h | h <;> rw [hw] at h <;> cases h
          rfl
    cases step_voteMove st with
    | same h1 h2 h3 h4 h5 =>
      rw [h1] at hv
      exact hstay.held (ih p t (hong h5 hp (by intro h; rw [h] at hv; cases hv)) v who hv)
    | unlock env o q h =>
      obtain ⟨w, u, _, h1⟩ := unlock_unlocked h
      rw [h1.votes] at hv
      rw [h1.polls] at hp
      exact hstay.held (ih p t hp v who hv)
    | remove env o m' q h =>
      obtain ⟨w, c', s1, _, _, ⟨t', u, voter, h4⟩, rfl⟩ := removeVote_parts h
      have hv : aget (s1.votes p) m = some (v, who) := hv
      have hp : s1.world.polls p = some (.ongoing t c) := hp
      rw [h4.votes p] at hv
      rw [h4.polls p] at hp
      by_cases hq : p = q
      · subst hq
        rw [if_pos rfl] at hv hp
        rw [aget_adel] at hv
        split at hv
        · cases hv
        · cases hp
          exact hstay.held (ih p t' h4.poll v who hv)
      · rw [if_neg hq] at hv hp
        exact hstay.held (ih p t hp v who hv)
    | vote env o m' q v' h =>
      obtain ⟨w, c', s1, s2, _, _, h3, _, h4, ⟨t', h5⟩, rfl⟩ := vote_parts h
      have hv : aget (s2.votes p) m = some (v, who) := hv
      have hp : s2.world.polls p = some (.ongoing t c) := hp
      have i1 : ∀ t v who, s1.world.polls p = some (.ongoing t c) → aget (s1.votes p) m = some (v, who) →
          ∃ i ∈ s.world.items, i.group = c ∧ i.id = m ∧ i.owner = who := by
        intro t v who hp hv
        rcases h4 with ⟨_, rfl⟩ | ⟨t2, u, voter, h4⟩
        · exact ih p t hp v who hv
        · rw [h4.votes p] at hv
          rw [h4.polls p] at hp
          by_cases hq : p = q
          · subst hq
            rw [if_pos rfl] at hv hp
            rw [aget_adel] at hv
            split at hv
            · cases hv
            · cases hp
              exact ih p t2 h4.poll v who hv
          · rw [if_neg hq] at hv hp
            exact ih p t hp v who hv
      rw [h5.votes p] at hv
      rw [h5.polls p] at hp
      by_cases hq : p = q
      · subst hq
        rw [if_pos rfl] at hv hp
        rw [aget_aset] at hv
        cases hp
        split at hv
        · rename_i hm
          cases hv
          subst hm
          exact hstay.held (checkMembership_held h3)
        · exact hstay.held (i1 t' v who h5.poll hv)
      · rw [if_neg hq] at hv hp
        exact hstay.held (i1 t v who hp hv)

/-! ## Votes of those who left -/

namespace Demo

/-- Two proposals of the only member of the collective, who votes for both; the first is to expel them. -/
def farewell : List Act :=
  [.call (.signed [9]) (.csubmit .root (.expel [9] 1) (.after 0)), .call (.signed [9]) (.cdeposit 0),
   .call (.signed [9]) (.cvote 0 true),
   .call (.signed [9]) (.csubmit .root (.schedule (.after 10) (.other 0)) (.after 0)), .call (.signed [9]) (.cdeposit 1),
   .call (.signed [9]) (.cvote 1 true), .time (15 * minutes), .collective 0, .time (15 * minutes), .collective 0, .time 1]

/-- The first proposal is carried out. -/
def expelled : GSt :=
  let s := farewell.foldl act gstart
  (gdispatch genv { s with agenda := [] } .root (.expel [9] 1)).getD { s with agenda := [] }

/-- And the second one is decided. -/
def legacy : List Act := [.collective 1, .time (15 * minutes)]

theorem expelled_reach : GReach gstart expelled := by
  refine .step (acts_reach .start farewell (by decide)) (.run genv genv_tame [] [] ⟨.collective 0, 2 + 30 * minutes, .root, .expel [9] 1⟩
    rfl ?_)
  exact (by decide +kernel : 2 + 30 * minutes ≤ (farewell.foldl act gstart).now)

/-- Two members of community 7, `[5]` and `[6]`; `[5]` proposes something, votes for it, and is removed by the admin. -/
def removed : List Act :=
  [.call (.signed [1]) (.mgr (.register 7 (ascii "seven") (.id [1]) none none)),
   .items [⟨7, 3, [5], 0⟩, ⟨7, 4, [6], 0⟩],
   .call (.signed [5]) (.submit (.community ⟨7, none⟩) (.other 0) (.after 0)), .call (.signed [5]) (.deposit 0),
   .call (.signed [5]) (.comm (.vote 3 0 (.standard true))),
   .call (.signed [1]) (.comm (.removeMember (.id [5]) 3)), .time 1, .community 0, .time 1]

end Demo

/-- C128 is false of the collective: somebody votes, is expelled, and their vote alone lets a call as root be approved
later. -/
theorem C128_collective_fails :
    ∃ g s s' : GSt, GGenesis g ∧ GReach g s ∧ GStep s s' ∧
      (∃ r, s.crefs 1 = some (.ongoing r)) ∧ (∃ r n, s'.crefs 1 = some (.approved r n) ∧ r.origin = .root) ∧
      s.cvotes 1 = [([9], (true, 1))] ∧ s.m.seats [9] = none := by
  have hs : GReach Demo.gstart (Demo.legacy.foldl Demo.act Demo.expelled) :=
    Demo.acts_reach Demo.expelled_reach _ (by decide)
  exact ⟨Demo.gstart, _, Demo.act (Demo.legacy.foldl Demo.act Demo.expelled) (.collective 1), Demo.gstart_genesis, hs,
    .collective Demo.genv 1 rfl, ⟨_, rfl⟩, ⟨_, _, rfl, rfl⟩, rfl, rfl⟩

/-- C128 is false of communities: a member votes and is removed by the community, and their vote alone decides the
referendum, against the silence of the only member left. -/
theorem C128_community_fails :
    ∃ g s s' : GSt, GGenesis g ∧ GReach g s ∧ GStep s s' ∧
      (∃ r, s.refs 0 = some (.ongoing r) ∧ r.track = 7) ∧ (∃ r n, s'.refs 0 = some (.approved r n)) ∧
      s.m.comm.votes 0 = [(3, (.standard true, [5]))] ∧ isMemberOf s.m.comm.world.items 7 [5] = false ∧
      isMemberOf s.m.comm.world.items 7 [6] = true ∧ s.m.comm.info 7 = some .active := by
  have hs : GReach Demo.gstart (Demo.removed.foldl Demo.act Demo.gstart) := Demo.acts_reach .start _ (by decide)
  exact ⟨Demo.gstart, _, Demo.act (Demo.removed.foldl Demo.act Demo.gstart) (.community 0), Demo.gstart_genesis, hs,
    .community Demo.genv 0 rfl, ⟨_, rfl, rfl⟩, ⟨_, _, rfl⟩, rfl, by decide +kernel, by decide +kernel, by decide +kernel⟩

/-- Nobody leaves the collective while its member proposes, places a deposit and votes. -/
example :
    let s := Demo.proposal.foldl Demo.act Demo.gstart
    ReachBy (SeatStays [9]) Demo.gstart s ∧ aget (s.cvotes 0) [9] = some (true, 1) :=
  ⟨.step (.step (.step .start
      (.call Demo.genv Demo.genv_tame (.signed [9]) trivial (.csubmit .root (.promote [9]) (.after 0)) rfl) fun _ h => h)
      (.call Demo.genv Demo.genv_tame (.signed [9]) trivial (.cdeposit 0) rfl) fun _ h => h)
      (.call Demo.genv Demo.genv_tame (.signed [9]) trivial (.cvote 0 true) rfl) fun _ h => h, rfl⟩

/-- Nor does anybody leave community 1 when alice votes in its poll. -/
example :
    let s := after kreivo Communities.Demo.env Communities.Demo.chain
      [(.signed Communities.Demo.alice, .vote 1 0 (.standard true))]
    Genesis Communities.Demo.start ∧ LoyalSteps kreivo 1 1 Communities.Demo.start s ∧
      aget (s.votes 0) 1 = some (.standard true, Communities.Demo.alice) := by
  refine ⟨Communities.Demo.start_genesis, .tail (s := Communities.Demo.chain) ?_
    (.call Communities.Demo.env Communities.Demo.env_lawful (.signed Communities.Demo.alice)
      (.vote 1 0 (.standard true)) rfl) fun i hi h1 h2 => ⟨i, hi, h1, h2, rfl⟩, by decide +kernel⟩
  refine .tail (s := { Communities.Demo.chain with world := Communities.Demo.world0 })
    (.tail (.tail .refl (.register Communities.Demo.env (.signed Communities.Demo.alice) 1 none rfl)
      fun i hi h1 h2 => ⟨i, hi, h1, h2, rfl⟩)
      (.register Communities.Demo.env (.signed Communities.Demo.bob) 2 none ?_) fun i hi h1 h2 => ⟨i, hi, h1, h2, rfl⟩)
    (.world Communities.Demo.world1 Communities.Demo.polls_open) fun i hi h1 h2 => ⟨i, hi, h1, h2, rfl⟩
  unfold register payDeposit
  rw [if_neg (by decide), if_neg (by decide)]
  rfl

end Verif.Governance
