import Verif.Governance.EnactTheorems

/-!
# C114 and C115: what it takes for a community to act
-/

namespace Verif.Governance

open Verif Verif.Accounts Verif.Communities

/-! ## How tallies of community referenda change -/

/-- A member of community `c` votes aye on referendum `p` in state `s`. -/
def MemberAye (s : GSt) (c : CId) (p : Nat) : Prop :=
  ∃ env who m v c', dispatch kreivo env s.m.comm (.signed who) (.vote m p v) = .ok c' ∧ v.say = true ∧
    ∃ i ∈ s.m.comm.world.items, i.owner = who ∧ i.id = m ∧ i.group = c

theorem removeVote_ayes (t : Tally) (b : Bool) (x w : Nat) : (t.removeVote b x w).ayes ≤ t.ayes := by
  unfold Tally.removeVote
  cases b <;> simp

theorem voteStep_ayes {env : Env} {s : GSt} {c' : St} (h : VoteStep env s.m.comm c') {p : Nat} {t' : Tally} {c : CId}
    (hp : c'.world.polls p = some (.ongoing t' c)) :
    ∃ t, s.m.comm.world.polls p = some (.ongoing t c) ∧ (t'.ayes ≤ t.ayes ∨ MemberAye s c p) := by
  cases h with
  | same h => rw [h] at hp; exact ⟨t', hp, .inl (le_refl _)⟩
  | remove o m q h =>
    obtain ⟨who, d, s1, _, _, ⟨t, u, voter, hu⟩, rfl⟩ := removeVote_parts h
    replace hp : s1.world.polls p = some (.ongoing t' c) := hp
    rw [hu.polls p] at hp
    split at hp
    · rename_i hq; subst hq
      cases hp
      exact ⟨t, hu.poll, .inl (removeVote_ayes ..)⟩
    · exact ⟨t', hp, .inl (le_refl _)⟩
  | vote o m q v h =>
    have hd : dispatch kreivo env s.m.comm o (.vote m q v) = .ok c' := h
    obtain ⟨who, d, s1, s2, ho, _, _, _, h1, ⟨t, hc⟩, rfl⟩ := vote_parts h
    subst ho
    replace hp : s2.world.polls p = some (.ongoing t' c) := hp
    rw [hc.polls p] at hp
    split at hp
    · rename_i hq; subst hq
      cases hp
      have hb : ∃ t0, s.m.comm.world.polls p = some (.ongoing t0 c) ∧ t.ayes ≤ t0.ayes := by
        rcases h1 with ⟨_, rfl⟩ | ⟨t0, u, voter, hu⟩
        · exact ⟨t, hc.poll, le_refl _⟩
        · have := hc.poll
          rw [hu.polls p, if_pos rfl] at this
          cases this
          exact ⟨t0, hu.poll, removeVote_ayes ..⟩
      obtain ⟨t0, h2, h3⟩ := hb
      refine ⟨t0, h2, ?_⟩
      by_cases hs : v.say = true
      · right
        obtain ⟨who', c0, t1, hw, hm, hpoll, _⟩ := C48_conditions _ _ _ _ _ _ _ _ hd
        cases hw
        rw [h2] at hpoll; cases hpoll
        exact ⟨env, who, m, v, _, hd, hs, hm⟩
      · left
        have hs : v.say = false := by simpa using hs
        rw [hs]
        exact h3
    · rename_i hq
      have hp : s1.world.polls p = some (.ongoing t' c) := hp
      refine ⟨t', ?_, .inl (le_refl _)⟩
      rcases h1 with ⟨_, rfl⟩ | ⟨t0, u, voter, hu⟩
      · exact hp
      · rw [hu.polls p, if_neg hq] at hp; exact hp

/-- From one step to the next the ayes of a referendum grow only by a member's vote. -/
theorem poll_change {s s' : GSt} (st : GStep s s') {p : Nat} {t' : Tally} {c : CId}
    (hp : s'.m.comm.world.polls p = some (.ongoing t' c)) :
    t'.ayes = 0 ∨ ∃ t, s.m.comm.world.polls p = some (.ongoing t c) ∧ (t'.ayes ≤ t.ayes ∨ MemberAye s c p) := by
  have hsame : s'.m.comm.world.polls = s.m.comm.world.polls →
      t'.ayes = 0 ∨ ∃ t, s.m.comm.world.polls p = some (.ongoing t c) ∧ (t'.ayes ≤ t.ayes ∨ MemberAye s c p) := by
    intro h
    rw [h] at hp
    exact .inr ⟨t', hp, .inl (le_refl _)⟩
  have hset : ∀ q x, (∀ t d, x = .ongoing t d → t.ayes = 0) → s'.m.comm = setPoll s.m.comm q x →
      t'.ayes = 0 ∨ ∃ t, s.m.comm.world.polls p = some (.ongoing t c) ∧ (t'.ayes ≤ t.ayes ∨ MemberAye s c p) := by
    intro q x hx h
    rw [h] at hp
    have hp : (if p = q then some x else s.m.comm.world.polls p) = some (.ongoing t' c) := hp
    split at hp
    · cases hp; exact .inl (hx _ _ rfl)
    · exact .inr ⟨t', hp, .inl (le_refl _)⟩
  have hleaf : ∀ (env : GEnv) (s1 : GSt) (o : Origin), Tame env → s1.m = s.m → Leaf env s1 o s' →
      t'.ayes = 0 ∨ ∃ t, s.m.comm.world.polls p = some (.ongoing t c) ∧ (t'.ayes ≤ t.ayes ∨ MemberAye s c p) := by
    intro env s1 o he e1 hl
    have e2 : s1.m.comm.world.polls = s.m.comm.world.polls := by rw [e1]
    cases hl with
    | comm o c' c'' h =>
      rw [e1] at h
      exact .inr (voteStep_ayes (dispatch_voteStep he h) hp)
    | mgr o c' m' h =>
      refine hsame ?_
      rw [← e1]
      exact (mdispatch_facts h).1
    | submit o who origin call m t h =>
      exact hset s1.next (.ongoing .zero t) (fun _ _ h => by cases h; rfl) (by rw [← e1])
    | close q r i h hi =>
      exact hset q .ended (fun _ _ h => by cases h) (by rw [← e1]; rfl)
    | _ => exact hsame e2
  cases st with
  | call env he o ho c hd =>
    obtain ⟨o', _, hl⟩ := gdispatch_leaf hd
    exact hleaf env s o' he rfl hl
  | run env he pre post u ha hw =>
    rcases run_cases (env := env) (s := { s with agenda := pre ++ post }) (o := u.origin) (c := u.call) with h2 | h2
    · exact hsame (by rw [h2])
    · obtain ⟨o', _, hl⟩ := gdispatch_leaf h2
      exact hleaf env { s with agenda := pre ++ post } o' he rfl hl
  | collective env q h => exact hsame (by rw [(serviceCollective_same h).1])
  | community env q h =>
    obtain ⟨r, i, t, d, hr, hp', hi, h⟩ := serviceCommunity_ok h
    rcases h with rfl | ⟨d, _, rfl⟩ | ⟨d, t, _, _, _, _, rfl⟩ | rfl | rfl
    · exact hsame rfl
    · exact hsame rfl
    · exact hset q .ended (fun _ _ h => by cases h) rfl
    · exact hset q .ended (fun _ _ h => by cases h) rfl
    · exact hset q .ended (fun _ _ h => by cases h) rfl
  | apart pre post rest t ha hr hw => exact hsame rfl
  | time n => exact hsame rfl
  | world w hw => exact hsame hw

/-- If a referendum has ayes, a member voted aye earlier. -/
theorem reach_ayes {g : GSt} (hg : GGenesis g) {s : GSt} (h : GReach g s) (p : Nat) (t : Tally) (c : CId)
    (hp : s.m.comm.world.polls p = some (.ongoing t c)) (ht : 0 < t.ayes) :
    ∃ s1, GReach g s1 ∧ GReach s1 s ∧ MemberAye s1 c p := by
  induction h generalizing t with
  | start =>
    rw [hg.comm.2.2.2.2.2.2 p] at hp; cases hp
  | @step s s' hr st ih =>
    rcases poll_change st hp with h0 | ⟨t0, h0, h1 | h1⟩
    · omega
    · obtain ⟨s1, a, b, c⟩ := ih t0 h0 (by omega)
      exact ⟨s1, a, .step b st, c⟩
    · exact ⟨s, hr, .step .start st, h1⟩

/-! ## C114 -/

/-- C114: a scheduled call that is to run as (part of) a community, before the collective approved a proposal for root, is
the call of an approved referendum of that community, or one in the batch approved there, and runs as the whole community. -/
theorem C114_own_referendum (g : GSt) (hg : GGenesis g) (s : GSt) (h : GReach g s)
    (hno : ¬ ∃ p r n, s.crefs p = some (.approved r n) ∧ r.origin = .root) (t : Task) (ht : t ∈ s.agenda)
    (o : CommunityOrigin UInt16 UInt32) (ho : t.origin = .community o) :
    o.subset = none ∧ ∃ p r n, t.source = .community p ∧ s.refs p = some (.approved r n) ∧ r.track = o.community ∧
      Part t.call r.call := by
  have hs := (reach_shape hg h).tasks t ht
  rcases reach_quiet hg h with hq | hr
  · cases hsrc : t.source with
    | collective p =>
      rw [hsrc] at hs
      obtain ⟨r, n, h1, h2, _⟩ := hs
      have := (reach_shape hg h).ctrack p _ h1
      have e : (RefInfo.approved r n).ref.origin = .community o := by rw [← ho, h2]; rfl
      rw [e] at this
      cases this
    | community p =>
      rw [hsrc] at hs
      obtain ⟨r, n, h1, h2, h3⟩ := hs
      have := hq.refs p _ h1
      have e : (RefInfo.approved r n).ref.origin = .community o := by rw [← ho, h2]; rfl
      rw [e] at this
      cases this
      exact ⟨rfl, p, r, n, rfl, h1, rfl, h3⟩
    | scheduled =>
      rw [hsrc] at hs
      rw [ho] at hs; cases hs
  · exact absurd hr hno

/-- A community referendum being decided has its deposit. -/
theorem reach_deposit {g : GSt} (hg : GGenesis g) {s : GSt} (h : GReach g s) (p : Nat) (r : Ref CId) (d : Deciding)
    (hp : s.refs p = some (.ongoing r)) (hd : r.deciding = some d) : r.deposit = true ∧ d.since ≤ s.now := by
  induction h generalizing r d with
  | start => rw [hg.refs p] at hp; cases hp
  | @step s s' hr st ih =>
    have hnow := now_mono st
    rcases ref_change (reach_shape hg hr) st p with h1 | ⟨h1, t, origin, call, m, o, who, _, h2⟩ | ⟨r0, h1, hn⟩
    · rw [h1] at hp
      have := ih r d hp hd
      exact ⟨this.1, by omega⟩
    · rw [h2] at hp; cases hp; cases hd
    · rcases hn with h2 | h2 | h2 | h2 | h2 | ⟨i', t', d', hi', _, hb, h2⟩ | ⟨env, i', t', d', t, hi', _, _, _, _, _, h2⟩
      · rw [h2] at hp; cases hp
        have := ih r0 d h1 hd
        exact ⟨rfl, by omega⟩
      · rw [h2] at hp; cases hp
      · rw [h2] at hp; cases hp
      · rw [h2] at hp; cases hp
      · rw [h2] at hp; cases hp
      · subst h2
        have hself : (setRef s p (.ongoing { r0 with deciding := some d' })).refs p =
          some (.ongoing { r0 with deciding := some d' }) := by simp [setRef]
        rw [hself] at hp; cases hp; cases hd
        show _ ∧ d.since ≤ s.now
        rcases hb with ⟨_, b1, _, _, b3, _⟩ | ⟨d0, b1, b2, _⟩
        · exact ⟨b1, by omega⟩
        · have := ih r0 d0 h1 b1
          exact ⟨this.1, by omega⟩
      · subst h2
        have hself : (endRef s p (.approved r0 s.now)).refs p = some (.approved r0 s.now) := by simp [endRef, setRef]
        have hp : (endRef s p (.approved r0 s.now)).refs p = some (.ongoing r) := hp
        rw [hself] at hp; cases hp

/-- C114: an approved referendum of a community was approved, at the recorded block, in a state of the same history in
which its deposit was placed and its tally passed under the rules its track then had. -/
theorem C114_approved (g : GSt) (hg : GGenesis g) (s : GSt) (h : GReach g s) (p : Nat) (r : Ref CId) (n : Nat)
    (hp : s.refs p = some (.approved r n)) :
    ∃ s0 i t since, GReach g s0 ∧ GReach s0 s ∧ s0.now = n ∧ s0.refs p = some (.ongoing r) ∧ r.deposit = true ∧
      since ≤ n ∧ s0.m.tracks r.track = some i ∧ s0.m.comm.world.polls p = some (.ongoing t r.track) ∧
      isPassing i (n - since) (support s0.m.comm t r.track) (approval t) = true := by
  induction h with
  | start => rw [hg.refs p] at hp; cases hp
  | @step s s' hr st ih =>
    rcases ref_change (reach_shape hg hr) st p with h1 | ⟨h1, t, origin, call, m, o, who, _, h2⟩ | ⟨r0, h1, hn⟩
    · rw [h1] at hp
      obtain ⟨s0, i, t, since, a, b, c⟩ := ih hp
      exact ⟨s0, i, t, since, a, .step b st, c⟩
    · rw [h2] at hp; cases hp
    · rcases hn with h2 | h2 | h2 | h2 | h2 | ⟨i', t', d', hi', _, hb, h2⟩ |
        ⟨env, i', t', d', u, hi', hpoll, h3, h4, h5, h6, h2⟩
      · rw [h2] at hp; cases hp
      · rw [h2] at hp; cases hp
      · rw [h2] at hp; cases hp
      · rw [h2] at hp; cases hp
      · rw [h2] at hp; cases hp
      · rw [h2] at hp; simp [setRef] at hp
      · have e : s'.refs p = some (.approved r0 s.now) := by rw [h2]; simp [setRef, endRef]
        rw [e] at hp
        injection hp with hp
        injection hp with e1 e2
        subst e1 e2
        have hd := reach_deposit hg hr p r0 d' h1 h3
        exact ⟨s, i', t', d'.since, hr, .step .start st, rfl, h1, hd.1, hd.2, hi', hpoll, h6⟩

/-- C114: if the community still has the track it was registered with when its referendum is approved, then a member of
the community voted for it before. -/
theorem C114_member_voted (g : GSt) (hg : GGenesis g) (s : GSt) (h : GReach g s) (p : Nat) (r : Ref CId) (n : Nat)
    (hp : s.refs p = some (.approved r n)) :
    ∃ s0, GReach g s0 ∧ GReach s0 s ∧ s0.now = n ∧
      ((∃ name, s0.m.tracks r.track = defaultTrack name) →
        ∃ s1, GReach g s1 ∧ GReach s1 s0 ∧ MemberAye s1 r.track p) := by
  obtain ⟨s0, i, t, since, h1, h2, h3, _, _, _, h4, h5, h6⟩ := C114_approved g hg s h p r n hp
  refine ⟨s0, h1, h2, h3, fun ⟨name, hname⟩ => reach_ayes hg h1 p t r.track h5 ?_⟩
  rw [h4] at hname
  unfold isPassing at h6
  simp only [Bool.and_eq_true] at h6
  have hx := fromRational_le perbill (min (n - since) i.decisionPeriod) i.decisionPeriod
  have h7 := (C66_thresholds name i hname.symm _ hx).2.2.1
  have h8 : 500000000 ≤ approval t := le_trans h7 (of_decide_eq_true h6.2)
  rcases Nat.eq_zero_or_pos t.ayes with h0 | h0
  · unfold approval at h8
    rw [h0, fromRational_zero (by omega)] at h8
    omega
  · exact h0

/-- The referendum of community 7's only member is approved, and its call waits. -/
example :
    let s := Demo.communityFirst.foldl Demo.act Demo.gstart
    GReach Demo.gstart s ∧ (∃ r, s.refs 0 = some (.approved r 3) ∧ r.track = 7) ∧
      s.agenda.map (fun t => (t.source, t.when, t.origin)) = [(.community 0, 1000000, .community ⟨7, none⟩)] ∧
      s.m.tracks 7 = defaultTrack (ascii "seven") ∧ s.crefs 0 = none := by
  exact ⟨Demo.acts_reach .start _ (by decide), ⟨_, rfl, rfl⟩, rfl, rfl, rfl⟩

/-! ## C115 -/

namespace Demo

/-- A community of a hundred members of whom one votes. -/
def lonelyVote : List Act :=
  [.call (.signed [1]) (.mgr (.register 7 (ascii "seven") (.id [1]) none none)),
   .items ((List.range 100).map fun k => ⟨7, UInt32.ofNat k, [UInt8.ofNat k], 0⟩),
   .call (.signed [5]) (.submit (.community ⟨7, none⟩) (.other 0) (.after 0)), .call (.signed [5]) (.deposit 0),
   .call (.signed [5]) (.comm (.vote 5 0 (.standard true))), .time 1, .community 0, .time 254, .community 0, .time 1,
   .community 0]

end Demo

/-- C115 is false of the code: on the track communities are registered with, one aye without a nay passes at the end of the
decision period, whatever the number of members; in a community of a hundred members a single one gets a proposal
approved. -/
theorem C115_one_vote_fails :
    (∀ (name : List UInt8) (i : TrackInfo), defaultTrack name = some i → ∀ (s : St) (c : CId),
      isPassing i i.decisionPeriod (support s ⟨1, 0, 1⟩ c) (approval ⟨1, 0, 1⟩) = true) ∧
    ∃ g s : GSt, GGenesis g ∧ GReach g s ∧ membersTotal s.m.comm.world.items 7 = 100 ∧
      (∃ r n, s.refs 0 = some (.approved r n) ∧ r.track = 7) ∧ (s.m.comm.votes 0).length = 1 := by
  refine ⟨fun name i h s c => ?_, Demo.gstart, Demo.lonelyVote.foldl Demo.act Demo.gstart, Demo.gstart_genesis,
    Demo.acts_reach .start _ (by decide), by decide +kernel, ⟨_, _, rfl, rfl⟩, by decide +kernel⟩
  have hd : i.decisionPeriod = 255 := by
    unfold defaultTrack at h
    split at h <;> cases h
    rfl
  unfold isPassing
  rw [hd]
  have hx : fromRational perbill (min 255 255) 255 = 1000000000 := by decide +kernel
  have ht := C66_thresholds name i h 1000000000 (le_refl _)
  have ha : approval ⟨1, 0, 1⟩ = 1000000000 := by decide +kernel
  simp only [hx, Curve.passing, ha, Bool.and_eq_true, decide_eq_true_eq]
  refine ⟨?_, ?_⟩
  · rw [ht.2.1]; norm_num
  · rw [ht.1]; norm_num

/-- C115 (partial: while little of the decision period is over): to pass after `e` blocks takes the support of at least
`1/2 - e/510` of the members, so a half at the beginning. -/
theorem C115_quorum_partial (name : List UInt8) (i : TrackInfo) (h : defaultTrack name = some i) (s : St) (c : CId)
    (t : Tally) (e : Nat) (he : e ≤ 255) (hm : 0 < maxSupport s c) (hm' : maxSupport s c ≤ 1000000000)
    (hp : isPassing i e (support s t c) (approval t) = true) :
    (255 - e) * maxSupport s c ≤ 510 * t.bareAyes := by
  have hd : i.decisionPeriod = 255 := by
    unfold defaultTrack at h
    split at h <;> cases h
    rfl
  unfold isPassing at hp
  rw [hd, Nat.min_eq_left he] at hp
  simp only [Bool.and_eq_true] at hp
  have hx : fromRational perbill e 255 = e * 1000000000 / 255 := by
    rw [fromRational_exact (by omega) he (by decide)]; rfl
  have hxl : e * 1000000000 / 255 ≤ 1000000000 := by omega
  rw [hx] at hp
  have ht := (C66_thresholds name i h _ hxl).2.1
  have h1 := of_decide_eq_true hp.1
  rw [ht] at h1
  unfold support at h1
  rcases Nat.lt_or_ge (maxSupport s c) t.bareAyes with hlt | hle
  · calc (255 - e) * maxSupport s c ≤ 510 * maxSupport s c := Nat.mul_le_mul_right _ (by omega)
      _ ≤ 510 * t.bareAyes := Nat.mul_le_mul_left _ (by omega)
  rw [fromRational_exact hm hle (by exact hm')] at h1
  have h2 := (Nat.le_div_iff_mul_le hm).1 h1
  have hT : (255 - e) * 1000000000 ≤ 510 * (500000000 - e * 1000000000 / 255 / 2) := by omega
  revert h2 hT
  generalize 500000000 - e * 1000000000 / 255 / 2 = T
  intro h2 hT
  have h2 : T * maxSupport s c ≤ t.bareAyes * 1000000000 := h2
  have h3 := Nat.mul_le_mul_right (maxSupport s c) hT
  have h4 : ((255 - e) * maxSupport s c) * 1000000000 ≤ (510 * t.bareAyes) * 1000000000 := by
    calc ((255 - e) * maxSupport s c) * 1000000000 = (255 - e) * 1000000000 * maxSupport s c := by ring
      _ ≤ 510 * T * maxSupport s c := h3
      _ = 510 * (T * maxSupport s c) := by ring
      _ ≤ 510 * (t.bareAyes * 1000000000) := Nat.mul_le_mul_left _ h2
      _ = (510 * t.bareAyes) * 1000000000 := by ring
  exact Nat.le_of_mul_le_mul_right h4 (by norm_num)

/-- In the community of a hundred the single aye does not pass at the beginning. -/
example : ∃ i, defaultTrack (ascii "seven") = some i ∧
    isPassing i 0 (fromRational perbill 1 100) (approval ⟨1, 0, 1⟩) = false ∧
    isPassing i 0 (fromRational perbill 50 100) (approval ⟨50, 0, 50⟩) = true := ⟨_, rfl, by decide +kernel, by decide +kernel⟩

end Verif.Governance
