import Verif.Governance.MajorityTheorems
import Verif.Governance.EndTheorems
import Verif.Communities.SupportTheorems

/-!
# C196: members who agree get their proposal approved
-/

namespace Verif.Governance

open Verif Verif.Accounts Verif.Communities

/-! ## Lemmas -/

/-- The numbers a default track has. -/
theorem default_numbers {name : List UInt8} {i : TrackInfo} (h : defaultTrack name = some i) :
    i.decisionPeriod = 255 ∧ i.preparePeriod = 1 ∧ i.confirmPeriod = 1 := by
  unfold defaultTrack at h
  split at h
  · cases h
  · cases h; exact ⟨rfl, rfl, rfl⟩

/-- Full approval and half support pass at once, and go on passing. -/
theorem default_passes {name : List UInt8} {i : TrackInfo} (h : defaultTrack name = some i) (e : Nat) {su ap : Nat}
    (h1 : 500000000 ≤ su) (h2 : 1000000000 ≤ ap) : isPassing i e su ap = true := by
  have hx := fromRational_le perbill (min e i.decisionPeriod) i.decisionPeriod
  obtain ⟨t1, t2, _⟩ := C66_thresholds name i h _ hx
  unfold isPassing Curve.passing
  simp only [Bool.and_eq_true, decide_eq_true_eq]
  omega

/-- After the decision period half approval passes. -/
theorem default_passes_last {name : List UInt8} {i : TrackInfo} (h : defaultTrack name = some i) {e : Nat} (he : 255 ≤ e)
    {su ap : Nat} (h2 : 500000000 ≤ ap) : isPassing i e su ap = true := by
  have hd := (default_numbers h).1
  have hf : fromRational perbill (min e i.decisionPeriod) i.decisionPeriod = 1000000000 := by
    rw [hd]; exact (fromRational_full (by omega) (by omega)).2 (by omega)
  obtain ⟨t1, t2, _⟩ := C66_thresholds name i h 1000000000 (by omega)
  unfold isPassing Curve.passing
  simp only [hf, Bool.and_eq_true, decide_eq_true_eq]
  omega

/-- A majority of the votes cast is half approval. -/
theorem approval_half {t : Tally} (h : t.ayes + t.nays ≤ 10 ^ 9) (h0 : 0 < t.ayes) (hm : t.nays ≤ t.ayes) :
    500000000 ≤ approval t := by
  rw [C56_approval_exact_partial t h, Nat.le_div_iff_mul_le (by omega)]
  omega

/-- The tally of an open referendum of a community that decides by membership is the numbers of its voices. -/
theorem heads_tally {p : Nat} {g : GSt} (hg : GGenesis g) {s : GSt} {r : Ref CId} (h : ReachBy (ByHead r.track p) g s)
    (hp : s.refs p = some (.ongoing r)) :
    s.m.comm.world.polls p = some (.ongoing ⟨voices s p true, voices s p false, voices s p true⟩ r.track) ∧
      s.m.comm.method r.track = .membership ∧ voices s p true + voices s p false ≤ 10 ^ 9 := by
  have hm : s.m.comm.method r.track = .membership ∧ (s.m.comm.votes p).length ≤ 10 ^ 9 := by
    cases h with
    | start => rw [hg.refs p] at hp; cases hp
    | step _ _ hc => exact hc.2
  have h0 := (reach_shape hg h.reach).polls p
  rw [hp] at h0
  obtain ⟨t, ht⟩ := h0
  have e := calm_tally (heads_calm hg h (.inr ⟨t, ht⟩)) t ht
  rw [heads_sums hm.1 (heads_standard hg h t ht)] at e
  rw [← e]
  exact ⟨ht, hm.1, by have := voices_total s p; omega⟩

/-- Where a referendum was rejected, and by which tally. -/
theorem rejected_at {P : GSt → GSt → Prop} {g : GSt} (hg : GGenesis g) {s : GSt} (h : ReachBy P g s) {p : Nat} {r : Ref CId}
    (hp : s.refs p = some (.rejected r)) :
    ∃ s0 i t c d, ReachBy P g s0 ∧ GReach s0 s ∧ s0.refs p = some (.ongoing r) ∧ r.deciding = some d ∧
      s0.m.tracks r.track = some i ∧ s0.m.comm.world.polls p = some (.ongoing t c) ∧
      d.since + i.decisionPeriod ≤ s0.now ∧
      isPassing i (s0.now - d.since) (support s0.m.comm t r.track) (approval t) = false := by
  induction h with
  | start => rw [hg.refs p] at hp; cases hp
  | @step s s' hr st hP ih =>
    rcases ref_change (reach_shape hg hr.reach) st p with h1 | ⟨_, _, _, _, _, _, _, _, h2⟩ | ⟨r0, h1, _⟩
    · rw [h1] at hp
      obtain ⟨s0, i, t, c, d, a, b, e⟩ := ih hp
      exact ⟨s0, i, t, c, d, a, .step b st, e⟩
    · rw [h2] at hp; cases hp
    · obtain ⟨rfl, i, d, t, c, a1, a2, a3, a4, a5⟩ := (C137_community_time_to_vote s s' st p r0 h1).1 r hp
      exact ⟨s, i, t, c, d, hr, .step .start st, h1, a2, a1, a3, a4, a5⟩

/-! ## C196 -/

/-- C196 (partial: of communities that decide by one vote per membership all along): as soon as half of the memberships have
voted for a proposal and none has voted against it, servicing it begins its decision and servicing it a block later approves
it. Its deposit must have been paid, its community must not be deciding another one, and must still have the track it was
registered with. -/
theorem C196_unopposed_partial (g : GSt) (hg : GGenesis g) (s : GSt) (p : Nat) (r : Ref CId)
    (h : ReachBy (ByHead r.track p) g s) (hp : s.refs p = some (.ongoing r)) (name : List UInt8) (i : TrackInfo)
    (hi : s.m.tracks r.track = some i) (hn : defaultTrack name = some i) (hd : r.deposit = true) (hn' : r.deciding = none)
    (hl : r.submitted < s.now) (hf : ∀ q r', s.refs q = some (.ongoing r') → r'.track = r.track → r'.deciding = none)
    (ha : 0 < voices s p true) (hno : voices s p false = 0)
    (hh : memberships s r.track ≤ 2 * voices s p true) (hc : memberships s r.track ≤ 10 ^ 9) (env : GEnv) :
    ∃ s1 s2 r2, serviceCommunity env s p = some s1 ∧
      serviceCommunity env { s1 with now := s1.now + 1 } p = some s2 ∧
      s2.refs p = some (.approved r2 (s.now + 1)) ∧ r2.track = r.track ∧ r2.origin = r.origin ∧ r2.call = r.call := by
  obtain ⟨hpoll, hm, htot⟩ := heads_tally hg h hp
  obtain ⟨n1, n2, n3⟩ := default_numbers hn
  have hmd : i.maxDeciding = 1 := by
    unfold defaultTrack at hn; split at hn <;> cases hn; rfl
  have hslot : hasSlot s.refs s.next r.track i = true := by
    unfold hasSlot
    have : (List.range s.next).filter (fun q => isDeciding r.track (s.refs q)) = [] := by
      rw [List.filter_eq_nil_iff]
      intro q _
      rcases hq : s.refs q with _ | x
      · simp [isDeciding]
      · cases x with
        | ongoing r' =>
          by_cases e : r'.track = r.track
          · simp [isDeciding, hf q r' hq e]
          · simp [isDeciding, e]
        | _ => simp [isDeciding]
    rw [this, hmd]; rfl
  have hap : 1000000000 ≤ approval ⟨voices s p true, voices s p false, voices s p true⟩ := by
    rw [C56_approval_exact_partial _ (by exact htot), Nat.le_div_iff_mul_le (by dsimp only; omega)]
    dsimp only; omega
  have hsu : 500000000 ≤ support s.m.comm ⟨voices s p true, voices s p false, voices s p true⟩ r.track := by
    unfold support
    rw [(C56_maximum s.m.comm r.track).1 hm]
    show 500000000 ≤ fromRational perbill (voices s p true) (memberships s r.track)
    generalize memberships s r.track = b at *
    generalize voices s p true = a at *
    rcases Nat.eq_zero_or_pos b with h0 | h0
    · subst h0
      unfold fromRational; simp [perbill]
    · rcases Nat.lt_or_ge a b with hlt | hge
      · rw [show fromRational perbill a b = a * 10 ^ 9 / b from fromRational_exact h0 (by omega) hc, Nat.le_div_iff_mul_le h0]; omega
      · rw [(fromRational_full h0 hc).2 hge]; omega
  have hpass := fun e => default_passes hn e hsu hap
  obtain ⟨r1, hr1⟩ : ∃ r1, r1 = { r with deciding := some ⟨s.now, some (s.now + 1)⟩ } := ⟨_, rfl⟩
  have h1 : serviceCommunity env s p = some (setRef s p (.ongoing r1)) := by
    unfold serviceCommunity
    rw [hp, hpoll]
    dsimp only
    rw [hi]
    dsimp only
    have e4 : service i s.now (14 * days) (hasSlot s.refs s.next r.track i)
        (fun e => isPassing i e (support s.m.comm ⟨voices s p true, voices s p false, voices s p true⟩ r.track)
          (approval ⟨voices s p true, voices s p false, voices s p true⟩)) r = .deciding ⟨s.now, some (s.now + 1)⟩ := by
      unfold service
      rw [hn', hd, hslot, n2, n3]
      simp only [hpass, Bool.true_and, Bool.and_true, if_true]
      rw [if_pos (by simp; omega)]
    rw [e4, hr1]
  have h2 : ∃ s2, serviceCommunity env { setRef s p (.ongoing r1) with now := s.now + 1 } p = some s2 ∧
      s2.refs p = some (.approved r1 (s.now + 1)) := by
    unfold serviceCommunity
    have e1 : (setRef s p (.ongoing r1)).refs p = some (.ongoing r1) := by simp [setRef]
    have e2 : (setRef s p (.ongoing r1)).m = s.m := rfl
    dsimp only
    rw [e1, e2, hpoll]
    dsimp only
    have e3 : s.m.tracks r1.track = some i := by rw [hr1]; exact hi
    rw [e3]
    dsimp only
    have e4 : service i (s.now + 1) (14 * days) (hasSlot (setRef s p (.ongoing r1)).refs (setRef s p (.ongoing r1)).next r1.track i)
        (fun e => isPassing i e (support s.m.comm ⟨voices s p true, voices s p false, voices s p true⟩ r1.track)
          (approval ⟨voices s p true, voices s p false, voices s p true⟩)) r1 = .approve := by
      unfold service
      have e5 : r1.deciding = some ⟨s.now, some (s.now + 1)⟩ := by rw [hr1]
      have e6 : r1.track = r.track := by rw [hr1]
      rw [e5, e6]
      dsimp only
      rw [if_pos (hpass _), if_pos (le_refl _)]
    rw [e4]
    exact ⟨_, rfl, by simp [endRef, setRef]⟩
  obtain ⟨s2, h2, h3⟩ := h2
  exact ⟨_, s2, r1, h1, h2, h3, by rw [hr1], by rw [hr1], by rw [hr1]⟩

/-- C196 (partial: of communities that decide by one vote per membership all along): a proposal is rejected only after 255
blocks of deciding, and only if at that moment no vote on record is for it or more are against it than for it, provided the
community still has the track it was registered with. -/
theorem C196_rejected_partial (g : GSt) (hg : GGenesis g) (s : GSt) (p : Nat) (r : Ref CId)
    (h : ReachBy (ByHead r.track p) g s) (hp : s.refs p = some (.rejected r)) :
    ∃ s0 d, ReachBy (ByHead r.track p) g s0 ∧ GReach s0 s ∧ s0.refs p = some (.ongoing r) ∧ r.deciding = some d ∧
      ((∃ name, s0.m.tracks r.track = defaultTrack name) →
        d.since + 255 ≤ s0.now ∧ (voices s0 p true = 0 ∨ voices s0 p true < voices s0 p false)) := by
  obtain ⟨s0, i, t, c, d, h1, h2, h3, h4, h5, h6, h7, h8⟩ := rejected_at hg h hp
  refine ⟨s0, d, h1, h2, h3, h4, fun ⟨name, hname⟩ => ?_⟩
  rw [h5] at hname
  obtain ⟨n1, _⟩ := default_numbers hname.symm
  obtain ⟨hpoll, _, htot⟩ := heads_tally hg h1 h3
  rw [h6] at hpoll
  cases hpoll
  refine ⟨by omega, ?_⟩
  by_contra hcon
  push Not at hcon
  have := default_passes_last hname.symm (e := s0.now - d.since) (by omega)
    (su := support s0.m.comm ⟨voices s0 p true, voices s0 p false, voices s0 p true⟩ r.track)
    (approval_half (t := ⟨voices s0 p true, voices s0 p false, voices s0 p true⟩) htot (by dsimp only; omega) hcon.2)
  rw [this] at h8; cases h8

/-- C196 (partial: in histories in which no standing vote changes its weight): whatever the community decides by, a proposal
is rejected only if at that moment nothing on record is for it or what is against it weighs more, as long as no more than
`10^9` was cast and the community still has the track it was registered with. -/
theorem C196_rejected_weight_partial (g : GSt) (hg : GGenesis g) (s : GSt) (p : Nat) (r : Ref CId)
    (h : ReachBy (Steady r.track p) g s) (hp : s.refs p = some (.rejected r)) :
    ∃ s0 d, ReachBy (Steady r.track p) g s0 ∧ GReach s0 s ∧ s0.refs p = some (.ongoing r) ∧ r.deciding = some d ∧
      ((∃ name, s0.m.tracks r.track = defaultTrack name) →
        (onRecord s0.m.comm r.track p).ayes + (onRecord s0.m.comm r.track p).nays ≤ 10 ^ 9 →
        d.since + 255 ≤ s0.now ∧ ((onRecord s0.m.comm r.track p).ayes = 0 ∨
          (onRecord s0.m.comm r.track p).ayes < (onRecord s0.m.comm r.track p).nays)) := by
  obtain ⟨s0, i, t, c, d, h1, h2, h3, h4, h5, h6, h7, h8⟩ := rejected_at hg h hp
  refine ⟨s0, d, h1, h2, h3, h4, fun ⟨name, hname⟩ htot => ?_⟩
  rw [h5] at hname
  obtain ⟨n1, _⟩ := default_numbers hname.symm
  have h0 := (reach_shape hg h1.reach).polls p
  rw [h3] at h0
  obtain ⟨t', ht'⟩ := h0
  rw [h6] at ht'
  cases ht'
  have e := calm_tally (steady_calm hg h1) t h6
  refine ⟨by omega, ?_⟩
  by_contra hcon
  push Not at hcon
  rw [← e] at htot hcon
  have := default_passes_last hname.symm (e := s0.now - d.since) (by omega)
    (su := support s0.m.comm t r.track) (approval_half htot (by omega) hcon.2)
  rw [this] at h8; cases h8

namespace Demo

/-- Two of the three members of community 7 vote for a proposal. Example (outside /repo). -/
def twoFor : List Act :=
  [.call (.signed [1]) (.mgr (.register 7 (ascii "seven") (.id [1]) none none)),
   .items [⟨7, 3, [5], 0⟩, ⟨7, 4, [6], 0⟩, ⟨7, 5, [8], 0⟩],
   .call (.signed [5]) (.submit (.community ⟨7, none⟩) (.other 0) (.after 0)), .call (.signed [5]) (.deposit 0),
   .call (.signed [5]) (.comm (.vote 3 0 (.standard true))), .call (.signed [6]) (.comm (.vote 4 0 (.standard true))),
   .time 1]

/-- Two of three vote against one. Example (outside /repo). -/
def twoAgainst : List Act :=
  [.call (.signed [1]) (.mgr (.register 7 (ascii "seven") (.id [1]) none none)),
   .items [⟨7, 3, [5], 0⟩, ⟨7, 4, [6], 0⟩, ⟨7, 5, [8], 0⟩],
   .call (.signed [5]) (.submit (.community ⟨7, none⟩) (.other 0) (.after 0)), .call (.signed [5]) (.deposit 0),
   .call (.signed [5]) (.comm (.vote 3 0 (.standard true))), .call (.signed [6]) (.comm (.vote 4 0 (.standard false))),
   .call (.signed [8]) (.comm (.vote 5 0 (.standard false))), .time 1, .community 0, .time 255, .community 0]

/-- All members of a community that decides by rank have the rank memberships begin with, and all vote for a proposal.
Example (outside /repo). -/
def allRankZero : List Act :=
  [.call (.signed [1]) (.mgr (.register 7 (ascii "seven") (.id [1]) (some .rank) none)),
   .items [⟨7, 3, [5], 0⟩, ⟨7, 4, [6], 0⟩],
   .call (.signed [5]) (.submit (.community ⟨7, none⟩) (.other 0) (.after 0)), .call (.signed [5]) (.deposit 0),
   .call (.signed [5]) (.comm (.vote 3 0 (.standard true))), .call (.signed [6]) (.comm (.vote 4 0 (.standard true))),
   .time 1, .community 0, .time 255]

end Demo

/-- Two for, of three: the conditions of C196_unopposed_partial hold. -/
example : ∃ r i, ReachBy (ByHead r.track 0) Demo.gstart (Demo.twoFor.foldl Demo.act Demo.gstart) ∧
    (Demo.twoFor.foldl Demo.act Demo.gstart).refs 0 = some (.ongoing r) ∧
    (Demo.twoFor.foldl Demo.act Demo.gstart).m.tracks r.track = some i ∧ defaultTrack (ascii "seven") = some i ∧
    r.deposit = true ∧ r.deciding = none ∧ r.submitted < (Demo.twoFor.foldl Demo.act Demo.gstart).now ∧
    (∀ q r', (Demo.twoFor.foldl Demo.act Demo.gstart).refs q = some (.ongoing r') → r'.track = r.track → r'.deciding = none) ∧
    voices (Demo.twoFor.foldl Demo.act Demo.gstart) 0 true = 2 ∧
    voices (Demo.twoFor.foldl Demo.act Demo.gstart) 0 false = 0 ∧
    memberships (Demo.twoFor.foldl Demo.act Demo.gstart) r.track = 3 := by
  refine ⟨_, _, Demo.acts_by .start _ (by decide) fun k hk => ?_, rfl, rfl, rfl, rfl, rfl, by decide +kernel, fun q r' hq _ => ?_,
    by decide +kernel, by decide +kernel, by decide +kernel⟩
  · have : k < 7 := hk
    show ByHead 7 0 _ _
    unfold ByHead
    interval_cases k <;> decide +kernel
  · rcases Nat.eq_zero_or_pos q with h0 | h0
    · subst h0; cases hq; rfl
    · have hs : GReach Demo.gstart (Demo.twoFor.foldl Demo.act Demo.gstart) := Demo.acts_reach .start _ (by decide)
      have hb := (reach_shape Demo.gstart_genesis hs).born q h0
      rw [hq] at hb; cases hb

/-- One for and two against, by membership all along, and rejected. -/
example : ∃ r, ReachBy (ByHead 7 0) Demo.gstart (Demo.twoAgainst.foldl Demo.act Demo.gstart) ∧
    (Demo.twoAgainst.foldl Demo.act Demo.gstart).refs 0 = some (.rejected r) ∧ r.track = 7 := by
  refine ⟨_, Demo.acts_by .start _ (by decide) fun k hk => ?_, rfl, rfl⟩
  have : k < 11 := hk
  unfold ByHead
  interval_cases k <;> decide +kernel

/-- Nor does any of their votes change its weight. -/
example : ReachBy (Steady 7 0) Demo.gstart (Demo.twoAgainst.foldl Demo.act Demo.gstart) := by
  refine Demo.acts_by .start _ (by decide) fun k hk => ?_
  have : k < 11 := hk
  unfold Steady Communities.Fits
  interval_cases k <;> decide +kernel

/-- C196 is false of communities that decide by rank: all of its members voted for the proposal, none against it, and it is
rejected. -/
theorem C196_rank_zero_fails :
    ∃ (g s s' : GSt) (r : Ref CId), GGenesis g ∧ GReach g s ∧ GStep s s' ∧ s'.refs 0 = some (.rejected r) ∧ r.track = 7 ∧
      s.m.tracks 7 = defaultTrack (ascii "seven") ∧ memberships s 7 = 2 ∧ voices s 0 true = 2 ∧ voices s 0 false = 0 := by
  have hs : GReach Demo.gstart (Demo.allRankZero.foldl Demo.act Demo.gstart) := Demo.acts_reach .start _ (by decide)
  exact ⟨Demo.gstart, _, Demo.act (Demo.allRankZero.foldl Demo.act Demo.gstart) (.community 0), _, Demo.gstart_genesis, hs,
    .community Demo.genv 0 rfl, rfl, rfl, rfl, by decide +kernel, by decide +kernel, by decide +kernel⟩

end Verif.Governance
