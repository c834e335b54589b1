import Verif.Governance.CollectiveTheorems

/-!
# C111 and C112: what it takes to act as root
-/

namespace Verif.Governance

open Verif Verif.Accounts Verif.Communities

/-! ## Before root acts -/

/-- The collective approved a proposal to be run as root. -/
def RootApproved (s : GSt) : Prop := ∃ p r n, s.crefs p = some (.approved r n) ∧ r.origin = .root

/-- What holds until then: nothing scheduled runs as root, tracks and referenda are those of communities' own voices, and
the collective is as it was, besides seats of rank 0 of communities. -/
structure Quiet (g s : GSt) : Prop where
  agenda : ∀ t ∈ s.agenda, t.origin ≠ .root
  trackOf : ∀ x d, s.m.trackOf x = some d → x = .community ⟨d, none⟩
  refs : ∀ p i, s.refs p = some i → i.ref.origin = .community ⟨i.ref.track, none⟩
  seats : ∀ a, s.m.seats a = g.m.seats a ∨
    (g.m.seats a = none ∧ s.m.seats a = some 0 ∧ ∃ c, a = communityAccount c)

theorem communitySubmit_track {s : MSt} {o p : Origin} {who : AccountId} {t : CId}
    (h : communitySubmit s o p = some (who, t)) : s.trackOf p = some t := by
  unfold communitySubmit at h
  split at h
  · cases h
  · cases ht : s.trackOf p with
    | none => rw [ht] at h; cases h
    | some c => rw [ht] at h; cases h; rfl

theorem Quiet.leaf {env : GEnv} {g s s' : GSt} {o : Origin} (hq : Quiet g s) (ho : o ≠ .root) (h : Leaf env s o s') :
    Quiet g s' := by
  cases h with
  | promote | demote | leave | exchange | close | tracks | plan | unplan => exact absurd rfl ho
  | comm o c c' h => exact ⟨hq.agenda, hq.trackOf, hq.refs, hq.seats⟩
  | mgr o c m' h =>
    obtain ⟨_, h2, h3⟩ := mdispatch_facts h
    refine ⟨hq.agenda, fun x d hx => ?_, hq.refs, fun a => ?_⟩
    · rcases h2 x d hx with h | h
      · exact hq.trackOf x d h
      · exact h
    · show m'.seats a = _ ∨ _ ∧ m'.seats a = _ ∧ _
      rcases h3 with ⟨h1, _⟩ | ⟨d, _, _, _, _, _, h0, h1⟩
      · rw [h1]; exact hq.seats a
      · rw [h1]
        dsimp only
        split
        · rename_i hd
          right
          subst hd
          refine ⟨?_, rfl, d, rfl⟩
          rcases hq.seats (communityAccount d) with h | ⟨_, h, _⟩
          · rw [← h]; exact h0
          · rw [h0] at h; cases h
        · exact hq.seats a
  | cvote | csubmit | cref | same => exact ⟨hq.agenda, hq.trackOf, hq.refs, hq.seats⟩
  | update o c i h h' => exact ⟨hq.agenda, hq.trackOf, hq.refs, hq.seats⟩
  | submit o who origin call m t h =>
    refine ⟨hq.agenda, hq.trackOf, fun p i hp => ?_, hq.seats⟩
    have hp : (if p = s.next then _ else s.refs p) = some i := hp
    split at hp
    · cases hp
      exact hq.trackOf _ _ (communitySubmit_track h)
    · exact hq.refs p i hp
  | place o p r h =>
    refine ⟨hq.agenda, hq.trackOf, fun q i hp => ?_, hq.seats⟩
    have hp : (if q = p then _ else s.refs q) = some i := hp
    split at hp
    · cases hp
      exact (hq.refs p _ h : _)
    · exact hq.refs q i hp

theorem Quiet.collective {env : GEnv} {g s s' : GSt} {p : Nat} (hq : Quiet g s)
    (h : serviceCollective env s p = some s') : Quiet g s' ∨ RootApproved s' := by
  obtain ⟨r, i, hr, hi, h⟩ := serviceCollective_ok h
  rcases h with rfl | ⟨d, hb, rfl⟩ | ⟨d, t, h1, h2, h3, h4, rfl⟩ | rfl | rfl
  · exact .inl hq
  · exact .inl ⟨hq.agenda, hq.trackOf, hq.refs, hq.seats⟩
  · by_cases ho : r.origin = .root
    · right
      exact ⟨p, r, s.now, by simp [setCRef], ho⟩
    · left
      refine ⟨fun u hu => ?_, hq.trackOf, hq.refs, hq.seats⟩
      rcases enact_mem hu with h | ⟨_, h, _⟩
      · exact hq.agenda u h
      · rw [h]; exact ho
  · exact .inl ⟨hq.agenda, hq.trackOf, hq.refs, hq.seats⟩
  · exact .inl ⟨hq.agenda, hq.trackOf, hq.refs, hq.seats⟩

theorem Quiet.community {env : GEnv} {g s s' : GSt} {p : PollIx} (hq : Quiet g s)
    (h : serviceCommunity env s p = some s') : Quiet g s' := by
  obtain ⟨r, i, t, c, hr, hp, hi, h⟩ := serviceCommunity_ok h
  have hset : ∀ {x : RefInfo CId} {st : Nat → Option (RefInfo CId)}, x.ref.origin = r.origin → x.ref.track = r.track →
      (st = fun q => if q = p then some x else s.refs q) →
      ∀ q j, st q = some j → j.ref.origin = .community ⟨j.ref.track, none⟩ := by
    intro x st h1 h2 h3 q j hj
    rw [h3] at hj
    dsimp only at hj
    split at hj
    · cases hj; rw [h1, h2]; exact hq.refs p _ hr
    · exact hq.refs q j hj
  rcases h with rfl | ⟨d, hb, rfl⟩ | ⟨d, t, h1, h2, h3, h4, rfl⟩ | rfl | rfl
  · exact hq
  · refine ⟨hq.agenda, hq.trackOf, hset (x := .ongoing { r with deciding := some d }) rfl rfl rfl, hq.seats⟩
  · refine ⟨fun u hu => ?_, hq.trackOf, hset (x := .approved r s.now) rfl rfl rfl, hq.seats⟩
    rcases enact_mem hu with h | ⟨_, h, _⟩
    · exact hq.agenda u h
    · rw [h]
      have : r.origin = .community ⟨r.track, none⟩ := hq.refs p _ hr
      rw [this]; simp
  · exact ⟨hq.agenda, hq.trackOf, hset (x := .rejected r) rfl rfl rfl, hq.seats⟩
  · exact ⟨hq.agenda, hq.trackOf, hset (x := .timedOut r) rfl rfl rfl, hq.seats⟩

theorem GGenesis.quiet {g : GSt} (h : GGenesis g) : Quiet g g where
  agenda := fun t ht => by rw [h.agenda] at ht; cases ht
  trackOf := fun x d hx => by rw [h.trackOf x] at hx; cases hx
  refs := fun p i hi => by rw [h.refs p] at hi; cases hi
  seats := fun a => .inl rfl

theorem Quiet.step {g s s' : GSt} (hq : Quiet g s) (st : GStep s s') : Quiet g s' ∨ RootApproved s' := by
  cases st with
  | call env he o ho c hd =>
    obtain ⟨o', hor, hl⟩ := gdispatch_leaf hd
    refine .inl (hq.leaf ?_ hl)
    rcases hor with rfl | rfl | ⟨x, rfl⟩
    · rintro rfl; exact ho
    · exact ho.elim
    · simp
  | run env he pre post t ha hw =>
    have ht : t.origin ≠ .root := hq.agenda t (by rw [ha]; simp)
    have hq' : Quiet g { s with agenda := pre ++ post } := by
      refine ⟨fun u hu => hq.agenda u ?_, hq.trackOf, hq.refs, hq.seats⟩
      rw [ha]; simp only [List.mem_append, List.mem_cons] at hu ⊢; tauto
    rcases run_cases (env := env) (s := { s with agenda := pre ++ post }) (o := t.origin) (c := t.call) with h2 | h2
    · rw [h2]; exact .inl hq'
    · obtain ⟨o', hor, hl⟩ := gdispatch_leaf h2
      refine .inl (hq'.leaf ?_ hl)
      rcases hor with rfl | h | ⟨x, rfl⟩
      · exact ht
      · exact absurd h ht
      · simp
  | apart pre post rest t ha hr hw =>
    refine .inl ⟨fun u hu => ?_, hq.trackOf, hq.refs, hq.seats⟩
    rcases apart_mem ha hr hu with h | ⟨h, x, y, hc, rfl | rfl⟩
    · exact hq.agenda u h
    · exact hq.agenda t h
    · exact hq.agenda t h
  | collective env q h => exact hq.collective h
  | community env q h => exact .inl (hq.community h)
  | time n => exact .inl ⟨hq.agenda, hq.trackOf, hq.refs, hq.seats⟩
  | world w hw => exact .inl ⟨hq.agenda, hq.trackOf, hq.refs, hq.seats⟩

theorem reach_quiet {g : GSt} (hg : GGenesis g) {s : GSt} (h : GReach g s) : Quiet g s ∨ RootApproved s := by
  induction h with
  | start => exact .inl hg.quiet
  | step hr st ih =>
    rcases ih with hq | ⟨p, r, n, hp, ho⟩
    · exact hq.step st
    · exact .inr ⟨p, r, n, cref_final (reach_shape hg hr) st hp (fun r => by simp), ho⟩

/-! ## C111 -/

/-- C111: on every chain history, if a scheduled call is to be run as root, then the collective has approved a proposal to
run a call as root. -/
theorem C111_root (g : GSt) (hg : GGenesis g) (s : GSt) (h : GReach g s) (t : Task) (ht : t ∈ s.agenda)
    (ho : t.origin = .root) : ∃ p r n, s.crefs p = some (.approved r n) ∧ r.origin = .root := by
  rcases reach_quiet hg h with hq | hr
  · exact absurd ho (hq.agenda t ht)
  · exact hr

/-- C111: and if it is to be run as one of the three other privileged origins, then the collective has approved a proposal
for this origin or for root. -/
theorem C111_custom (g : GSt) (hg : GGenesis g) (s : GSt) (h : GReach g s) (t : Task) (ht : t ∈ s.agenda) (x : CustomOrigin)
    (ho : t.origin = .custom x) :
    ∃ p r n, s.crefs p = some (.approved r n) ∧ (r.origin = .custom x ∨ r.origin = .root) := by
  have hs := (reach_shape hg h).tasks t ht
  split at hs
  · obtain ⟨r, n, h1, h2, _⟩ := hs
    exact ⟨_, r, n, h1, .inl (h2.symm.trans ho)⟩
  · obtain ⟨r, n, h1, h2, _⟩ := hs
    rcases reach_quiet hg h with hq | ⟨p, r', n', h3, h4⟩
    · have : r.origin = _ := hq.refs _ _ h1
      rw [← h2, ho] at this
      cases this
    · exact ⟨p, r', n', h3, .inr h4⟩
  · rw [hs] at ho; cases ho

/-- C111: a call handed to the scheduler by the collective is the one of an approved referendum, or one of the calls of the
batch approved there, with the origin the referendum asked for. -/
theorem C111_what_was_approved (g : GSt) (hg : GGenesis g) (s : GSt) (h : GReach g s) (t : Task) (ht : t ∈ s.agenda)
    (p : Nat) (hp : t.source = .collective p) :
    ∃ r n, s.crefs p = some (.approved r n) ∧ t.origin = r.origin ∧ Part t.call r.call := by
  have := (reach_shape hg h).tasks t ht
  rw [hp] at this
  exact this

/-- C111: until the collective approved a proposal for root, the members of the collective and their ranks are those it
began with, but for seats of rank 0 of communities. -/
theorem C111_ranks (g : GSt) (hg : GGenesis g) (s : GSt) (h : GReach g s)
    (hno : ¬ ∃ p r n, s.crefs p = some (.approved r n) ∧ r.origin = .root) (a : AccountId) (k : Nat) (hk : 1 ≤ k) :
    s.m.seats a = some k ↔ g.m.seats a = some k := by
  rcases reach_quiet hg h with hq | hr
  · rcases hq.seats a with h1 | ⟨h1, h2, _⟩
    · rw [h1]
    · rw [h1, h2]
      constructor
      · intro h; cases h; omega
      · intro h; cases h
  · exact absurd hr hno

/-- C111: an approved referendum of the collective was approved, at the recorded block, in a state of the same history in
which its tally passed under the rules of its track; by then its deposit was placed and the periods for preparation and
confirmation were over. -/
theorem C111_approved (g : GSt) (hg : GGenesis g) (s : GSt) (h : GReach g s) (p : Nat) (r : Ref Nat) (n : Nat)
    (hp : s.crefs p = some (.approved r n)) :
    ∃ s0 i since, GReach g s0 ∧ GReach s0 s ∧ s0.now = n ∧ s0.crefs p = some (.ongoing r) ∧
      collectiveTrackFor r.origin = some r.track ∧ collectiveInfo r.track = some i ∧ r.deposit = true ∧
      r.submitted + i.preparePeriod ≤ since ∧ since + i.confirmPeriod ≤ n ∧
      isPassing i (n - since) (csupport s0 (s0.ctally p)) (capproval (s0.ctally p)) = true := by
  induction h with
  | start => rw [hg.crefs p] at hp; cases hp
  | @step s s' hr st ih =>
    have hshape := reach_shape hg hr
    rcases cref_change hshape st p with h1 | ⟨h1, t, origin, call, m, _, h2⟩ | ⟨r0, h1, hn⟩
    · rw [h1] at hp
      obtain ⟨s0, i, since, a, b, c⟩ := ih hp
      exact ⟨s0, i, since, a, .step b st, c⟩
    · rw [h2] at hp; cases hp
    · rcases hn with h2 | h2 | h2 | h2 | h2 | ⟨i', d', hi', hb, h2⟩ | ⟨env, i', d', t, hi', h3, h4, h5, h6, h2⟩
      · rw [h2] at hp; cases hp
      · rw [h2] at hp; cases hp
      · rw [h2] at hp; cases hp
      · rw [h2] at hp; cases hp
      · rw [h2] at hp; cases hp
      · rw [h2] at hp; simp [setCRef] at hp
      · have e : s'.crefs p = some (.approved r0 s.now) := by rw [h2]; simp [setCRef]
        rw [e] at hp
        injection hp with hp
        injection hp with e1 e2
        subst e1 e2
        obtain ⟨a, b, c, e⟩ := reach_ctimely hg hr p r0 d' i' h1 h3 hi'
        have := e t h4
        exact ⟨s, i', d'.since, hr, .step .start st, rfl, h1, hshape.ctrack p _ h1, hi', a, b, by omega, h6⟩

theorem asum_pos {K V : Type} [DecidableEq K] (f : K × V → Nat) {l : List (K × V)} (h : 0 < asum f l) :
    ∃ e ∈ l, 0 < f e := by
  induction l with
  | nil => simp at h
  | cons e l ih =>
    rw [asum_cons] at h
    by_cases he : 0 < f e
    · exact ⟨e, List.mem_cons_self .., he⟩
    · obtain ⟨x, hx, h2⟩ := ih (by omega)
      exact ⟨x, List.mem_cons_of_mem _ hx, h2⟩

theorem FReach.length {g s : GSt} (hg : GGenesis g) (h : FReach g s) (p : Nat) : (s.cvotes p).length ≤ 65537 := by
  cases h with
  | start => rw [hg.votes p]; simp
  | step _ _ hf => exact hf p

theorem asum_add {K V : Type} [DecidableEq K] (f f' : K × V → Nat) (l : List (K × V)) :
    asum f l + asum f' l = asum (fun e => f e + f' e) l := by
  induction l with
  | nil => rfl
  | cons e l ih => rw [asum_cons, asum_cons, asum_cons]; omega

theorem record_fits {g s : GSt} (hg : GGenesis g) (h : FReach g s) (p : Nat) :
    (collectiveRecord s p).ayes + (collectiveRecord s p).nays < 2 ^ 32 := by
  have h1 : (collectiveRecord s p).ayes + (collectiveRecord s p).nays = asum (fun e => e.2.2) (s.cvotes p) := by
    unfold collectiveRecord
    dsimp only
    rw [asum_add]
    exact asum_congr fun e _ => by split <;> omega
  have h2 := asum_le_mul (fun e => e.2.2) maxRank (s.cvotes p) fun e he => ((reach_ballots hg h.reach).weights p e he).2
  have h3 := Nat.mul_le_mul_left maxRank (h.length hg p)
  have h4 : maxRank * 65537 < 2 ^ 32 := by decide
  rw [h1]
  exact lt_of_le_of_lt (le_trans h2 h3) h4

/-- C111: so at least nine tenths of the voting weight, and at least one vote, were in favour (half of the weight and half
of the ranked members to create memberships), if no more than 65537 accounts ever vote on one referendum; exactly, up to a
weight of a billion, and beyond that up to a weight of 42 (or 8) among billions. -/
theorem C111_majority (g : GSt) (hg : GGenesis g) (s : GSt) (h : FReach g s) (p : Nat) (r : Ref Nat) (n : Nat)
    (hp : s.crefs p = some (.approved r n)) :
    ∃ s0, FReach g s0 ∧ s0.now = n ∧ s0.crefs p = some (.ongoing r) ∧
      (∃ who w, aget (s0.cvotes p) who = some (true, w) ∧ 1 ≤ w) ∧
      (r.origin ≠ .custom .createMemberships → 9 * (collectiveRecord s0 p).nays ≤ (collectiveRecord s0 p).ayes + 42) ∧
      (r.origin = .custom .createMemberships → (collectiveRecord s0 p).nays ≤ (collectiveRecord s0 p).ayes + 8) ∧
      ((collectiveRecord s0 p).ayes + (collectiveRecord s0 p).nays ≤ 1000000000 →
        (r.origin ≠ .custom .createMemberships → 9 * (collectiveRecord s0 p).nays ≤ (collectiveRecord s0 p).ayes) ∧
        (r.origin = .custom .createMemberships → (collectiveRecord s0 p).nays ≤ (collectiveRecord s0 p).ayes)) := by
  induction h with
  | start => rw [hg.crefs p] at hp; cases hp
  | @step s s' hr st hf ih =>
    have hshape := reach_shape hg hr.reach
    rcases cref_change hshape st p with h1 | ⟨h1, t, origin, call, m, _, h2⟩ | ⟨r0, h1, hn⟩
    · rw [h1] at hp
      exact ih hp
    · rw [h2] at hp; cases hp
    · rcases hn with h2 | h2 | h2 | h2 | h2 | ⟨i', d', hi', hb, h2⟩ | ⟨env, i', d', t, hi', h3, h4, h5, h6, h2⟩
      · rw [h2] at hp; cases hp
      · rw [h2] at hp; cases hp
      · rw [h2] at hp; cases hp
      · rw [h2] at hp; cases hp
      · rw [h2] at hp; cases hp
      · rw [h2] at hp; simp [setCRef] at hp
      · have e : s'.crefs p = some (.approved r0 s.now) := by rw [h2]; simp [setCRef]
        rw [e] at hp
        injection hp with hp
        injection hp with e1 e2
        subst e1 e2
        have ht := hshape.ctrack p _ h1
        obtain ⟨f1, f2⟩ := C90_floors _ _ _ ht hi' _ _ _ h6
        rw [C110_tally g hg s hr p] at f1 f2
        have half : 500000000 ≤ capproval (collectiveRecord s p) := by
          by_cases ho : r0.origin = .custom .createMemberships
          · exact (f2 ho).1
          · have := f1 ho; omega
        have hpos : 0 < (collectiveRecord s p).ayes := by
          rcases Nat.eq_zero_or_pos (collectiveRecord s p).ayes with h0 | h0
          · unfold capproval at half
            rw [h0, fromRational_zero (by omega)] at half
            omega
          · exact h0
        have hfit := record_fits hg hr p
        have hnear := (fromRational_near (M := perbill) (p := (collectiveRecord s p).ayes)
          (q := (collectiveRecord s p).ayes + (collectiveRecord s p).nays) (by decide) (by omega) (by omega)).1
        have hcap : capproval (collectiveRecord s p) = fromRational perbill (collectiveRecord s p).ayes
            ((collectiveRecord s p).ayes + (collectiveRecord s p).nays) := by
          unfold capproval; rw [Nat.mod_eq_of_lt hfit, Nat.max_eq_right (by omega)]
        rw [← hcap] at hnear
        refine ⟨s, hr, rfl, h1, ?_, fun ho => ?_, fun ho => ?_, fun hle => ?_⟩
        · obtain ⟨⟨who, v, w⟩, he, hw⟩ := asum_pos _ hpos
          dsimp only at hw
          split at hw
          · rename_i hv
            have hv : v = true := hv
            subst hv
            exact ⟨who, w, aget_of_mem ((reach_ballots hg hr.reach).once p) he, hw⟩
          · omega
        · have k := Nat.mul_le_mul_right ((collectiveRecord s p).ayes + (collectiveRecord s p).nays) (f1 ho)
          unfold perbill at hnear
          omega
        · have k := Nat.mul_le_mul_right ((collectiveRecord s p).ayes + (collectiveRecord s p).nays) half
          unfold perbill at hnear
          omega
        · unfold capproval at f1 half
          rw [Nat.mod_eq_of_lt (by omega), Nat.max_eq_right (by omega),
            fromRational_exact (by omega) (by omega) (by unfold perbill; omega)] at f1 half
          unfold perbill at f1 half
          clear f2
          revert f1 half hle hpos
          generalize (collectiveRecord s p).ayes = a
          generalize (collectiveRecord s p).nays = b
          intro f1 half hpos hle
          refine ⟨fun ho => ?_, fun ho => ?_⟩
          · have f1 := f1 ho
            have := (Nat.le_div_iff_mul_le (by omega)).1 f1
            omega
          · have := (Nat.le_div_iff_mul_le (by omega)).1 half
            omega

/-- A referendum of one member goes all the way to a promotion by root. -/
example :
    let s := (Demo.proposal ++ Demo.decision).foldl Demo.act Demo.gstart
    GReach Demo.gstart s ∧ (∃ r, s.crefs 0 = some (.approved r (1 + 30 * minutes))) ∧ s.agenda.map (·.origin) = [.root] ∧
      (Demo.proposal.foldl Demo.act Demo.gstart).m.seats [9] = some 1 := by
  refine ⟨Demo.acts_reach .start _ (by decide), ⟨_, rfl⟩, rfl, rfl⟩

/-! ## C112 -/

/-- Nobody votes, nothing is approved. -/
structure Idle (s : GSt) : Prop where
  votes : ∀ p, s.cvotes p = []
  tally : ∀ p, s.ctally p = .zero
  crefs : ∀ p r n, s.crefs p ≠ some (.approved r n)

/-- C112 is false of the code: on a chain whose collective begins without a member of rank 1 or more, as in the local chain
specification, no referendum of the collective is ever approved, nothing ever runs as root or as any other privileged
origin, no account ever gets a rank, and nobody ever creates memberships. -/
theorem C112_no_members_fails (g : GSt) (hg : GGenesis g) (h0 : ∀ a k, g.m.seats a = some k → k = 0) (s : GSt)
    (h : GReach g s) :
    (∀ p r n, s.crefs p ≠ some (.approved r n)) ∧
    (∀ t ∈ s.agenda, t.origin ≠ .root ∧ ∀ x, t.origin ≠ .custom x) ∧
    (∀ a k, s.m.seats a = some k → k = 0) ∧
    (∀ env o p aye, gdispatch env s o (.cvote p aye) = none) := by
  have key : ∀ s, GReach g s → Idle s → (∀ a k, s.m.seats a = some k → k = 0) := by
    intro s hr hi a k hk
    by_contra hne
    have := (C111_ranks g hg s hr (by rintro ⟨p, r, n, hp, _⟩; exact hi.crefs p r n hp) a k (by omega)).1 hk
    exact hne (h0 a k this)
  have idle : Idle s := by
    induction h with
    | start => exact ⟨hg.votes, hg.tally, fun p r n => by rw [hg.crefs p]; simp⟩
    | @step s s' hr st ih =>
      have hs := key s hr ih
      have hshape := reach_shape hg hr
      have hcr : ∀ p r n, s'.crefs p ≠ some (.approved r n) := by
        intro p r n hp
        rcases cref_change hshape st p with h1 | ⟨h1, t, origin, call, m, _, h2⟩ | ⟨r0, h1, hn⟩
        · rw [h1] at hp; exact ih.crefs p r n hp
        · rw [h2] at hp; cases hp
        · rcases hn with h2 | h2 | h2 | h2 | h2 | ⟨i', d', hi', hb, h2⟩ | ⟨env, i', d', t, hi', h3, h4, h5, h6, h2⟩
          · rw [h2] at hp; cases hp
          · rw [h2] at hp; cases hp
          · rw [h2] at hp; cases hp
          · rw [h2] at hp; cases hp
          · rw [h2] at hp; cases hp
          · rw [h2] at hp; simp [setCRef] at hp
          · obtain ⟨f1, f2⟩ := C90_floors _ _ _ (hshape.ctrack p _ h1) hi' _ _ _ h6
            rw [ih.tally p] at f1 f2
            have : capproval .zero = 0 := by decide +kernel
            rw [this] at f1 f2
            by_cases ho : r0.origin = .custom .createMemberships
            · have := (f2 ho).1; omega
            · have := f1 ho; omega
      have hleaf : ∀ (env : GEnv) (s1 : GSt) (o : Origin), s1.m.seats = s.m.seats → s1.ctally = s.ctally →
          s1.cvotes = s.cvotes → Leaf env s1 o s' → (∀ p, s'.cvotes p = []) ∧ ∀ p, s'.ctally p = .zero := by
        intro env s1 o e1 e2 e3 hl
        cases hl with
        | cvote who q aye rank n r h1 h2 h3 =>
          rw [e1] at h1
          have := hs _ _ h1
          have := (rankToVotes_some h3).2
          omega
        | csubmit who origin call m t h =>
          refine ⟨fun p => by rw [← ih.votes p, ← e3]; rfl, fun p => ?_⟩
          show (if p = s1.cnext then Tally.zero else s1.ctally p) = .zero
          split
          · rfl
          · rw [e2]; exact ih.tally p
        | _ => exact ⟨fun p => (congrFun e3 p).trans (ih.votes p), fun p => (congrFun e2 p).trans (ih.tally p)⟩
      have : (∀ p, s'.cvotes p = []) ∧ ∀ p, s'.ctally p = .zero := by
        cases st with
        | call env he o ho c hd =>
          obtain ⟨o', _, hl⟩ := gdispatch_leaf hd
          exact hleaf env s o' rfl rfl rfl hl
        | run env he pre post t ha hw =>
          rcases run_cases (env := env) (s := { s with agenda := pre ++ post }) (o := t.origin) (c := t.call)
            with h2 | h2
          · rw [h2]; exact ⟨ih.votes, ih.tally⟩
          · obtain ⟨o', _, hl⟩ := gdispatch_leaf h2
            exact hleaf env { s with agenda := pre ++ post } o' rfl rfl rfl hl
        | apart pre post rest t ha hr hw => exact ⟨ih.votes, ih.tally⟩
        | collective env q h =>
          obtain ⟨_, e1, e2, _⟩ := serviceCollective_same h
          rw [e1, e2]; exact ⟨ih.votes, ih.tally⟩
        | community env q h =>
          obtain ⟨_, _, _, e1, e2, _⟩ := serviceCommunity_same h
          rw [e1, e2]; exact ⟨ih.votes, ih.tally⟩
        | time n => exact ⟨ih.votes, ih.tally⟩
        | world w hw => exact ⟨ih.votes, ih.tally⟩
      exact ⟨this.1, this.2, hcr⟩
  have hk := key s h idle
  refine ⟨idle.crefs, fun t ht => ⟨fun ho => ?_, fun x ho => ?_⟩, hk, fun env o p aye => ?_⟩
  · obtain ⟨p, r, n, hp, _⟩ := C111_root g hg s h t ht ho
    exact idle.crefs p r n hp
  · obtain ⟨p, r, n, hp, _⟩ := C111_custom g hg s h t ht x ho
    exact idle.crefs p r n hp
  · cases hv : gdispatch env s o (.cvote p aye) with
    | none => rfl
    | some s' =>
      obtain ⟨who, rank, r, _, h1, h2, _⟩ := C110_vote env s s' o p aye hv
      have := hk who rank h1
      omega

/-- The chain of the local specification, with a proposal in vain. -/
example : GGenesis Demo.gempty ∧ (∀ a k, Demo.gempty.m.seats a = some k → k = 0) ∧
    (let s := (Demo.proposal ++ Demo.decision).foldl Demo.act Demo.gempty
     GReach Demo.gempty s ∧ ∃ r, s.crefs 0 = some (.ongoing r) ∧ r.deciding = some ⟨1 + 15 * minutes, none⟩) := by
  refine ⟨Demo.gempty_genesis, ?_, ?_⟩
  · intro a k h; cases h
  · exact ⟨Demo.acts_reach .start _ (by decide), ⟨_, rfl, rfl⟩⟩

theorem fromRational_self {q : Nat} (h : 0 < q) : fromRational perbill q q = perbill := by
  unfold fromRational
  rw [if_neg (by omega)]
  have hf : ratFactor perbill q ≤ q := by
    unfold ratFactor divUp perbill
    have : (q + 1000000000 - 1) / 1000000000 ≤ q := by omega
    omega
  have hp : 0 < ratFactor perbill q := by unfold ratFactor; omega
  have : 0 < q / ratFactor perbill q := Nat.div_pos hf hp
  exact Nat.mul_div_cancel_left _ this

/-- The list of members has each member once. -/
def Rolled (s : GSt) : Prop := s.roll.Nodup ∧ ∀ a, a ∈ s.roll ↔ s.m.seats a ≠ none

theorem Rolled.drop {s : GSt} (hs : Rolled s) (who : AccountId) : Rolled (dropSeat s who) := by
  refine ⟨hs.1.filter _, fun a => ?_⟩
  show a ∈ s.roll.filter _ ↔ (if a = who then none else s.m.seats a) ≠ none
  rw [List.mem_filter, hs.2 a]
  by_cases ha : a = who <;> simp [ha]

theorem Rolled.set {s : GSt} (hs : Rolled s) {who : AccountId} (h : s.m.seats who ≠ none) (k : Nat) :
    Rolled (setSeat s who (some k)) := by
  refine ⟨hs.1, fun a => ?_⟩
  show a ∈ s.roll ↔ (if a = who then some k else s.m.seats a) ≠ none
  rw [hs.2 a]
  by_cases ha : a = who
  · subst ha; simp [h]
  · simp [ha]

theorem Rolled.add {s : GSt} (hs : Rolled s) {who : AccountId} (h : s.m.seats who = none) (k : Nat) :
    Rolled { setSeat s who (some k) with roll := who :: s.roll } := by
  refine ⟨List.nodup_cons.2 ⟨fun hm => (hs.2 who).1 hm h, hs.1⟩, fun a => ?_⟩
  show a ∈ who :: s.roll ↔ (if a = who then some k else s.m.seats a) ≠ none
  rw [List.mem_cons, hs.2 a]
  by_cases ha : a = who
  · simp [ha]
  · simp [ha]

theorem Rolled.leaf {env : GEnv} {s s' : GSt} {o : Origin} (hs : Rolled s) (h : Leaf env s o s') : Rolled s' := by
  cases h with
  | promote who r h hr => exact hs.set (by rw [h]; simp) _
  | demote who r h => exact hs.set (by rw [h]; simp) _
  | leave who r h => exact hs.drop who
  | exchange who new r h1 h2 hne =>
    refine (hs.drop who).add ?_ r
    show (if new = who then none else s.m.seats new) = none
    rw [h2]; simp
  | mgr o c m' h =>
    rcases (mdispatch_facts h).2.2 with ⟨h1, n, m, p, rfl⟩ | ⟨d, nm, ad, x, y, rfl, h0, h1⟩
    · exact ⟨hs.1, fun a => by show _ ↔ m'.seats a ≠ none; rw [h1]; exact hs.2 a⟩
    · have := hs.add h0 0
      refine ⟨this.1, fun a => ?_⟩
      show _ ↔ m'.seats a ≠ none
      rw [h1]; exact this.2 a
  | _ => exact hs

theorem reach_rolled {g : GSt} (hg : GGenesis g) {s : GSt} (h : GReach g s) : Rolled s := by
  refine ginduct (I := Rolled) hg.roll (fun _ _ _ _ _ hi _ => hi) (fun _ _ _ _ _ hi _ _ => hi)
    (fun _ _ _ _ _ hi hl => hi.leaf hl)
    (fun _ _ _ _ hi hs => ?_) (fun _ _ _ _ hi hs => ?_) (fun _ _ hi => hi) (fun _ _ hi _ => hi) h
  · obtain ⟨h1, _, _, _, h2⟩ := serviceCollective_same hs
    unfold Rolled
    rw [h1, h2]; exact hi
  · obtain ⟨h1, _, _, _, _, _, h2⟩ := serviceCommunity_same hs
    unfold Rolled
    rw [h1, h2]; exact hi

/-- Everybody of rank 1 or more voted aye and no vote is nay. -/
def Unanimous (s : GSt) (p : Nat) : Prop :=
  (∀ who k, s.m.seats who = some k → 1 ≤ k → ∃ w, aget (s.cvotes p) who = some (true, w)) ∧
  ∀ who v, aget (s.cvotes p) who = some v → v.1 = true

theorem fromRational_ge {p q : Nat} (hq : 0 < q) (h : q ≤ p) : fromRational perbill p q = perbill := by
  rcases Nat.lt_or_ge q p with h1 | h1
  · unfold fromRational; rw [if_pos (.inr h1)]
  · have : p = q := by omega
    subst this; exact fromRational_self hq

/-- C112 (partial: when the collective has a member of rank 1 or more): if every such member voted for a proposal and
nobody against, it passes at every moment, whatever its track. -/
theorem C112_unanimous_partial (g : GSt) (hg : GGenesis g) (s : GSt) (h : FReach g s) (p : Nat)
    (hl : (s.cvotes p).length ≤ 65537) (o : Origin) (t : Nat) (i : TrackInfo) (ho : collectiveTrackFor o = some t)
    (hi : collectiveInfo t = some i) (hm : ∃ a k, s.m.seats a = some k ∧ 1 ≤ k) (hu : Unanimous s p) (e : Nat) :
    isPassing i e (csupport s (s.ctally p)) (capproval (s.ctally p)) = true := by
  obtain ⟨a, k, ha, hk⟩ := hm
  obtain ⟨hroll, hmem⟩ := reach_rolled hg h.reach
  have hball := reach_ballots hg h.reach
  have haye : ∀ e ∈ s.cvotes p, e.2.1 = true := fun e he => hu.2 e.1 e.2 (aget_of_mem (hball.once p) he)
  have hb : (collectiveRecord s p).bareAyes = (s.cvotes p).length := by
    have : asum (fun e : AccountId × (Bool × Nat) => if e.2.1 then 1 else 0) (s.cvotes p) =
        asum (fun _ => 1) (s.cvotes p) := asum_congr fun e he => by rw [haye e he]; rfl
    show asum _ (s.cvotes p) = _
    rw [this]
    simp [asum]
  have hn : (collectiveRecord s p).nays = 0 := by
    have : asum (fun e : AccountId × (Bool × Nat) => if e.2.1 then 0 else e.2.2) (s.cvotes p) =
        asum (fun _ => 0) (s.cvotes p) := asum_congr fun e he => by rw [haye e he]; rfl
    show asum _ (s.cvotes p) = _
    rw [this]
    simp [asum]
  have hy : (collectiveRecord s p).ayes < 2 ^ 32 := by
    have := asum_le_mul (fun e : AccountId × (Bool × Nat) => if e.2.1 then e.2.2 else 0) maxRank (s.cvotes p)
      (fun e he => by
        split
        · exact (hball.weights p e he).2
        · exact Nat.zero_le _)
    have h2 := Nat.mul_le_mul_left maxRank hl
    have h3 : maxRank * 65537 < 2 ^ 32 := by decide
    exact Nat.lt_of_le_of_lt (Nat.le_trans this h2) h3
  have hpos : 1 ≤ (collectiveRecord s p).ayes := by
    obtain ⟨w, hw⟩ := hu.1 a k ha hk
    have h1 := (hball.weights p _ (mem_of_aget hw)).1
    have := asum_split (hball.once p) (fun e => if e.2.1 then e.2.2 else 0) hw
    show 1 ≤ asum _ _
    rw [this]
    dsimp only at h1 ⊢
    rw [if_pos rfl]; omega
  have hcount : memberCount s 1 ≤ (s.cvotes p).length := by
    unfold memberCount
    rw [← List.length_map (f := fun x : AccountId × (Bool × Nat) => x.1) (as := s.cvotes p)]
    refine (List.subperm_of_subset (hroll.filter _) fun b hb => ?_).length_le
    obtain ⟨_, h2⟩ := List.mem_filter.1 hb
    split at h2
    · rename_i k' hk'
      obtain ⟨w, hw⟩ := hu.1 b k' hk' (of_decide_eq_true h2)
      exact List.mem_map.2 ⟨_, mem_of_aget hw, rfl⟩
    · cases h2
  have hc1 : 0 < memberCount s 1 := by
    unfold memberCount
    refine List.length_pos_of_mem (a := a) (List.mem_filter.2 ⟨(hmem a).2 (by rw [ha]; simp), ?_⟩)
    rw [ha]; exact decide_eq_true hk
  have h1 : csupport s (s.ctally p) = perbill := by
    unfold csupport minRank
    rw [C110_tally g hg s h p, hb]; exact fromRational_ge hc1 hcount
  have h2 : capproval (s.ctally p) = perbill := by
    unfold capproval
    rw [C110_tally g hg s h p, hn, Nat.add_zero, Nat.mod_eq_of_lt hy, Nat.max_eq_right hpos]
    exact fromRational_self hpos
  rw [h1, h2]
  refine C90_weaker o t i ho hi 0 e _ _ (Nat.zero_le _) ?_
  rw [C82_track_for] at ho
  rcases ho with ⟨rfl, rfl⟩ | ⟨rfl, rfl⟩ | ⟨rfl, rfl⟩ | ⟨rfl, rfl⟩ <;> cases hi <;> decide +kernel

theorem serviceCollective_approve (env : GEnv) (s : GSt) (p : Nat) (r : Ref Nat) (i : TrackInfo) (d : Deciding) (t : Nat)
    (hp : s.crefs p = some (.ongoing r)) (hi : collectiveInfo r.track = some i) (hd : r.deciding = some d)
    (ht : d.confirming = some t) (hn : t ≤ s.now)
    (hpass : isPassing i (s.now - d.since) (csupport s (s.ctally p)) (capproval (s.ctally p)) = true) :
    serviceCollective env s p = some { setCRef s p (.approved r s.now) with
      agenda := enact env s (.collective p) i r.desired r.origin r.call } := by
  simp [serviceCollective, hp, hi, service, hd, ht, hn, hpass]

/-- C112 (partial, as above): so such a proposal, with its deposit, after its preparation and with a free slot, is put to
decision when serviced, and is approved when serviced again after its confirmation period. -/
theorem C112_can_act_partial (g : GSt) (hg : GGenesis g) (s : GSt) (h : FReach g s) (p : Nat) (r : Ref Nat)
    (hp : s.crefs p = some (.ongoing r)) (hl : (s.cvotes p).length ≤ 65537) (i : TrackInfo)
    (hi : collectiveInfo r.track = some i) (hm : ∃ a k, s.m.seats a = some k ∧ 1 ≤ k) (hu : Unanimous s p)
    (hd : r.deposit = true) (hn : r.deciding = none) (hw : r.submitted + i.preparePeriod ≤ s.now)
    (hf : hasSlot s.crefs s.cnext r.track i = true) (env : GEnv) :
    ∃ s1 s2 r2, serviceCollective env s p = some s1 ∧
      serviceCollective env { s1 with now := s1.now + i.confirmPeriod } p = some s2 ∧
      s2.crefs p = some (.approved r2 (s.now + i.confirmPeriod)) ∧ r2.origin = r.origin ∧ r2.call = r.call := by
  have ht := (reach_shape hg h.reach).ctrack p _ hp
  have pass := C112_unanimous_partial g hg s h p hl r.origin r.track i ht hi hm hu
  have e1 : serviceCollective env s p = some (setCRef s p
      (.ongoing { r with deciding := some ⟨s.now, some (s.now + i.confirmPeriod)⟩ })) := by
    simp [serviceCollective, hp, hi, service, hn, hd, hw, hf, pass]
  have self : ∀ (s : GSt) (x : RefInfo Nat), (setCRef s p x).crefs p = some x := by simp [setCRef]
  refine ⟨_, _, { r with deciding := some ⟨s.now, some (s.now + i.confirmPeriod)⟩ }, e1,
    serviceCollective_approve env _ p { r with deciding := some ⟨s.now, some (s.now + i.confirmPeriod)⟩ } i
      ⟨s.now, some (s.now + i.confirmPeriod)⟩ (s.now + i.confirmPeriod) (self s _) hi rfl rfl (le_refl _) (pass _),
    self _ _, rfl, rfl⟩

/-- The vote of the only ranked member is unanimous, and everything else is as required. -/
example :
    let s := (Demo.proposal ++ [Demo.Act.time (15 * minutes)]).foldl Demo.act Demo.gstart
    GReach Demo.gstart s ∧ Unanimous s 0 ∧ (∃ a k, s.m.seats a = some k ∧ 1 ≤ k) ∧
      ∃ r i, s.crefs 0 = some (.ongoing r) ∧ collectiveInfo r.track = some i ∧ r.deposit = true ∧ r.deciding = none ∧
        r.submitted + i.preparePeriod ≤ s.now ∧ hasSlot s.crefs s.cnext r.track i = true := by
  refine ⟨Demo.acts_reach .start _ (by decide), ⟨fun who k hk h1 => ?_, fun who v hv => ?_⟩, ⟨[9], 1, rfl, by decide⟩, ?_⟩
  · have hk : (if who = [9] then some 1 else none) = some k := hk
    split at hk
    · rename_i hwho; subst hwho; exact ⟨1, rfl⟩
    · cases hk
  · have hv : aget [([9], (true, 1))] who = some v := hv
    rw [aget_cons] at hv
    split at hv
    · cases hv; rfl
    · cases hv
  · exact ⟨_, _, rfl, rfl, rfl, rfl, by decide, by decide +kernel⟩

end Verif.Governance
