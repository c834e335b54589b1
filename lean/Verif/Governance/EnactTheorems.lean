import Verif.Governance.AuthorityTheorems

/-!
# C113: approved proposals are carried out
-/

namespace Verif.Governance

open Verif Verif.Accounts Verif.Communities

/-- A task is added if no task has its name and the agenda has room. -/
theorem enact_adds {env : GEnv} {s : GSt} {src : Source} {i : TrackInfo} {m : Moment} {o : Origin} {call : GCall}
    (hn : ∀ u ∈ s.agenda, u.name ≠ Task.name ⟨src, 0, o, call⟩) (hd : ∀ w, env.denySchedule w = false) :
    (⟨src, max (m.evaluate s.now) (s.now + max 1 i.minEnactmentPeriod), o, call⟩ : Task) ∈
      enact env s src i m o call := by
  unfold enact
  dsimp only
  rw [hd, Bool.or_false, if_neg]
  · exact List.mem_cons_self ..
  · intro h
    obtain ⟨u, hu, h⟩ := List.any_eq_true.1 h
    exact hn u hu (of_decide_eq_true h)

/-- C113 (partial: if no call of the community referendum with the same number is waiting and the agenda has room): when
the collective's referendum is approved, its call is scheduled with the origin it asked for, for the block it asked for,
but not before the next block and its track's enactment period. -/
theorem C113_collective_partial (g : GSt) (hg : GGenesis g) (env : GEnv) (s s' : GSt) (hr : GReach g s) (p : Nat) (r : Ref Nat)
    (n : Nat) (h : serviceCollective env s p = some s') (hp : s.crefs p = some (.ongoing r))
    (ha : s'.crefs p = some (.approved r n)) (hfree : ∀ t ∈ s.agenda, t.source ≠ .community p)
    (hroom : ∀ w, env.denySchedule w = false) :
    ∃ i, collectiveInfo r.track = some i ∧ n = s.now ∧ ∃ t ∈ s'.agenda, t.source = .collective p ∧ t.origin = r.origin ∧
      t.call = r.call ∧
      (∀ w, r.desired = .at w → t.when = max w (n + max 1 i.minEnactmentPeriod)) ∧
      ∀ k, r.desired = .after k → t.when = max (n + k) (n + max 1 i.minEnactmentPeriod) := by
  obtain ⟨r', i, hp', hi, h⟩ := serviceCollective_ok h
  rw [hp] at hp'; cases hp'
  rcases h with rfl | ⟨d, _, rfl⟩ | ⟨d, t, _, _, _, _, rfl⟩ | rfl | rfl
  · rw [hp] at ha; cases ha
  · simp [setCRef] at ha
  · have : n = s.now := by simp [setCRef] at ha; exact ha.symm
    subst this
    refine ⟨i, hi, rfl, _, enact_adds (fun u hu => ?_) hroom, rfl, rfl, rfl, fun w hw => by rw [hw]; rfl, fun k hk => by rw [hk]; rfl⟩
    have htask := (reach_shape hg hr).tasks u hu
    unfold Task.name
    cases hsrc : u.source with
    | collective q =>
      rw [hsrc] at htask
      obtain ⟨r0, n0, h0, _⟩ := htask
      intro hq
      cases hq
      rw [hp] at h0; cases h0
    | community q =>
      intro hq
      cases hq
      exact hfree u hu hsrc
    | scheduled => simp
  · simp [setCRef] at ha
  · simp [setCRef] at ha

/-- C113 (partial, the same for communities). -/
theorem C113_community_partial (g : GSt) (hg : GGenesis g) (env : GEnv) (s s' : GSt) (hr : GReach g s) (p : Nat) (r : Ref CId)
    (n : Nat) (h : serviceCommunity env s p = some s') (hp : s.refs p = some (.ongoing r))
    (ha : s'.refs p = some (.approved r n)) (hfree : ∀ t ∈ s.agenda, t.source ≠ .collective p)
    (hroom : ∀ w, env.denySchedule w = false) :
    ∃ i, s.m.tracks r.track = some i ∧ n = s.now ∧ ∃ t ∈ s'.agenda, t.source = .community p ∧ t.origin = r.origin ∧
      t.call = r.call ∧
      (∀ w, r.desired = .at w → t.when = max w (n + max 1 i.minEnactmentPeriod)) ∧
      ∀ k, r.desired = .after k → t.when = max (n + k) (n + max 1 i.minEnactmentPeriod) := by
  obtain ⟨r', i, t, c, hp', hpoll, hi, h⟩ := serviceCommunity_ok h
  rw [hp] at hp'; cases hp'
  rcases h with rfl | ⟨d, _, rfl⟩ | ⟨d, t, _, _, _, _, rfl⟩ | rfl | rfl
  · rw [hp] at ha; cases ha
  · simp [setRef] at ha
  · have : n = s.now := by simp [setRef, endRef] at ha; exact ha.symm
    subst this
    refine ⟨i, hi, rfl, _, enact_adds (fun u hu => ?_) hroom, rfl, rfl, rfl, fun w hw => by rw [hw]; rfl, fun k hk => by rw [hk]; rfl⟩
    have htask := (reach_shape hg hr).tasks u hu
    unfold Task.name
    cases hsrc : u.source with
    | collective q =>
      intro hq
      cases hq
      exact hfree u hu hsrc
    | community q =>
      rw [hsrc] at htask
      obtain ⟨r0, n0, h0, _⟩ := htask
      intro hq
      cases hq
      rw [hp] at h0; cases h0
    | scheduled => simp
  · simp [setRef, endRef] at ha
  · simp [setRef, endRef] at ha

/-- Nothing is added exactly if a task has the name or the scheduler refuses. -/
theorem enact_iff {env : GEnv} {s : GSt} {src : Source} {i : TrackInfo} {m : Moment} {o : Origin} {call : GCall}
    (hsrc : ∀ u ∈ s.agenda, u.source ≠ src) :
    (∃ t ∈ enact env s src i m o call, t.source = src) ↔
      (∀ u ∈ s.agenda, u.name ≠ Task.name ⟨src, 0, o, call⟩) ∧
        env.denySchedule (max (m.evaluate s.now) (s.now + max 1 i.minEnactmentPeriod)) = false := by
  unfold enact
  dsimp only
  split
  · rename_i h
    constructor
    · rintro ⟨t, ht, e⟩; exact absurd e (hsrc t ht)
    · rintro ⟨h1, h2⟩
      rw [h2, Bool.or_false] at h
      obtain ⟨u, hu, h⟩ := List.any_eq_true.1 h
      exact absurd (of_decide_eq_true h) (h1 u hu)
  · rename_i h
    simp only [Bool.or_eq_true, not_or] at h
    refine ⟨fun _ => ⟨fun u hu e => h.1 (List.any_eq_true.2 ⟨u, hu, decide_eq_true e⟩), by simpa using h.2⟩,
      fun _ => ⟨_, List.mem_cons_self .., rfl⟩⟩

/-- C113: exactly when the call of an approved referendum of the collective is scheduled: when no call of the community
referendum with the same number waits, and the scheduler has room in the block it is due. Otherwise it is not. -/
theorem C113_collective_exactly (g : GSt) (hg : GGenesis g) (env : GEnv) (s s' : GSt) (hr : GReach g s) (p : Nat)
    (r : Ref Nat) (n : Nat) (h : serviceCollective env s p = some s') (hp : s.crefs p = some (.ongoing r))
    (ha : s'.crefs p = some (.approved r n)) :
    ∃ i, collectiveInfo r.track = some i ∧
      ((∃ t ∈ s'.agenda, t.source = .collective p) ↔
        (∀ t ∈ s.agenda, t.source ≠ .community p) ∧
          env.denySchedule (max (r.desired.evaluate s.now) (s.now + max 1 i.minEnactmentPeriod)) = false) := by
  obtain ⟨r', i, hp', hi, h⟩ := serviceCollective_ok h
  rw [hp] at hp'; cases hp'
  rcases h with rfl | ⟨d, _, rfl⟩ | ⟨d, t, _, _, _, _, rfl⟩ | rfl | rfl
  · rw [hp] at ha; cases ha
  · simp [setCRef] at ha
  · refine ⟨i, hi, ?_⟩
    have hnone : ∀ u ∈ s.agenda, u.source ≠ .collective p := by
      intro u hu hsrc
      have htask := (reach_shape hg hr).tasks u hu
      rw [hsrc] at htask
      obtain ⟨r0, n0, h0, _⟩ := htask
      rw [hp] at h0; cases h0
    refine (enact_iff hnone).trans (and_congr_left fun _ => forall₂_congr fun u hu => ?_)
    unfold Task.name
    have := hnone u hu
    cases hsrc : u.source with
    | collective q => rw [hsrc] at this; simp only [ne_eq, Source.collective.injEq] at this; simp [this]
    | community q => simp
    | scheduled => simp
  · simp [setCRef] at ha
  · simp [setCRef] at ha

/-- C113: the same for communities. -/
theorem C113_community_exactly (g : GSt) (hg : GGenesis g) (env : GEnv) (s s' : GSt) (hr : GReach g s) (p : Nat)
    (r : Ref CId) (n : Nat) (h : serviceCommunity env s p = some s') (hp : s.refs p = some (.ongoing r))
    (ha : s'.refs p = some (.approved r n)) :
    ∃ i, s.m.tracks r.track = some i ∧
      ((∃ t ∈ s'.agenda, t.source = .community p) ↔
        (∀ t ∈ s.agenda, t.source ≠ .collective p) ∧
          env.denySchedule (max (r.desired.evaluate s.now) (s.now + max 1 i.minEnactmentPeriod)) = false) := by
  obtain ⟨r', i, t, c, hp', hpoll, hi, h⟩ := serviceCommunity_ok h
  rw [hp] at hp'; cases hp'
  rcases h with rfl | ⟨d, _, rfl⟩ | ⟨d, t, _, _, _, _, rfl⟩ | rfl | rfl
  · rw [hp] at ha; cases ha
  · simp [setRef] at ha
  · refine ⟨i, hi, ?_⟩
    have hnone : ∀ u ∈ s.agenda, u.source ≠ .community p := by
      intro u hu hsrc
      have htask := (reach_shape hg hr).tasks u hu
      rw [hsrc] at htask
      obtain ⟨r0, n0, h0, _⟩ := htask
      rw [hp] at h0; cases h0
    refine (enact_iff hnone).trans (and_congr_left fun _ => forall₂_congr fun u hu => ?_)
    unfold Task.name
    have := hnone u hu
    cases hsrc : u.source with
    | community q => rw [hsrc] at this; simp only [ne_eq, Source.community.injEq] at this; simp [this]
    | collective q => simp
    | scheduled => simp
  · simp [setRef, endRef] at ha
  · simp [setRef, endRef] at ha

/-- C113: a scheduled call stays scheduled until its time has come, unless a call running as root cancels it. -/
theorem C113_kept (s s' : GSt) (st : GStep s s') (t : Task) (ht : t ∈ s.agenda) (hw : s.now < t.when) :
    t ∈ s'.agenda ∨ ∃ u ∈ s.agenda, u.origin = .root ∧ u.when ≤ s.now := by
  have hleaf : ∀ (env : GEnv) (s1 s' : GSt) (o : Origin), o ≠ .root → Leaf env s1 o s' → s'.agenda = s1.agenda := by
    intro env s1 s' o ho hl
    cases hl with
    | plan | unplan => exact absurd rfl ho
    | _ => rfl
  have hen : ∀ (env : GEnv) (src : Source) (i : TrackInfo) (m : Moment) (o : Origin) (call : GCall),
      t ∈ enact env s src i m o call := by
    intro env src i m o call
    unfold enact
    dsimp only
    split
    · exact ht
    · exact List.mem_cons_of_mem _ ht
  cases st with
  | call env he o ho c hd =>
    left
    obtain ⟨o', hor, hl⟩ := gdispatch_leaf hd
    rw [hleaf env s s' o' ?_ hl]
    · exact ht
    · rcases hor with rfl | rfl | ⟨x, rfl⟩
      · rintro rfl; exact ho
      · exact ho.elim
      · simp
  | run env he pre post u ha hwu =>
    by_cases hr : u.origin = .root
    · exact .inr ⟨u, by rw [ha]; simp, hr, hwu⟩
    · left
      have hmem : t ∈ pre ++ post := by
        rw [ha] at ht
        simp only [List.mem_append, List.mem_cons] at ht ⊢
        rcases ht with h | rfl | h
        · exact .inl h
        · omega
        · exact .inr h
      rcases run_cases (env := env) (s := { s with agenda := pre ++ post }) (o := u.origin) (c := u.call) with h2 | h2
      · rw [h2]; exact hmem
      · obtain ⟨o', hor, hl⟩ := gdispatch_leaf h2
        rw [hleaf env _ _ o' ?_ hl]
        · exact hmem
        · rcases hor with rfl | h3 | ⟨x, rfl⟩
          · exact hr
          · exact absurd h3 hr
          · simp
  | apart pre post rest u ha hr hwu =>
    left
    rw [ha] at ht
    simp only [List.mem_append, List.mem_cons] at ht ⊢
    rcases ht with h | rfl | h
    · exact .inl (.inl h)
    · omega
    · exact .inl (.inr h)
  | collective env q h =>
    left
    obtain ⟨r, i, hr, hi, h⟩ := serviceCollective_ok h
    rcases h with rfl | ⟨d, _, rfl⟩ | ⟨d, t, _, _, _, _, rfl⟩ | rfl | rfl
    · exact ht
    · exact ht
    · exact hen ..
    · exact ht
    · exact ht
  | community env q h =>
    left
    obtain ⟨r, i, t, c, hr, hp', hi, h⟩ := serviceCommunity_ok h
    rcases h with rfl | ⟨d, _, rfl⟩ | ⟨d, t, _, _, _, _, rfl⟩ | rfl | rfl
    · exact ht
    · exact ht
    · exact hen ..
    · exact ht
    · exact ht
  | time n => exact .inl ht
  | world w hw => exact .inl ht

/-- What is not scheduled when it is approved never is. -/
theorem never_scheduled {g : GSt} (hg : GGenesis g) {s s' : GSt} (hr : GReach g s) (h : GReach s s') {p : Nat} {r : Ref Nat}
    {n : Nat} (hp : s.crefs p = some (.approved r n)) (hno : ∀ t ∈ s.agenda, t.source ≠ .collective p) :
    s'.crefs p = some (.approved r n) ∧ ∀ t ∈ s'.agenda, t.source ≠ .collective p := by
  induction h with
  | start => exact ⟨hp, hno⟩
  | @step a b hab st ih =>
    obtain ⟨ihp, ihno⟩ := ih
    have hshape := reach_shape hg (hr.trans hab)
    refine ⟨cref_final hshape st ihp (by simp), ?_⟩
    have hleaf : ∀ (env : GEnv) (s1 s' : GSt) (o : Origin), (∀ t ∈ s1.agenda, t.source ≠ .collective p) →
        Leaf env s1 o s' → ∀ t ∈ s'.agenda, t.source ≠ .collective p := by
      intro env s1 s' o h1 hl
      cases hl with
      | plan w call hw =>
        intro t ht
        rcases List.mem_cons.1 ht with rfl | ht
        · simp
        · exact h1 t ht
      | unplan k => exact fun t ht => h1 t (List.mem_of_mem_eraseIdx ht)
      | _ => exact h1
    cases st with
    | call env he o ho c hd =>
      obtain ⟨o', _, hl⟩ := gdispatch_leaf hd
      exact hleaf env a b o' ihno hl
    | run env he pre post t ha hw =>
      have h1 : ∀ u ∈ pre ++ post, u.source ≠ .collective p := fun u hu => ihno u (by
        rw [ha]; simp only [List.mem_append, List.mem_cons] at hu ⊢; tauto)
      rcases run_cases (env := env) (s := { a with agenda := pre ++ post }) (o := t.origin) (c := t.call) with h2 | h2
      · rw [h2]; exact h1
      · obtain ⟨o', _, hl⟩ := gdispatch_leaf h2
        exact hleaf env { a with agenda := pre ++ post } _ o' h1 hl
    | apart pre post rest t ha hr' hw =>
      intro u hu
      rcases apart_mem ha hr' hu with h | ⟨h, x, y, hc, rfl | rfl⟩
      · exact ihno u h
      · exact ihno t h
      · exact ihno t h
    | collective env q h =>
      obtain ⟨r', i, hr', hi, h⟩ := serviceCollective_ok h
      rcases h with rfl | ⟨d, _, rfl⟩ | ⟨d, t, _, _, _, _, rfl⟩ | rfl | rfl
      · exact ihno
      · exact ihno
      · intro u hu
        rcases enact_mem hu with h | ⟨h, _⟩
        · exact ihno u h
        · rw [h]
          intro hq; cases hq
          rw [ihp] at hr'; cases hr'
      · exact ihno
      · exact ihno
    | community env q h =>
      obtain ⟨r', i, t, c, hr', hp', hi, h⟩ := serviceCommunity_ok h
      rcases h with rfl | ⟨d, _, rfl⟩ | ⟨d, t, _, _, _, _, rfl⟩ | rfl | rfl
      · exact ihno
      · exact ihno
      · intro u hu
        rcases enact_mem hu with h | ⟨h, _⟩
        · exact ihno u h
        · rw [h]; simp
      · exact ihno
      · exact ihno
    | time n => exact ihno
    | world w hw => exact ihno

namespace Demo

/-- Community 7 is registered by account `[1]` and has one member, `[5]`, who gets a proposal approved whose call is to
wait until block 1000000. -/
def communityFirst : List Act :=
  [.call (.signed [1]) (.mgr (.register 7 (ascii "seven") (.id [1]) none none)), .items [⟨7, 3, [5], 0⟩],
   .call (.signed [5]) (.submit (.community ⟨7, none⟩) (.other 0) (.at 1000000)), .call (.signed [5]) (.deposit 0),
   .call (.signed [5]) (.comm (.vote 3 0 (.standard true))), .time 1, .community 0, .time 1, .community 0]

end Demo

/-- C113 is false of the code: both kinds of referenda schedule their calls under names that depend on the number of the
referendum only, so while a call approved by community referendum 0 is waiting, the call approved by referendum 0 of the
collective is not scheduled, and never will be. -/
theorem C113_lost_fails :
    ∃ g s s' : GSt, GGenesis g ∧ GReach g s ∧ GStep s s' ∧ (∃ r, s.crefs 0 = some (.ongoing r)) ∧
      (∃ r n, s'.crefs 0 = some (.approved r n) ∧ r.origin = .root) ∧
      ∀ s'', GReach s' s'' → ∀ t ∈ s''.agenda, t.source ≠ .collective 0 := by
  have hs : GReach Demo.gstart ((Demo.communityFirst ++ Demo.proposal ++ Demo.decision.take 3).foldl Demo.act Demo.gstart) :=
    Demo.acts_reach .start _ (by decide)
  have hst : GStep ((Demo.communityFirst ++ Demo.proposal ++ Demo.decision.take 3).foldl Demo.act Demo.gstart)
      ((Demo.communityFirst ++ Demo.proposal ++ Demo.decision).foldl Demo.act Demo.gstart) :=
    .collective Demo.genv 0 rfl
  refine ⟨Demo.gstart, _, _, Demo.gstart_genesis, hs, hst, ⟨_, rfl⟩, ⟨_, _, rfl, rfl⟩, fun s'' h'' => ?_⟩
  refine (never_scheduled Demo.gstart_genesis (.step hs hst) h'' (p := 0) rfl ?_).2
  intro t ht
  have : (((Demo.communityFirst ++ Demo.proposal ++ Demo.decision).foldl Demo.act Demo.gstart).agenda.map (·.source)) =
    [.community 0] := rfl
  have h2 := List.mem_map_of_mem (f := (·.source)) ht
  rw [this] at h2
  simp only [List.mem_singleton] at h2
  rw [h2]; simp

/-- Without the community's referendum, the call is scheduled for the next block after its approval. -/
example :
    let s := (Demo.proposal ++ Demo.decision.take 3).foldl Demo.act Demo.gstart
    let s' := (Demo.proposal ++ Demo.decision).foldl Demo.act Demo.gstart
    GReach Demo.gstart s ∧ serviceCollective Demo.genv s 0 = some s' ∧ s.agenda.length = 0 ∧
      s'.agenda.map (fun t => (t.source, t.when, t.origin)) = [(.collective 0, 2 + 30 * minutes, .root)] := by
  refine ⟨Demo.acts_reach .start _ (by decide), rfl, rfl, rfl⟩

end Verif.Governance
