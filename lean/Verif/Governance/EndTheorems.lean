import Verif.Governance.PresentTheorems

/-!
# C137: how long referenda take
-/

namespace Verif.Governance

open Verif Verif.Accounts Verif.Communities

/-! ## Specification -/

/-- The referendum has been decided: approved or rejected. Specification only, no code behind it (outside /repo). -/
def Decided {τ : Type} : Option (RefInfo τ) → Prop
  | some (.approved _ _) => True
  | some (.rejected _) => True
  | _ => False

/-- The referendum is over. Specification only, no code behind it (outside /repo). -/
def Over {τ : Type} : Option (RefInfo τ) → Prop
  | none => False
  | some (.ongoing _) => False
  | _ => True

/-! ## Lemmas -/

theorem collectiveInfo_times {o : Origin} {t : Nat} (h : collectiveTrackFor o = some t) :
    ∃ i, collectiveInfo t = some i ∧ i.preparePeriod = 15 * minutes ∧ i.decisionPeriod = 4 * days ∧ i.confirmPeriod = 15 * minutes := by
  rw [C82_track_for] at h
  rcases h with ⟨_, rfl⟩ | ⟨_, rfl⟩ | ⟨_, rfl⟩ | ⟨_, rfl⟩ <;> exact ⟨_, rfl, rfl, rfl, rfl⟩

/-- Past the decision period a referendum is approved, rejected, or waits for its confirmation. -/
theorem service_late {τ : Type} {i : TrackInfo} {now timeout : Nat} {free : Bool} {passing : Nat → Bool} {r : Ref τ}
    {d : Deciding} (hd : r.deciding = some d) (hl : d.since + i.decisionPeriod ≤ now) :
    service i now timeout free passing r = .approve ∨ service i now timeout free passing r = .reject ∨
    (∃ t, d.confirming = some t ∧ now < t ∧ service i now timeout free passing r = .stay) ∨
    (d.confirming = none ∧ service i now timeout free passing r = .deciding { d with confirming := some (now + i.confirmPeriod) }) := by
  unfold service
  rw [hd]
  dsimp only
  split
  · split
    · rename_i t ht
      split
      · exact .inl rfl
      · exact .inr (.inr (.inl ⟨t, ht, by omega, rfl⟩))
    · rename_i ht
      exact .inr (.inr (.inr ⟨ht, rfl⟩))
  · exact .inr (.inl rfl)

/-- And when the confirmation is over too it is approved or rejected. -/
theorem service_last {τ : Type} {i : TrackInfo} {now timeout : Nat} {free : Bool} {passing : Nat → Bool} {r : Ref τ}
    {d : Deciding} {t : Nat} (hd : r.deciding = some d) (hl : d.since + i.decisionPeriod ≤ now) (hc : d.confirming = some t)
    (ht : t ≤ now) :
    service i now timeout free passing r = .approve ∨ service i now timeout free passing r = .reject := by
  rcases service_late (i := i) (timeout := timeout) (free := free) (passing := passing) hd hl with h | h | ⟨u, h1, h2, _⟩ | ⟨h1, _⟩
  · exact .inl h
  · exact .inr h
  · rw [hc] at h1; cases h1; omega
  · rw [hc] at h1; cases h1

theorem service_reject {τ : Type} {i : TrackInfo} {now timeout : Nat} {free : Bool} {passing : Nat → Bool} {r : Ref τ}
    (h : service i now timeout free passing r = .reject) :
    ∃ d, r.deciding = some d ∧ d.since + i.decisionPeriod ≤ now ∧ passing (now - d.since) = false := by
  unfold service at h
  split at h
  · split at h
    · cases h
    · split at h <;> cases h
  · rename_i d hd
    split at h
    · split at h
      · split at h <;> cases h
      · cases h
    · rename_i hp
      split at h
      · exact ⟨d, hd, by assumption, by simpa using hp⟩
      · cases h

theorem service_timeOut {τ : Type} {i : TrackInfo} {now timeout : Nat} {free : Bool} {passing : Nat → Bool} {r : Ref τ}
    (h : service i now timeout free passing r = .timeOut) : r.deciding = none ∧ r.submitted + timeout ≤ now := by
  unfold service at h
  split at h
  · rename_i hd
    split at h
    · cases h
    · split at h
      · exact ⟨hd, by assumption⟩
      · cases h
  · split at h
    · split at h
      · split at h <;> cases h
      · cases h
    · split at h <;> cases h

/-- Calls neither reject referenda nor let them time out. -/
theorem leaf_over {env : GEnv} {s s' : GSt} {o : Origin} (hl : Leaf env s o s') (p : Nat) :
    (∀ r, s'.crefs p = some (.rejected r) → s.crefs p = some (.rejected r)) ∧
    (∀ r, s'.crefs p = some (.timedOut r) → s.crefs p = some (.timedOut r)) ∧
    (∀ r, s'.refs p = some (.rejected r) → s.refs p = some (.rejected r)) ∧
    (∀ r, s'.refs p = some (.timedOut r) → s.refs p = some (.timedOut r)) := by
  cases hl with
  | csubmit who origin call m t h =>
    refine ⟨?_, ?_, fun _ h => h, fun _ h => h⟩
    all_goals
      intro r h
      simp only [setCRef] at h
      split at h
      · cases h
      · exact h
  | cref o q r i h hi =>
    refine ⟨?_, ?_, fun _ h => h, fun _ h => h⟩
    all_goals
      intro r' h'
      simp only [setCRef] at h'
      split at h'
      · rcases hi with rfl | ⟨rfl, _⟩ | ⟨rfl, _⟩ <;> cases h'
      · exact h'
  | submit o who origin call m t h =>
    refine ⟨fun _ h => h, fun _ h => h, ?_, ?_⟩
    all_goals
      intro r h
      simp only [setRef] at h
      split at h
      · cases h
      · exact h
  | place o q r h =>
    refine ⟨fun _ h => h, fun _ h => h, ?_, ?_⟩
    all_goals
      intro r h
      simp only [setRef] at h
      split at h
      · cases h
      · exact h
  | close q r i h hi =>
    refine ⟨fun _ h => h, fun _ h => h, ?_, ?_⟩
    all_goals
      intro r' h'
      simp only [endRef, setRef] at h'
      split at h'
      · rcases hi with rfl | rfl <;> cases h'
      · exact h'
  | _ => exact ⟨fun _ h => h, fun _ h => h, fun _ h => h, fun _ h => h⟩

theorem step_rejected {s s' : GSt} (st : GStep s s') (p : Nat) :
    (∀ r, s'.crefs p = some (.rejected r) → s.crefs p = some (.rejected r) ∨
      s.crefs p = some (.ongoing r) ∧ ∃ i d, collectiveInfo r.track = some i ∧ r.deciding = some d ∧
        d.since + i.decisionPeriod ≤ s.now ∧
        isPassing i (s.now - d.since) (csupport s (s.ctally p)) (capproval (s.ctally p)) = false) ∧
    (∀ r, s'.crefs p = some (.timedOut r) → s.crefs p = some (.timedOut r) ∨
      s.crefs p = some (.ongoing r) ∧ r.deciding = none ∧ r.submitted + 2 * days ≤ s.now) ∧
    (∀ r, s'.refs p = some (.rejected r) → s.refs p = some (.rejected r) ∨
      s.refs p = some (.ongoing r) ∧ ∃ i d t c, s.m.tracks r.track = some i ∧ r.deciding = some d ∧
        s.m.comm.world.polls p = some (.ongoing t c) ∧ d.since + i.decisionPeriod ≤ s.now ∧
        isPassing i (s.now - d.since) (support s.m.comm t r.track) (approval t) = false) ∧
    (∀ r, s'.refs p = some (.timedOut r) → s.refs p = some (.timedOut r) ∨
      s.refs p = some (.ongoing r) ∧ r.deciding = none ∧ r.submitted + 14 * days ≤ s.now) := by
  cases st with
  | call env he o ho c hd =>
    obtain ⟨o', _, hl⟩ := gdispatch_leaf hd
    obtain ⟨h1, h2, h3, h4⟩ := leaf_over hl p
    exact ⟨fun r h => .inl (h1 r h), fun r h => .inl (h2 r h), fun r h => .inl (h3 r h), fun r h => .inl (h4 r h)⟩
  | run env he pre post t ha hw =>
    rcases run_cases (env := env) (s := { s with agenda := pre ++ post }) (o := t.origin) (c := t.call) with h2 | h2
    · rw [h2]; exact ⟨fun r h => .inl h, fun r h => .inl h, fun r h => .inl h, fun r h => .inl h⟩
    · obtain ⟨o', _, hl⟩ := gdispatch_leaf h2
      obtain ⟨h1, h2, h3, h4⟩ := leaf_over hl p
      exact ⟨fun r h => .inl (h1 r h), fun r h => .inl (h2 r h), fun r h => .inl (h3 r h), fun r h => .inl (h4 r h)⟩
  | apart pre post rest t ha hr hw => exact ⟨fun r h => .inl h, fun r h => .inl h, fun r h => .inl h, fun r h => .inl h⟩
  | time n => exact ⟨fun r h => .inl h, fun r h => .inl h, fun r h => .inl h, fun r h => .inl h⟩
  | world w hw => exact ⟨fun r h => .inl h, fun r h => .inl h, fun r h => .inl h, fun r h => .inl h⟩
  | collective env q h =>
    rw [(serviceCollective_same h).2.2.2.1]
    refine ⟨?_, ?_, fun r h => .inl h, fun r h => .inl h⟩
    · intro r hr
      unfold serviceCollective at h
      split at h
      · rename_i r0 h0
        split at h
        · cases h
        · rename_i i hi
          split at h
          · cases h; exact .inl hr
          · cases h
            simp only [setCRef] at hr
            split at hr
            · cases hr
            · exact .inl hr
          · cases h
            simp only [setCRef] at hr
            split at hr
            · cases hr
            · exact .inl hr
          · rename_i hv
            cases h
            simp only [setCRef] at hr
            split at hr
            · rename_i e
              subst e
              cases hr
              obtain ⟨d, a, b, c⟩ := service_reject hv
              exact .inr ⟨h0, i, d, hi, a, b, c⟩
            · exact .inl hr
          · cases h
            simp only [setCRef] at hr
            split at hr
            · cases hr
            · exact .inl hr
      · cases h
    · intro r hr
      unfold serviceCollective at h
      split at h
      · rename_i r0 h0
        split at h
        · cases h
        · rename_i i hi
          split at h
          · cases h; exact .inl hr
          · cases h
            simp only [setCRef] at hr
            split at hr
            · cases hr
            · exact .inl hr
          · cases h
            simp only [setCRef] at hr
            split at hr
            · cases hr
            · exact .inl hr
          · cases h
            simp only [setCRef] at hr
            split at hr
            · cases hr
            · exact .inl hr
          · rename_i hv
            cases h
            simp only [setCRef] at hr
            split at hr
            · rename_i e
              subst e
              cases hr
              obtain ⟨a, b⟩ := service_timeOut hv
              exact .inr ⟨h0, a, b⟩
            · exact .inl hr
      · cases h
  | community env q h =>
    rw [(serviceCommunity_same h).2.2.2.2.2.1]
    refine ⟨fun r h => .inl h, fun r h => .inl h, ?_, ?_⟩
    · intro r hr
      unfold serviceCommunity at h
      split at h
      · rename_i r0 t c h0 hp
        split at h
        · cases h
        · rename_i i hi
          split at h
          · cases h; exact .inl hr
          · cases h
            simp only [setRef] at hr
            split at hr
            · cases hr
            · exact .inl hr
          · cases h
            simp only [endRef, setRef] at hr
            split at hr
            · cases hr
            · exact .inl hr
          · rename_i hv
            cases h
            simp only [endRef, setRef] at hr
            split at hr
            · rename_i e
              subst e
              cases hr
              obtain ⟨d, a, b, e⟩ := service_reject hv
              exact .inr ⟨h0, i, d, t, c, hi, a, hp, b, e⟩
            · exact .inl hr
          · cases h
            simp only [endRef, setRef] at hr
            split at hr
            · cases hr
            · exact .inl hr
      · cases h
    · intro r hr
      unfold serviceCommunity at h
      split at h
      · rename_i r0 t c h0 hp
        split at h
        · cases h
        · rename_i i hi
          split at h
          · cases h; exact .inl hr
          · cases h
            simp only [setRef] at hr
            split at hr
            · cases hr
            · exact .inl hr
          · cases h
            simp only [endRef, setRef] at hr
            split at hr
            · cases hr
            · exact .inl hr
          · cases h
            simp only [endRef, setRef] at hr
            split at hr
            · cases hr
            · exact .inl hr
          · rename_i hv
            cases h
            simp only [endRef, setRef] at hr
            split at hr
            · rename_i e
              subst e
              cases hr
              obtain ⟨a, b⟩ := service_timeOut hv
              exact .inr ⟨h0, a, b⟩
            · exact .inl hr
      · cases h

/-- The moment of confirmation is at most fifteen minutes away. -/
theorem reach_confirm {g : GSt} (hg : GGenesis g) {s : GSt} (h : GReach g s) (p : Nat) (r : Ref Nat) (d : Deciding) (t : Nat)
    (hp : s.crefs p = some (.ongoing r)) (hd : r.deciding = some d) (hc : d.confirming = some t) : t ≤ s.now + 15 * minutes := by
  induction h generalizing p r d t with
  | start => rw [hg.crefs p] at hp; cases hp
  | @step s s' hr st ih =>
    have hshape := reach_shape hg hr
    have hnow := now_mono st
    rcases cref_change hshape st p with h1 | ⟨h1, _, _, _, _, _, h2⟩ | ⟨r0, h1, hn⟩
    · rw [h1] at hp
      have := ih p r d t hp hd hc
      omega
    · rw [h2] at hp; cases hp; cases hd
    · rcases hn with h2 | h2 | h2 | h2 | h2 | ⟨i', d', hi', hb, h2⟩ | ⟨env, i', d', t, hi', _, _, _, _, h2⟩
      · rw [h2] at hp; cases hp
        have := ih p r0 d t h1 hd hc
        omega
      · rw [h2] at hp; cases hp
      · rw [h2] at hp; cases hp
      · rw [h2] at hp; cases hp
      · rw [h2] at hp; cases hp
      · have e : s'.crefs p = some (.ongoing { r0 with deciding := some d' }) := by rw [h2]; simp [setCRef]
        rw [e] at hp
        cases hp
        cases hd
        obtain ⟨i2, hi2, _, _, h150⟩ := collectiveInfo_times (hshape.ctrack p _ h1)
        have hi2 : collectiveInfo r0.track = some i2 := hi2
        rw [hi'] at hi2
        cases hi2
        rcases hb with ⟨_, _, _, _, _, hb⟩ | ⟨d0, hd0, _, ⟨_, _, hb⟩ | ⟨_, _, hb⟩⟩
        · rw [hc] at hb
          split at hb
          · cases hb; omega
          · cases hb
        · rw [hc] at hb; cases hb; omega
        · rw [hc] at hb; cases hb
      · have e : s'.crefs p = some (.approved r0 s.now) := by rw [h2]; simp [setCRef]
        rw [e] at hp; cases hp

/-- On its way out: over, or past its decision period and confirmed at `T` at the latest. -/
def CClosing (p : Nat) (T : Nat) (s : GSt) : Prop :=
  Over (s.crefs p) ∨ ∃ r d t, s.crefs p = some (.ongoing r) ∧ r.deciding = some d ∧ d.confirming = some t ∧ t ≤ T ∧
    d.since + 4 * days ≤ s.now

theorem CClosing.step {s s' : GSt} (hs : Shape s) (st : GStep s s') {p T : Nat} (h : CClosing p T s) : CClosing p T s' := by
  have hnow := now_mono st
  rcases h with h | ⟨r, d, t, h1, h2, h3, h4, h5⟩
  · rcases cref_change hs st p with e | ⟨e, _⟩ | ⟨r0, e, _⟩
    · left; rw [e]; exact h
    · rw [e] at h; exact h.elim
    · rw [e] at h; exact h.elim
  · rcases cref_change hs st p with e | ⟨e, _⟩ | ⟨r0, e, hn⟩
    · exact .inr ⟨r, d, t, by rw [e]; exact h1, h2, h3, h4, by omega⟩
    · rw [e] at h1; cases h1
    · rw [e] at h1; cases h1
      rcases hn with hn | hn | hn | hn | hn | ⟨i', d', hi', hb, hn⟩ | ⟨env, i', d', t, hi', _, _, _, _, hn⟩
      · exact .inr ⟨_, d, t, hn, h2, h3, h4, by omega⟩
      · left; rw [hn]; exact trivial
      · left; rw [hn]; exact trivial
      · left; rw [hn]; exact trivial
      · left; rw [hn]; exact trivial
      · obtain ⟨i2, hi2, _, h576, _⟩ := collectiveInfo_times (hs.ctrack p _ e)
        have hi2 : collectiveInfo r.track = some i2 := hi2
        rw [hi'] at hi2
        cases hi2
        rcases hb with ⟨hb, _⟩ | ⟨d0, hd0, _, ⟨_, hb, _⟩ | ⟨_, hb, _⟩⟩
        · rw [h2] at hb; cases hb
        · rw [h2] at hd0; cases hd0; rw [h3] at hb; cases hb
        · rw [h2] at hd0; cases hd0; omega
      · left
        have e : s'.crefs p = some (.approved r s.now) := by rw [hn]; simp [setCRef]
        rw [e]; exact trivial

/-- Like `CClosing`, for the referendum of a community whose track is `i`. -/
def Closing (c : CId) (i : TrackInfo) (p : Nat) (T : Nat) (s : GSt) : Prop :=
  Over (s.refs p) ∨ ∃ r d t, s.refs p = some (.ongoing r) ∧ r.track = c ∧ r.deciding = some d ∧ d.confirming = some t ∧ t ≤ T ∧
    d.since + i.decisionPeriod ≤ s.now

theorem Closing.step {s s' : GSt} (hs : Shape s) (st : GStep s s') {c : CId} {i : TrackInfo} (hi : s.m.tracks c = some i)
    {p T : Nat} (h : Closing c i p T s) : Closing c i p T s' := by
  have hnow := now_mono st
  rcases h with h | ⟨r, d, t, h1, hc, h2, h3, h4, h5⟩
  · rcases ref_change hs st p with e | ⟨e, _⟩ | ⟨r0, e, _⟩
    · left; rw [e]; exact h
    · rw [e] at h; exact h.elim
    · rw [e] at h; exact h.elim
  · rcases ref_change hs st p with e | ⟨e, _⟩ | ⟨r0, e, hn⟩
    · exact .inr ⟨r, d, t, by rw [e]; exact h1, hc, h2, h3, h4, by omega⟩
    · rw [e] at h1; cases h1
    · rw [e] at h1; cases h1
      rcases hn with hn | hn | hn | hn | hn | ⟨i', u, d', hi', _, hb, hn⟩ | ⟨env, i', u, d', t, hi', _, _, _, _, _, hn⟩
      · exact .inr ⟨_, d, t, hn, hc, h2, h3, h4, by omega⟩
      · left; rw [hn]; exact trivial
      · left; rw [hn]; exact trivial
      · left; rw [hn]; exact trivial
      · left; rw [hn]; exact trivial
      · rw [hc, hi] at hi'
        cases hi'
        rcases hb with ⟨hb, _⟩ | ⟨d0, hd0, _, ⟨_, hb, _⟩ | ⟨_, hb, _⟩⟩
        · rw [h2] at hb; cases hb
        · rw [h2] at hd0; cases hd0; rw [h3] at hb; cases hb
        · rw [h2] at hd0; cases hd0; omega
      · left
        have e : s'.refs p = some (.approved r s.now) := by rw [hn]; simp [endRef, setRef]
        rw [e]; exact trivial

/-- A community with that track. Specification only, no code behind it (outside /repo). -/
def TrackIs (c : CId) (i : TrackInfo) (s _s' : GSt) : Prop := s.m.tracks c = some i

/-! ## C137 -/

/-- C137: nothing is approved by the collective within half an hour of being proposed. -/
theorem C137_not_at_once (g : GSt) (hg : GGenesis g) (s : GSt) (h : GReach g s) (p : Nat) (r : Ref Nat) (n : Nat)
    (hp : s.crefs p = some (.approved r n)) : r.submitted + 30 * minutes ≤ n := by
  obtain ⟨s0, i, since, _, _, _, _, h1, h2, _, h3, h4, _⟩ := C111_approved g hg s h p r n hp
  obtain ⟨i', hi', a, _, b⟩ := collectiveInfo_times h1
  rw [h2] at hi'
  cases hi'
  omega

/-- C137: the collective's referenda are rejected only after four days of being decided, while not passing;
and time out only when they have not begun to be decided two days after being proposed. -/
theorem C137_time_to_vote (g : GSt) (hg : GGenesis g) (s s' : GSt) (h : GReach g s) (st : GStep s s') (p : Nat) (r : Ref Nat)
    (hp : s.crefs p = some (.ongoing r)) :
    (∀ r', s'.crefs p = some (.rejected r') → r' = r ∧ ∃ d, r.deciding = some d ∧ d.since + 4 * days ≤ s.now ∧
      ∃ i, collectiveInfo r.track = some i ∧
        isPassing i (s.now - d.since) (csupport s (s.ctally p)) (capproval (s.ctally p)) = false) ∧
    (∀ r', s'.crefs p = some (.timedOut r') → r' = r ∧ r.deciding = none ∧ r.submitted + 2 * days ≤ s.now) := by
  obtain ⟨h1, h2, _, _⟩ := step_rejected st p
  constructor
  · intro r' h'
    rcases h1 r' h' with e | ⟨e, i, d, hi, hd, hl, hn⟩
    · rw [hp] at e; cases e
    · rw [hp] at e; cases e
      obtain ⟨i2, hi2, _, h576, _⟩ := collectiveInfo_times ((reach_shape hg h).ctrack p _ hp)
      have hi2 : collectiveInfo r.track = some i2 := hi2
      rw [hi] at hi2
      cases hi2
      exact ⟨rfl, d, hd, by omega, i, hi, hn⟩
  · intro r' h'
    rcases h2 r' h' with e | ⟨e, hd, hl⟩
    · rw [hp] at e; cases e
    · rw [hp] at e; cases e
      exact ⟨rfl, hd, by omega⟩

/-- C137: a referendum of the collective does not go on for ever: when it is serviced after four days of being decided, and
once more fifteen minutes or more later, whatever else happens and however the votes move in between, it is
over: the second time leaves it approved or rejected, unless it was over before. -/
theorem C137_ends (g : GSt) (hg : GGenesis g) (s : GSt) (h : GReach g s) (p : Nat) (r : Ref Nat) (d : Deciding)
    (hp : s.crefs p = some (.ongoing r)) (hd : r.deciding = some d) (hl : d.since + 4 * days ≤ s.now) (env : GEnv) :
    ∃ s1, serviceCollective env s p = some s1 ∧
      ∀ s2, GReach s1 s2 → s.now + 15 * minutes ≤ s2.now →
        Over (s2.crefs p) ∨ ∀ env', ∃ s3, serviceCollective env' s2 p = some s3 ∧ Decided (s3.crefs p) := by
  have hshape := reach_shape hg h
  obtain ⟨i, hi, _, h576, h150⟩ := collectiveInfo_times (hshape.ctrack p _ hp)
  have hi : collectiveInfo r.track = some i := hi
  have first : ∃ s1, serviceCollective env s p = some s1 ∧ CClosing p (s.now + 15 * minutes) s1 := by
    unfold serviceCollective
    rw [hp]
    dsimp only
    rw [hi]
    dsimp only
    rcases service_late (i := i) (now := s.now) (timeout := 2 * days) (free := hasSlot s.crefs s.cnext r.track i)
      (passing := fun e => isPassing i e (csupport s (s.ctally p)) (capproval (s.ctally p))) hd (by omega) with
      e | e | ⟨t, h1, h2, e⟩ | ⟨h1, e⟩
    · rw [e]; exact ⟨_, rfl, .inl (by simp [setCRef, Over])⟩
    · rw [e]; exact ⟨_, rfl, .inl (by simp [setCRef, Over])⟩
    · rw [e]
      exact ⟨_, rfl, .inr ⟨r, d, t, hp, hd, h1, reach_confirm hg h p r d t hp hd h1, hl⟩⟩
    · rw [e]
      refine ⟨_, rfl, .inr ⟨{ r with deciding := some { d with confirming := some (s.now + i.confirmPeriod) } },
        { d with confirming := some (s.now + i.confirmPeriod) }, s.now + i.confirmPeriod, by simp [setCRef], rfl, rfl, by omega, hl⟩⟩
  obtain ⟨s1, hs1, hc⟩ := first
  refine ⟨s1, hs1, fun s2 h2 hw => ?_⟩
  have hr1 : GReach g s1 := .step h (.collective env p hs1)
  have hc2 : CClosing p (s.now + 15 * minutes) s2 ∧ GReach g s2 := by
    clear hw
    induction h2 with
    | start => exact ⟨hc, hr1⟩
    | step _ st ih => exact ⟨ih.1.step (reach_shape hg ih.2) st, .step ih.2 st⟩
  rcases hc2.1 with ho | ⟨r2, d2, t, h1, h3, h4, h5, h6⟩
  · exact .inl ho
  · refine .inr fun env' => ?_
    obtain ⟨i2, hi2, _, g576, _⟩ := collectiveInfo_times ((reach_shape hg hc2.2).ctrack p _ h1)
    have hi2 : collectiveInfo r2.track = some i2 := hi2
    unfold serviceCollective
    rw [h1]
    dsimp only
    rw [hi2]
    dsimp only
    rcases service_last (i := i2) (now := s2.now) (timeout := 2 * days) (free := hasSlot s2.crefs s2.cnext r2.track i2)
      (passing := fun e => isPassing i2 e (csupport s2 (s2.ctally p)) (capproval (s2.ctally p))) h3 (by omega) h4 (by omega) with e | e
    · rw [e]; exact ⟨_, rfl, by simp [setCRef, Decided]⟩
    · rw [e]; exact ⟨_, rfl, by simp [setCRef, Decided]⟩

/-- C137: a referendum of the collective nobody pays the deposit for times out when serviced two days after being proposed. -/
theorem C137_times_out (g : GSt) (hg : GGenesis g) (s : GSt) (h : GReach g s) (p : Nat) (r : Ref Nat)
    (hp : s.crefs p = some (.ongoing r)) (hd : r.deciding = none) (hn : r.deposit = false) (hl : r.submitted + 2 * days ≤ s.now)
    (env : GEnv) : ∃ s1, serviceCollective env s p = some s1 ∧ s1.crefs p = some (.timedOut r) := by
  obtain ⟨i, hi, _⟩ := collectiveInfo_times ((reach_shape hg h).ctrack p _ hp)
  have hi : collectiveInfo r.track = some i := hi
  unfold serviceCollective
  rw [hp]
  dsimp only
  rw [hi]
  dsimp only
  unfold service
  rw [hd, hn]
  dsimp only
  rw [if_neg (by simp), if_pos hl]
  exact ⟨_, rfl, by simp [setCRef]⟩

/-- C137: a community's referenda are rejected only after the decision period of its track, while not passing; and time out
only when they have not begun to be decided two weeks after being proposed. -/
theorem C137_community_time_to_vote (s s' : GSt) (st : GStep s s') (p : Nat) (r : Ref CId)
    (hp : s.refs p = some (.ongoing r)) :
    (∀ r', s'.refs p = some (.rejected r') → r' = r ∧ ∃ i d t c, s.m.tracks r.track = some i ∧ r.deciding = some d ∧
      s.m.comm.world.polls p = some (.ongoing t c) ∧ d.since + i.decisionPeriod ≤ s.now ∧
      isPassing i (s.now - d.since) (support s.m.comm t r.track) (approval t) = false) ∧
    (∀ r', s'.refs p = some (.timedOut r') → r' = r ∧ r.deciding = none ∧ r.submitted + 14 * days ≤ s.now) := by
  obtain ⟨_, _, h1, h2⟩ := step_rejected st p
  constructor
  · intro r' h'
    rcases h1 r' h' with e | ⟨e, i, d, t, c, hi, hd, ht, hl, hn⟩
    · rw [hp] at e; cases e
    · rw [hp] at e; cases e
      exact ⟨rfl, i, d, t, c, hi, hd, ht, hl, hn⟩
  · intro r' h'
    rcases h2 r' h' with e | ⟨e, hd, hl⟩
    · rw [hp] at e; cases e
    · rw [hp] at e; cases e
      exact ⟨rfl, hd, by omega⟩

/-- C137: a community's referendum does not go on for ever while the community keeps its track: when it is serviced after
the decision period of the track, and once more when the confirmation period is over too, it is over: the second time leaves
it approved or rejected, unless it was over before. (If it was already being confirmed, then the end of that confirmation
counts.) -/
theorem C137_community_ends (g : GSt) (hg : GGenesis g) (s : GSt) (h : GReach g s) (p : Nat) (r : Ref CId) (d : Deciding)
    (i : TrackInfo) (hp : s.refs p = some (.ongoing r)) (hd : r.deciding = some d) (hi : s.m.tracks r.track = some i)
    (hl : d.since + i.decisionPeriod ≤ s.now) (env : GEnv) :
    ∃ s1 T, serviceCommunity env s p = some s1 ∧ T = d.confirming.getD (s.now + i.confirmPeriod) ∧
      ∀ s2, ReachBy (TrackIs r.track i) s1 s2 → s2.m.tracks r.track = some i → T ≤ s2.now →
        Over (s2.refs p) ∨ ∀ env', ∃ s3, serviceCommunity env' s2 p = some s3 ∧ Decided (s3.refs p) := by
  have hshape := reach_shape hg h
  have hpoll := hshape.polls p
  rw [hp] at hpoll
  obtain ⟨u, hu⟩ := hpoll
  have first : ∃ s1, serviceCommunity env s p = some s1 ∧
      Closing r.track i p (d.confirming.getD (s.now + i.confirmPeriod)) s1 := by
    unfold serviceCommunity
    rw [hp, hu]
    dsimp only
    rw [hi]
    dsimp only
    rcases service_late (i := i) (now := s.now) (timeout := 14 * days) (free := hasSlot s.refs s.next r.track i)
      (passing := fun e => isPassing i e (support s.m.comm u r.track) (approval u)) hd hl with
      e | e | ⟨t, h1, h2, e⟩ | ⟨h1, e⟩
    · rw [e]; exact ⟨_, rfl, .inl (by simp [endRef, setRef, Over])⟩
    · rw [e]; exact ⟨_, rfl, .inl (by simp [endRef, setRef, Over])⟩
    · rw [e]
      exact ⟨_, rfl, .inr ⟨r, d, t, hp, rfl, hd, h1, by rw [h1]; exact Nat.le_refl _, hl⟩⟩
    · rw [e]
      refine ⟨_, rfl, .inr ⟨{ r with deciding := some { d with confirming := some (s.now + i.confirmPeriod) } },
        { d with confirming := some (s.now + i.confirmPeriod) }, s.now + i.confirmPeriod, by simp [setRef], rfl, rfl, rfl,
        by rw [h1]; exact Nat.le_refl _, hl⟩⟩
  obtain ⟨s1, hs1, hc⟩ := first
  refine ⟨s1, _, hs1, rfl, fun s2 h2 hi2 hw => ?_⟩
  have hr1 : GReach g s1 := .step h (.community env p hs1)
  have hc2 : Closing r.track i p (d.confirming.getD (s.now + i.confirmPeriod)) s2 ∧ GReach g s2 := by
    clear hw hi2
    induction h2 with
    | start => exact ⟨hc, hr1⟩
    | step _ st ht ih => exact ⟨ih.1.step (reach_shape hg ih.2) st ht, .step ih.2 st⟩
  rcases hc2.1 with ho | ⟨r2, d2, t, h1, ht, h3, h4, h5, h6⟩
  · exact .inl ho
  · refine .inr fun env' => ?_
    have hpoll := (reach_shape hg hc2.2).polls p
    rw [h1] at hpoll
    obtain ⟨u2, hu2⟩ := hpoll
    unfold serviceCommunity
    rw [h1, hu2]
    dsimp only
    rw [ht, hi2]
    dsimp only
    rcases service_last (i := i) (now := s2.now) (timeout := 14 * days) (free := hasSlot s2.refs s2.next r.track i)
      (passing := fun e => isPassing i e (support s2.m.comm u2 r.track) (approval u2)) h3 h6 h4 (by omega) with e | e
    · rw [e]; exact ⟨_, rfl, by simp [endRef, setRef, Decided]⟩
    · rw [e]; exact ⟨_, rfl, by simp [endRef, setRef, Decided]⟩

/-- C137: a community's referendum nobody pays the deposit for times out when serviced two weeks after being proposed. -/
theorem C137_community_times_out (g : GSt) (hg : GGenesis g) (s : GSt) (h : GReach g s) (p : Nat) (r : Ref CId) (i : TrackInfo)
    (hp : s.refs p = some (.ongoing r)) (hi : s.m.tracks r.track = some i) (hd : r.deciding = none) (hn : r.deposit = false)
    (hl : r.submitted + 14 * days ≤ s.now) (env : GEnv) :
    ∃ s1, serviceCommunity env s p = some s1 ∧ s1.refs p = some (.timedOut r) := by
  have hpoll := (reach_shape hg h).polls p
  rw [hp] at hpoll
  obtain ⟨u, hu⟩ := hpoll
  unfold serviceCommunity
  rw [hp, hu]
  dsimp only
  rw [hi]
  dsimp only
  unfold service
  rw [hd, hn]
  dsimp only
  rw [if_neg (by simp), if_pos hl]
  exact ⟨_, rfl, by simp [endRef, setRef]⟩

/-- C137: the deposit that lets a referendum be decided can be placed by whoever signs and can pay it, as long as the
referendum is ongoing and has none; placing it changes nothing else. -/
theorem C137_deposit (env : GEnv) (s : GSt) (o : Origin) (p : Nat) (s' : GSt) :
    gdispatch env s o (.cdeposit p) = some s' ↔
      ∃ who r, o = .signed who ∧ s.crefs p = some (.ongoing r) ∧ r.deposit = false ∧ env.denyDeposit who = false ∧
        s' = { s with crefs := fun q => if q = p then some (.ongoing { r with deposit := true }) else s.crefs q } := by
  simp only [gdispatch]
  unfold placeC
  split
  · rename_i who r hr
    constructor
    · intro h
      split at h
      · exact absurd h (by simp)
      · rename_i hc
        rw [Bool.or_eq_true, not_or, Bool.not_eq_true, Bool.not_eq_true] at hc
        exact ⟨who, r, rfl, hr, hc.1, hc.2, (Option.some.inj h).symm⟩
    · rintro ⟨who', r', he, hr', hd, hy, hs⟩
      cases he
      rw [hr] at hr'
      cases hr'
      rw [if_neg (by simp [hd, hy]), hs]
      rfl
  · rename_i hno
    constructor
    · intro h; exact absurd h (by simp)
    · rintro ⟨who, r, he, hr, _⟩
      exact absurd hr (hno who r he)

/-- C137: and the same for the referenda of communities. -/
theorem C137_community_deposit (env : GEnv) (s : GSt) (o : Origin) (p : Nat) (s' : GSt) :
    gdispatch env s o (.deposit p) = some s' ↔
      ∃ who r, o = .signed who ∧ s.refs p = some (.ongoing r) ∧ r.deposit = false ∧ env.denyDeposit who = false ∧
        s' = { s with refs := fun q => if q = p then some (.ongoing { r with deposit := true }) else s.refs q } := by
  simp only [gdispatch]
  unfold place
  split
  · rename_i who r hr
    constructor
    · intro h
      split at h
      · exact absurd h (by simp)
      · rename_i hc
        rw [Bool.or_eq_true, not_or, Bool.not_eq_true, Bool.not_eq_true] at hc
        exact ⟨who, r, rfl, hr, hc.1, hc.2, (Option.some.inj h).symm⟩
    · rintro ⟨who', r', he, hr', hd, hy, hs⟩
      cases he
      rw [hr] at hr'
      cases hr'
      rw [if_neg (by simp [hd, hy]), hs]
      rfl
  · rename_i hno
    constructor
    · intro h; exact absurd h (by simp)
    · rintro ⟨who, r, he, hr, _⟩
      exact absurd hr (hno who r he)

/-! ## Examples -/

/-- A proposal of the collective that nobody votes on, serviced when its decision begins; four days pass. Example for
non-vacuity (outside /repo). -/
def Demo.silent : List Demo.Act :=
  [.call (.signed [9]) (.csubmit .root (.other 0) (.after 0)), .call (.signed [9]) (.cdeposit 0), .time (15 * minutes), .collective 0,
   .time (4 * days)]

/-- The hypotheses of `C137_ends` are met, and the referendum is rejected. -/
example :
    let s := Demo.silent.foldl Demo.act Demo.gstart
    GReach Demo.gstart s ∧ (∃ r d, s.crefs 0 = some (.ongoing r) ∧ r.deciding = some d ∧ d.since + 4 * days ≤ s.now) ∧
      ∃ r, (Demo.act s (.collective 0)).crefs 0 = some (.rejected r) :=
  ⟨Demo.acts_reach .start _ (by decide), ⟨_, _, rfl, rfl, by decide +kernel⟩, _, rfl⟩

/-- A proposal without deposit, two days later. -/
example :
    let s := [Demo.Act.call (.signed [9]) (.csubmit .root (.other 0) (.after 0)), .time (2 * days)].foldl Demo.act Demo.gstart
    GReach Demo.gstart s ∧ (∃ r, s.crefs 0 = some (.ongoing r) ∧ r.deciding = none ∧ r.deposit = false ∧
      r.submitted + 2 * days ≤ s.now) ∧ ∃ r, (Demo.act s (.collective 0)).crefs 0 = some (.timedOut r) :=
  ⟨Demo.acts_reach .start _ (by decide), ⟨_, rfl, rfl, rfl, by decide +kernel⟩, _, rfl⟩

/-- The same for communities: a proposal nobody votes on is rejected after the decision period of the track. -/
example :
    let s := (Demo.neighbours ++ [Demo.Act.community 0, Demo.Act.time 1000000]).foldl Demo.act Demo.gstart
    GReach Demo.gstart s ∧ (∃ r d i, s.refs 0 = some (.ongoing r) ∧ r.deciding = some d ∧ s.m.tracks r.track = some i ∧
      d.since + i.decisionPeriod ≤ s.now) ∧ ∃ r, (Demo.act s (.community 0)).refs 0 = some (.rejected r) :=
  ⟨Demo.acts_reach .start _ (by decide), ⟨_, _, _, rfl, rfl, rfl, by decide +kernel⟩, _, rfl⟩

/-- And one without deposit times out. -/
example :
    let s := [Demo.Act.call (.signed [1]) (.mgr (.register 7 (ascii "seven") (.id [1]) none none)), .items [⟨7, 3, [5], 0⟩],
      .call (.signed [5]) (.submit (.community ⟨7, none⟩) (.other 0) (.after 0)), .time (14 * days)].foldl Demo.act Demo.gstart
    GReach Demo.gstart s ∧ (∃ r i, s.refs 0 = some (.ongoing r) ∧ s.m.tracks r.track = some i ∧ r.deciding = none ∧
      r.deposit = false ∧ r.submitted + 14 * days ≤ s.now) ∧ ∃ r, (Demo.act s (.community 0)).refs 0 = some (.timedOut r) :=
  ⟨Demo.acts_reach .start _ (by decide), ⟨_, _, rfl, rfl, rfl, rfl, by decide +kernel⟩, _, rfl⟩

end Verif.Governance
