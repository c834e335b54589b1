import Verif.Governance.EnactTheorems

/-!
# C144: who may stop a referendum, and when calls are scheduled for
-/

namespace Verif.Governance

open Verif Verif.Accounts Verif.Communities

/-- Stopping a referendum of the collective takes the origin its configuration names, whatever the call. -/
theorem leaf_stops {env : GEnv} {s s' : GSt} {o : Origin} (hl : Leaf env s o s') (p : Nat) (r : Ref Nat) :
    (s'.crefs p = some (.cancelled r) → s.crefs p = some (.cancelled r) ∨
      (s.crefs p = some (.ongoing r) ∧ o = .custom .referendumCanceller)) ∧
    (s'.crefs p = some (.killed r) → s.crefs p = some (.killed r) ∨
      (s.crefs p = some (.ongoing r) ∧ o = .custom .referendumKiller)) := by
  have hc : ∀ o, mayCancel o = true → o = .custom .referendumCanceller := by
    intro o h; unfold mayCancel at h; split at h
    · rfl
    · cases h
  have hk : ∀ o, mayKill o = true → o = .custom .referendumKiller := by
    intro o h; unfold mayKill at h; split at h
    · rfl
    · cases h
  cases hl with
  | csubmit who origin call m t h =>
    constructor
    all_goals
      intro h'
      simp only [setCRef] at h'
      split at h'
      · cases h'
      · exact .inl h'
  | cref o q r0 i h hi =>
    constructor
    all_goals
      intro h'
      simp only [setCRef] at h'
      split at h'
      · rename_i hq
        subst hq
        rcases hi with rfl | ⟨rfl, hm⟩ | ⟨rfl, hm⟩ <;> cases h'
        first
          | exact .inr ⟨h, hc _ hm⟩
          | exact .inr ⟨h, hk _ hm⟩
      · exact .inl h'
  | _ => exact ⟨.inl, .inl⟩

/-- Stopping a referendum of a community takes root. -/
theorem leaf_community_stops {env : GEnv} {s s' : GSt} {o : Origin} (hl : Leaf env s o s') (p : Nat) (r : Ref CId) :
    (s'.refs p = some (.cancelled r) → s.refs p = some (.cancelled r) ∨ (s.refs p = some (.ongoing r) ∧ o = .root)) ∧
    (s'.refs p = some (.killed r) → s.refs p = some (.killed r) ∨ (s.refs p = some (.ongoing r) ∧ o = .root)) := by
  cases hl with
  | submit o who origin call m t h =>
    constructor
    all_goals
      intro h'
      simp only [setRef] at h'
      split at h'
      · cases h'
      · exact .inl h'
  | place o q r0 h =>
    constructor
    all_goals
      intro h'
      simp only [setRef] at h'
      split at h'
      · cases h'
      · exact .inl h'
  | close q r0 i h hi =>
    constructor
    all_goals
      intro h'
      simp only [endRef, setRef] at h'
      split at h'
      · rename_i hq
        subst hq
        rcases hi with rfl | rfl <;> cases h'
        exact .inr ⟨h, rfl⟩
      · exact .inl h'
  | _ => exact ⟨.inl, .inl⟩

/-- A step of the chain that stops a referendum of the collective is the run of a scheduled call, of an origin that may. -/
theorem step_stops {s s' : GSt} (st : GStep s s') (p : Nat) (r : Ref Nat) :
    (s'.crefs p = some (.cancelled r) → s.crefs p = some (.cancelled r) ∨ (s.crefs p = some (.ongoing r) ∧
      ∃ t ∈ s.agenda, t.when ≤ s.now ∧ (t.origin = .custom .referendumCanceller ∨ t.origin = .root))) ∧
    (s'.crefs p = some (.killed r) → s.crefs p = some (.killed r) ∨ (s.crefs p = some (.ongoing r) ∧
      ∃ t ∈ s.agenda, t.when ≤ s.now ∧ (t.origin = .custom .referendumKiller ∨ t.origin = .root))) := by
  cases st with
  | call env he o ho c hd =>
    obtain ⟨o', hor, hl⟩ := gdispatch_leaf hd
    obtain ⟨h1, h2⟩ := leaf_stops hl p r
    have no : ∀ x, o' ≠ .custom x := by
      rintro x rfl
      rcases hor with e | e | ⟨a, e⟩
      · subst e; exact ho
      · subst e; exact ho
      · cases e
    exact ⟨fun h => (h1 h).imp_right fun h => absurd h.2 (no _), fun h => (h2 h).imp_right fun h => absurd h.2 (no _)⟩
  | run env he pre post t ha hw =>
    have ht : t ∈ s.agenda := by rw [ha]; simp
    rcases run_cases (env := env) (s := { s with agenda := pre ++ post }) (o := t.origin) (c := t.call) with h2 | h2
    · rw [h2]; exact ⟨.inl, .inl⟩
    · obtain ⟨o', hor, hl⟩ := gdispatch_leaf h2
      obtain ⟨h1, h2⟩ := leaf_stops hl p r
      have go : ∀ x, o' = .custom x → t.origin = .custom x ∨ t.origin = .root := by
        rintro x rfl
        rcases hor with e | e | ⟨a, e⟩
        · exact .inl e.symm
        · exact .inr e
        · cases e
      exact ⟨fun h => (h1 h).imp_right fun h => ⟨h.1, t, ht, hw, go _ h.2⟩,
        fun h => (h2 h).imp_right fun h => ⟨h.1, t, ht, hw, go _ h.2⟩⟩
  | apart pre post rest t ha hr hw => exact ⟨.inl, .inl⟩
  | collective env q h =>
    obtain ⟨r0, i, hr, hi, h⟩ := serviceCollective_ok h
    rcases h with rfl | ⟨d, hb, rfl⟩ | ⟨d, t, h1, h2, h3, h4, rfl⟩ | rfl | rfl
    · exact ⟨.inl, .inl⟩
    all_goals
      constructor
      all_goals
        intro h'
        simp only [setCRef] at h'
        split at h'
        · cases h'
        · exact .inl h'
  | community env q h => rw [(serviceCommunity_same h).2.2.2.2.2.1]; exact ⟨.inl, .inl⟩
  | time n => exact ⟨.inl, .inl⟩
  | world w hw => exact ⟨.inl, .inl⟩

/-- And one that stops a referendum of a community is the run of a call scheduled as root. -/
theorem step_community_stops {s s' : GSt} (st : GStep s s') (p : Nat) (r : Ref CId) :
    (s'.refs p = some (.cancelled r) → s.refs p = some (.cancelled r) ∨ (s.refs p = some (.ongoing r) ∧
      ∃ t ∈ s.agenda, t.when ≤ s.now ∧ t.origin = .root)) ∧
    (s'.refs p = some (.killed r) → s.refs p = some (.killed r) ∨ (s.refs p = some (.ongoing r) ∧
      ∃ t ∈ s.agenda, t.when ≤ s.now ∧ t.origin = .root)) := by
  cases st with
  | call env he o ho c hd =>
    obtain ⟨o', hor, hl⟩ := gdispatch_leaf hd
    obtain ⟨h1, h2⟩ := leaf_community_stops hl p r
    have no : o' ≠ .root := by
      rintro rfl
      rcases hor with e | e | ⟨a, e⟩
      · subst e; exact ho
      · subst e; exact ho
      · cases e
    exact ⟨fun h => (h1 h).imp_right fun h => absurd h.2 no, fun h => (h2 h).imp_right fun h => absurd h.2 no⟩
  | run env he pre post t ha hw =>
    have ht : t ∈ s.agenda := by rw [ha]; simp
    rcases run_cases (env := env) (s := { s with agenda := pre ++ post }) (o := t.origin) (c := t.call) with h2 | h2
    · rw [h2]; exact ⟨.inl, .inl⟩
    · obtain ⟨o', hor, hl⟩ := gdispatch_leaf h2
      obtain ⟨h1, h2⟩ := leaf_community_stops hl p r
      have go : o' = .root → t.origin = .root := by
        rintro rfl
        rcases hor with e | e | ⟨a, e⟩
        · exact e.symm
        · exact e
        · cases e
      exact ⟨fun h => (h1 h).imp_right fun h => ⟨h.1, t, ht, hw, go h.2⟩,
        fun h => (h2 h).imp_right fun h => ⟨h.1, t, ht, hw, go h.2⟩⟩
  | apart pre post rest t ha hr hw => exact ⟨.inl, .inl⟩
  | collective env q h => rw [(serviceCollective_same h).2.2.2.1]; exact ⟨.inl, .inl⟩
  | community env q h =>
    obtain ⟨r0, i, t, c, hr, hp', hi, h⟩ := serviceCommunity_ok h
    rcases h with rfl | ⟨d, hb, rfl⟩ | ⟨d, t, h1, h2, h3, h4, rfl⟩ | rfl | rfl
    · exact ⟨.inl, .inl⟩
    all_goals
      constructor
      all_goals
        intro h'
        simp only [endRef, setRef] at h'
        split at h'
        · cases h'
        · exact .inl h'
  | time n => exact ⟨.inl, .inl⟩
  | world w hw => exact ⟨.inl, .inl⟩

/-! ## C144 -/

/-- C144: who may cancel and kill referenda, in any state: for those of the collective the referendum canceller and the
referendum killer, and not even root; for those of communities root alone. Only ongoing referenda can be stopped, and
stopping one changes no other. -/
theorem C144_who (env : GEnv) (s : GSt) (o : Origin) (p : Nat) (s' : GSt) :
    (gdispatch env s o (.ccancel p) = some s' ↔ o = .custom .referendumCanceller ∧ ∃ r, s.crefs p = some (.ongoing r) ∧
      s' = { s with crefs := fun q => if q = p then some (.cancelled r) else s.crefs q }) ∧
    (gdispatch env s o (.ckill p) = some s' ↔ o = .custom .referendumKiller ∧ ∃ r, s.crefs p = some (.ongoing r) ∧
      s' = { s with crefs := fun q => if q = p then some (.killed r) else s.crefs q }) ∧
    (gdispatch env s o (.cancel p) = some s' ↔ o = .root ∧ ∃ r, s.refs p = some (.ongoing r) ∧
      s' = { s with
        refs := fun q => if q = p then some (.cancelled r) else s.refs q
        m := { s.m with comm := setPoll s.m.comm p .ended } }) ∧
    (gdispatch env s o (.kill p) = some s' ↔ o = .root ∧ ∃ r, s.refs p = some (.ongoing r) ∧
      s' = { s with
        refs := fun q => if q = p then some (.killed r) else s.refs q
        m := { s.m with comm := setPoll s.m.comm p .ended } }) := by
  have hC : ∀ f : Ref Nat → RefInfo Nat, closeC s p f = some s' ↔ ∃ r, s.crefs p = some (.ongoing r) ∧
      s' = { s with crefs := fun q => if q = p then some (f r) else s.crefs q } := by
    intro f
    unfold closeC
    cases hr : s.crefs p with
    | none => simp
    | some x => cases x <;> simp [setCRef, eq_comm]
  have hR : ∀ f : Ref CId → RefInfo CId, Governance.close s p f = some s' ↔ ∃ r, s.refs p = some (.ongoing r) ∧
      s' = { s with
        refs := fun q => if q = p then some (f r) else s.refs q
        m := { s.m with comm := setPoll s.m.comm p .ended } } := by
    intro f
    unfold Governance.close
    cases hr : s.refs p with
    | none => simp
    | some x => cases x <;> simp [endRef, setRef, eq_comm]
  have hroot : ∀ x : Option GSt, rootOnly o x = some s' ↔ o = .root ∧ x = some s' := by
    intro x
    constructor
    · exact rootOnly_some
    · rintro ⟨rfl, h⟩; exact h
  refine ⟨?_, ?_, ?_, ?_⟩
  · rw [gdispatch, Option.ite_none_right_eq_some, hC, show mayCancel o = true ↔ o = .custom .referendumCanceller from ?_]
    cases o with
    | custom c => cases c <;> simp [mayCancel]
    | _ => simp [mayCancel]
  · rw [gdispatch, Option.ite_none_right_eq_some, hC, show mayKill o = true ↔ o = .custom .referendumKiller from ?_]
    cases o with
    | custom c => cases c <;> simp [mayKill]
    | _ => simp [mayKill]
  · rw [gdispatch, hroot, hR]
  · rw [gdispatch, hroot, hR]

/-- C144: on every chain history, a cancelled referendum of the collective was cancelled by a scheduled call, and by then the
collective had approved another proposal, to act as referendum canceller or as root; before that it was ongoing. -/
theorem C144_cancelled (g : GSt) (hg : GGenesis g) (s : GSt) (h : GReach g s) (p : Nat) (r : Ref Nat)
    (hp : s.crefs p = some (.cancelled r)) :
    ∃ s0, GReach g s0 ∧ GReach s0 s ∧ s0.crefs p = some (.ongoing r) ∧
      (∃ t ∈ s0.agenda, t.when ≤ s0.now ∧ (t.origin = .custom .referendumCanceller ∨ t.origin = .root)) ∧
      ∃ q r' n, q ≠ p ∧ s0.crefs q = some (.approved r' n) ∧
        (r'.origin = .custom .referendumCanceller ∨ r'.origin = .root) := by
  induction h with
  | start => rw [hg.crefs p] at hp; cases hp
  | @step s s' hr st ih =>
    rcases (step_stops st p r).1 hp with h1 | ⟨h1, t, ht, hw, ho⟩
    · obtain ⟨s0, a, b, c⟩ := ih h1
      exact ⟨s0, a, .step b st, c⟩
    · have : ∃ q r' n, s.crefs q = some (.approved r' n) ∧
          (r'.origin = .custom .referendumCanceller ∨ r'.origin = .root) := by
        rcases ho with ho | ho
        · exact C111_custom g hg s hr t ht _ ho
        · obtain ⟨q, r', n, a, b⟩ := C111_root g hg s hr t ht ho
          exact ⟨q, r', n, a, .inr b⟩
      obtain ⟨q, r', n, a, b⟩ := this
      exact ⟨s, hr, .step .start st, h1, ⟨t, ht, hw, ho⟩, q, r', n, (by rintro rfl; rw [h1] at a; cases a), a, b⟩

/-- C144: the same for killing, which takes the deposits of those who proposed: it needs the referendum killer or root. -/
theorem C144_killed (g : GSt) (hg : GGenesis g) (s : GSt) (h : GReach g s) (p : Nat) (r : Ref Nat)
    (hp : s.crefs p = some (.killed r)) :
    ∃ s0, GReach g s0 ∧ GReach s0 s ∧ s0.crefs p = some (.ongoing r) ∧
      (∃ t ∈ s0.agenda, t.when ≤ s0.now ∧ (t.origin = .custom .referendumKiller ∨ t.origin = .root)) ∧
      ∃ q r' n, q ≠ p ∧ s0.crefs q = some (.approved r' n) ∧
        (r'.origin = .custom .referendumKiller ∨ r'.origin = .root) := by
  induction h with
  | start => rw [hg.crefs p] at hp; cases hp
  | @step s s' hr st ih =>
    rcases (step_stops st p r).2 hp with h1 | ⟨h1, t, ht, hw, ho⟩
    · obtain ⟨s0, a, b, c⟩ := ih h1
      exact ⟨s0, a, .step b st, c⟩
    · have : ∃ q r' n, s.crefs q = some (.approved r' n) ∧
          (r'.origin = .custom .referendumKiller ∨ r'.origin = .root) := by
        rcases ho with ho | ho
        · exact C111_custom g hg s hr t ht _ ho
        · obtain ⟨q, r', n, a, b⟩ := C111_root g hg s hr t ht ho
          exact ⟨q, r', n, a, .inr b⟩
      obtain ⟨q, r', n, a, b⟩ := this
      exact ⟨s, hr, .step .start st, h1, ⟨t, ht, hw, ho⟩, q, r', n, (by rintro rfl; rw [h1] at a; cases a), a, b⟩

/-- C144: a referendum of a community was stopped from outside only by a call scheduled as root, and by then the collective
had approved a proposal to act as root. Neither the community's administrators nor the collective's other origins can. -/
theorem C144_community (g : GSt) (hg : GGenesis g) (s : GSt) (h : GReach g s) (p : Nat) (r : Ref CId)
    (hp : s.refs p = some (.cancelled r) ∨ s.refs p = some (.killed r)) :
    ∃ s0, GReach g s0 ∧ GReach s0 s ∧ s0.refs p = some (.ongoing r) ∧
      (∃ t ∈ s0.agenda, t.when ≤ s0.now ∧ t.origin = .root) ∧
      ∃ q r' n, s0.crefs q = some (.approved r' n) ∧ r'.origin = .root := by
  induction h with
  | start => rw [hg.refs p] at hp; rcases hp with hp | hp <;> cases hp
  | @step s s' hr st ih =>
    have key : (s.refs p = some (.cancelled r) ∨ s.refs p = some (.killed r)) ∨ (s.refs p = some (.ongoing r) ∧
        ∃ t ∈ s.agenda, t.when ≤ s.now ∧ t.origin = .root) := by
      rcases hp with hp | hp
      · rcases (step_community_stops st p r).1 hp with h1 | h1
        · exact .inl (.inl h1)
        · exact .inr h1
      · rcases (step_community_stops st p r).2 hp with h1 | h1
        · exact .inl (.inr h1)
        · exact .inr h1
    rcases key with h1 | ⟨h1, t, ht, hw, ho⟩
    · obtain ⟨s0, a, b, c⟩ := ih h1
      exact ⟨s0, a, .step b st, c⟩
    · exact ⟨s, hr, .step .start st, h1, ⟨t, ht, hw, ho⟩, C111_root g hg s hr t ht ho⟩

/-- C144: whatever a step of the chain puts on the agenda is for a later block, or it is one of the calls of a batch that was on
it and whose time has come. -/
theorem C144_future (s s' : GSt) (st : GStep s s') (t : Task) (ht : t ∈ s'.agenda) (hn : t ∉ s.agenda) :
    s.now < t.when ∨ ∃ u ∈ s.agenda, u.when ≤ s.now ∧ t = { u with call := t.call } ∧ ∃ a b, u.call = .both a b ∧
      (t.call = a ∨ t.call = b) := by
  have hleaf : ∀ (env : GEnv) (s1 s2 : GSt) (o : Origin), Leaf env s1 o s2 → t ∈ s2.agenda →
      t ∈ s1.agenda ∨ s1.now < t.when := by
    intro env s1 s2 o hl h
    cases hl with
    | plan w call hw =>
      rcases List.mem_cons.1 h with rfl | h
      · exact .inr hw
      · exact .inl h
    | unplan k => exact .inl (List.mem_of_mem_eraseIdx h)
    | _ => exact .inl h
  have henact : ∀ (env : GEnv) (src : Source) (i : TrackInfo) (m : Moment) (o : Origin) (call : GCall),
      t ∈ enact env s src i m o call → s.now < t.when := by
    intro env src i m o call h
    unfold enact at h
    dsimp only at h
    split at h
    · exact absurd h hn
    · rcases List.mem_cons.1 h with rfl | h
      · show s.now < max _ (s.now + max 1 i.minEnactmentPeriod)
        omega
      · exact absurd h hn
  cases st with
  | call env he o ho c hd =>
    obtain ⟨o', _, hl⟩ := gdispatch_leaf hd
    exact .inl ((hleaf _ _ _ _ hl ht).resolve_left hn)
  | run env he pre post u ha hw =>
    have hsub : t ∉ pre ++ post := fun h => hn (by
      rw [ha]; simp only [List.mem_append, List.mem_cons] at h ⊢; tauto)
    rcases run_cases (env := env) (s := { s with agenda := pre ++ post }) (o := u.origin) (c := u.call) with h2 | h2
    · rw [h2] at ht; exact absurd ht hsub
    · obtain ⟨o', _, hl⟩ := gdispatch_leaf h2
      exact .inl ((hleaf _ _ _ _ hl ht).resolve_left hsub)
  | apart pre post rest u ha hr hw =>
    rcases apart_mem ha hr ht with h | ⟨h, a, b, hc, rfl | rfl⟩
    · exact absurd h hn
    · exact .inr ⟨u, h, hw, rfl, a, b, hc, .inl rfl⟩
    · exact .inr ⟨u, h, hw, rfl, a, b, hc, .inr rfl⟩
  | collective env q h =>
    obtain ⟨r0, i, hr, hi, h⟩ := serviceCollective_ok h
    rcases h with rfl | ⟨d, hb, rfl⟩ | ⟨d, u, h1, h2, h3, h4, rfl⟩ | rfl | rfl
    · exact absurd ht hn
    · exact absurd ht hn
    · exact .inl (henact _ _ _ _ _ _ ht)
    · exact absurd ht hn
    · exact absurd ht hn
  | community env q h =>
    obtain ⟨r0, i, tl, c, hr, hp', hi, h⟩ := serviceCommunity_ok h
    rcases h with rfl | ⟨d, hb, rfl⟩ | ⟨d, u, h1, h2, h3, h4, rfl⟩ | rfl | rfl
    · exact absurd ht hn
    · exact absurd ht hn
    · exact .inl (henact _ _ _ _ _ _ ht)
    · exact absurd ht hn
    · exact absurd ht hn
  | time n => exact absurd ht hn
  | world w hw => exact absurd ht hn

namespace Demo

/-- Account `[9]` proposes one thing, and then to kill that proposal, and gets the latter approved. Example for
non-vacuity (outside /repo). -/
def killing : List Act :=
  [.call (.signed [9]) (.csubmit .root (.promote [9]) (.after 0)),
   .call (.signed [9]) (.csubmit (.custom .referendumKiller) (.ckill 0) (.after 0)), .call (.signed [9]) (.cdeposit 1),
   .call (.signed [9]) (.cvote 1 true), .time (15 * minutes), .collective 1, .time (15 * minutes), .collective 1, .time 1000]

end Demo

/-- Non-vacuity: when the scheduled call runs, the first proposal is killed. -/
example : ∃ s s', GReach Demo.gstart s ∧ GStep s s' ∧ (∃ r, s.crefs 0 = some (.ongoing r)) ∧
    (∃ r, s'.crefs 0 = some (.killed r)) ∧ s.agenda.map (·.origin) = [.custom .referendumKiller] := by
  refine ⟨Demo.killing.foldl Demo.act Demo.gstart, _, Demo.acts_reach .start _ (by decide),
    .run Demo.genv Demo.genv_tame [] [] ⟨.collective 1, _, .custom .referendumKiller, .ckill 0⟩ rfl (by decide), ⟨_, rfl⟩, ⟨_, rfl⟩, rfl⟩

end Verif.Governance
