import Verif.Governance.Powers
import Verif.Governance.VoiceTheorems

/-!
# C186: what is kept for root is done only by decision of the collective
-/

namespace Verif.Governance

open Verif Verif.Accounts Verif.Communities

/-! ## Helper lemmas -/

theorem RStep.gov {X : Type} {R : Rest X} {l : Option (Origin × Nat)} {s s' : GSt × X} (st : RStep R l s s') :
    s'.1 = s.1 ∨ GStep s.1 s'.1 := by
  cases st with
  | call env he o ho c h hx => exact .inr (.call env he o ho c h)
  | run env he pre post t ha hw hx => exact .inr (.run env he pre post t ha hw)
  | apart pre post rest t ha hr hw => exact .inr (.apart pre post rest t ha hr hw)
  | collective env p h => exact .inr (.collective env p h)
  | community env p h => exact .inr (.community env p h)
  | time n => exact .inr (.time n)
  | world w h => exact .inr (.world w h)
  | alone h => exact .inl rfl

theorem RReach.gov {X : Type} {R : Rest X} {z s : GSt × X} (h : RReach R z s) : GReach z.1 s.1 := by
  induction h with
  | start => exact .start
  | step _ st ih =>
    rcases st.gov with e | e
    · rw [e]; exact ih
    · exact .step ih e

/-- What a step does to the other pallets. -/
theorem RStep.rest {X : Type} {R : Rest X} {l : Option (Origin × Nat)} {s s' : GSt × X} (st : RStep R l s s') :
    s'.2 = s.2 ∨ (∃ o n, l = some (o, n) ∧ R.acts s.2 o n s'.2) ∨ (l = none ∧ R.runs s.2 s'.2) := by
  have key : ∀ (x x' : X) l, R.does x l x' → x' = x ∨ ∃ o n, l = some (o, n) ∧ R.acts x o n x' := by
    intro x x' l h
    match l, h with
    | none, h => exact .inl h
    | some (o, n), h => exact h.imp id fun h => ⟨o, n, rfl, h⟩
  cases st with
  | call env he o ho c h hx => exact (key _ _ _ hx).imp id .inl
  | run env he pre post t ha hw hx => exact (key _ _ _ hx).imp id .inl
  | alone h => exact .inr (.inr ⟨rfl, h⟩)
  | _ => exact .inl rfl

theorem RStep.task {X : Type} {R : Rest X} {l : Option (Origin × Nat)} {n : Nat} {s s' : GSt × X}
    (hl : some (.root, n) = l) (st : RStep R l s s') :
    ∃ t ∈ s.1.agenda, t.origin = .root ∧ t.when ≤ s.1.now ∧ inner s.1 .root t.call = some (.root, n) := by
  cases st with
  | call env he o ho c h hx =>
    have := inner_root c o hl.symm
    subst this; cases ho
  | run env he pre post t ha hw hx =>
    have e := inner_root t.call _ hl.symm
    rw [e] at hl
    exact ⟨t, by rw [ha]; simp, e, hw, hl.symm⟩
  | _ => cases hl

theorem root_decided {z s : GSt} (hz : GGenesis z) (h : GReach z s) {t : Task} (ht : t ∈ s.agenda)
    (ho : t.origin = .root) : RootDecided s := by
  obtain ⟨q, r, n, h1, h2⟩ := C111_root z hz s h t ht ho
  obtain ⟨s0, i, since, h3, h4, h5, _, h6, h7, _, h8, h9, _⟩ := C111_approved z hz s h q r n h1
  refine ⟨q, r, n, h1, h2, ?_, ?_⟩
  · rw [h2] at h6
    have h6 : some 0 = some r.track := h6
    injection h6 with h6
    rw [← h6] at h7
    have h7 : some (collectiveTrack 0 "Root" (10 * units) ⟨percent 100, percent 90, percent 100⟩
      ⟨percent 100, percent 0, percent 100⟩).info = some i := h7
    injection h7 with h7
    have e1 : i.preparePeriod = 15 * minutes := by rw [← h7]; rfl
    have e2 : i.confirmPeriod = 15 * minutes := by rw [← h7]; rfl
    omega
  · rw [← h5]; exact now_reach h4

theorem inner_community {s : GSt} {n : Nat} {x : CommunityOrigin UInt16 UInt32} (c : GCall) (o : Origin)
    (h : inner s o c = some (.community x, n)) : o = .root ∨ o = .community x := by
  induction c generalizing o with
  | other m => simp only [inner, Option.some.injEq, Prod.mk.injEq] at h; exact .inr h.1
  | dispatchAs y call ih =>
    cases o <;> first | exact .inl rfl | (simp only [inner] at h; cases h)
  | asAccount call ih =>
    simp only [inner] at h
    split at h
    · cases h
    · rcases ih _ h with e | e <;> cases e
  | _ => simp only [inner] at h; cases h

theorem RStep.community_task {X : Type} {R : Rest X} {l : Option (Origin × Nat)} {n : Nat}
    {x : CommunityOrigin UInt16 UInt32} {s s' : GSt × X} (hl : some (.community x, n) = l) (st : RStep R l s s') :
    ∃ t ∈ s.1.agenda, (t.origin = .root ∨ t.origin = .community x) ∧ t.when ≤ s.1.now ∧
      inner s.1 t.origin t.call = some (.community x, n) := by
  cases st with
  | call env he o ho c h hx =>
    rcases inner_community c o hl.symm with e | e <;> subst e <;> cases ho
  | run env he pre post t ha hw hx =>
    exact ⟨t, by rw [ha]; simp, inner_community t.call _ hl.symm, hw, hl.symm⟩
  | _ => cases hl

/-! ## A small chain for the examples -/

namespace Demo

theorem ract {X : Type} {R : Rest X} {z : GSt × X} {s : GSt} {x : X} (h : RReach R z (s, x)) (a : Act)
    (ha : a.outside = true) : RReach R z (act s a, x) := by
  have same : ∀ l, R.does x l x := by
    intro l
    match l with
    | none => exact rfl
    | some (o, n) => exact .inl rfl
  cases a with
  | call o c =>
    simp only [act]
    cases hd : gdispatch genv s o c with
    | none => exact h
    | some g => exact .step h (.call genv genv_tame o (by cases o <;> first | trivial | cases ha) c hd (same _))
  | collective p =>
    simp only [act]
    cases hd : serviceCollective genv s p with
    | none => exact h
    | some g => exact .step h (.collective genv p hd)
  | community p =>
    simp only [act]
    cases hd : serviceCommunity genv s p with
    | none => exact h
    | some g => exact .step h (.community genv p hd)
  | time n => exact .step h (.time n)
  | items l => exact .step h (.world _ rfl)

theorem racts {X : Type} {R : Rest X} {z : GSt × X} {s : GSt} {x : X} (h : RReach R z (s, x)) (l : List Act)
    (hl : l.all Act.outside = true) : RReach R z (l.foldl act s, x) := by
  induction l generalizing s with
  | nil => exact h
  | cons a l ih =>
    simp only [List.all_cons, Bool.and_eq_true] at hl
    exact ih (ract h a hl.1) hl.2

theorem rrun {X : Type} {R : Rest X} {z : GSt × X} {s : GSt} {x x' : X} (h : RReach R z (s, x)) {t : Task} {o : Origin}
    {n : Nat} (h1 : s.agenda = [] ++ t :: []) (h2 : t.when ≤ s.now) (h3 : inner s t.origin t.call = some (o, n))
    (hx : R.acts x o n x') : ∃ g, RStep R (some (o, n)) (s, x) (g, x') ∧ RReach R z (g, x') := by
  have st := RStep.run (R := R) (x := x) (x' := x') genv genv_tame [] [] t h1 h2 (by rw [h3]; exact .inr hx)
  have r := RReach.step h st
  rw [h3] at st
  exact ⟨_, st, r⟩

/-- Account `[9]`, the one member of the collective, has it decide to run call 3 as root, and the time has come. Example for
non-vacuity (outside /repo). -/
def decided : List Act :=
  settlement ++ [Act.collective 0, Act.time (15 * minutes), Act.collective 0, Act.time (15 * minutes)]

theorem decided_run {X : Type} {R : Rest X} {x x' : X} (hx : R.acts x .root 3 x') :
    ∃ s s' : GSt, RReach R (gstart, x) (s, x) ∧ RStep R (some (.root, 3)) (s, x) (s', x') ∧ RReach R (gstart, x) (s', x') := by
  obtain ⟨s, e⟩ : ∃ s, s = decided.foldl act gstart := ⟨_, rfl⟩
  have hs : RReach R (gstart, x) (s, x) := by rw [e]; exact racts .start _ (by decide)
  obtain ⟨t, h1, h2, h3, h4⟩ : ∃ t : Task, s.agenda = [] ++ t :: [] ∧ t.when ≤ s.now ∧
    t.origin = .root ∧ t.call = .other 3 := by rw [e]; exact ⟨_, rfl, by decide +kernel, rfl, rfl⟩
  obtain ⟨g, st, r⟩ := rrun hs (o := .root) (n := 3) h1 h2 (by rw [h3, h4]; rfl) hx
  exact ⟨s, g, hs, st, r⟩

end Demo

/-! ## C186 -/

/-- C186: whatever the other pallets are: if something is so now that was not so at the beginning, and only calls made as
root, or with origins of a certain kind, can make it so, then there is a step of the history in which it came to be so, and
in it a call was made with an origin of that kind; or as root, by the scheduler, when its time had come and the collective
had decided to run a call as root. -/
theorem C186_only_by_decision {X : Type} (R : Rest X) (P : X → Prop) (kind : Origin → Prop)
    (hacts : ∀ x o n x', R.acts x o n x' → ¬ P x → P x' → o = .root ∨ kind o)
    (hruns : ∀ x x', R.runs x x' → ¬ P x → ¬ P x')
    (z s : GSt × X) (hz : GGenesis z.1) (h0 : ¬ P z.2) (h : RReach R z s) (hp : P s.2) :
    ∃ s1 s2 o n, RReach R z s1 ∧ RStep R (some (o, n)) s1 s2 ∧ RReach R s2 s ∧ ¬ P s1.2 ∧ P s2.2 ∧
      R.acts s1.2 o n s2.2 ∧
      (kind o ∨ (o = .root ∧ RootDecided s1.1 ∧
        ∃ t ∈ s1.1.agenda, t.origin = .root ∧ t.when ≤ s1.1.now ∧ inner s1.1 .root t.call = some (.root, n))) := by
  induction h with
  | start => exact absurd hp h0
  | @step s s' l hr st ih =>
    by_cases hs : P s.2
    · obtain ⟨s1, s2, o, n, h1, h2, h3, h4⟩ := ih hs
      exact ⟨s1, s2, o, n, h1, h2, .step h3 st, h4⟩
    · rcases st.rest with e | ⟨o, n, rfl, ha⟩ | ⟨_, ha⟩
      · rw [e] at hp; exact absurd hp hs
      · refine ⟨s, s', o, n, hr, st, .start, hs, hp, ha, ?_⟩
        rcases hacts _ _ _ _ ha hs hp with rfl | hk
        · have ht := RStep.task rfl st
          obtain ⟨t, ht1, ht2, _⟩ := ht
          exact .inr ⟨rfl, root_decided hz hr.gov ht1 ht2, RStep.task rfl st⟩
        · exact .inl hk
      · exact absurd hp (hruns _ _ ha hs)

/-- C186: and a call that is made as (part of) a community is one whose time had come, and either the collective had decided
to run a call as root, or it is the call of an approved referendum of that community, or in the batch approved there, and made as
the whole community. -/
theorem C186_as_community {X : Type} (R : Rest X) (z s s' : GSt × X) (hz : GGenesis z.1) (h : RReach R z s)
    (o : CommunityOrigin UInt16 UInt32) (n : Nat) (st : RStep R (some (.community o, n)) s s') :
    ∃ t ∈ s.1.agenda, t.when ≤ s.1.now ∧ inner s.1 t.origin t.call = some (.community o, n) ∧
      ((∃ p r m, s.1.crefs p = some (.approved r m) ∧ r.origin = .root) ∨
       (o.subset = none ∧ ∃ p r m, s.1.refs p = some (.approved r m) ∧ r.track = o.community ∧ Part t.call r.call)) := by
  obtain ⟨t, ht, ho, hw, hi⟩ := RStep.community_task rfl st
  refine ⟨t, ht, hw, hi, ?_⟩
  by_cases hno : ∃ p r m, s.1.crefs p = some (.approved r m) ∧ r.origin = .root
  · exact .inl hno
  · rcases ho with ho | ho
    · exact .inl (C111_root z.1 hz s.1 h.gov t ht ho)
    · obtain ⟨h1, p, r, m, _, h2, h3, h4⟩ := C114_own_referendum z.1 hz s.1 h.gov hno t ht o ho
      exact .inr ⟨h1, p, r, m, h2, h3, h4⟩

/-- C186: the collective stands behind the decision: if no more than 65537 accounts vote on one referendum, some account
voted for it, and up to a voting weight of a billion nine tenths of the weight are in favour. -/
theorem C186_majority (z s : GSt) (hz : GGenesis z) (h : FReach z s) (hd : RootDecided s) :
    ∃ q r n s0, s.crefs q = some (.approved r n) ∧ r.origin = .root ∧ FReach z s0 ∧ s0.now = n ∧
      s0.crefs q = some (.ongoing r) ∧ (∃ who w, aget (s0.cvotes q) who = some (true, w) ∧ 1 ≤ w) ∧
      ((collectiveRecord s0 q).ayes + (collectiveRecord s0 q).nays ≤ 1000000000 →
        9 * (collectiveRecord s0 q).nays ≤ (collectiveRecord s0 q).ayes) := by
  obtain ⟨q, r, n, h1, h2, _⟩ := hd
  obtain ⟨s0, h3, h4, h5, h6, _, _, h7⟩ := C111_majority z hz s h q r n h1
  exact ⟨q, r, n, s0, h1, h2, h3, h4, h5, h6, fun hb => (h7 hb).1 (by rw [h2]; simp)⟩

/-- C186: on a chain whose collective has no member of rank 1 or more, nothing that is kept for root is ever done. -/
theorem C186_never_without_members {X : Type} (R : Rest X) (P : X → Prop)
    (hacts : ∀ x o n x', R.acts x o n x' → ¬ P x → P x' → o = .root)
    (hruns : ∀ x x', R.runs x x' → ¬ P x → ¬ P x')
    (z s : GSt × X) (hz : GGenesis z.1) (hm : ∀ a k, z.1.m.seats a = some k → k = 0) (h0 : ¬ P z.2) (h : RReach R z s) :
    ¬ P s.2 := by
  intro hp
  obtain ⟨s1, _, o, n, h1, _, _, _, _, _, h2 | ⟨_, _, t, ht, ho, _⟩⟩ :=
    C186_only_by_decision R P (fun _ => False) (fun x o n x' a b c => .inl (hacts x o n x' a b c)) hruns z s hz h0 h hp
  · exact h2
  · exact ((C112_no_members_fails z.1 hz hm s1.1 h1.gov).2.1 t ht).1 ho

/-- Non-vacuity of C186: a switch that root turns on, and the only member of the collective has it turned on. -/
example : ∃ (R : Rest Bool) (s : GSt × Bool), (∀ x o n x', R.acts x o n x' → x ≠ true → x' = true → o = .root ∨ False) ∧
    (∀ x x', R.runs x x' → x ≠ true → x' ≠ true) ∧ GGenesis Demo.gstart ∧ RReach R (Demo.gstart, false) s ∧ s.2 = true := by
  let R : Rest Bool := ⟨fun _ o _ x' => o = .root ∧ x' = true, fun x x' => x' = x⟩
  obtain ⟨_, s', _, _, h⟩ := Demo.decided_run (R := R) (x := false) (x' := true) ⟨rfl, rfl⟩
  exact ⟨R, (s', true), fun _ _ _ _ h _ _ => .inl h.1, fun _ _ h => by rw [h]; exact id, Demo.gstart_genesis, h, rfl⟩

end Verif.Governance
