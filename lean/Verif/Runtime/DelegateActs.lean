import Verif.Runtime.DelegateTheorems

/-!
# C164, C165: who acts for whom, and what a delay is good for
-/

namespace Verif.Runtime.Delegates

set_option linter.unusedSectionVars false

variable {A T H : Type} [DecidableEq A] [DecidableEq T] [DecidableEq H]

/-- What all histories keep besides: no proxy twice, no announcement from the future. Specification only, no code behind it
(outside /repo). -/
structure Good (s : St A T H) : Prop where
  nodup : ∀ a, (s.proxies a).Nodup
  past : ∀ d, ∀ x ∈ s.pending d, x.height ≤ s.now

theorem insert_nodup (p : Def A T → Bool) (l : List (Def A T)) (d : Def A T) (hn : l.Nodup) (hd : d ∉ l) :
    (l.takeWhile p ++ d :: l.dropWhile p).Nodup := by
  have hp : (l.takeWhile p ++ d :: l.dropWhile p).Perm (d :: l) := by
    have := List.perm_middle (a := d) (l₁ := l.takeWhile p) (l₂ := l.dropWhile p)
    rwa [List.takeWhile_append_dropWhile] at this
  exact hp.nodup_iff.2 (List.nodup_cons.2 ⟨hd, hn⟩)

/-- How a step changes the proxies of an account. -/
theorem proxies_step {c : Cfg A T} {can : A → Nat → Bool} {s s' : St A T H} {op : Op A T H} (h : step c can s op = some s')
    (r : A) :
    (s'.proxies r = s.proxies r ∧ (∀ d, op ≠ .removeProxy r d) ∧ op ≠ .removeProxies r ∧ ∀ sp, op ≠ .killPure r sp) ∨
    (∃ d, op = .addProxy r d ∧ d ∉ s.proxies r ∧
      s'.proxies r = (s.proxies r).takeWhile (fun x => c.before x d) ++ d :: (s.proxies r).dropWhile (fun x => c.before x d)) ∨
    (∃ d, op = .removeProxy r d ∧ s'.proxies r = (s.proxies r).erase d) ∨
    (∃ w t n, op = .createPure w t n r ∧ s'.proxies r = [⟨w, t, n⟩]) ∨ s'.proxies r = [] := by
  have hedit : ∀ d keep, editAnnouncements c can s d keep = some s' → s'.proxies r = s.proxies r := by
    intro d keep h
    obtain ⟨_, rfl⟩ := edit_some h
    rfl
  cases op with
  | addProxy who d =>
    obtain ⟨_, h⟩ := Option.ite_none_right_eq_some.1 h
    unfold addProxy at h
    split at h
    · cases h
    · rename_i hc
      dsimp only at h
      split at h
      · cases h
      · cases h
        by_cases hr : r = who
        · subst hr
          refine .inr (.inl ⟨d, rfl, fun hm => hc (.inr (.inl hm)), ?_⟩)
          simp [put_at]
        · refine .inl ⟨by simp [put_at, hr], ?_, ?_, ?_⟩ <;> simp
  | removeProxy who d =>
    obtain ⟨_, h⟩ := Option.ite_none_right_eq_some.1 h
    unfold removeProxy at h
    split at h
    · dsimp only at h
      split at h
      · cases h
      · cases h
        by_cases hr : r = who
        · subst hr
          refine .inr (.inr (.inl ⟨d, rfl, ?_⟩))
          simp [put_at]
        · refine .inl ⟨by simp [put_at, hr], ?_, ?_, ?_⟩
          · intro d' h'
            cases h'
            exact hr rfl
          · simp
          · simp
    · cases h
  | removeProxies who =>
    obtain ⟨_, h⟩ := Option.ite_none_right_eq_some.1 h
    cases h
    by_cases hr : r = who
    · exact .inr (.inr (.inr (.inr (by simp [put_at, hr]))))
    · refine .inl ⟨by simp [put_at, hr], by simp, ?_, by simp⟩
      intro h'
      cases h'
      exact hr rfl
  | createPure who t delay p =>
    obtain ⟨_, h⟩ := Option.ite_none_right_eq_some.1 h
    split at h
    · cases h
    · cases h
      by_cases hr : r = p
      · subst hr
        exact .inr (.inr (.inr (.inl ⟨who, t, delay, rfl, by simp [put_at]⟩)))
      · exact .inl ⟨by simp [put_at, hr], by simp, by simp, by simp⟩
  | killPure who spawner =>
    obtain ⟨_, h⟩ := Option.ite_none_right_eq_some.1 h
    cases h
    by_cases hr : r = who
    · exact .inr (.inr (.inr (.inr (by simp [put_at, hr]))))
    · refine .inl ⟨by simp [put_at, hr], by simp, by simp, ?_⟩
      intro sp h'
      cases h'
      exact hr rfl
  | announce who real hh =>
    obtain ⟨_, h⟩ := Option.ite_none_right_eq_some.1 h
    split at h
    · cases h
    · cases h
      exact .inl ⟨rfl, by simp, by simp, by simp⟩
  | removeAnnouncement who real hh =>
    obtain ⟨_, h⟩ := Option.ite_none_right_eq_some.1 h
    exact .inl ⟨hedit _ _ h, by simp, by simp, by simp⟩
  | rejectAnnouncement who delegate hh =>
    obtain ⟨_, h⟩ := Option.ite_none_right_eq_some.1 h
    exact .inl ⟨hedit _ _ h, by simp, by simp, by simp⟩
  | proxy who real force hh =>
    obtain ⟨_, h⟩ := Option.ite_none_right_eq_some.1 h
    split at h
    · obtain ⟨_, h⟩ := Option.ite_none_right_eq_some.1 h
      cases h
      exact .inl ⟨rfl, by simp, by simp, by simp⟩
    · cases h
  | proxyAnnounced who delegate real force hh =>
    obtain ⟨_, h⟩ := Option.ite_none_right_eq_some.1 h
    split at h
    · exact .inl ⟨hedit _ _ h, by simp, by simp, by simp⟩
    · cases h
  | reserveOther a n =>
    obtain ⟨_, h⟩ := Option.ite_none_right_eq_some.1 h
    cases h
    exact .inl ⟨rfl, by simp, by simp, by simp⟩
  | unreserveOther a n =>
    obtain ⟨_, h⟩ := Option.ite_none_right_eq_some.1 h
    cases h
    exact .inl ⟨rfl, by simp, by simp, by simp⟩
  | next =>
    cases h
    exact .inl ⟨rfl, by simp, by simp, by simp⟩

/-- How a step changes the announcements of a delegate. -/
theorem pending_step {c : Cfg A T} {can : A → Nat → Bool} {s s' : St A T H} {op : Op A T H} (h : step c can s op = some s')
    (d : A) :
    (∃ real hh, op = .announce d real hh ∧ s'.pending d = s.pending d ++ [⟨real, hh, s.now⟩]) ∨
    ((∀ real hh, op ≠ .announce d real hh) ∧ ∃ keep : Ann A H → Bool, s'.pending d = (s.pending d).filter keep ∧
      (∀ real hh, op = .removeAnnouncement d real hh ∨ op = .rejectAnnouncement real d hh →
        ∀ x ∈ s.pending d, keep x = true → x.real ≠ real ∨ x.hash ≠ hh) ∧
      ∀ who real force hh, op = .proxyAnnounced who d real force hh →
        ∃ x ∈ s.pending d, keep x = false ∧ x.real = real ∧ x.hash = hh) := by
  have hsame : s'.pending d = s.pending d → s'.pending d = (s.pending d).filter fun _ => true := by
    intro h
    rw [h, List.filter_eq_self.2 (fun _ _ => rfl)]
  have hedit : ∀ w keep, editAnnouncements c can s w keep = some s' →
      (d = w ∧ s'.pending d = (s.pending d).filter keep ∧ ((s.pending d).filter keep).length < (s.pending d).length) ∨
      (d ≠ w ∧ s'.pending d = s.pending d) := by
    intro w keep h
    obtain ⟨hl, rfl⟩ := edit_some h
    by_cases hd : d = w
    · subst hd
      exact .inl ⟨rfl, by simp [put_at], hl⟩
    · exact .inr ⟨hd, by simp [put_at, hd]⟩
  have plain : s'.pending d = s.pending d → (∀ real hh, op ≠ .announce d real hh) →
      (∀ real hh, op ≠ .removeAnnouncement d real hh) → (∀ real hh, op ≠ .rejectAnnouncement real d hh) →
      (∀ who real force hh, op ≠ .proxyAnnounced who d real force hh) →
      (∀ real hh, op ≠ .announce d real hh) ∧ ∃ keep : Ann A H → Bool, s'.pending d = (s.pending d).filter keep ∧
      (∀ real hh, op = .removeAnnouncement d real hh ∨ op = .rejectAnnouncement real d hh →
        ∀ x ∈ s.pending d, keep x = true → x.real ≠ real ∨ x.hash ≠ hh) ∧
      ∀ who real force hh, op = .proxyAnnounced who d real force hh →
        ∃ x ∈ s.pending d, keep x = false ∧ x.real = real ∧ x.hash = hh := by
    intro h1 h2 h3 h4 h5
    refine ⟨h2, _, hsame h1, ?_, ?_⟩
    · rintro real hh (h | h)
      · exact absurd h (h3 real hh)
      · exact absurd h (h4 real hh)
    · intro who real force hh h
      exact absurd h (h5 who real force hh)
  cases op with
  | addProxy who x =>
    obtain ⟨_, h⟩ := Option.ite_none_right_eq_some.1 h
    unfold addProxy at h
    split at h
    · cases h
    · dsimp only at h
      split at h
      · cases h
      · cases h
        exact .inr (plain rfl (by simp) (by simp) (by simp) (by simp))
  | removeProxy who x =>
    obtain ⟨_, h⟩ := Option.ite_none_right_eq_some.1 h
    unfold removeProxy at h
    split at h
    · dsimp only at h
      split at h
      · cases h
      · cases h
        exact .inr (plain rfl (by simp) (by simp) (by simp) (by simp))
    · cases h
  | removeProxies who =>
    obtain ⟨_, h⟩ := Option.ite_none_right_eq_some.1 h
    cases h
    exact .inr (plain rfl (by simp) (by simp) (by simp) (by simp))
  | createPure who t delay p =>
    obtain ⟨_, h⟩ := Option.ite_none_right_eq_some.1 h
    split at h
    · cases h
    · cases h
      exact .inr (plain rfl (by simp) (by simp) (by simp) (by simp))
  | killPure who spawner =>
    obtain ⟨_, h⟩ := Option.ite_none_right_eq_some.1 h
    cases h
    exact .inr (plain rfl (by simp) (by simp) (by simp) (by simp))
  | announce who real hh =>
    obtain ⟨_, h⟩ := Option.ite_none_right_eq_some.1 h
    split at h
    · cases h
    · cases h
      by_cases hd : d = who
      · subst hd
        exact .inl ⟨real, hh, rfl, by simp [put_at]⟩
      · refine .inr (plain (by simp [put_at, hd]) ?_ (by simp) (by simp) (by simp))
        intro r x h'
        cases h'
        exact hd rfl
  | removeAnnouncement who real hh =>
    obtain ⟨_, h⟩ := Option.ite_none_right_eq_some.1 h
    rcases hedit _ _ h with ⟨rfl, h1, h2⟩ | ⟨hd, h1⟩
    · refine .inr ⟨by simp, _, h1, ?_, by simp⟩
      rintro r x (h' | h') y hy hk
      · cases h'
        simpa using hk
      · cases h'
    · refine .inr (plain h1 (by simp) ?_ (by simp) (by simp))
      intro r x h'
      cases h'
      exact hd rfl
  | rejectAnnouncement who delegate hh =>
    obtain ⟨_, h⟩ := Option.ite_none_right_eq_some.1 h
    rcases hedit _ _ h with ⟨rfl, h1, h2⟩ | ⟨hd, h1⟩
    · refine .inr ⟨by simp, _, h1, ?_, by simp⟩
      rintro r x (h' | h') y hy hk
      · cases h'
      · cases h'
        simpa using hk
    · refine .inr (plain h1 (by simp) (by simp) ?_ (by simp))
      intro r x h'
      cases h'
      exact hd rfl
  | proxy who real force hh =>
    obtain ⟨_, h⟩ := Option.ite_none_right_eq_some.1 h
    split at h
    · obtain ⟨_, h⟩ := Option.ite_none_right_eq_some.1 h
      cases h
      exact .inr (plain rfl (by simp) (by simp) (by simp) (by simp))
    · cases h
  | proxyAnnounced who delegate real force hh =>
    obtain ⟨_, h⟩ := Option.ite_none_right_eq_some.1 h
    split at h
    · rename_i def' hf
      rcases hedit _ _ h with ⟨rfl, h1, h2⟩ | ⟨hd, h1⟩
      · refine .inr ⟨by simp, _, h1, by simp, ?_⟩
        intro w r f x h'
        cases h'
        have hne : ¬ ∀ y ∈ s.pending d, (decide (y.real ≠ real) || decide (y.hash ≠ hh) ||
            decide (s.now - y.height < def'.delay)) = true := by
          intro hall
          rw [List.filter_eq_self.2 hall] at h2
          exact Nat.lt_irrefl _ h2
        push Not at hne
        obtain ⟨y, hy, hk⟩ := hne
        have hk' := Bool.eq_false_iff.2 hk
        refine ⟨y, hy, hk', ?_⟩
        simp only [Bool.or_eq_false_iff, decide_eq_false_iff_not, not_not] at hk'
        exact hk'.1
      · refine .inr (plain h1 (by simp) (by simp) (by simp) ?_)
        intro w r f x h'
        cases h'
        exact hd rfl
    · cases h
  | reserveOther a n =>
    obtain ⟨_, h⟩ := Option.ite_none_right_eq_some.1 h
    cases h
    exact .inr (plain rfl (by simp) (by simp) (by simp) (by simp))
  | unreserveOther a n =>
    obtain ⟨_, h⟩ := Option.ite_none_right_eq_some.1 h
    cases h
    exact .inr (plain rfl (by simp) (by simp) (by simp) (by simp))
  | next =>
    cases h
    exact .inr (plain rfl (by simp) (by simp) (by simp) (by simp))

theorem now_step {c : Cfg A T} {can : A → Nat → Bool} {s s' : St A T H} {op : Op A T H} (h : step c can s op = some s') :
    s.now ≤ s'.now := by
  have hedit : ∀ d keep, editAnnouncements c can s d keep = some s' → s.now ≤ s'.now := by
    intro d keep h
    obtain ⟨_, rfl⟩ := edit_some h
    exact Nat.le_refl _
  cases op with
  | addProxy who x =>
    obtain ⟨_, h⟩ := Option.ite_none_right_eq_some.1 h
    unfold addProxy at h
    split at h
    · cases h
    · dsimp only at h
      split at h <;> cases h
      exact Nat.le_refl _
  | removeProxy who x =>
    obtain ⟨_, h⟩ := Option.ite_none_right_eq_some.1 h
    unfold removeProxy at h
    split at h
    · dsimp only at h
      split at h <;> cases h
      exact Nat.le_refl _
    · cases h
  | removeProxies who =>
    obtain ⟨_, h⟩ := Option.ite_none_right_eq_some.1 h
    cases h
    exact Nat.le_refl _
  | createPure who t delay p =>
    obtain ⟨_, h⟩ := Option.ite_none_right_eq_some.1 h
    split at h <;> cases h
    exact Nat.le_refl _
  | killPure who spawner =>
    obtain ⟨_, h⟩ := Option.ite_none_right_eq_some.1 h
    cases h
    exact Nat.le_refl _
  | announce who real hh =>
    obtain ⟨_, h⟩ := Option.ite_none_right_eq_some.1 h
    split at h <;> cases h
    exact Nat.le_refl _
  | removeAnnouncement who real hh =>
    obtain ⟨_, h⟩ := Option.ite_none_right_eq_some.1 h
    exact hedit _ _ h
  | rejectAnnouncement who delegate hh =>
    obtain ⟨_, h⟩ := Option.ite_none_right_eq_some.1 h
    exact hedit _ _ h
  | proxy who real force hh =>
    obtain ⟨_, h⟩ := Option.ite_none_right_eq_some.1 h
    split at h
    · obtain ⟨_, h⟩ := Option.ite_none_right_eq_some.1 h
      cases h
      exact Nat.le_refl _
    · cases h
  | proxyAnnounced who delegate real force hh =>
    obtain ⟨_, h⟩ := Option.ite_none_right_eq_some.1 h
    split at h
    · exact hedit _ _ h
    · cases h
  | reserveOther a n =>
    obtain ⟨_, h⟩ := Option.ite_none_right_eq_some.1 h
    cases h
    exact Nat.le_refl _
  | unreserveOther a n =>
    obtain ⟨_, h⟩ := Option.ite_none_right_eq_some.1 h
    cases h
    exact Nat.le_refl _
  | next =>
    cases h
    exact Nat.le_succ _

theorem good_step {c : Cfg A T} {can : A → Nat → Bool} {s s' : St A T H} {op : Op A T H} (hi : Good s)
    (h : step c can s op = some s') : Good s' := by
  refine ⟨fun a => ?_, fun d x hx => ?_⟩
  · rcases proxies_step h a with ⟨h1, _⟩ | ⟨d, _, hd, h1⟩ | ⟨d, _, h1⟩ | ⟨w, t, n, _, h1⟩ | h1
    · rw [h1]
      exact hi.nodup a
    · rw [h1]
      exact insert_nodup _ _ _ (hi.nodup a) hd
    · rw [h1]
      exact (hi.nodup a).erase d
    · rw [h1]
      exact List.nodup_singleton _
    · rw [h1]
      exact List.nodup_nil
  · have hn := now_step h
    rcases pending_step h d with ⟨r, hh, _, h1⟩ | ⟨_, keep, h1, _⟩
    · rw [h1] at hx
      rcases List.mem_append.1 hx with hx | hx
      · exact Nat.le_trans (hi.past d x hx) hn
      · cases List.mem_singleton.1 hx
        exact hn
    · rw [h1] at hx
      exact Nat.le_trans (hi.past d x (List.mem_filter.1 hx).1) hn

theorem good_run {c : Cfg A T} {hist : List (Nat × Op A T H)} {s : St A T H} (h : Run c hist s) : Good s := by
  induction h with
  | start => exact ⟨fun _ => List.nodup_nil, fun _ _ hx => by cases hx⟩
  | step _ hs ih => exact good_step ih hs

/-! ## C164 -/

/-- **C164.** Somebody is a proxy of an account only if the account named them, in just this way, and has not taken it back
since; a pure account has been given to its spawner when it was made. -/
theorem C164_named {c : Cfg A T} {hist : List (Nat × Op A T H)} {s : St A T H} (h : Run c hist s) (r : A) (d : Def A T)
    (hd : d ∈ s.proxies r) :
    ∃ later n op earlier, hist = later ++ (n, op) :: earlier ∧
      (op = .addProxy r d ∨ op = .createPure d.delegate d.type d.delay r) ∧
      ∀ e ∈ later, e.2 ≠ .removeProxy r d ∧ e.2 ≠ .removeProxies r ∧ ∀ spawner, e.2 ≠ .killPure r spawner := by
  induction h with
  | start => cases hd
  | @step hist s s' can op hr hs ih =>
    have old : d ∈ s.proxies r → op ≠ .removeProxy r d → op ≠ .removeProxies r → (∀ sp, op ≠ .killPure r sp) →
        ∃ later n op' earlier, (s.now, op) :: hist = later ++ (n, op') :: earlier ∧
        (op' = .addProxy r d ∨ op' = .createPure d.delegate d.type d.delay r) ∧
        ∀ e ∈ later, e.2 ≠ .removeProxy r d ∧ e.2 ≠ .removeProxies r ∧ ∀ spawner, e.2 ≠ .killPure r spawner := by
      intro h0 h1 h2 h3
      obtain ⟨later, n, op', earlier, rfl, h4, h5⟩ := ih h0
      refine ⟨(s.now, op) :: later, n, op', earlier, rfl, h4, ?_⟩
      intro e he
      rcases List.mem_cons.1 he with rfl | he
      · exact ⟨h1, h2, h3⟩
      · exact h5 e he
    rcases proxies_step hs r with ⟨h1, h2, h3, h4⟩ | ⟨x, rfl, hx, h1⟩ | ⟨x, rfl, h1⟩ | ⟨w, t, n, rfl, h1⟩ | h1
    · rw [h1] at hd
      exact old hd (h2 d) h3 h4
    · rw [h1, insert_mem] at hd
      rcases hd with rfl | hd
      · exact ⟨[], s.now, _, hist, rfl, .inl rfl, nofun⟩
      · exact old hd (by simp) (by simp) (by simp)
    · rw [h1] at hd
      rw [((good_run hr).nodup r).mem_erase_iff] at hd
      refine old hd.2 ?_ (by simp) (by simp)
      intro h'
      cases h'
      exact hd.1 rfl
    · rw [h1] at hd
      cases List.mem_singleton.1 hd
      exact ⟨[], s.now, _, hist, rfl, .inr rfl, nofun⟩
    · rw [h1] at hd
      cases hd

theorem find_some {s : St A T H} {real delegate : A} {force : Option T} {d : Def A T}
    (h : findProxy s real delegate force = some d) :
    d ∈ s.proxies real ∧ d.delegate = delegate ∧ ∀ t, force = some t → d.type = t := by
  unfold findProxy at h
  refine ⟨List.mem_of_find?_eq_some h, ?_⟩
  have := List.find?_some h
  simp only [Bool.and_eq_true, decide_eq_true_eq] at this
  refine ⟨this.1, ?_⟩
  rintro t rfl
  simpa using this.2

theorem proxies_ok {c : Cfg A T} {can : A → Nat → Bool} {s s' : St A T H} {op : Op A T H} (h : step c can s op = some s')
    (r : A) (h0 : (s.proxies r).length ≤ maxProxies ∧ (s.proxies r).Nodup ∧ ∀ d ∈ s.proxies r, d.delegate ≠ r) :
    (s'.proxies r).length ≤ maxProxies ∧ (s'.proxies r).Nodup ∧ ∀ d ∈ s'.proxies r, d.delegate ≠ r := by
  rcases proxies_step h r with ⟨h1, _⟩ | ⟨d, rfl, _, h1⟩ | ⟨d, rfl, h1⟩ | ⟨w, t, n, rfl, h1⟩ | h1
  · rw [h1]; exact h0
  · obtain ⟨_, h⟩ := Option.ite_none_right_eq_some.1 h
    unfold addProxy at h
    split at h
    · cases h
    · rename_i hc
      push Not at hc
      have hperm : ((s.proxies r).takeWhile (fun x => c.before x d) ++ d :: (s.proxies r).dropWhile (fun x => c.before x d)).Perm
          (d :: s.proxies r) := by
        refine List.perm_middle.trans ?_
        rw [List.takeWhile_append_dropWhile]
      rw [h1, hperm.length_eq, hperm.nodup_iff, List.nodup_cons]
      refine ⟨by simp only [List.length_cons]; omega, ⟨hc.2.1, h0.2.1⟩, fun x hx => ?_⟩
      rcases List.mem_cons.1 (hperm.mem_iff.1 hx) with rfl | hx
      · exact fun h => hc.1 h.symm
      · exact h0.2.2 x hx
  · rw [h1]
    exact ⟨Nat.le_trans List.length_erase_le h0.1, h0.2.1.erase _, fun x hx => h0.2.2 x (List.mem_of_mem_erase hx)⟩
  · obtain ⟨⟨h2, h3, h4, _⟩, _⟩ := Option.ite_none_right_eq_some.1 h
    rw [h1]
    refine ⟨by simp [maxProxies], by simp, ?_⟩
    simp only [List.mem_singleton, forall_eq]
    rintro rfl
    simp [canSign, h3, h4] at h2
  · rw [h1]; exact ⟨by simp, by simp, by simp⟩

/-- **C164.** Nobody is a proxy of itself, none is named twice, and there are at most 32 for an account. -/
theorem C164_list {c : Cfg A T} {hist : List (Nat × Op A T H)} {s : St A T H} (h : Run c hist s) (r : A) :
    (s.proxies r).length ≤ 32 ∧ (s.proxies r).Nodup ∧ ∀ d ∈ s.proxies r, d.delegate ≠ r := by
  induction h with
  | start => exact ⟨by simp [empty], by simp [empty], by simp [empty]⟩
  | step _ hs ih => exact proxies_ok hs r ih

/-- **C164.** Only a delegate of the account announces calls for it, and at most 32 wait at a time. -/
theorem C164_announces {c : Cfg A T} {can : A → Nat → Bool} {s s' : St A T H} {who real : A} {hh : H}
    (hs : step c can s (.announce who real hh) = some s') :
    (∃ d ∈ s.proxies real, d.delegate = who) ∧ s'.pending who = s.pending who ++ [⟨real, hh, s.now⟩] ∧
      (s'.pending who).length ≤ 32 := by
  obtain ⟨⟨_, h1, h2⟩, h3⟩ := Option.ite_none_right_eq_some.1 hs
  split at h3
  · cases h3
  · cases h3
    simp only [maxPending] at h2
    refine ⟨h1, by simp [put_at], by simp [put_at]; omega⟩

/-- **C164.** Only proxies act for an account at once, of the type they asked for, and only those without a delay. -/
theorem C164_at_once {c : Cfg A T} {can : A → Nat → Bool} {s s' : St A T H} {who real : A} {force : Option T} {h : H}
    (hs : step c can s (.proxy who real force h) = some s') :
    ∃ d ∈ s.proxies real, d.delegate = who ∧ (∀ t, force = some t → d.type = t) ∧ d.delay = 0 := by
  obtain ⟨_, hs⟩ := Option.ite_none_right_eq_some.1 hs
  split at hs
  · rename_i d hd
    obtain ⟨h0, hs⟩ := Option.ite_none_right_eq_some.1 hs
    obtain ⟨h1, h2, h3⟩ := find_some hd
    exact ⟨d, h1, h2, h3, h0⟩
  · cases hs

theorem pending_run {c : Cfg A T} {hist : List (Nat × Op A T H)} {s : St A T H} (h : Run c hist s) (d : A) (x : Ann A H)
    (hx : x ∈ s.pending d) :
    ∃ later earlier, hist = later ++ (x.height, .announce d x.real x.hash) :: earlier ∧
      ∀ e ∈ later, e.2 ≠ .removeAnnouncement d x.real x.hash ∧ e.2 ≠ .rejectAnnouncement x.real d x.hash := by
  induction h with
  | start => cases hx
  | @step hist s s' can op hr hs ih =>
    have old : x ∈ s.pending d → op ≠ .removeAnnouncement d x.real x.hash → op ≠ .rejectAnnouncement x.real d x.hash →
        ∃ later earlier, (s.now, op) :: hist = later ++ (x.height, .announce d x.real x.hash) :: earlier ∧
        ∀ e ∈ later, e.2 ≠ .removeAnnouncement d x.real x.hash ∧ e.2 ≠ .rejectAnnouncement x.real d x.hash := by
      intro h0 h1 h2
      obtain ⟨later, earlier, rfl, h5⟩ := ih h0
      refine ⟨(s.now, op) :: later, earlier, rfl, ?_⟩
      intro e he
      rcases List.mem_cons.1 he with rfl | he
      · exact ⟨h1, h2⟩
      · exact h5 e he
    rcases pending_step hs d with ⟨r, hh, rfl, h1⟩ | ⟨_, keep, h1, h2, _⟩
    · rw [h1] at hx
      rcases List.mem_append.1 hx with hx | hx
      · exact old hx (by simp) (by simp)
      · cases List.mem_singleton.1 hx
        exact ⟨[], hist, rfl, nofun⟩
    · rw [h1, List.mem_filter] at hx
      refine old hx.1 ?_ ?_
      · intro h'
        rcases h2 _ _ (.inl h') x hx.1 hx.2 with h | h <;> exact h rfl
      · intro h'
        rcases h2 _ _ (.inr h') x hx.1 hx.2 with h | h <;> exact h rfl

/-- **C164.** A call announced by a delegate is made for an account only if the delegate is its proxy, announced just this call at
least the delay ago, and neither they took it back nor the account rejected it since. -/
theorem C164_announced {c : Cfg A T} {hist : List (Nat × Op A T H)} {s s' : St A T H} (h : Run c hist s)
    {can : A → Nat → Bool} {who delegate real : A} {force : Option T} {hh : H}
    (hs : step c can s (.proxyAnnounced who delegate real force hh) = some s') :
    ∃ d ∈ s.proxies real, d.delegate = delegate ∧ (∀ t, force = some t → d.type = t) ∧
      ∃ later n earlier, hist = later ++ (n, .announce delegate real hh) :: earlier ∧ n + d.delay ≤ s.now ∧
        ∀ e ∈ later, e.2 ≠ .removeAnnouncement delegate real hh ∧ e.2 ≠ .rejectAnnouncement real delegate hh := by
  obtain ⟨_, hs⟩ := Option.ite_none_right_eq_some.1 hs
  split at hs
  · rename_i d hd
    obtain ⟨h1, h2, h3⟩ := find_some hd
    refine ⟨d, h1, h2, h3, ?_⟩
    obtain ⟨hl, _⟩ := edit_some hs
    have hne : ¬ ∀ y ∈ s.pending delegate, (decide (y.real ≠ real) || decide (y.hash ≠ hh) ||
        decide (s.now - y.height < d.delay)) = true := by
      intro hall
      rw [List.filter_eq_self.2 hall] at hl
      exact Nat.lt_irrefl _ hl
    push Not at hne
    obtain ⟨y, hy, hk⟩ := hne
    have hk' := Bool.eq_false_iff.2 hk
    simp only [Bool.or_eq_false_iff, decide_eq_false_iff_not, not_not] at hk'
    obtain ⟨⟨rfl, rfl⟩, hk'⟩ := hk'
    obtain ⟨later, earlier, h4, h5⟩ := pending_run h delegate y hy
    refine ⟨later, y.height, earlier, h4, ?_, h5⟩
    have := (good_run h).past delegate y hy
    omega
  · cases hs

/-- Whether a call is the execution of an announced one. Specification only, no code behind it (outside /repo). -/
def executes (d r : A) (h : H) : Op A T H → Bool
  | .proxyAnnounced _ d' r' _ h' => decide (d' = d ∧ r' = r ∧ h' = h)
  | _ => false

/-- Whether a call announces it. Specification only, no code behind it (outside /repo). -/
def announces (d r : A) (h : H) : Op A T H → Bool
  | .announce d' r' h' => decide (d' = d ∧ r' = r ∧ h' = h)
  | _ => false

theorem once_run {c : Cfg A T} {hist : List (Nat × Op A T H)} {s : St A T H} (h : Run c hist s) (d r : A) (hh : H) :
    hist.countP (fun e => executes d r hh e.2) + (s.pending d).countP (fun x => decide (x.real = r ∧ x.hash = hh)) ≤
      hist.countP (fun e => announces d r hh e.2) := by
  induction h with
  | start => simp [empty]
  | @step hist s s' can op hr hs ih =>
    rw [List.countP_cons, List.countP_cons]
    rcases pending_step hs d with ⟨r', h', rfl, h1⟩ | ⟨h0, keep, h1, _, h3⟩
    · rw [h1, List.countP_append, List.countP_singleton]
      have e1 : executes d r hh (.announce d r' h' : Op A T H) = false := rfl
      have e2 : announces d r hh (.announce d r' h' : Op A T H) = decide (r' = r ∧ h' = hh) := by simp [announces]
      rw [e1, e2]
      simp only [Bool.false_eq_true, if_false]
      omega
    · rw [h1]
      have hann : announces d r hh op = false := by
        cases op with
        | announce d' r' h' =>
          by_cases hd : d' = d
          · subst hd
            exact absurd rfl (h0 r' h')
          · simp [announces, hd]
        | _ => rfl
      rw [hann]
      have hsub := (List.filter_sublist (p := keep) (l := s.pending d)).countP_le
        (p := fun x => decide (x.real = r ∧ x.hash = hh))
      cases hex : executes d r hh op with
      | false => simp only [Bool.false_eq_true, if_false]; omega
      | true =>
        cases op with
        | proxyAnnounced w d' r' f h' =>
          simp only [executes, decide_eq_true_eq] at hex
          obtain ⟨rfl, rfl, rfl⟩ := hex
          obtain ⟨x, hx, hk, hxr, hxh⟩ := h3 w r' f h' rfl
          have hsplit := List.countP_eq_countP_filter_add (s.pending d')
            (fun x => decide (x.real = r' ∧ x.hash = h')) keep
          have hpos : 0 < ((s.pending d').filter fun x => !keep x).countP (fun x => decide (x.real = r' ∧ x.hash = h')) := by
            rw [List.countP_pos_iff]
            exact ⟨x, List.mem_filter.2 ⟨hx, by simp [hk]⟩, by simp [hxr, hxh]⟩
          simp only [if_true, Bool.false_eq_true, if_false]
          omega
        | _ => cases hex

/-- **C164.** An announcement is good for one call at most. -/
theorem C164_once {c : Cfg A T} {hist : List (Nat × Op A T H)} {s : St A T H} (h : Run c hist s) (delegate real : A) (hh : H) :
    hist.countP (fun e => executes delegate real hh e.2) ≤ hist.countP (fun e => announces delegate real hh e.2) := by
  have := once_run h delegate real hh
  omega

/-- **C164.** The account can reject an announced call at any time, and then it cannot be made unless it is announced
again. -/
theorem C164_stop {c : Cfg A T} {hist : List (Nat × Op A T H)} {s : St A T H} (h : Run c hist s) (can : A → Nat → Bool)
    {delegate real : A} {x : Ann A H} (hx : x ∈ s.pending delegate) (hr : x.real = real) (hc : canSign c s real = true) :
    ∃ s', step c can s (.rejectAnnouncement real delegate x.hash) = some s' ∧
      ∀ can' who force, step c can' s' (.proxyAnnounced who delegate real force x.hash) = none := by
  subst hr
  have hl : ((s.pending delegate).filter fun a => decide (a.real ≠ x.real) || decide (a.hash ≠ x.hash)).length <
      (s.pending delegate).length := by
    refine lt_of_le_of_ne (List.length_filter_le _ _) fun he => ?_
    have := (List.length_filter_eq_length_iff.1 he) x hx
    simp at this
  have hm := annDeposit_mono (cents := c.cents) (Nat.le_of_lt hl)
  rw [← (held_run h).ann delegate] at hm
  simp only [step, hc, if_true, editAnnouncements, if_pos hl, adjust, if_neg (Nat.not_lt.2 hm)]
  refine ⟨_, rfl, fun can' who force => ?_⟩
  split
  · split
    · rw [if_neg]
      intro hlt
      refine Nat.lt_irrefl _ (lt_of_lt_of_le hlt (le_of_eq ?_))
      symm
      rw [List.length_filter_eq_length_iff]
      intro y hy
      simp only [put_at, if_true, List.mem_filter] at hy
      simp only [Bool.or_eq_true] at hy ⊢
      exact .inl hy.2
    · rfl
  · rfl

/-! ## C165 -/

/-- What comes after a state. Part of the transition system around the code (outside /repo). -/
inductive After (c : Cfg A T) (s0 : St A T H) : St A T H → Prop
  | here : After c s0 s0
  | step {s s' : St A T H} {can : A → Nat → Bool} {op : Op A T H} : After c s0 s → step c can s op = some s' → After c s0 s'

/-- **C165**, false of the pallet: an announcement also counts if it was made before the delegate was named with the delay, as a
proxy of another type. Then they act at once: here with the type 0 and a delay of 3 blocks in the block in which they were
named with it. -/
theorem C165_fails : ∃ (hist : List (Nat × Op Nat Nat Nat)) (s s1 s2 : St Nat Nat Nat), Run cfg1 hist s ∧
    (∀ d ∈ s.proxies 1, d.type ≠ 0) ∧ step cfg1 (fun _ _ => true) s (.addProxy 1 ⟨2, 0, 3⟩) = some s1 ∧
    step cfg1 (fun _ _ => true) s1 (.proxyAnnounced 2 2 1 (some 0) 7) = some s2 := by
  obtain ⟨hist, s, hr, h1, h2⟩ := found cfg1 [.addProxy 1 ⟨2, 1, 3⟩, .announce 2 1 7, .next, .next, .next]
    (fun s : St Nat Nat Nat => (∀ d ∈ s.proxies 1, d.type ≠ 0) ∧ ((step cfg1 (fun _ _ => true) s (.addProxy 1 ⟨2, 0, 3⟩)).bind
      fun s1 => step cfg1 (fun _ _ => true) s1 (.proxyAnnounced 2 2 1 (some 0) 7)).isSome = true) (by decide +kernel)
  obtain ⟨s2, h2⟩ := Option.isSome_iff_exists.1 h2
  obtain ⟨s1, h3, h4⟩ := Option.bind_eq_some_iff.1 h2
  exact ⟨hist, s, s1, s2, hr, h1, h3, h4⟩

/-- **C165**, what holds: if a delegate has announced nothing for the account yet, every announced call comes at least the
delay later. -/
theorem C165_partial {c : Cfg A T} {s0 s s' : St A T H} (h : After c s0 s) {can : A → Nat → Bool} {who delegate real : A}
    {force : Option T} {hh : H} (h0 : ∀ x ∈ s0.pending delegate, x.real ≠ real)
    (hs : step c can s (.proxyAnnounced who delegate real force hh) = some s') :
    ∃ d ∈ s.proxies real, d.delegate = delegate ∧ (∀ t, force = some t → d.type = t) ∧ (d.delay = 0 ∨ s0.now + d.delay ≤ s.now) := by
  have hinv : s0.now ≤ s.now ∧ ∀ x ∈ s.pending delegate, x.real = real → s0.now ≤ x.height := by
    clear hs
    induction h with
    | here => exact ⟨Nat.le_refl _, fun x hx hr => absurd hr (h0 x hx)⟩
    | @step s s' can op _ hs ih =>
      refine ⟨Nat.le_trans ih.1 (now_step hs), fun x hx hr => ?_⟩
      rcases pending_step hs delegate with ⟨r, k, _, h1⟩ | ⟨_, keep, h1, _⟩
      · rw [h1] at hx
        rcases List.mem_append.1 hx with hx | hx
        · exact ih.2 x hx hr
        · cases List.mem_singleton.1 hx
          exact ih.1
      · rw [h1, List.mem_filter] at hx
        exact ih.2 x hx.1 hr
  obtain ⟨_, hs⟩ := Option.ite_none_right_eq_some.1 hs
  split at hs
  · rename_i d hd
    obtain ⟨h1, h2, h3⟩ := find_some hd
    refine ⟨d, h1, h2, h3, ?_⟩
    obtain ⟨hl, _⟩ := edit_some hs
    have hne : ¬ ∀ y ∈ s.pending delegate, (decide (y.real ≠ real) || decide (y.hash ≠ hh) ||
        decide (s.now - y.height < d.delay)) = true := by
      intro hall
      rw [List.filter_eq_self.2 hall] at hl
      exact Nat.lt_irrefl _ hl
    push Not at hne
    obtain ⟨y, hy, hk⟩ := hne
    have hk' := Bool.eq_false_iff.2 hk
    simp only [Bool.or_eq_false_iff, decide_eq_false_iff_not, not_not] at hk'
    obtain ⟨⟨hr, _⟩, hk'⟩ := hk'
    have := hinv.2 y hy hr
    omega
  · cases hs

/-- Hypotheses of `C164_announced`, `C164_stop` and `C165_partial`: 2 was named with a delay of 3, announced a call, and can make
it three blocks later; before, and without an announcement, they cannot. -/
example : ∃ (hist : List (Nat × Op Nat Nat Nat)) (s : St Nat Nat Nat), Run cfg1 hist s ∧
    s.pending 2 = [⟨1, 7, 0⟩] ∧ canSign cfg1 s 1 = true ∧
    (step cfg1 (fun _ _ => true) s (.proxyAnnounced 3 2 1 none 7)).isSome = true ∧
    (step cfg1 (fun _ _ => true) s (.proxyAnnounced 3 2 1 none 8)).isSome = false ∧
    (step cfg1 (fun _ _ => true) s (.proxy 2 1 none 7)).isSome = false :=
  found cfg1 [.addProxy 1 ⟨2, 1, 3⟩, .announce 2 1 7, .next, .next, .next] _ (by decide +kernel)
example : ∃ (hist : List (Nat × Op Nat Nat Nat)) (s : St Nat Nat Nat), Run cfg1 hist s ∧
    s.pending 2 = [⟨1, 7, 0⟩] ∧ (step cfg1 (fun _ _ => true) s (.proxyAnnounced 3 2 1 none 7)).isSome = false :=
  found cfg1 [.addProxy 1 ⟨2, 1, 3⟩, .announce 2 1 7, .next, .next] _ (by decide +kernel)

end Verif.Runtime.Delegates
