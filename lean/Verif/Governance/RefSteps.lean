import Verif.Governance.ReferendaInv

/-!
# How referenda change from one step to the next
-/

namespace Verif.Governance

open Verif Verif.Accounts Verif.Communities

theorem GReach.trans {a b c : GSt} (h1 : GReach a b) (h2 : GReach b c) : GReach a c := by
  induction h2 with
  | start => exact h1
  | step _ st ih => exact .step ih st

theorem serviceCollective_same {env : GEnv} {s s' : GSt} {p : Nat} (h : serviceCollective env s p = some s') :
    s'.m = s.m ∧ s'.cvotes = s.cvotes ∧ s'.ctally = s.ctally ∧ s'.refs = s.refs ∧ s'.roll = s.roll := by
  obtain ⟨r, i, hr, hi, h⟩ := serviceCollective_ok h
  rcases h with rfl | ⟨d, _, rfl⟩ | ⟨d, t, _, _, _, _, rfl⟩ | rfl | rfl <;> exact ⟨rfl, rfl, rfl, rfl, rfl⟩

theorem serviceCommunity_same {env : GEnv} {s s' : GSt} {p : PollIx} (h : serviceCommunity env s p = some s') :
    s'.m.seats = s.m.seats ∧ s'.m.tracks = s.m.tracks ∧ s'.m.trackOf = s.m.trackOf ∧ s'.cvotes = s.cvotes ∧
      s'.ctally = s.ctally ∧ s'.crefs = s.crefs ∧ s'.roll = s.roll := by
  obtain ⟨r, i, t, c, hr, hp, hi, h⟩ := serviceCommunity_ok h
  rcases h with rfl | ⟨d, _, rfl⟩ | ⟨d, t, _, _, _, _, rfl⟩ | rfl | rfl <;> exact ⟨rfl, rfl, rfl, rfl, rfl, rfl, rfl⟩

/-- What a step makes of a referendum of the collective that is ongoing. -/
def CNext (s s' : GSt) (p : Nat) (r : Ref Nat) : Prop :=
  s'.crefs p = some (.ongoing { r with deposit := true }) ∨ s'.crefs p = some (.cancelled r) ∨
  s'.crefs p = some (.killed r) ∨ s'.crefs p = some (.rejected r) ∨ s'.crefs p = some (.timedOut r) ∨
  (∃ i d, collectiveInfo r.track = some i ∧ Begun i s.now (hasSlot s.crefs s.cnext r.track i)
      (fun e => isPassing i e (csupport s (s.ctally p)) (capproval (s.ctally p))) r d ∧
    s' = setCRef s p (.ongoing { r with deciding := some d })) ∨
  ∃ env i d t, collectiveInfo r.track = some i ∧ r.deciding = some d ∧ d.confirming = some t ∧ t ≤ s.now ∧
    isPassing i (s.now - d.since) (csupport s (s.ctally p)) (capproval (s.ctally p)) = true ∧
    s' = { setCRef s p (.approved r s.now) with agenda := enact env s (.collective p) i r.desired r.origin r.call }

theorem cref_change {s s' : GSt} (hs : Shape s) (st : GStep s s') (p : Nat) :
    s'.crefs p = s.crefs p ∨
    (s.crefs p = none ∧ ∃ t origin call m, collectiveTrackFor origin = some t ∧
      s'.crefs p = some (.ongoing ⟨t, origin, call, m, s.now, false, none⟩)) ∨
    ∃ r, s.crefs p = some (.ongoing r) ∧ CNext s s' p r := by
  have hleaf : ∀ (env : GEnv) (s1 : GSt) (o : Origin), s1.crefs = s.crefs → s1.cnext = s.cnext → s1.now = s.now →
      Leaf env s1 o s' → s'.crefs p = s.crefs p ∨
      (s.crefs p = none ∧ ∃ t origin call m, collectiveTrackFor origin = some t ∧
        s'.crefs p = some (.ongoing ⟨t, origin, call, m, s.now, false, none⟩)) ∨
      ∃ r, s.crefs p = some (.ongoing r) ∧ CNext s s' p r := by
    intro env s1 o e1 e2 e3 hl
    cases hl with
    | csubmit who origin call m t h =>
      by_cases hp : p = s1.cnext
      · right; left
        refine ⟨(hs.cborn p (by omega)).1, t, origin, call, m, h, ?_⟩
        show (if p = s1.cnext then _ else _) = _
        rw [if_pos hp, e3]
      · left
        show (if p = s1.cnext then _ else s1.crefs p) = _
        rw [if_neg hp, e1]
    | cref o q r i h hi =>
      by_cases hp : p = q
      · subst hp
        right; right
        refine ⟨r, by rw [← e1]; exact h, ?_⟩
        have : (setCRef s1 p i).crefs p = some i := by simp [setCRef]
        rcases hi with rfl | ⟨rfl, _⟩ | ⟨rfl, _⟩
        · exact .inl this
        · exact .inr (.inl this)
        · exact .inr (.inr (.inl this))
      · left
        show (if p = q then _ else s1.crefs p) = _
        rw [if_neg hp, e1]
    | _ => exact .inl (congrFun e1 p)
  cases st with
  | call env he o ho c hd =>
    obtain ⟨o', _, hl⟩ := gdispatch_leaf hd
    exact hleaf env s o' rfl rfl rfl hl
  | run env he pre post t ha hw =>
    rcases run_cases (env := env) (s := { s with agenda := pre ++ post }) (o := t.origin) (c := t.call) with h2 | h2
    · rw [h2]; exact .inl rfl
    · obtain ⟨o', _, hl⟩ := gdispatch_leaf h2
      exact hleaf env { s with agenda := pre ++ post } o' rfl rfl rfl hl
  | apart pre post rest t ha hr hw => exact .inl rfl
  | collective env q h =>
    obtain ⟨r, i, hr, hi, h⟩ := serviceCollective_ok h
    by_cases hp : p = q
    · subst hp
      have hself : ∀ x, (setCRef s p x).crefs p = some x := by simp [setCRef]
      rcases h with rfl | ⟨d, hb, rfl⟩ | ⟨d, t, h1, h2, h3, h4, rfl⟩ | rfl | rfl
      · exact .inl rfl
      · exact .inr (.inr ⟨r, hr, .inr (.inr (.inr (.inr (.inr (.inl ⟨i, d, hi, hb, rfl⟩)))))⟩)
      · exact .inr (.inr ⟨r, hr, .inr (.inr (.inr (.inr (.inr (.inr ⟨env, i, d, t, hi, h1, h2, h3, h4, rfl⟩)))))⟩)
      · exact .inr (.inr ⟨r, hr, .inr (.inr (.inr (.inl (hself _))))⟩)
      · exact .inr (.inr ⟨r, hr, .inr (.inr (.inr (.inr (.inl (hself _)))))⟩)
    · left
      rcases h with rfl | ⟨d, hb, rfl⟩ | ⟨d, t, h1, h2, h3, h4, rfl⟩ | rfl | rfl <;> simp [setCRef, hp]
  | community env q h => rw [(serviceCommunity_same h).2.2.2.2.2.1]; exact .inl rfl
  | time n => exact .inl rfl
  | world w hw => exact .inl rfl

/-- What a step makes of a community referendum that is ongoing, with tally `t`. -/
def RNext (s s' : GSt) (p : Nat) (r : Ref CId) : Prop :=
  s'.refs p = some (.ongoing { r with deposit := true }) ∨ s'.refs p = some (.cancelled r) ∨
  s'.refs p = some (.killed r) ∨ s'.refs p = some (.rejected r) ∨ s'.refs p = some (.timedOut r) ∨
  (∃ i t d, s.m.tracks r.track = some i ∧ s.m.comm.world.polls p = some (.ongoing t r.track) ∧
    Begun i s.now (hasSlot s.refs s.next r.track i)
      (fun e => isPassing i e (support s.m.comm t r.track) (approval t)) r d ∧
    s' = setRef s p (.ongoing { r with deciding := some d })) ∨
  ∃ env i t d u, s.m.tracks r.track = some i ∧ s.m.comm.world.polls p = some (.ongoing t r.track) ∧
    r.deciding = some d ∧ d.confirming = some u ∧ u ≤ s.now ∧
    isPassing i (s.now - d.since) (support s.m.comm t r.track) (approval t) = true ∧
    s' = { endRef s p (.approved r s.now) with agenda := enact env s (.community p) i r.desired r.origin r.call }

theorem ref_change {s s' : GSt} (hs : Shape s) (st : GStep s s') (p : Nat) :
    s'.refs p = s.refs p ∨
    (s.refs p = none ∧ ∃ t origin call m o who, communitySubmit s.m o origin = some (who, t) ∧
      s'.refs p = some (.ongoing ⟨t, origin, call, m, s.now, false, none⟩)) ∨
    ∃ r, s.refs p = some (.ongoing r) ∧ RNext s s' p r := by
  have hleaf : ∀ (env : GEnv) (s1 : GSt) (o : Origin), s1.refs = s.refs → s1.next = s.next → s1.now = s.now →
      s1.m = s.m → Leaf env s1 o s' → s'.refs p = s.refs p ∨
      (s.refs p = none ∧ ∃ t origin call m o who, communitySubmit s.m o origin = some (who, t) ∧
        s'.refs p = some (.ongoing ⟨t, origin, call, m, s.now, false, none⟩)) ∨
      ∃ r, s.refs p = some (.ongoing r) ∧ RNext s s' p r := by
    intro env s1 o e1 e2 e3 e4 hl
    cases hl with
    | submit o who origin call m t h =>
      by_cases hp : p = s1.next
      · right; left
        refine ⟨hs.born p (by omega), t, origin, call, m, o, who, by rw [← e4]; exact h, ?_⟩
        show (if p = s1.next then _ else _) = _
        rw [if_pos hp, e3]
      · left
        show (if p = s1.next then _ else s1.refs p) = _
        rw [if_neg hp, e1]
    | place o q r h =>
      by_cases hp : p = q
      · subst hp
        right; right
        exact ⟨r, by rw [← e1]; exact h, .inl (by simp [setRef])⟩
      · left
        show (if p = q then _ else s1.refs p) = _
        rw [if_neg hp, e1]
    | close q r i h hi =>
      by_cases hp : p = q
      · subst hp
        right; right
        refine ⟨r, by rw [← e1]; exact h, ?_⟩
        have : (endRef s1 p i).refs p = some i := by simp [endRef, setRef]
        rcases hi with rfl | rfl
        · exact .inr (.inl this)
        · exact .inr (.inr (.inl this))
      · left
        show (if p = q then _ else s1.refs p) = _
        rw [if_neg hp, e1]
    | _ => exact .inl (congrFun e1 p)
  cases st with
  | call env he o ho c hd =>
    obtain ⟨o', _, hl⟩ := gdispatch_leaf hd
    exact hleaf env s o' rfl rfl rfl rfl hl
  | run env he pre post t ha hw =>
    rcases run_cases (env := env) (s := { s with agenda := pre ++ post }) (o := t.origin) (c := t.call) with h2 | h2
    · rw [h2]; exact .inl rfl
    · obtain ⟨o', _, hl⟩ := gdispatch_leaf h2
      exact hleaf env { s with agenda := pre ++ post } o' rfl rfl rfl rfl hl
  | apart pre post rest t ha hr hw => exact .inl rfl
  | collective env q h => rw [(serviceCollective_same h).2.2.2.1]; exact .inl rfl
  | community env q h =>
    obtain ⟨r, i, t, c, hr, hp', hi, h⟩ := serviceCommunity_ok h
    have hc : c = r.track := by
      have := hs.polls q
      rw [hr] at this
      obtain ⟨t', ht'⟩ := this
      rw [hp'] at ht'
      cases ht'; rfl
    subst hc
    by_cases hp : p = q
    · subst hp
      have hself : ∀ x, (endRef s p x).refs p = some x := by simp [endRef, setRef]
      rcases h with rfl | ⟨d, hb, rfl⟩ | ⟨d, u, h1, h2, h3, h4, rfl⟩ | rfl | rfl
      · exact .inl rfl
      · exact .inr (.inr ⟨r, hr, .inr (.inr (.inr (.inr (.inr (.inl ⟨i, t, d, hi, hp', hb, rfl⟩)))))⟩)
      · exact .inr (.inr ⟨r, hr,
          .inr (.inr (.inr (.inr (.inr (.inr ⟨env, i, t, d, u, hi, hp', h1, h2, h3, h4, rfl⟩)))))⟩)
      · exact .inr (.inr ⟨r, hr, .inr (.inr (.inr (.inl (hself _))))⟩)
      · exact .inr (.inr ⟨r, hr, .inr (.inr (.inr (.inr (.inl (hself _)))))⟩)
    · left
      rcases h with rfl | ⟨d, hb, rfl⟩ | ⟨d, t, h1, h2, h3, h4, rfl⟩ | rfl | rfl <;> simp [setRef, endRef, hp]
  | time n => exact .inl rfl
  | world w hw => exact .inl rfl

theorem now_mono {s s' : GSt} (st : GStep s s') : s.now ≤ s'.now := by
  have hleaf : ∀ (env : GEnv) (s1 s' : GSt) (o : Origin), Leaf env s1 o s' → s'.now = s1.now := by
    intro env s1 s' o hl
    cases hl <;> rfl
  cases st with
  | call env he o ho c hd =>
    obtain ⟨o', _, hl⟩ := gdispatch_leaf hd
    rw [hleaf _ _ _ _ hl]
  | run env he pre post t ha hw =>
    rcases run_cases (env := env) (s := { s with agenda := pre ++ post }) (o := t.origin) (c := t.call) with h2 | h2
    · rw [h2]
    · obtain ⟨o', _, hl⟩ := gdispatch_leaf h2
      rw [hleaf _ _ _ _ hl]
  | apart pre post rest t ha hr hw => exact le_refl _
  | collective env q h =>
    obtain ⟨r, i, hr, hi, h⟩ := serviceCollective_ok h
    rcases h with rfl | ⟨d, hb, rfl⟩ | ⟨d, t, h1, h2, h3, h4, rfl⟩ | rfl | rfl <;> exact le_refl _
  | community env q h =>
    obtain ⟨r, i, t, c, hr, hp', hi, h⟩ := serviceCommunity_ok h
    rcases h with rfl | ⟨d, hb, rfl⟩ | ⟨d, t, h1, h2, h3, h4, rfl⟩ | rfl | rfl <;> exact le_refl _
  | time n => exact Nat.le_add_right _ _
  | world w hw => exact le_refl _

/-- A referendum of the collective that is over stays as it is. -/
theorem cref_final {s s' : GSt} (hs : Shape s) (st : GStep s s') {p : Nat} {x : RefInfo Nat} (h : s.crefs p = some x)
    (hx : ∀ r, x ≠ .ongoing r) : s'.crefs p = some x := by
  rcases cref_change hs st p with h1 | ⟨h1, _⟩ | ⟨r, h1, _⟩
  · rw [h1, h]
  · rw [h] at h1; cases h1
  · rw [h] at h1; cases h1; exact absurd rfl (hx r)

/-- So does one of a community. -/
theorem ref_final {s s' : GSt} (hs : Shape s) (st : GStep s s') {p : Nat} {x : RefInfo CId} (h : s.refs p = some x)
    (hx : ∀ r, x ≠ .ongoing r) : s'.refs p = some x := by
  rcases ref_change hs st p with h1 | ⟨h1, _⟩ | ⟨r, h1, _⟩
  · rw [h1, h]
  · rw [h] at h1; cases h1
  · rw [h] at h1; cases h1; exact absurd rfl (hx r)

/-- A referendum of the collective being decided has its deposit and was prepared, and is not confirmed before the
confirmation period is over. -/
def CTimely (s : GSt) : Prop :=
  ∀ p r d i, s.crefs p = some (.ongoing r) → r.deciding = some d → collectiveInfo r.track = some i →
    r.deposit = true ∧ r.submitted + i.preparePeriod ≤ d.since ∧ d.since ≤ s.now ∧
    ∀ t, d.confirming = some t → d.since + i.confirmPeriod ≤ t

theorem reach_ctimely {g : GSt} (hg : GGenesis g) {s : GSt} (h : GReach g s) : CTimely s := by
  induction h with
  | start => intro p r d i hp; rw [hg.crefs p] at hp; cases hp
  | @step s s' hr st ih =>
    have hshape := reach_shape hg hr
    have hnow := now_mono st
    intro p r d i hp hd hi
    rcases cref_change hshape st p with h1 | ⟨h1, t, origin, call, m, _, h2⟩ | ⟨r0, h1, hn⟩
    · rw [h1] at hp
      obtain ⟨a, b, c, e⟩ := ih p r d i hp hd hi
      exact ⟨a, b, by omega, e⟩
    · rw [h2] at hp; cases hp; cases hd
    · rcases hn with h2 | h2 | h2 | h2 | h2 | ⟨i', d', hi', hb, h2⟩ | ⟨env, i', d', t, hi', _, _, _, _, h2⟩
      · rw [h2] at hp; cases hp
        obtain ⟨a, b, c, e⟩ := ih p r0 d i h1 hd hi
        exact ⟨rfl, b, by omega, e⟩
      · rw [h2] at hp; cases hp
      · rw [h2] at hp; cases hp
      · rw [h2] at hp; cases hp
      · rw [h2] at hp; cases hp
      · subst h2
        have hself : (setCRef s p (.ongoing { r0 with deciding := some d' })).crefs p =
          some (.ongoing { r0 with deciding := some d' }) := by simp [setCRef]
        rw [hself] at hp; cases hp; cases hd
        have : i' = i := by rw [hi'] at hi; cases hi; rfl
        subst this
        show _ ∧ _ ∧ d.since ≤ s.now ∧ _
        rcases hb with ⟨_, b1, b2, _, b3, b4⟩ | ⟨d0, b1, b2, b3⟩
        · refine ⟨b1, by rw [b3]; exact b2, by omega, fun t ht => ?_⟩
          rw [b4] at ht
          split at ht
          · cases ht; omega
          · cases ht
        · obtain ⟨a, b, c, e⟩ := ih p r0 d0 i' h1 b1 hi'
          refine ⟨a, by rw [b2]; exact b, by omega, fun t ht => ?_⟩
          rcases b3 with ⟨_, _, b3⟩ | ⟨_, _, b3⟩
          · rw [b3] at ht; cases ht; omega
          · rw [b3] at ht; cases ht
      · subst h2
        have hself : (setCRef s p (.approved r0 s.now)).crefs p = some (.approved r0 s.now) := by simp [setCRef]
        have hp : (setCRef s p (.approved r0 s.now)).crefs p = some (.ongoing r) := hp
        rw [hself] at hp; cases hp

end Verif.Governance
