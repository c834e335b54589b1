import Verif.Governance.AgreeTheorems

/-!
# C197: the collective rejects only what the majority it asks for is not behind
-/

namespace Verif.Governance

open Verif Verif.Accounts Verif.Communities

/-! ## Lemmas -/

/-- After the decision period the tracks of the collective ask for their floors only. -/
theorem collective_passes_last {o : Origin} {t : Nat} {i : TrackInfo} (ho : collectiveTrackFor o = some t)
    (hi : collectiveInfo t = some i) {e su ap : Nat} (he : i.decisionPeriod ≤ e)
    (h1 : o ≠ .custom .createMemberships → 900000000 ≤ ap)
    (h2 : o = .custom .createMemberships → 500000000 ≤ ap ∧ 500000000 ≤ su) : isPassing i e su ap = true := by
  have hd : 0 < i.decisionPeriod ∧ i.decisionPeriod ≤ 10 ^ 9 := by
    rw [C82_track_for] at ho
    rcases ho with ⟨rfl, rfl⟩ | ⟨rfl, rfl⟩ | ⟨rfl, rfl⟩ | ⟨rfl, rfl⟩ <;> cases hi <;> decide
  have hf : fromRational perbill (min e i.decisionPeriod) i.decisionPeriod = 1000000000 :=
    (fromRational_full hd.1 hd.2).2 (by omega)
  unfold isPassing Curve.passing
  simp only [hf, Bool.and_eq_true, decide_eq_true_eq]
  rw [C82_track_for] at ho
  have p0 : percent 100 = 1000000000 := rfl
  have p1 : percent 90 = 900000000 := rfl
  have p2 : percent 50 = 500000000 := rfl
  have p3 : percent 0 = 0 := rfl
  rcases ho with ⟨rfl, rfl⟩ | ⟨rfl, rfl⟩ | ⟨rfl, rfl⟩ | ⟨rfl, rfl⟩ <;> cases hi <;>
    simp only [collectiveTrack, threshold_full _ _ _ (le_refl 1000000000)] <;>
    simp only [p0, p1, p2, p3] <;> simp at h1 h2 <;> omega

/-- Half of something is half support. -/
theorem half_support {a b : Nat} (hb : b ≤ 10 ^ 9) (hh : b ≤ 2 * a) : 500000000 ≤ fromRational perbill a b := by
  rcases Nat.eq_zero_or_pos b with h0 | h0
  · subst h0
    unfold fromRational; simp [perbill]
  · rcases Nat.lt_or_ge a b with hlt | hge
    · rw [show fromRational perbill a b = a * 10 ^ 9 / b from fromRational_exact h0 (by omega) hb,
        Nat.le_div_iff_mul_le h0]
      omega
    · rw [(fromRational_full h0 hb).2 hge]; omega

/-- Where a referendum of the collective was rejected. -/
theorem crejected_at {g : GSt} (hg : GGenesis g) {s : GSt} (h : FReach g s) {p : Nat} {r : Ref Nat}
    (hp : s.crefs p = some (.rejected r)) :
    ∃ s0 i d, FReach g s0 ∧ GReach s0 s ∧ s0.crefs p = some (.ongoing r) ∧ r.deciding = some d ∧
      collectiveInfo r.track = some i ∧ d.since + i.decisionPeriod ≤ s0.now ∧
      isPassing i (s0.now - d.since) (csupport s0 (s0.ctally p)) (capproval (s0.ctally p)) = false := by
  induction h with
  | start => rw [hg.crefs p] at hp; cases hp
  | @step s s' hr st hf ih =>
    rcases (step_rejected st p).1 r hp with h1 | ⟨h1, i, d, a1, a2, a3, a4⟩
    · obtain ⟨s0, i, d, a, b, c⟩ := ih h1
      exact ⟨s0, i, d, a, .step b st, c⟩
    · exact ⟨s, i, d, hr, .step .start st, h1, a2, a1, a3, a4⟩

/-! ## C197 -/

/-- C197: a referendum of the collective is rejected only after four days of deciding, and only if at that moment there is no
vote for it on record, or those for it weigh less than nine times those against it (to create memberships: less than those
against it, or are of less than half of the members with a vote). -/
theorem C197_rejected (g : GSt) (hg : GGenesis g) (s : GSt) (h : FReach g s) (p : Nat) (r : Ref Nat)
    (hp : s.crefs p = some (.rejected r)) :
    ∃ s0 d, FReach g s0 ∧ GReach s0 s ∧ s0.crefs p = some (.ongoing r) ∧ r.deciding = some d ∧ d.since + 4 * days ≤ s0.now ∧
      ((collectiveRecord s0 p).ayes + (collectiveRecord s0 p).nays ≤ 10 ^ 9 → memberCount s0 1 ≤ 10 ^ 9 →
        (collectiveRecord s0 p).ayes = 0 ∨
        (r.origin ≠ .custom .createMemberships ∧ (collectiveRecord s0 p).ayes < 9 * (collectiveRecord s0 p).nays) ∨
        (r.origin = .custom .createMemberships ∧ ((collectiveRecord s0 p).ayes < (collectiveRecord s0 p).nays ∨
          2 * (collectiveRecord s0 p).bareAyes < memberCount s0 1))) := by
  obtain ⟨s0, i, d, h1, h2, h3, h4, h5, h6, h7⟩ := crejected_at hg h hp
  have ht := (reach_shape hg h1.reach).ctrack p _ h3
  obtain ⟨i', hi', _, hd, _⟩ := collectiveInfo_times ht
  have hi' : collectiveInfo r.track = some i' := hi'
  rw [h5] at hi'
  cases hi'
  refine ⟨s0, d, h1, h2, h3, h4, by omega, fun htot hmem => ?_⟩
  by_contra hcon
  push Not at hcon
  obtain ⟨c1, c2, c3⟩ := hcon
  rw [C110_tally g hg s0 h1 p] at h7
  have hap : capproval (collectiveRecord s0 p) =
      (collectiveRecord s0 p).ayes * 10 ^ 9 / ((collectiveRecord s0 p).ayes + (collectiveRecord s0 p).nays) :=
    C56_approval_exact_partial _ htot
  have hsu : memberCount s0 1 ≤ 2 * (collectiveRecord s0 p).bareAyes → 500000000 ≤ csupport s0 (collectiveRecord s0 p) :=
    half_support hmem
  have := collective_passes_last (e := s0.now - d.since) (su := csupport s0 (collectiveRecord s0 p))
    (ap := capproval (collectiveRecord s0 p)) ht h5 (by omega)
    (fun ho => by
      rw [hap, Nat.le_div_iff_mul_le (by omega)]
      have := c2 ho
      omega)
    (fun ho => by
      obtain ⟨d1, d2⟩ := c3 ho
      refine ⟨?_, hsu d2⟩
      rw [hap, Nat.le_div_iff_mul_le (by omega)]
      omega)
  rw [this] at h7; cases h7

/-- C197: and a referendum that is being decided, with four days of deciding behind it, its confirmation begun and over, and
nine tenths of the weight on record for it (to create memberships: half, of half of the members with a vote), is approved
when it is looked at. -/
theorem C197_approved (g : GSt) (hg : GGenesis g) (s : GSt) (h : FReach g s) (p : Nat) (r : Ref Nat) (d : Deciding) (t : Nat)
    (hp : s.crefs p = some (.ongoing r)) (hd : r.deciding = some d) (hl : d.since + 4 * days ≤ s.now)
    (hc : d.confirming = some t) (hct : t ≤ s.now)
    (htot : (collectiveRecord s p).ayes + (collectiveRecord s p).nays ≤ 10 ^ 9) (hmem : memberCount s 1 ≤ 10 ^ 9)
    (h0 : 0 < (collectiveRecord s p).ayes)
    (h1 : r.origin ≠ .custom .createMemberships → 9 * (collectiveRecord s p).nays ≤ (collectiveRecord s p).ayes)
    (h2 : r.origin = .custom .createMemberships → (collectiveRecord s p).nays ≤ (collectiveRecord s p).ayes ∧
      memberCount s 1 ≤ 2 * (collectiveRecord s p).bareAyes) (env : GEnv) :
    ∃ s', serviceCollective env s p = some s' ∧ s'.crefs p = some (.approved r s.now) := by
  have ht := (reach_shape hg h.reach).ctrack p _ hp
  obtain ⟨i, hi, _, hdp, _⟩ := collectiveInfo_times ht
  have hi : collectiveInfo r.track = some i := hi
  have hap : capproval (collectiveRecord s p) =
      (collectiveRecord s p).ayes * 10 ^ 9 / ((collectiveRecord s p).ayes + (collectiveRecord s p).nays) :=
    C56_approval_exact_partial _ htot
  have hsu : memberCount s 1 ≤ 2 * (collectiveRecord s p).bareAyes → 500000000 ≤ csupport s (collectiveRecord s p) :=
    half_support hmem
  have pass := collective_passes_last (e := s.now - d.since) (su := csupport s (s.ctally p))
    (ap := capproval (s.ctally p)) ht hi (by omega)
    (fun ho => by
      rw [C110_tally g hg s h p, hap, Nat.le_div_iff_mul_le (by omega)]
      have := h1 ho
      omega)
    (fun ho => by
      obtain ⟨d1, d2⟩ := h2 ho
      rw [C110_tally g hg s h p]
      refine ⟨?_, hsu d2⟩
      rw [hap, Nat.le_div_iff_mul_le (by omega)]
      omega)
  unfold serviceCollective
  rw [hp]
  dsimp only
  rw [hi]
  dsimp only
  have e4 : service i s.now (2 * days) (hasSlot s.crefs s.cnext r.track i)
      (fun e => isPassing i e (csupport s (s.ctally p)) (capproval (s.ctally p))) r = .approve := by
    unfold service
    rw [hd]
    dsimp only
    rw [if_pos pass, hc]
    dsimp only
    rw [if_pos hct]
  rw [e4]
  exact ⟨_, rfl, by simp [setCRef]⟩

namespace Demo

theorem aset_length {α β : Type} [DecidableEq α] (l : List (α × β)) (k : α) (v : β) :
    (aset l k v).length ≤ l.length + 1 := by
  unfold aset adel
  simp only [List.length_cons]
  exact Nat.succ_le_succ (List.length_filter_le _ l)

/-- In a few acts only a few vote. -/
theorem acts_freach {g s : GSt} {k : Nat} (h : FReach g s) (hk : ∀ p, (s.cvotes p).length ≤ k) (l : List Act)
    (hl : k + l.length ≤ 65537) (ho : l.all Act.outside = true) : FReach g (l.foldl act s) := by
  induction l generalizing s k with
  | nil => exact h
  | cons a l ih =>
    simp only [List.all_cons, Bool.and_eq_true] at ho
    simp only [List.length_cons] at hl
    have hk' : ∀ p, ((act s a).cvotes p).length ≤ k + 1 := by
      intro p
      rcases act_step s a ho.1 with e | st
      · rw [e]; have := hk p; omega
      · rcases cvotes_step st with e | ⟨w, q, b, rank, _, _, e, _⟩
        · rw [e]; have := hk p; omega
        · rw [e]
          dsimp only
          split
          · exact (aset_length _ _ _).trans (by have := hk q; omega)
          · have := hk p; omega
    refine ih (k := k + 1) ?_ hk' (by omega) ho.2
    rcases act_step s a ho.1 with e | st
    · rw [e]; exact h
    · exact h.step st fun p => by have := hk' p; omega

/-- Account `[9]` proposes a root call and votes against it. Example (outside /repo). -/
def dissent : List Act :=
  [.call (.signed [9]) (.csubmit .root (.promote [9]) (.after 0)), .call (.signed [9]) (.cdeposit 0),
   .call (.signed [9]) (.cvote 0 false), .time (15 * minutes), .collective 0, .time (4 * days), .collective 0]

/-- It votes for it, after four days in which nobody did. Example (outside /repo). -/
def lateVote : List Act :=
  [.call (.signed [9]) (.csubmit .root (.promote [9]) (.after 0)), .call (.signed [9]) (.cdeposit 0),
   .time (15 * minutes), .collective 0, .time (4 * days), .call (.signed [9]) (.cvote 0 true), .collective 0,
   .time (15 * minutes)]

end Demo

/-- A referendum that the only vote is against is rejected after four days. -/
example : ∃ r, FReach Demo.gstart (Demo.dissent.foldl Demo.act Demo.gstart) ∧
    (Demo.dissent.foldl Demo.act Demo.gstart).crefs 0 = some (.rejected r) :=
  ⟨_, Demo.acts_freach (k := 0) .start (fun _ => le_refl _) _ (by decide) (by decide), rfl⟩

/-- One that is voted for at the last moment is approved. -/
example : ∃ r d t, FReach Demo.gstart (Demo.lateVote.foldl Demo.act Demo.gstart) ∧
    (Demo.lateVote.foldl Demo.act Demo.gstart).crefs 0 = some (.ongoing r) ∧ r.deciding = some d ∧
    d.since + 4 * days ≤ (Demo.lateVote.foldl Demo.act Demo.gstart).now ∧ d.confirming = some t ∧
    t ≤ (Demo.lateVote.foldl Demo.act Demo.gstart).now ∧
    (collectiveRecord (Demo.lateVote.foldl Demo.act Demo.gstart) 0).ayes = 1 ∧
    (collectiveRecord (Demo.lateVote.foldl Demo.act Demo.gstart) 0).nays = 0 ∧
    memberCount (Demo.lateVote.foldl Demo.act Demo.gstart) 1 = 1 :=
  ⟨_, _, _, Demo.acts_freach (k := 0) .start (fun _ => le_refl _) _ (by decide) (by decide), rfl, rfl, by decide +kernel, rfl,
    by decide +kernel, rfl, rfl, rfl⟩

end Verif.Governance
