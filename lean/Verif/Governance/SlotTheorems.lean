import Verif.Governance.EnactTheorems

/-!
# C127: how many referenda are decided at a time

Every track of the collective (collective/tracks.rs 18-105) and the track a community is registered with
(pallets/communities-manager/src/lib.rs 196-215) decide on one referendum at a time.
-/

namespace Verif.Governance

open Verif Verif.Accounts Verif.Communities

/-- A referendum is being decided on a track. Specification only, no code behind it (outside /repo). -/
def DecidedOn {τ : Type} (x : Option (RefInfo τ)) (t : τ) : Prop :=
  ∃ r d, x = some (.ongoing r) ∧ r.track = t ∧ r.deciding = some d

theorem isDeciding_iff {τ : Type} [DecidableEq τ] (t : τ) (x : Option (RefInfo τ)) :
    isDeciding t x = true ↔ DecidedOn x t := by
  constructor
  · intro h
    unfold isDeciding at h
    split at h
    · rename_i r
      simp only [Bool.and_eq_true, decide_eq_true_eq, Option.isSome_iff_exists] at h
      obtain ⟨h1, d, h2⟩ := h
      exact ⟨r, d, rfl, h1, h2⟩
    · cases h
  · rintro ⟨r, d, rfl, h1, h2⟩
    simp [isDeciding, h1, h2]

/-- Lists of different referenda being decided are no longer than the number the pallet counts. -/
theorem decided_length {τ : Type} [DecidableEq τ] {refs : Nat → Option (RefInfo τ)} {next : Nat}
    (hb : ∀ p, next ≤ p → refs p = none) {t : τ} {l : List Nat} (hl : l.Nodup) (hd : ∀ q ∈ l, DecidedOn (refs q) t) :
    l.length ≤ ((List.range next).filter fun q => isDeciding t (refs q)).length := by
  refine (List.Nodup.subperm hl fun q hq => ?_).length_le
  obtain ⟨r, d, h1, h2, h3⟩ := hd q hq
  refine List.mem_filter.2 ⟨List.mem_range.2 ?_, (isDeciding_iff _ _).2 ⟨r, d, h1, h2, h3⟩⟩
  by_contra hq
  rw [hb q (by omega)] at h1
  cases h1

theorem hasSlot_iff {τ : Type} [DecidableEq τ] {refs : Nat → Option (RefInfo τ)} {next : Nat}
    (hb : ∀ p, next ≤ p → refs p = none) {t : τ} {i : TrackInfo} :
    hasSlot refs next t i = true ↔
      ∀ l : List Nat, l.Nodup → (∀ q ∈ l, DecidedOn (refs q) t) → l.length < i.maxDeciding := by
  unfold hasSlot
  rw [decide_eq_true_eq]
  constructor
  · intro h l hl hd
    exact lt_of_le_of_lt (decided_length hb hl hd) h
  · intro h
    refine h _ (List.Nodup.filter _ List.nodup_range) fun q hq => ?_
    exact (isDeciding_iff _ _).1 (List.mem_filter.1 hq).2

theorem collectiveInfo_maxDeciding {o : Origin} {t : Nat} (h : collectiveTrackFor o = some t) :
    ∃ i, collectiveInfo t = some i ∧ i.maxDeciding = 1 := by
  rw [C82_track_for] at h
  rcases h with ⟨_, rfl⟩ | ⟨_, rfl⟩ | ⟨_, rfl⟩ | ⟨_, rfl⟩ <;> exact ⟨_, rfl, rfl⟩

/-- A referendum of the collective being decided after a step was so before, or has begun to be in a free slot. -/
theorem cdecided_step {s s' : GSt} (hs : Shape s) (st : GStep s s') {p t : Nat} (h : DecidedOn (s'.crefs p) t) :
    DecidedOn (s.crefs p) t ∨
      ((∀ q, ¬ DecidedOn (s.crefs q) t) ∧ ∀ q, q ≠ p → s'.crefs q = s.crefs q) := by
  obtain ⟨r, d, h1, h2, h3⟩ := h
  rcases cref_change hs st p with hp | ⟨_, _, _, _, _, _, hp⟩ | ⟨r0, h0, hn⟩
  · exact .inl ⟨r, d, hp ▸ h1, h2, h3⟩
  · rw [hp] at h1; cases h1; cases h3
  · rcases hn with hn | hn | hn | hn | hn | ⟨i, d', hi, hb, hn⟩ | ⟨env, i', d', u, hi', _, _, _, _, hn⟩
    · rw [hn] at h1; cases h1
      exact .inl ⟨r0, d, h0, h2, h3⟩
    · rw [hn] at h1; cases h1
    · rw [hn] at h1; cases h1
    · rw [hn] at h1; cases h1
    · rw [hn] at h1; cases h1
    · have hself : (setCRef s p (.ongoing { r0 with deciding := some d' })).crefs p =
          some (.ongoing { r0 with deciding := some d' }) := by simp [setCRef]
      rw [hn, hself] at h1
      cases h1
      have h2 : r0.track = t := h2
      rcases hb with ⟨_, _, _, hfree, _⟩ | ⟨d0, hd0, _⟩
      · right
        refine ⟨fun q hq => ?_, fun q hq => by rw [hn]; simp [setCRef, hq]⟩
        obtain ⟨i2, hi2, hm⟩ := collectiveInfo_maxDeciding (hs.ctrack p _ h0)
        have hi2 : collectiveInfo r0.track = some i2 := hi2
        rw [hi] at hi2; cases hi2
        have := (hasSlot_iff fun p hp => (hs.cborn p hp).1).1 hfree [q] (by simp)
          (by intro x hx; simp only [List.mem_singleton] at hx; subst hx; rw [h2]; exact hq)
        rw [hm] at this
        simp at this
      · exact .inl ⟨r0, d0, h0, h2, hd0⟩
    · have hself : (setCRef s p (.approved r0 s.now)).crefs p = some (.approved r0 s.now) := by simp [setCRef]
      rw [hn] at h1
      have h1 : (setCRef s p (.approved r0 s.now)).crefs p = some (.ongoing r) := h1
      rw [hself] at h1; cases h1

/-- C127: in every history, no two referenda of the collective are being decided on the same track. -/
theorem C127_collective_one (g : GSt) (hg : GGenesis g) (s : GSt) (hr : GReach g s) (p q t : Nat)
    (hp : DecidedOn (s.crefs p) t) (hq : DecidedOn (s.crefs q) t) : p = q := by
  induction hr with
  | start =>
    obtain ⟨r, d, h, _⟩ := hp
    rw [hg.crefs p] at h; cases h
  | @step s s' hr st ih =>
    have hs := reach_shape hg hr
    by_contra hne
    rcases cdecided_step hs st hp with h1 | ⟨h1, h1'⟩
    · rcases cdecided_step hs st hq with h2 | ⟨h2, _⟩
      · exact hne (ih h1 h2)
      · exact h2 p h1
    · rw [h1' q (Ne.symm hne)] at hq
      exact h1 q hq

/-- C127: when a community referendum begins to be decided, not more are being decided on its track than the track allows. -/
theorem C127_community_limit (g : GSt) (hg : GGenesis g) (s s' : GSt) (hr : GReach g s) (st : GStep s s') (p : Nat) (t : CId)
    (h0 : ¬ DecidedOn (s.refs p) t) (h : DecidedOn (s'.refs p) t) :
    ∃ i, s.m.tracks t = some i ∧
      ∀ l : List Nat, l.Nodup → (∀ q ∈ l, DecidedOn (s'.refs q) t) → l.length ≤ i.maxDeciding := by
  have hs := reach_shape hg hr
  obtain ⟨r, d, h1, h2, h3⟩ := h
  rcases ref_change hs st p with hp | ⟨_, _, _, _, _, _, _, _, hp⟩ | ⟨r0, hr0, hn⟩
  · exact absurd ⟨r, d, hp ▸ h1, h2, h3⟩ h0
  · rw [hp] at h1; cases h1; cases h3
  · rcases hn with hn | hn | hn | hn | hn | ⟨i, tl, d', hi, _, hb, hn⟩ | ⟨env, i', tl, d', u, hi', _, _, _, _, _, hn⟩
    · rw [hn] at h1; cases h1
      exact absurd ⟨r0, d, hr0, h2, h3⟩ h0
    · rw [hn] at h1; cases h1
    · rw [hn] at h1; cases h1
    · rw [hn] at h1; cases h1
    · rw [hn] at h1; cases h1
    · have hself : (setRef s p (.ongoing { r0 with deciding := some d' })).refs p =
          some (.ongoing { r0 with deciding := some d' }) := by simp [setRef]
      rw [hn, hself] at h1
      cases h1
      have h2 : r0.track = t := h2
      subst h2
      rcases hb with ⟨_, _, _, hfree, _⟩ | ⟨d0, hd0, _⟩
      · refine ⟨i, hi, fun l hl hd => ?_⟩
        have := (hasSlot_iff hs.born).1 hfree (l.erase p) (hl.erase p) (fun q hq => by
          have hqp : q ≠ p := by rintro rfl; exact (List.Nodup.not_mem_erase hl) hq
          have := hd q (List.mem_of_mem_erase hq)
          rw [hn] at this
          have e : (setRef s p (.ongoing { r0 with deciding := some d' })).refs q = s.refs q := by simp [setRef, hqp]
          rwa [e] at this)
        rw [List.length_erase] at this
        split at this <;> omega
      · exact absurd ⟨r0, d0, hr0, rfl, hd0⟩ h0
    · have hself : (endRef s p (.approved r0 s.now)).refs p = some (.approved r0 s.now) := by simp [endRef, setRef]
      rw [hn] at h1
      have h1 : (endRef s p (.approved r0 s.now)).refs p = some (.ongoing r) := h1
      rw [hself] at h1; cases h1

/-- C127: and a referendum of the collective that has its deposit and was prepared begins to be decided as soon as it is
serviced while no other is being decided on its track. -/
theorem C127_collective_begins (g : GSt) (hg : GGenesis g) (env : GEnv) (s : GSt) (hr : GReach g s) (p : Nat) (r : Ref Nat)
    (hp : s.crefs p = some (.ongoing r)) (hn : r.deciding = none) (hd : r.deposit = true)
    (hw : r.submitted + 15 * minutes ≤ s.now) (hf : ∀ q, ¬ DecidedOn (s.crefs q) r.track) :
    ∃ s', serviceCollective env s p = some s' ∧ DecidedOn (s'.crefs p) r.track := by
  have hs := reach_shape hg hr
  have hw' : ∃ i, collectiveInfo r.track = some i ∧ i.maxDeciding = 1 ∧ i.preparePeriod = 15 * minutes := by
    have h := hs.ctrack p _ hp
    rw [C82_track_for] at h
    have e : (RefInfo.ongoing r).ref = r := rfl
    rw [e] at h
    rcases h with ⟨_, h⟩ | ⟨_, h⟩ | ⟨_, h⟩ | ⟨_, h⟩ <;> rw [h] <;> exact ⟨_, rfl, rfl, rfl⟩
  obtain ⟨i, hi, hm, hpr⟩ := hw'
  have hfree : hasSlot s.crefs s.cnext r.track i = true := by
    rw [hasSlot_iff fun p hp => (hs.cborn p hp).1]
    intro l _ hl
    cases l with
    | nil => rw [hm]; simp
    | cons q l => exact absurd (hl q (by simp)) (hf q)
  have e : serviceCollective env s p = some (setCRef s p (.ongoing { r with deciding := some ⟨s.now,
      if isPassing i 0 (csupport s (s.ctally p)) (capproval (s.ctally p)) then some (s.now + i.confirmPeriod) else none⟩ })) := by
    rw [← hpr] at hw
    simp [serviceCollective, hp, hi, service, hn, hd, hw, hfree]
  exact ⟨_, e, _, _, if_pos rfl, rfl, rfl⟩

/-- C127: the same for a community referendum whose track allows one more. -/
theorem C127_community_begins (g : GSt) (hg : GGenesis g) (env : GEnv) (s : GSt) (hr : GReach g s) (p : Nat) (r : Ref CId)
    (i : TrackInfo) (hp : s.refs p = some (.ongoing r)) (hi : s.m.tracks r.track = some i) (hn : r.deciding = none)
    (hd : r.deposit = true) (hw : r.submitted + i.preparePeriod ≤ s.now)
    (hf : ∀ l : List Nat, l.Nodup → (∀ q ∈ l, DecidedOn (s.refs q) r.track) → l.length < i.maxDeciding) :
    ∃ s', serviceCommunity env s p = some s' ∧ DecidedOn (s'.refs p) r.track := by
  have hs := reach_shape hg hr
  have hpoll := hs.polls p
  rw [hp] at hpoll
  obtain ⟨t, ht⟩ := hpoll
  have hfree := (hasSlot_iff hs.born).2 hf
  have e : serviceCommunity env s p = some (setRef s p (.ongoing { r with deciding := some ⟨s.now,
      if isPassing i 0 (support s.m.comm t r.track) (approval t) then some (s.now + i.confirmPeriod) else none⟩ })) := by
    simp [serviceCommunity, hp, ht, hi, service, hn, hd, hw, hfree]
  exact ⟨_, e, _, _, if_pos rfl, rfl, rfl⟩

/-- C127: a community registered without a track of its own decides one referendum at a time, for which no deposit is
asked, the block after it was submitted at the earliest. -/
theorem C127_default (cfg : MConfig) (env : MEnv) (s s' : MSt) (o : Origin) (c : CId) (name : List UInt8)
    (firstAdmin : Address) (method : Option Method)
    (h : mdispatch cfg env s o (.register c name firstAdmin method none) = .ok s') :
    ∃ i, s'.tracks c = some i ∧ i.maxDeciding = 1 ∧ i.decisionDeposit = 0 ∧ i.preparePeriod = 1 ∧ i.decisionPeriod = 255 ∧
      i.confirmPeriod = 1 ∧ i.minEnactmentPeriod = 1 := by
  obtain ⟨_, ⟨i, hi, h1⟩, _⟩ := (C65_success _ _ _ _ _ _ _ _ _ _ h).track
  rcases h1 with h1 | ⟨_, h1⟩
  · cases h1
  · refine ⟨i, hi, ?_⟩
    unfold defaultTrack at h1
    split at h1
    · cases h1
    · cases h1
      exact ⟨rfl, rfl, rfl, rfl, rfl, rfl⟩

namespace Demo

/-- Two proposals on the track of root, with their deposits. -/
def rivals : List Act :=
  [.call (.signed [9]) (.csubmit .root (.other 0) (.after 0)), .call (.signed [9]) (.csubmit .root (.other 1) (.after 0)),
   .call (.signed [9]) (.cdeposit 0), .call (.signed [9]) (.cdeposit 1), .time (15 * minutes)]

/-- Two proposals of the member of community 7, with their deposits. -/
def neighbours : List Act :=
  [.call (.signed [1]) (.mgr (.register 7 (ascii "seven") (.id [1]) none none)), .items [⟨7, 3, [5], 0⟩],
   .call (.signed [5]) (.submit (.community ⟨7, none⟩) (.other 0) (.after 0)), .call (.signed [5]) (.deposit 0),
   .call (.signed [5]) (.submit (.community ⟨7, none⟩) (.other 1) (.after 0)), .call (.signed [5]) (.deposit 1),
   .time 1000000]

end Demo

/-- Two prepared proposals on the same track: the first serviced is decided, the second has to wait, and is decided once
the first is over. -/
example :
    let s := Demo.rivals.foldl Demo.act Demo.gstart
    let s1 := Demo.act s (.collective 0)
    let s2 := Demo.act s1 (.collective 1)
    let s3 := [Demo.Act.time (4 * days), .collective 0, .collective 1].foldl Demo.act s2
    GReach Demo.gstart s3 ∧ (∀ q, ¬ DecidedOn (s.crefs q) 0) ∧ DecidedOn (s1.crefs 0) 0 ∧ ¬ DecidedOn (s2.crefs 1) 0 ∧
      DecidedOn (s2.crefs 0) 0 ∧ ¬ DecidedOn (s3.crefs 0) 0 ∧ DecidedOn (s3.crefs 1) 0 := by
  refine ⟨Demo.acts_reach (Demo.act_reach (Demo.act_reach (Demo.acts_reach .start _ (by decide)) _ rfl) _ rfl) _ (by decide),
    fun q => ?_, ?_, ?_, ?_, ?_, ?_⟩
  · rintro ⟨r, d, h1, _, h3⟩
    have h1 : (if q = 1 then _ else if q = 0 then _ else if q = 1 then _ else if q = 0 then _ else none) =
      some (RefInfo.ongoing r) := h1
    split at h1
    · cases h1; cases h3
    · split at h1
      · cases h1; cases h3
      · cases h1
  · rw [← isDeciding_iff]; decide +kernel
  · rw [← isDeciding_iff]; decide +kernel
  · rw [← isDeciding_iff]; decide +kernel
  · rw [← isDeciding_iff]; decide +kernel
  · rw [← isDeciding_iff]; decide +kernel

/-- The same in a community. -/
example :
    let s := Demo.neighbours.foldl Demo.act Demo.gstart
    let s1 := Demo.act s (.community 0)
    let s2 := Demo.act s1 (.community 1)
    GReach Demo.gstart s2 ∧ ¬ DecidedOn (s.refs 0) 7 ∧ DecidedOn (s1.refs 0) 7 ∧ DecidedOn (s2.refs 0) 7 ∧
      ¬ DecidedOn (s2.refs 1) 7 ∧ (s.m.tracks 7).map (·.maxDeciding) = some 1 := by
  refine ⟨Demo.act_reach (Demo.act_reach (Demo.acts_reach .start _ (by decide)) _ rfl) _ rfl, ?_, ?_, ?_, ?_, ?_⟩
  · rw [← isDeciding_iff]; decide +kernel
  · rw [← isDeciding_iff]; decide +kernel
  · rw [← isDeciding_iff]; decide +kernel
  · rw [← isDeciding_iff]; decide +kernel
  · decide +kernel

end Verif.Governance
