import Verif.Governance.PresentTheorems
import Verif.Governance.VoiceTheorems

/-!
# C195: a community does what more of its votes are for than against
-/

namespace Verif.Governance

open Verif Verif.Accounts Verif.Communities

/-! ## The specification -/

/-- How many of the votes on record in referendum `p` say yes (`true`) or no (`false`). Specification only, no code behind it
(outside /repo). -/
def voices (s : GSt) (p : Nat) (say : Bool) : Nat := ((s.m.comm.votes p).filter fun e => e.2.1.say == say).length

/-- How many memberships community `c` has. Specification only, no code behind it (outside /repo). -/
def memberships (s : GSt) (c : CId) : Nat := s.m.comm.world.items.countP fun i => i.group == c

/-- The community decides by one vote per membership before and after the step, and no more than `10^9` votes are on
record. Specification only, no code behind it (outside /repo). -/
def ByHead (c : CId) (p : Nat) (s s' : GSt) : Prop :=
  s.m.comm.method c = .membership ∧ s'.m.comm.method c = .membership ∧ (s'.m.comm.votes p).length ≤ 10 ^ 9

/-- The step does not change how much the votes on record count, and their sums fit a vote weight: no membership that voted
changes its rank while the community decides by rank, and it does not begin or stop deciding by rank.
Specification only, no code behind it (outside /repo). -/
def Steady (c : CId) (p : Nat) (s s' : GSt) : Prop :=
  (∀ e ∈ s.m.comm.votes p, power s'.m.comm c e.1 e.2.1 = power s.m.comm c e.1 e.2.1) ∧ Fits (onRecord s'.m.comm c p)

/-! ## Every step moves votes and polls as the communities pallet allows -/

theorem pollsMove_set {s : St} {q : PollIx} {x : Poll}
    (h : (s.world.polls q = none ∧ ∃ c, x = .ongoing .zero c) ∨ ((∃ t c, s.world.polls q = some (.ongoing t c)) ∧ x = .ended)) :
    PollsMove s.world (setPoll s q x).world := by
  intro p
  by_cases hp : p = q
  · subst hp
    have e : (setPoll s p x).world.polls p = some x := by simp [setPoll]
    rcases h with ⟨h, c, rfl⟩ | ⟨⟨t, c, h⟩, rfl⟩
    · rw [h]; exact .inr ⟨c, e⟩
    · rw [h]; exact .inr e
  · have e : (setPoll s q x).world.polls p = s.world.polls p := by simp [setPoll, hp]
    rw [e]
    rcases hq : s.world.polls p with _ | (_ | _) <;> simp

theorem gstep_voteMove {s s' : GSt} (hs : Shape s) (st : GStep s s') : VoteMove s.m.comm s'.m.comm := by
  have hsame : s'.m.comm = s.m.comm → VoteMove s.m.comm s'.m.comm := fun h =>
    .same (by rw [h]) (by rw [h]) (by rw [h]) (by rw [h]) (pollsMove_of_eq (by rw [h]))
  have hend : ∀ q r, s.refs q = some (.ongoing r) → s'.m.comm = setPoll s.m.comm q .ended →
      VoteMove s.m.comm s'.m.comm := by
    intro q r hr h
    have := hs.polls q
    rw [hr] at this
    obtain ⟨t, ht⟩ := this
    rw [h]
    exact .same rfl rfl rfl rfl (pollsMove_set (.inr ⟨⟨t, _, ht⟩, rfl⟩))
  have hleaf : ∀ (env : GEnv) (s1 : GSt) (o : Origin), Tame env → s1.m = s.m → s1.refs = s.refs → s1.next = s.next →
      Leaf env s1 o s' → VoteMove s.m.comm s'.m.comm := by
    intro env s1 o he e1 e2 e3 hl
    have e0 : s1.m.comm = s.m.comm := by rw [e1]
    cases hl with
    | comm o c' c'' h =>
      rw [e1] at h
      exact dispatch_voteMove (fun n o w w' hw => pollsMove_of_eq (he n o w w' hw)) h
    | mgr o c' m' h =>
      rw [e1] at h
      cases c' with
      | register c name a m t =>
        have hr := C65_success _ _ _ _ _ _ _ _ _ _ h
        obtain ⟨_, _, _, _, h1, h2, h3, h4, _, _, h5⟩ := hr.others
        exact .same h1 h2 h3 h4 (pollsMove_of_eq h5)
      | createMemberships n m p =>
        obtain ⟨_, _, _, _, _, _, h1, _⟩ := C64_mints_exactly _ _ _ _ _ _ _ _ h
        dsimp only
        rw [h1]
        exact .same rfl rfl rfl rfl (pollsMove_of_eq rfl)
    | submit o who origin call m t h =>
      have h0 := hs.polls s1.next
      rw [hs.born s1.next (by omega)] at h0
      have e : VoteMove s.m.comm (setPoll s.m.comm s1.next (.ongoing .zero t)) :=
        .same rfl rfl rfl rfl (pollsMove_set (.inl ⟨h0, t, rfl⟩))
      rw [← e1] at e
      rw [← e1]; exact e
    | close q r i h hi =>
      exact hend q r (by rw [← e2]; exact h) (by rw [← e1]; rfl)
    | _ => exact hsame e0
  cases st with
  | call env he o ho c hd =>
    obtain ⟨o', _, hl⟩ := gdispatch_leaf hd
    exact hleaf env s o' he rfl rfl rfl hl
  | run env he pre post u ha hw =>
    rcases run_cases (env := env) (s := { s with agenda := pre ++ post }) (o := u.origin) (c := u.call) with h2 | h2
    · exact hsame (by rw [h2])
    · obtain ⟨o', _, hl⟩ := gdispatch_leaf h2
      exact hleaf env { s with agenda := pre ++ post } o' he rfl rfl rfl hl
  | collective env q h => exact hsame (by rw [(serviceCollective_same h).1])
  | community env q h =>
    obtain ⟨r, i, t, d, hr, hp', hi, h⟩ := serviceCommunity_ok h
    rcases h with rfl | ⟨d, _, rfl⟩ | ⟨d, t, _, _, _, _, rfl⟩ | rfl | rfl
    · exact hsame rfl
    · exact hsame rfl
    · exact hend q r hr rfl
    · exact hend q r hr rfl
    · exact hend q r hr rfl
  | apart pre post rest t ha hr hw => exact hsame rfl
  | time n => exact hsame rfl
  | world w hw => exact .same rfl rfl rfl rfl (pollsMove_of_eq hw)

theorem reach_moved {g : GSt} (hg : GGenesis g) {s : GSt} (h : GReach g s) : VoteMoved s.m.comm := by
  induction h with
  | start => exact .start hg.comm
  | step hr st ih => exact ih.move (gstep_voteMove (reach_shape hg hr) st)

theorem steady_calm {c : CId} {p : Nat} {g : GSt} (hg : GGenesis g) {s : GSt} (h : ReachBy (Steady c p) g s) :
    CalmMoves c p s.m.comm := by
  induction h with
  | start => exact .start hg.comm
  | step hr st hc ih => exact ih.move (gstep_voteMove (reach_shape hg hr.reach) st) hc

/-- Where a referendum was approved, and by which tally. -/
theorem approved_at {P : GSt → GSt → Prop} {g : GSt} (hg : GGenesis g) {s : GSt} (h : ReachBy P g s) {p : Nat} {r : Ref CId}
    {n : Nat} (hp : s.refs p = some (.approved r n)) :
    ∃ s0 i t d, ReachBy P g s0 ∧ GReach s0 s ∧ s0.now = n ∧ s0.refs p = some (.ongoing r) ∧ r.deciding = some d ∧
      d.since ≤ n ∧ s0.m.tracks r.track = some i ∧ s0.m.comm.world.polls p = some (.ongoing t r.track) ∧
      isPassing i (n - d.since) (support s0.m.comm t r.track) (approval t) = true := by
  induction h with
  | start => rw [hg.refs p] at hp; cases hp
  | @step s s' hr st hP ih =>
    rcases ref_change (reach_shape hg hr.reach) st p with h1 | ⟨h1, t, origin, call, m, o, who, _, h2⟩ | ⟨r0, h1, hn⟩
    · rw [h1] at hp
      obtain ⟨s0, i, t, d, a, b, c⟩ := ih hp
      exact ⟨s0, i, t, d, a, .step b st, c⟩
    · rw [h2] at hp; cases hp
    · rcases hn with h2 | h2 | h2 | h2 | h2 | ⟨i', t', d', hi', _, hb, h2⟩ |
        ⟨env, i', t', d', u, hi', hpoll, h3, h4, h5, h6, h2⟩
      · rw [h2] at hp; cases hp
      · rw [h2] at hp; cases hp
      · rw [h2] at hp; cases hp
      · rw [h2] at hp; cases hp
      · rw [h2] at hp; cases hp
      · rw [h2] at hp; simp [setRef] at hp
      · have e : s'.refs p = some (.approved r0 s.now) := by rw [h2]; simp [setRef, endRef]
        rw [e] at hp
        injection hp with hp
        injection hp with e1 e2
        subst e1 e2
        have hd := reach_deposit hg hr.reach p r0 d' h1 h3
        exact ⟨s, i', t', d', hr, .step .start st, rfl, h1, h3, hd.2, hi', hpoll, h6⟩

/-! ## One vote per membership -/

/-- While a community decides by membership, the votes on record in its open referendum are all of one voice each. -/
theorem heads_standard {c : CId} {p : Nat} {g : GSt} (hg : GGenesis g) {s : GSt} (h : ReachBy (ByHead c p) g s) (t : Tally)
    (ht : s.m.comm.world.polls p = some (.ongoing t c)) : ∀ e ∈ s.m.comm.votes p, ∃ b, e.2.1 = .standard b := by
  induction h generalizing t with
  | start => rw [hg.comm.2.2.2.2.2.2 p] at ht; cases ht
  | @step s s' hr st hc ih =>
    have hm := reach_moved hg hr.reach
    have hd : ∀ {l : List (MId × (Vote × AccountId))} {m : MId}, (∀ e ∈ l, ∃ b, e.2.1 = .standard b) →
        ∀ e ∈ adel l m, ∃ b, e.2.1 = .standard b := fun h e he => h e (List.mem_of_mem_filter he)
    cases gstep_voteMove (reach_shape hg hr.reach) st with
    | same h1 h2 h3 h4 h5 =>
      rw [h1]
      have := h5 p
      rcases hq : s.m.comm.world.polls p with _ | (⟨t0, c0⟩ | _)
      · rw [(moved_unborn hm p hq).1]; intro e he; cases he
      · rw [hq] at this
        rcases this with h | h
        · rw [h] at ht; cases ht; exact ih _ hq
        · rw [h] at ht; cases ht
      · rw [hq] at this
        have this : s'.m.comm.world.polls p = some .ended := this
        rw [ht] at this; cases this
    | unlock env o q h =>
      obtain ⟨w, u, _, h1⟩ := unlock_unlocked h
      rw [h1.votes]
      rw [h1.polls] at ht
      exact ih t ht
    | remove env o m' q h =>
      obtain ⟨w, c', s1, _, _, ⟨t', u, voter, h4⟩, e⟩ := removeVote_parts h
      rw [e] at ht ⊢
      replace ht : s1.world.polls p = some (.ongoing t c) := ht
      show ∀ e ∈ s1.votes p, _
      rw [h4.polls p] at ht
      rw [h4.votes p]
      by_cases hq : p = q
      · subst hq
        rw [if_pos rfl] at ht ⊢
        cases ht
        exact hd (ih t' h4.poll)
      · rw [if_neg hq] at ht ⊢
        exact ih t ht
    | vote env o m' q v' h =>
      obtain ⟨w, c', s1, s2, _, _, h3, hv, h4, ⟨t', h5⟩, e⟩ := vote_parts h
      rw [e] at ht ⊢
      replace ht : s2.world.polls p = some (.ongoing t c) := ht
      show ∀ e ∈ s2.votes p, _
      have i1 : ∀ t c', c' = c → s1.world.polls p = some (.ongoing t c') → ∀ e ∈ s1.votes p, ∃ b, e.2.1 = .standard b := by
        rintro t c' rfl hp
        rcases h4 with ⟨_, rfl⟩ | ⟨t2, u, voter, h4⟩
        · exact ih t hp
        · rw [h4.polls p] at hp
          rw [h4.votes p]
          by_cases hq : p = q
          · subst hq
            rw [if_pos rfl] at hp ⊢
            cases hp
            exact hd (ih t2 h4.poll)
          · rw [if_neg hq] at hp ⊢
            exact ih t hp
      rw [h5.polls p] at ht
      rw [h5.votes p]
      by_cases hq : p = q
      · subst hq
        rw [if_pos rfl] at ht ⊢
        cases ht
        intro e he
        rcases mem_aset he with he | he
        · subst he
          rw [hc.1] at hv
          cases v' with
          | standard b => exact ⟨b, rfl⟩
          | native b n => simp [checkVote] at hv
          | asset b k n => simp [checkVote] at hv
        · exact i1 t' _ rfl h5.poll e he
      · rw [if_neg hq] at ht ⊢
        exact i1 t c rfl ht

/-- Then the sums are the numbers of voices. -/
theorem heads_sums {s : GSt} {c : CId} {p : Nat} (hm : s.m.comm.method c = .membership)
    (hs : ∀ e ∈ s.m.comm.votes p, ∃ b, e.2.1 = .standard b) :
    onRecord s.m.comm c p = ⟨voices s p true, voices s p false, voices s p true⟩ := by
  have hpow : ∀ (m : MId) (b : Bool), power s.m.comm c m (.standard b) = 1 := fun m b => by
    rw [weight_le_power_or _ _ _ _ (by rw [hm]; decide)]; rfl
  have key : ∀ (f : MId × (Vote × AccountId) → Nat) (say : Bool) (l : List (MId × (Vote × AccountId))),
      (∀ e ∈ l, ∃ b, e.2.1 = .standard b) → (∀ e b, e.2.1 = .standard b → f e = if b = say then 1 else 0) →
      asum f l = (l.filter fun e => e.2.1.say == say).length := by
    intro f say l hl hf
    induction l with
    | nil => rfl
    | cons e l ih =>
      obtain ⟨b, hb⟩ := hl e (by simp)
      rw [asum_cons, ih (fun x hx => hl x (by simp [hx])), hf e b hb, List.filter_cons, hb]
      cases b <;> cases say <;> simp [Vote.say] <;> omega
  unfold onRecord
  have e1 := key (fun e => if e.2.1.say then power s.m.comm c e.1 e.2.1 else 0) true _ hs (fun e b he => by
    simp only [he, hpow]; cases b <;> simp [Vote.say])
  have e2 := key (fun e => if e.2.1.say then 0 else power s.m.comm c e.1 e.2.1) false _ hs (fun e b he => by
    simp only [he, hpow]; cases b <;> simp [Vote.say])
  have e3 := key (fun e => if e.2.1.say then plainWeight e.2.1 else 0) true _ hs (fun e b he => by
    simp only [he]; cases b <;> simp [Vote.say, plainWeight])
  rw [e1, e2, e3]
  rfl

theorem voices_total (s : GSt) (p : Nat) : voices s p true + voices s p false = (s.m.comm.votes p).length := by
  unfold voices
  generalize s.m.comm.votes p = l
  induction l with
  | nil => rfl
  | cons e l ih =>
    simp only [List.filter_cons, List.length_cons]
    cases hb : e.2.1.say <;> simp only [beq_self_eq_true, if_true, List.length_cons] <;> simp <;> simp at ih <;> omega

/-- A poll that has not begun, or is open in community `c`, was so before. -/
theorem move_back {s s' : St} (h : VoteMove s s') {p : PollIx} {c : CId}
    (hp : s'.world.polls p = none ∨ ∃ t, s'.world.polls p = some (.ongoing t c)) :
    s.world.polls p = none ∨ ∃ t, s.world.polls p = some (.ongoing t c) := by
  have hk : KeepsPoll (s.world.polls p) (s'.world.polls p) →
      s.world.polls p = none ∨ ∃ t, s.world.polls p = some (.ongoing t c) := by
    intro h
    rcases hq : s.world.polls p with _ | (⟨t0, c0⟩ | _)
    · exact .inl rfl
    · rw [hq] at h
      obtain ⟨t, h⟩ := h
      rw [h] at hp
      rcases hp with hp | ⟨t', hp⟩ <;> cases hp
      exact .inr ⟨_, rfl⟩
    · rw [hq] at h
      have h : s'.world.polls p = some .ended := h
      rw [h] at hp
      rcases hp with hp | ⟨t', hp⟩ <;> cases hp
  cases h with
  | same h1 h2 h3 h4 h5 =>
    have := h5 p
    rcases hq : s.world.polls p with _ | (⟨t0, c0⟩ | _)
    · exact .inl rfl
    · rw [hq] at this
      rcases this with h | h
      · rw [h] at hp
        rcases hp with hp | ⟨t', hp⟩ <;> cases hp
        exact .inr ⟨_, rfl⟩
      · rw [h] at hp
        rcases hp with hp | ⟨t', hp⟩ <;> cases hp
    · rw [hq] at this
      have h : s'.world.polls p = some .ended := this
      rw [h] at hp
      rcases hp with hp | ⟨t', hp⟩ <;> cases hp
  | vote env o m q v h => exact hk (VoteStep.keeps (.vote (env := env) o m q v h) p)
  | remove env o m q h => exact hk (VoteStep.keeps (.remove (env := env) o m q h) p)
  | unlock env o q h =>
    obtain ⟨_, _, _, h1⟩ := unlock_unlocked h
    rw [h1.polls] at hp
    exact hp

theorem heads_calm {c : CId} {p : Nat} {g : GSt} (hg : GGenesis g) {s : GSt} (h : ReachBy (ByHead c p) g s)
    (hp : s.m.comm.world.polls p = none ∨ ∃ t, s.m.comm.world.polls p = some (.ongoing t c)) :
    CalmMoves c p s.m.comm := by
  induction h with
  | start => exact .start hg.comm
  | @step s s' hr st hc ih =>
    have hv := gstep_voteMove (reach_shape hg hr.reach) st
    have hr' : ReachBy (ByHead c p) g s' := .step hr st hc
    refine (ih (move_back hv hp)).move hv (calm_not_rank (by rw [hc.1]; decide) (by rw [hc.2.1]; decide) ?_)
    rcases hp with hp | ⟨t, hp⟩
    · unfold onRecord
      rw [(moved_unborn (reach_moved hg hr'.reach) p hp).1]; simp [Communities.Fits]
    · rw [heads_sums hc.2.1 (heads_standard hg hr' t hp)]
      have h1 := voices_total s' p
      have h2 := hc.2.2
      refine ⟨?_, ?_, ?_⟩ <;> dsimp only <;> omega

/-! ## C195 -/

/-- C195 (partial: in histories in which no standing vote changes its weight): a community's referendum is approved only
when the votes on record at that moment, weighed by its decision method, pass under the rules its track then has. -/
theorem C195_on_record_partial (g : GSt) (hg : GGenesis g) (s : GSt) (p : Nat) (r : Ref CId) (n : Nat)
    (h : ReachBy (Steady r.track p) g s) (hp : s.refs p = some (.approved r n)) :
    ∃ s0 i d, ReachBy (Steady r.track p) g s0 ∧ GReach s0 s ∧ s0.now = n ∧ s0.refs p = some (.ongoing r) ∧
      r.deciding = some d ∧ d.since ≤ n ∧ s0.m.tracks r.track = some i ∧
      isPassing i (n - d.since) (support s0.m.comm (onRecord s0.m.comm r.track p) r.track)
        (approval (onRecord s0.m.comm r.track p)) = true := by
  obtain ⟨s0, i, t, d, h1, h2, h3, h4, h5, h6, h7, h8, h9⟩ := approved_at hg h hp
  have e := calm_tally (steady_calm hg h1) t h8
  exact ⟨s0, i, d, h1, h2, h3, h4, h5, h6, h7, by rw [← e]; exact h9⟩

/-- C195 (partial, as above): if the community then still has the track it was registered with, the ayes on record weigh at
least as much as the nays, up to a rounding error of 8 when more than `10^9` was cast; and there are ayes. -/
theorem C195_weight_partial (g : GSt) (hg : GGenesis g) (s : GSt) (p : Nat) (r : Ref CId) (n : Nat)
    (h : ReachBy (Steady r.track p) g s) (hp : s.refs p = some (.approved r n)) :
    ∃ s0, ReachBy (Steady r.track p) g s0 ∧ GReach s0 s ∧ s0.now = n ∧ s0.refs p = some (.ongoing r) ∧
      ((∃ name, s0.m.tracks r.track = defaultTrack name) →
        0 < (onRecord s0.m.comm r.track p).ayes ∧
        ((onRecord s0.m.comm r.track p).ayes + (onRecord s0.m.comm r.track p).nays ≤ 10 ^ 9 →
          (onRecord s0.m.comm r.track p).nays ≤ (onRecord s0.m.comm r.track p).ayes) ∧
        ((onRecord s0.m.comm r.track p).ayes + (onRecord s0.m.comm r.track p).nays < 2 ^ 32 →
          (onRecord s0.m.comm r.track p).nays ≤ (onRecord s0.m.comm r.track p).ayes + 8)) := by
  obtain ⟨s0, i, d, h1, h2, h3, h4, h5, h6, h7, h8⟩ := C195_on_record_partial g hg s p r n h hp
  refine ⟨s0, h1, h2, h3, h4, fun ⟨name, hname⟩ => ?_⟩
  rw [h7] at hname
  refine ⟨?_, fun ht => C66_majority name i hname.symm _ _ _ ht h8, fun ht => C66_majority_large name i hname.symm _ _ _ ht h8⟩
  have h9 := h8
  unfold isPassing at h9
  simp only [Bool.and_eq_true] at h9
  have hx := fromRational_le perbill (min (n - d.since) i.decisionPeriod) i.decisionPeriod
  have ha := le_trans (C66_thresholds name i hname.symm _ hx).2.2.1 (of_decide_eq_true h9.2)
  rcases Nat.eq_zero_or_pos (onRecord s0.m.comm r.track p).ayes with h0 | h0
  · rw [(C56_no_ayes s0.m.comm _ r.track).1 h0] at ha
    omega
  · exact h0

/-- C195 (partial: of communities that decide by one vote per membership all along): if the community still has the track it
was registered with when its referendum is approved, then at that moment at least one vote on record is for it, at least as
many are for it as against it, and after `e` blocks of deciding the ayes are at least `(255 - e)/510` of its memberships. -/
theorem C195_majority_partial (g : GSt) (hg : GGenesis g) (s : GSt) (p : Nat) (r : Ref CId) (n : Nat)
    (h : ReachBy (ByHead r.track p) g s) (hp : s.refs p = some (.approved r n)) :
    ∃ s0 d, ReachBy (ByHead r.track p) g s0 ∧ GReach s0 s ∧ s0.now = n ∧ s0.refs p = some (.ongoing r) ∧
      r.deciding = some d ∧ d.since ≤ n ∧
      ((∃ name, s0.m.tracks r.track = defaultTrack name) →
        0 < voices s0 p true ∧ voices s0 p false ≤ voices s0 p true ∧
        (memberships s0 r.track ≤ 10 ^ 9 →
          (255 - (n - d.since)) * memberships s0 r.track ≤ 510 * voices s0 p true)) := by
  obtain ⟨s0, i, t, d, h1, h2, h3, h4, h5, h6, h7, h8, h9⟩ := approved_at hg h hp
  refine ⟨s0, d, h1, h2, h3, h4, h5, h6, fun ⟨name, hname⟩ => ?_⟩
  rw [h7] at hname
  have hm : s0.m.comm.method r.track = .membership ∧ (s0.m.comm.votes p).length ≤ 10 ^ 9 := by
    cases h1 with
    | start => rw [hg.refs p] at h4; cases h4
    | step _ _ hc => exact hc.2
  have e := calm_tally (heads_calm hg h1 (.inr ⟨t, h8⟩)) t h8
  rw [heads_sums hm.1 (heads_standard hg h1 t h8)] at e
  subst e
  have htot := voices_total s0 p
  have hmaj := C66_majority name i hname.symm _ _ _ (by dsimp only; omega) h9
  have hx := fromRational_le perbill (min (n - d.since) i.decisionPeriod) i.decisionPeriod
  have h10 := h9
  unfold isPassing at h10
  simp only [Bool.and_eq_true] at h10
  have ha := le_trans (C66_thresholds name i hname.symm _ hx).2.2.1 (of_decide_eq_true h10.2)
  refine ⟨?_, hmaj, fun hcap => ?_⟩
  · rcases Nat.eq_zero_or_pos (voices s0 p true) with h0 | h0
    · rw [(C56_no_ayes s0.m.comm _ r.track).1 (by exact h0)] at ha
      omega
    · exact h0
  · have hmax : maxSupport s0.m.comm r.track = memberships s0 r.track := (C56_maximum s0.m.comm r.track).1 hm.1
    by_cases he : n - d.since ≤ 255
    · rcases Nat.eq_zero_or_pos (memberships s0 r.track) with h0 | h0
      · rw [h0]; omega
      · have := C115_quorum_partial name i hname.symm s0.m.comm r.track _ _ he (by omega) (by omega) h9
        rw [hmax] at this
        exact this
    · rw [show 255 - (n - d.since) = 0 by omega]; omega

namespace Demo

/-- Three members of community 7 vote, two for and one against, and the proposal is approved. Example
(outside /repo). -/
def threeVotes : List Act :=
  [.call (.signed [1]) (.mgr (.register 7 (ascii "seven") (.id [1]) none none)),
   .items [⟨7, 3, [5], 0⟩, ⟨7, 4, [6], 0⟩, ⟨7, 5, [8], 0⟩],
   .call (.signed [5]) (.submit (.community ⟨7, none⟩) (.other 0) (.after 0)), .call (.signed [5]) (.deposit 0),
   .call (.signed [5]) (.comm (.vote 3 0 (.standard true))), .call (.signed [6]) (.comm (.vote 4 0 (.standard true))),
   .call (.signed [8]) (.comm (.vote 5 0 (.standard false))), .time 1, .community 0, .time 200, .community 0, .time 1,
   .community 0]

/-- Community 7 decides by rank. A member of rank 4 votes aye, is demoted twice and takes the vote back; a member of rank 1
votes nay. Example (outside /repo). -/
def ghostVotes : List Act :=
  [.call (.signed [1]) (.mgr (.register 7 (ascii "seven") (.id [1]) (some .rank) none)),
   .items [⟨7, 3, [5], 4⟩, ⟨7, 4, [6], 1⟩],
   .call (.signed [5]) (.submit (.community ⟨7, none⟩) (.other 0) (.after 0)), .call (.signed [5]) (.deposit 0),
   .call (.signed [5]) (.comm (.vote 3 0 (.standard true))), .call (.signed [1]) (.comm (.demote 3)),
   .call (.signed [1]) (.comm (.demote 3)), .call (.signed [5]) (.comm (.removeVote 3 0)),
   .call (.signed [6]) (.comm (.vote 4 0 (.standard false))), .time 1, .community 0, .time 255, .community 0, .time 1]

theorem act_step (s : GSt) (a : Act) (ha : a.outside = true) : act s a = s ∨ GStep s (act s a) := by
  cases a with
  | call o c =>
    rcases run_cases (env := genv) (s := s) (o := o) (c := c) with h2 | h2
    · exact .inl h2
    · refine .inr (.call genv genv_tame o ?_ c h2)
      cases o <;> first | (cases ha; done) | trivial
  | collective p =>
    show (serviceCollective genv s p).getD s = s ∨ GStep s ((serviceCollective genv s p).getD s)
    cases hs : serviceCollective genv s p with
    | none => exact .inl rfl
    | some s' => exact .inr (.collective genv p hs)
  | community p =>
    show (serviceCommunity genv s p).getD s = s ∨ GStep s ((serviceCommunity genv s p).getD s)
    cases hs : serviceCommunity genv s p with
    | none => exact .inl rfl
    | some s' => exact .inr (.community genv p hs)
  | time n => exact .inr (.time n)
  | items l => exact .inr (.world _ rfl)

/-- Acts of which every step satisfies a condition. -/
theorem acts_by {P : GSt → GSt → Prop} {g s : GSt} (h : ReachBy P g s) (l : List Act) (ho : l.all Act.outside = true)
    (hl : ∀ k, k < l.length → P ((l.take k).foldl act s) ((l.take (k + 1)).foldl act s)) : ReachBy P g (l.foldl act s) := by
  induction l generalizing s with
  | nil => exact h
  | cons a l ih =>
    simp only [List.all_cons, Bool.and_eq_true] at ho
    have h0 : P s (act s a) := hl 0 (by simp)
    have h1 : ReachBy P g (act s a) := by
      rcases act_step s a ho.1 with e | st
      · rw [e]; exact h
      · exact h.step st h0
    exact ih h1 ho.2 fun k hk => by simpa using hl (k + 1) (by simpa using hk)

end Demo

/-- Two for, one against, in a community of three that decides by membership all along. -/
example : ∃ r, ReachBy (ByHead 7 0) Demo.gstart (Demo.threeVotes.foldl Demo.act Demo.gstart) ∧
    (Demo.threeVotes.foldl Demo.act Demo.gstart).refs 0 = some (.approved r 203) ∧ r.track = 7 ∧
    voices (Demo.threeVotes.foldl Demo.act Demo.gstart) 0 true = 2 ∧
    voices (Demo.threeVotes.foldl Demo.act Demo.gstart) 0 false = 1 := by
  refine ⟨_, Demo.acts_by .start _ (by decide) fun k hk => ?_, rfl, rfl, by decide +kernel, by decide +kernel⟩
  have : k < 13 := hk
  unfold ByHead
  interval_cases k <;> decide +kernel

/-- Nor does any of their votes change its weight. -/
example : ReachBy (Steady 7 0) Demo.gstart (Demo.threeVotes.foldl Demo.act Demo.gstart) := by
  refine Demo.acts_by .start _ (by decide) fun k hk => ?_
  have : k < 13 := hk
  unfold Steady Communities.Fits
  interval_cases k <;> decide +kernel

/-- C195 is false of communities that decide by rank: the only vote on record is against the proposal, and it is approved. -/
theorem C195_ghost_votes_fails :
    ∃ g s s' : GSt, GGenesis g ∧ GReach g s ∧ GStep s s' ∧
      (∃ r n, s'.refs 0 = some (.approved r n) ∧ r.track = 7) ∧ s.m.tracks 7 = defaultTrack (ascii "seven") ∧
      voices s 0 true = 0 ∧ voices s 0 false = 1 := by
  have hs : GReach Demo.gstart (Demo.ghostVotes.foldl Demo.act Demo.gstart) := Demo.acts_reach .start _ (by decide)
  exact ⟨Demo.gstart, _, Demo.act (Demo.ghostVotes.foldl Demo.act Demo.gstart) (.community 0), Demo.gstart_genesis, hs,
    .community Demo.genv 0 rfl, ⟨_, _, rfl, rfl⟩, rfl, by decide +kernel, by decide +kernel⟩

end Verif.Governance
