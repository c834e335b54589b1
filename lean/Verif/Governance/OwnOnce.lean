import Verif.Communities.OwnLocks
import Verif.Governance.OnceTheorems

/-!
# C198 for one account, whatever the others do
-/

namespace Verif.Governance

open Verif Verif.Accounts Verif.Communities

/-- The account has no less after the step, or still has what was frozen for its votes before it. Specification only, no code
behind it (outside /repo). -/
def PoliteTo (a : AccountId) (s s' : Communities.St) : Prop :=
  (s'.world.native a < s.world.native a → s.frozenN a ≤ s'.world.native a) ∧
  ∀ k, s'.world.asset k a < s.world.asset k a → s.frozenA k a ≤ s'.world.asset k a

/-- Histories of the communities pallet in which what is frozen of account `a` is not taken; anything can happen to the others,
and everybody votes as they like. Specification only, no code behind it (outside /repo). -/
inductive SparedHistory (cfg : Config) (a : AccountId) : Communities.St → Prop
  | start {s : Communities.St} (h : Genesis s) : SparedHistory cfg a s
  | step {s s' : Communities.St} (h : SparedHistory cfg a s) (st : Step cfg s s') (hp : PoliteTo a s s') :
    SparedHistory cfg a s'

theorem SparedHistory.reachable {cfg : Config} {a : AccountId} {s : Communities.St} (h : SparedHistory cfg a s) :
    Reachable cfg s := by
  induction h with
  | start h => exact ⟨_, h, .refl _⟩
  | step _ st _ ih => exact ih.step st

/-- Where nothing frozen is taken from anybody, nothing frozen is taken from the account. -/
theorem OnceHistory.spared {cfg : Config} {s : Communities.St} (h : OnceHistory cfg s) (a : AccountId) :
    SparedHistory cfg a s := by
  induction h with
  | start h => exact .start h
  | step _ st _ hp ih => exact ih.step st ⟨hp.1 a, fun k => hp.2 k a⟩

/-- C198: what is frozen of an account for its votes is money the account has, however often it votes and whatever others do, as
long as nobody takes what is frozen. -/
theorem C198_frozen_is_there (cfg : Config) (s : Communities.St) (a : AccountId) (h : SparedHistory cfg a s) :
    s.frozenN a ≤ s.world.native a ∧ ∀ k, s.frozenA k a ≤ s.world.asset k a := by
  induction h with
  | start hg => rw [hg.2.2.2.2.1 a]; exact ⟨by omega, fun k => by rw [hg.2.2.2.2.2.1 k a]; omega⟩
  | @step s s' h0 st hp ih =>
    obtain ⟨h1, h2⟩ := step_frozen h0.reachable st a
    refine ⟨?_, fun k => ?_⟩
    · have := hp.1; have := ih.1; omega
    · have := hp.2 k; have := ih.2 k; have := h2 k; omega

/-- C198 (partial: for an account that never has two votes on record in a poll, whatever others do): each of its votes on record
in an open poll is of money it still has, and so is the sum of all its votes on record in that poll. -/
theorem C198_own_partial (cfg : Config) (s : Communities.St) (a : AccountId) (h : OwnHistory cfg a s)
    (hsp : SparedHistory cfg a s) (p : PollIx) (t : Tally) (c : CId) (hp : s.world.polls p = some (.ongoing t c)) (m : MId)
    (v : Vote) (hv : aget (s.votes p) m = some (v, a)) :
    (lockedNative v ≤ s.world.native a ∧ ∀ k, lockedAsset k v ≤ s.world.asset k a) ∧
      ∀ m' v', aget (s.votes p) m' = some (v', a) → m' = m ∧ v' = v := by
  refine ⟨?_, fun m' v' h' => ?_⟩
  · by_cases hb : ∃ b, v = .standard b
    · obtain ⟨b, rfl⟩ := hb
      exact ⟨Nat.zero_le _, fun _ => Nat.zero_le _⟩
    · obtain ⟨_, h1, h2⟩ := C53_own_votes_partial cfg s a h p t c m v hp hv fun b e => hb ⟨b, e⟩
      obtain ⟨g1, g2⟩ := C198_frozen_is_there cfg s a hsp
      exact ⟨h1.trans g1, fun k => (h2 k).trans (g2 k)⟩
  · have e := h.one p m' m v' v h' hv
    subst e
    rw [hv] at h'
    cases h'
    exact ⟨rfl, rfl⟩

/-- Example: alice votes with both of their memberships, bob with the only one; bob's history is one of the above. -/
example : ∃ s, OwnHistory kreivo Demo.bob s ∧ SparedHistory kreivo Demo.bob s ∧
    (∃ t, s.world.polls 0 = some (.ongoing t 1)) ∧ aget (s.votes 0) 3 = some (.native true 60, Demo.bob) ∧
    ¬ OneVoteEach Demo.alice s := by
  have noVotes : ∀ s : Communities.St, s.votes = (fun _ => []) → OneVoteEach Demo.bob s := by
    intro s hs p m m' v v' h; rw [hs] at h; cases h
  have pol : ∀ s s' : Communities.St, s'.world.native Demo.bob = s.world.native Demo.bob →
      (∀ k, s'.world.asset k Demo.bob = s.world.asset k Demo.bob) → PoliteTo Demo.bob s s' :=
    fun s s' h1 h2 => ⟨fun h => by omega, fun k h => by have := h2 k; omega⟩
  let P := fun s => OwnHistory kreivo Demo.bob s ∧ SparedHistory kreivo Demo.bob s
  have go : ∀ s s' : Communities.St, P s → Step kreivo s s' → OneVoteEach Demo.bob s' →
      s'.world.native Demo.bob = s.world.native Demo.bob → (∀ k, s'.world.asset k Demo.bob = s.world.asset k Demo.bob) → P s' :=
    fun s s' h st h1 h2 h3 => ⟨h.1.step st h1, h.2.step st (pol s s' h2 h3)⟩
  have h1 : P Demo.start := ⟨.start Demo.start_genesis, .start Demo.start_genesis⟩
  have h2 := go _ _ h1 (.register Demo.env (.signed Demo.alice) 1 none rfl) (noVotes _ rfl) rfl fun _ => rfl
  have h3 : P { Demo.chain with world := Demo.world0 } := by
    refine go _ _ h2 (.register Demo.env (.signed Demo.bob) 2 none ?_) (noVotes _ rfl) rfl fun _ => rfl
    unfold register payDeposit
    rw [if_neg (by decide), if_neg (by decide)]
    rfl
  have h4 : P Demo.chain := go _ _ h3 (.world Demo.world1 Demo.polls_open) (noVotes _ rfl) rfl fun _ => rfl
  have h5 : P { Demo.chain with world := Demo.worldThree } :=
    go _ _ h4 (.world Demo.worldThree (pollsMove_of_eq rfl)) (noVotes _ rfl) rfl fun _ => rfl
  have h6 : P Demo.three :=
    go _ _ h5 (.call Demo.env Demo.env_lawful (.signed Demo.alice) (.setDecisionMethod 1 .native) rfl) (noVotes _ rfl)
      rfl fun _ => rfl
  have only : ∀ s : Communities.St, (∀ q, q ≠ 0 → s.votes q = []) → (∀ e ∈ s.votes 0, e.2.2 = Demo.bob → e.1 = 3) →
      OneVoteEach Demo.bob s := by
    intro s hs hl p m m' v v' h1 h2
    by_cases hp : p = 0
    · subst hp
      exact (hl _ (mem_of_aget h1) rfl).trans (hl _ (mem_of_aget h2) rfl).symm
    · rw [hs p hp] at h1; cases h1
  have cast : ∀ (s s' : Communities.St) (o : Origin) (m : MId) (v : Vote), P s → (∀ q, q ≠ 0 → s.votes q = []) →
      vote Demo.env s o m 0 v = .ok s' → (∀ e ∈ s'.votes 0, e.2.2 = Demo.bob → e.1 = 3) →
      s'.world.native Demo.bob = s.world.native Demo.bob → (∀ k, s'.world.asset k Demo.bob = s.world.asset k Demo.bob) →
      P s' ∧ ∀ q, q ≠ 0 → s'.votes q = [] := by
    intro s s' o m v hs he hv hl e1 e2
    have he' : ∀ q, q ≠ 0 → s'.votes q = [] := fun q hq => (vote_elsewhere hv q hq).trans (he q hq)
    exact ⟨go _ _ hs (.call Demo.env Demo.env_lawful o (.vote m 0 v) hv) (only s' he' hl) e1 e2, he'⟩
  obtain ⟨h7, e7⟩ := cast Demo.three (after kreivo Demo.env Demo.three [(.signed Demo.alice, .vote 1 0 (.native true 100))])
    (.signed Demo.alice) 1 (.native true 100) h6 (fun _ _ => rfl) rfl (by decide +kernel) (by rfl) fun _ => by rfl
  obtain ⟨h8, e8⟩ := cast _ (after kreivo Demo.env Demo.three [(.signed Demo.alice, .vote 1 0 (.native true 100)),
    (.signed Demo.bob, .vote 3 0 (.native true 60))]) (.signed Demo.bob) 3 (.native true 60) h7 e7 rfl (by decide +kernel)
    (by rfl) fun _ => by rfl
  obtain ⟨h9, e9⟩ := cast _ (after kreivo Demo.env Demo.three [(.signed Demo.alice, .vote 1 0 (.native true 100)),
    (.signed Demo.bob, .vote 3 0 (.native true 60)), (.signed Demo.alice, .vote 2 0 (.native true 50))])
    (.signed Demo.alice) 2 (.native true 50) h8 e8 rfl (by decide +kernel) (by rfl) fun _ => by rfl
  refine ⟨_, h9.1, h9.2, ⟨⟨210, 0, 210⟩, by decide +kernel⟩, by decide +kernel, fun h => ?_⟩
  have := h 0 1 2 (.native true 100) (.native true 50) (by decide +kernel) (by decide +kernel)
  exact absurd this (by decide)

end Verif.Governance
