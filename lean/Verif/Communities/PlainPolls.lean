import Verif.Communities.TallyTheorems

/-!
# C50 for communities that do not decide by rank
-/

namespace Verif.Communities

open Verif Verif.Accounts

/-- Histories from the start of the chain in which the community never decides by rank, and the votes on record in the poll add
up to no more than a vote weight can say. Specification only, no code behind it (outside /repo). -/
inductive PlainHistory (cfg : Config) (c : CId) (p : PollIx) : St → Prop
  | start {s : St} (h : Genesis s) (hm : s.method c ≠ .rank) : PlainHistory cfg c p s
  | step {s s' : St} (h : PlainHistory cfg c p s) (st : Step cfg s s') (hm : s'.method c ≠ .rank)
      (hf : ((s'.votes p).map fun e => plainWeight e.2.1).sum < 2 ^ 32) : PlainHistory cfg c p s'

theorem PlainHistory.method {cfg : Config} {c : CId} {p : PollIx} {s : St} (h : PlainHistory cfg c p s) :
    s.method c ≠ .rank := by
  cases h with
  | start _ hm => exact hm
  | step _ _ hm _ => exact hm

theorem sum_if_le (l : List (MId × Vote × AccountId)) (f : MId × Vote × AccountId → Nat) (b : MId × Vote × AccountId → Bool) :
    asum (fun e => if b e then f e else 0) l ≤ asum f l ∧ asum (fun e => if b e then 0 else f e) l ≤ asum f l := by
  induction l with
  | nil => simp [asum]
  | cons e l ih =>
    simp only [asum_cons]
    constructor <;> split <;> omega

theorem PlainHistory.calm {cfg : Config} {c : CId} {p : PollIx} {s : St} (h : PlainHistory cfg c p s) :
    CalmHistory cfg c p s := by
  induction h with
  | start h _ => exact .start h
  | @step s s' h st hm hf ih =>
    refine ih.step st (calm_not_rank h.method hm ?_)
    have hp : (fun e : MId × Vote × AccountId => power s' c e.1 e.2.1) = fun e => plainWeight e.2.1 := by
      funext e; unfold power; rw [if_neg hm]
    have hs := sum_if_le (s'.votes p) (fun e => plainWeight e.2.1) (fun e => e.2.1.say)
    have hf' : asum (fun e => plainWeight e.2.1) (s'.votes p) < 2 ^ 32 := hf
    have e1 : (onRecord s' c p).ayes = asum (fun e => if e.2.1.say then plainWeight e.2.1 else 0) (s'.votes p) := by
      unfold onRecord power; simp only [if_neg hm]
    have e2 : (onRecord s' c p).nays = asum (fun e => if e.2.1.say then 0 else plainWeight e.2.1) (s'.votes p) := by
      unfold onRecord power; simp only [if_neg hm]
    have e3 : (onRecord s' c p).bareAyes = asum (fun e => if e.2.1.say then plainWeight e.2.1 else 0) (s'.votes p) := rfl
    unfold Fits
    rw [e1, e2, e3]
    have := hs.1
    have := hs.2
    exact ⟨by omega, by omega, by omega⟩

/-- **C50**, what holds of it for communities that do not decide by rank: whatever else happens, the tally of an ongoing poll is
the votes on record, ayes and nays each for what they weigh. -/
theorem C50_plain_partial (cfg : Config) (c : CId) (p : PollIx) (s : St) (h : PlainHistory cfg c p s) (t : Tally)
    (ht : s.world.polls p = some (.ongoing t c)) :
    t.ayes = (((s.votes p).filter fun e => e.2.1.say).map fun e => plainWeight e.2.1).sum ∧
    t.nays = (((s.votes p).filter fun e => !e.2.1.say).map fun e => plainWeight e.2.1).sum ∧ t.bareAyes = t.ayes := by
  have e := C50_tally_is_sum_partial cfg c p s h.calm t ht
  have hm := h.method
  have key : ∀ l : List (MId × Vote × AccountId),
      asum (fun e => if e.2.1.say then plainWeight e.2.1 else 0) l =
        ((l.filter fun e => e.2.1.say).map fun e => plainWeight e.2.1).sum ∧
      asum (fun e => if e.2.1.say then 0 else plainWeight e.2.1) l =
        ((l.filter fun e => !e.2.1.say).map fun e => plainWeight e.2.1).sum := by
    intro l
    induction l with
    | nil => simp [asum]
    | cons e l ih =>
      simp only [asum_cons, List.filter_cons]
      cases e.2.1.say <;> simp [ih.1, ih.2]
  subst e
  refine ⟨?_, ?_, ?_⟩
  · rw [← (key _).1]; unfold onRecord power; simp only [if_neg hm]
  · rw [← (key _).2]; unfold onRecord power; simp only [if_neg hm]
  · unfold onRecord power; simp only [if_neg hm]

/-- The demonstration chain with a vote on record is the end of such a history. -/
example : PlainHistory kreivo 1 0 (after kreivo Demo.env Demo.chain [(.signed Demo.alice, .vote 1 0 (.standard true))]) ∧
    (after kreivo Demo.env Demo.chain [(.signed Demo.alice, .vote 1 0 (.standard true))]).votes 0 ≠ [] := by
  refine ⟨?_, by decide +kernel⟩
  have h1 : PlainHistory kreivo 1 0 Demo.start := .start Demo.start_genesis (by decide)
  have h2 := h1.step (.register Demo.env (.signed Demo.alice) 1 none rfl) (by decide) (by decide)
  have h3 : PlainHistory kreivo 1 0 { Demo.chain with world := Demo.world0 } := by
    refine h2.step (.register Demo.env (.signed Demo.bob) 2 none ?_) (by decide) (by decide)
    unfold register payDeposit
    rw [if_neg (by decide), if_neg (by decide)]
    rfl
  have h4 : PlainHistory kreivo 1 0 Demo.chain := h3.step (.world Demo.world1 Demo.polls_open) (by decide) (by decide)
  exact h4.step (.call Demo.env Demo.env_lawful (.signed Demo.alice) (.vote 1 0 (.standard true)) rfl) (by decide +kernel)
    (by decide +kernel)

end Verif.Communities
