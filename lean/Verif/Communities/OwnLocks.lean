import Verif.Communities.LockTheorems

/-!
# Locks of an account that votes with one membership

The theorems about locks and freezes assume, in `SoloHistory`, that no account at all votes with two memberships in one
poll. Here only the account looked at has to keep to that: whatever others do, with however many memberships, its votes are
backed by its locks and its freezes are its largest locks.
-/

namespace Verif.Communities

open Verif Verif.Accounts

/-- The account has no two votes on record in a poll. Specification only, no code behind it (outside /repo). -/
def OneVoteEach (a : AccountId) (s : St) : Prop :=
  ∀ p m m' v v', aget (s.votes p) m = some (v, a) → aget (s.votes p) m' = some (v', a) → m = m'

/-- Histories in which one account never has two votes on record in a poll; others may. Part of the transition system around
the code (outside /repo). -/
inductive OwnHistory (cfg : Config) (a : AccountId) : St → Prop
  | start {s : St} (h : Genesis s) : OwnHistory cfg a s
  | step {s s' : St} (h : OwnHistory cfg a s) (st : Step cfg s s') (hs : OneVoteEach a s') : OwnHistory cfg a s'

theorem OwnHistory.reachable {cfg : Config} {a : AccountId} {s : St} (h : OwnHistory cfg a s) : Reachable cfg s := by
  induction h with
  | start h => exact ⟨_, h, .refl _⟩
  | step _ st _ ih => exact ih.step st

theorem OwnHistory.one {cfg : Config} {a : AccountId} {s : St} (h : OwnHistory cfg a s) : OneVoteEach a s := by
  cases h with
  | start h => intro p m m' v v' h1; rw [h.2.2.1 p] at h1; cases h1
  | step _ _ hs => exact hs

/-- Where nobody votes twice, the account does not. -/
theorem SoloHistory.own {cfg : Config} {s : St} (h : SoloHistory cfg s) (a : AccountId) : OwnHistory cfg a s := by
  induction h with
  | start h => exact .start h
  | step _ st hs ih => exact ih.step st fun p m m' v v' h1 h2 => hs p m m' v v' a h1 h2

/-- The account's votes and locks in ongoing polls match, its freezes are its largest locks, and polls that have not begun have
neither. Specification only, no code behind it (outside /repo). -/
structure MatchedFor (a : AccountId) (s : St) : Prop where
  fwd : ∀ p t c m v, s.world.polls p = some (.ongoing t c) → aget (s.votes p) m = some (v, a) →
    v.isBalance = true → aget (s.locks a) p = some v
  bwd : ∀ p t c v, s.world.polls p = some (.ongoing t c) → aget (s.locks a) p = some v →
    ∃ m, aget (s.votes p) m = some (v, a)
  frozenN : s.frozenN a = maxLockN (s.locks a)
  frozenA : ∀ k, s.frozenA k a = maxLockA k (s.locks a)
  unborn : ∀ p, s.world.polls p = none → s.votes p = [] ∧ aget (s.locks a) p = none
  bal : ∀ p v, aget (s.locks a) p = some v → v.isBalance = true
  okl : AOk (s.locks a)

theorem matchedFor_uncast {a : AccountId} {s s' : St} {c : CId} {dm : Method} {voter : AccountId} {m : MId} {p : PollIx}
    {v : Vote} {t : Tally} (hm : MatchedFor a s) (hs : OneVoteEach a s) (h : Uncast s s' c dm voter m p v t) :
    MatchedFor a s' ∧ OneVoteEach a s' := by
  have hvot : ∀ q n x, aget (s'.votes q) n = some x → aget (s.votes q) n = some x ∧ (q = p → n ≠ m) := by
    intro q n x hx
    rw [h.votes q] at hx
    split at hx
    · rw [aget_adel] at hx
      split at hx
      · cases hx
      · rename_i h1; exact ⟨hx, fun _ => h1⟩
    · rename_i h1; exact ⟨hx, fun h2 => absurd h2 h1⟩
  have hkeep : ∀ q n x, aget (s.votes q) n = some x → (q = p → n ≠ m) → aget (s'.votes q) n = some x := by
    intro q n x hx hne
    rw [h.votes q]
    split
    · rename_i hq; rw [aget_adel_ne _ (hne hq)]; exact hx
    · exact hx
  have hong : ∀ q t' c', s'.world.polls q = some (.ongoing t' c') → ∃ t'', s.world.polls q = some (.ongoing t'' c') := by
    intro q t' c' hq
    rw [h.polls q] at hq
    split at hq
    · rename_i h1; subst h1; cases hq; exact ⟨t, h.poll⟩
    · exact ⟨t', hq⟩
  have hunb : ∀ q, s'.world.polls q = none → q ≠ p ∧ s.world.polls q = none := by
    intro q hq
    have hne : q ≠ p := by rintro rfl; rw [h.polls q, if_pos rfl] at hq; cases hq
    rw [h.polls q, if_neg hne] at hq
    exact ⟨hne, hq⟩
  have hone : OneVoteEach a s' := fun q n n' u u' h1 h2 => hs _ _ _ _ _ (hvot _ _ _ h1).1 (hvot _ _ _ h2).1
  by_cases ha : a = voter
  · subst ha
    have hlock : ∀ q, q ≠ p → aget (s'.locks a) q = aget (s.locks a) q := by
      intro q hq
      rw [h.locks]
      split
      · rw [aget_adel_ne _ hq]
      · rfl
    have hnone : aget (s'.locks a) p = none := by
      rw [h.locks]
      by_cases hb : v.isBalance = true
      · rw [if_pos ⟨rfl, hb⟩, aget_adel_self]
      · rw [if_neg (by rintro ⟨_, h1⟩; exact hb h1)]
        cases hl : aget (s.locks a) p with
        | none => rfl
        | some u =>
          exfalso
          obtain ⟨n, hn⟩ := hm.bwd p _ _ u h.poll hl
          have := hs p n m u v hn h.recorded
          subst this
          rw [h.recorded] at hn; cases hn
          exact hb (hm.bal _ _ hl)
    refine ⟨⟨?_, ?_, ?_, ?_, ?_, ?_, ?_⟩, hone⟩
    · intro q t' c' n u hq hu hb
      obtain ⟨t'', hq⟩ := hong _ _ _ hq
      obtain ⟨h1, h2⟩ := hvot _ _ _ hu
      by_cases hqp : q = p
      · subst hqp
        exact absurd (hs _ _ _ _ _ h1 h.recorded) (h2 rfl)
      · rw [hlock q hqp]; exact hm.fwd _ _ _ _ _ hq h1 hb
    · intro q t' c' u hq hu
      obtain ⟨t'', hq⟩ := hong _ _ _ hq
      by_cases hqp : q = p
      · subst hqp; rw [hnone] at hu; cases hu
      · rw [hlock q hqp] at hu
        obtain ⟨n, hn⟩ := hm.bwd _ _ _ _ hq hu
        exact ⟨n, hkeep q n _ hn fun e => absurd e hqp⟩
    · rw [h.frozenN, h.locks]
      by_cases hb : v.isBalance = true
      · have hl := hm.fwd p _ _ m _ h.poll h.recorded hb
        simp only [hb, true_and, if_true, and_self]
        exact (matched_del hm.okl hl hm.frozenN hm.frozenA).1
      · cases v <;> simp_all [Vote.isNative, Vote.isBalance]
        exact hm.frozenN
    · intro k
      rw [h.frozenA, h.locks]
      by_cases hb : v.isBalance = true
      · have hl := hm.fwd p _ _ m _ h.poll h.recorded hb
        simp only [hb, true_and, if_true, and_self]
        exact (matched_del hm.okl hl hm.frozenN hm.frozenA).2 k
      · cases v <;> simp_all [Vote.isAsset, Vote.isBalance]
        exact hm.frozenA k
    · intro q hq
      obtain ⟨hne, hq⟩ := hunb q hq
      obtain ⟨h1, h2⟩ := hm.unborn q hq
      exact ⟨by rw [h.votes q, if_neg hne]; exact h1, by rw [hlock q hne]; exact h2⟩
    · intro q u hu
      by_cases hqp : q = p
      · subst hqp; rw [hnone] at hu; cases hu
      · rw [hlock q hqp] at hu; exact hm.bal _ _ hu
    · rw [h.locks]; split
      · exact aok_adel hm.okl _
      · exact hm.okl
  · have hl : s'.locks a = s.locks a := by rw [h.locks, if_neg (fun e => ha e.1)]
    have hother : ∀ q n u, aget (s.votes q) n = some (u, a) → aget (s'.votes q) n = some (u, a) := by
      intro q n u hu
      refine hkeep q n _ hu ?_
      rintro rfl rfl
      rw [h.recorded] at hu; cases hu; exact ha rfl
    refine ⟨⟨?_, ?_, ?_, ?_, ?_, ?_, ?_⟩, hone⟩
    · intro q t' c' n u hq hu hb
      obtain ⟨t'', hq⟩ := hong _ _ _ hq
      rw [hl]; exact hm.fwd _ _ _ _ _ hq (hvot _ _ _ hu).1 hb
    · intro q t' c' u hq hu
      obtain ⟨t'', hq⟩ := hong _ _ _ hq
      rw [hl] at hu
      obtain ⟨n, hn⟩ := hm.bwd _ _ _ _ hq hu
      exact ⟨n, hother q n u hn⟩
    · rw [h.frozenN, if_neg (fun e => ha e.1), hl]; exact hm.frozenN
    · intro k; rw [h.frozenA, if_neg (fun e => ha e.1), hl]; exact hm.frozenA k
    · intro q hq
      obtain ⟨hne, hq⟩ := hunb q hq
      obtain ⟨h1, h2⟩ := hm.unborn q hq
      exact ⟨by rw [h.votes q, if_neg hne]; exact h1, by rw [hl]; exact h2⟩
    · rw [hl]; exact hm.bal
    · rw [hl]; exact hm.okl

theorem matchedFor_cast {a : AccountId} {s s' : St} {c : CId} {who : AccountId} {m : MId} {p : PollIx} {v : Vote} {t : Tally}
    (hm : MatchedFor a s) (hs : OneVoteEach a s') (hn : aget (s.votes p) m = none) (h : Cast s s' c who m p v t) :
    MatchedFor a s' := by
  have hvot : ∀ q n, (q ≠ p ∨ n ≠ m) → aget (s'.votes q) n = aget (s.votes q) n := by
    intro q n hx
    rw [h.votes q]
    split
    · rename_i h1
      rcases hx with h2 | h2
      · exact absurd h1 h2
      · rw [aget_aset_ne _ _ h2]
    · rfl
  have hnew : aget (s'.votes p) m = some (v, who) := by rw [h.votes p, if_pos rfl, aget_aset_self]
  have hong : ∀ q t' c', s'.world.polls q = some (.ongoing t' c') → ∃ t'', s.world.polls q = some (.ongoing t'' c') := by
    intro q t' c' hq
    rw [h.polls q] at hq
    split at hq
    · rename_i h1; subst h1; cases hq; exact ⟨t, h.poll⟩
    · exact ⟨t', hq⟩
  have hunb : ∀ q, s'.world.polls q = none → q ≠ p ∧ s.world.polls q = none := by
    intro q hq
    have hne : q ≠ p := by rintro rfl; rw [h.polls q, if_pos rfl] at hq; cases hq
    rw [h.polls q, if_neg hne] at hq
    exact ⟨hne, hq⟩
  have hold : ∀ q n x, aget (s.votes q) n = some x → aget (s'.votes q) n = some x := by
    intro q n x hx
    rw [hvot q n]
    · exact hx
    · by_contra hc
      push Not at hc
      obtain ⟨rfl, rfl⟩ := hc
      rw [hn] at hx; cases hx
  by_cases ha : a = who
  · subst ha
    have hlock : ∀ q, q ≠ p → aget (s'.locks a) q = aget (s.locks a) q := by
      intro q hq
      rw [h.locks]
      split
      · rw [aget_aset_ne _ _ hq]
      · rfl
    have hnone : aget (s.locks a) p = none := by
      cases hl : aget (s.locks a) p with
      | none => rfl
      | some u =>
        exfalso
        obtain ⟨n, hu⟩ := hm.bwd p _ _ u h.poll hl
        have hne : n ≠ m := by rintro rfl; rw [hn] at hu; cases hu
        exact hne (hs _ _ _ _ _ (hold _ _ _ hu) hnew)
    have hnewlock : v.isBalance = true → aget (s'.locks a) p = some v := by
      intro hb; rw [h.locks, if_pos ⟨rfl, hb⟩, aget_aset_self]
    have holdlock : v.isBalance ≠ true → s'.locks a = s.locks a := by
      intro hb; rw [h.locks, if_neg (by rintro ⟨_, h1⟩; exact hb h1)]
    refine ⟨?_, ?_, ?_, ?_, ?_, ?_, ?_⟩
    · intro q t' c' n u hq hu hb
      obtain ⟨t'', hq⟩ := hong _ _ _ hq
      by_cases hqp : q = p
      · subst hqp
        have := hs _ _ _ _ _ hu hnew
        subst this
        rw [hnew] at hu; cases hu
        exact hnewlock hb
      · rw [hvot q n (.inl hqp)] at hu
        rw [hlock q hqp]; exact hm.fwd _ _ _ _ _ hq hu hb
    · intro q t' c' u hq hu
      obtain ⟨t'', hq⟩ := hong _ _ _ hq
      by_cases hqp : q = p
      · subst hqp
        by_cases hb : v.isBalance = true
        · rw [hnewlock hb] at hu; cases hu
          exact ⟨m, hnew⟩
        · rw [holdlock hb, hnone] at hu; cases hu
      · rw [hlock q hqp] at hu
        obtain ⟨n, h1⟩ := hm.bwd _ _ _ _ hq hu
        exact ⟨n, hold _ _ _ h1⟩
    · rw [h.frozenN, h.locks, if_pos rfl]
      by_cases hb : v.isBalance = true
      · rw [if_pos ⟨rfl, hb⟩, aset, maxLockN_cons, adel_of_none hnone, hm.frozenN]
      · rw [if_neg (by rintro ⟨_, h1⟩; exact hb h1), hm.frozenN]
        cases v <;> simp_all [Vote.isBalance, lockN]
    · intro k
      rw [h.frozenA, h.locks, if_pos rfl]
      by_cases hb : v.isBalance = true
      · rw [if_pos ⟨rfl, hb⟩, aset, maxLockA_cons, adel_of_none hnone, hm.frozenA k]
      · rw [if_neg (by rintro ⟨_, h1⟩; exact hb h1), hm.frozenA k]
        cases v <;> simp_all [Vote.isBalance, lockA]
    · intro q hq
      obtain ⟨hne, hq⟩ := hunb q hq
      obtain ⟨h1, h2⟩ := hm.unborn q hq
      exact ⟨by rw [h.votes q, if_neg hne]; exact h1, by rw [hlock q hne]; exact h2⟩
    · intro q u hu
      by_cases hqp : q = p
      · subst hqp
        by_cases hb : v.isBalance = true
        · rw [hnewlock hb] at hu; cases hu; exact hb
        · rw [holdlock hb, hnone] at hu; cases hu
      · rw [hlock q hqp] at hu; exact hm.bal _ _ hu
    · rw [h.locks]; split
      · exact aok_aset hm.okl _ _
      · exact hm.okl
  · have hl : s'.locks a = s.locks a := by rw [h.locks, if_neg (fun e => ha e.1)]
    have hback : ∀ q n u, aget (s'.votes q) n = some (u, a) → aget (s.votes q) n = some (u, a) := by
      intro q n u hu
      rw [← hvot q n]
      · exact hu
      · by_contra hc
        push Not at hc
        obtain ⟨rfl, rfl⟩ := hc
        rw [hnew] at hu; cases hu; exact ha rfl
    refine ⟨?_, ?_, ?_, ?_, ?_, ?_, ?_⟩
    · intro q t' c' n u hq hu hb
      obtain ⟨t'', hq⟩ := hong _ _ _ hq
      rw [hl]; exact hm.fwd _ _ _ _ _ hq (hback _ _ _ hu) hb
    · intro q t' c' u hq hu
      obtain ⟨t'', hq⟩ := hong _ _ _ hq
      rw [hl] at hu
      obtain ⟨n, h1⟩ := hm.bwd _ _ _ _ hq hu
      exact ⟨n, hold _ _ _ h1⟩
    · rw [h.frozenN, if_neg ha, hl]; exact hm.frozenN
    · intro k; rw [h.frozenA, if_neg ha, hl]; exact hm.frozenA k
    · intro q hq
      obtain ⟨hne, hq⟩ := hunb q hq
      obtain ⟨h1, h2⟩ := hm.unborn q hq
      exact ⟨by rw [h.votes q, if_neg hne]; exact h1, by rw [hl]; exact h2⟩
    · rw [hl]; exact hm.bal
    · rw [hl]; exact hm.okl

theorem matchedFor_unlock {a : AccountId} {s s' : St} {who : AccountId} {p : PollIx} {v : Vote} (hm : MatchedFor a s)
    (h : Unlocked s s' who p v) : MatchedFor a s' := by
  have hov : ∀ q t c, s'.world.polls q = some (.ongoing t c) → q ≠ p := by
    rintro q t c hq rfl
    rw [h.polls] at hq
    have := h.over
    simp [isOngoing, hq] at this
  by_cases ha : a = who
  · subst ha
    have hb := hm.bal _ _ h.recorded
    have hlock : ∀ q, q ≠ p → aget (s'.locks a) q = aget (s.locks a) q := by
      intro q hq
      rw [h.locks]
      split
      · rw [aget_adel_ne _ hq]
      · rfl
    have hnone : aget (s'.locks a) p = none := by rw [h.locks, if_pos ⟨rfl, hb⟩, aget_adel_self]
    refine ⟨?_, ?_, ?_, ?_, ?_, ?_, ?_⟩
    · intro q t c m u hq hu hbu
      rw [hlock q (hov _ _ _ hq)]
      rw [h.votes] at hu; rw [h.polls] at hq
      exact hm.fwd _ _ _ _ _ hq hu hbu
    · intro q t c u hq hu
      rw [hlock q (hov _ _ _ hq)] at hu
      rw [h.votes]; rw [h.polls] at hq
      exact hm.bwd _ _ _ _ hq hu
    · rw [h.frozenN, h.locks]
      simp only [hb, true_and, if_true, and_self]
      exact (matched_del hm.okl h.recorded hm.frozenN hm.frozenA).1
    · intro k
      rw [h.frozenA, h.locks]
      simp only [hb, true_and, if_true, and_self]
      exact (matched_del hm.okl h.recorded hm.frozenN hm.frozenA).2 k
    · intro q hq
      rw [h.polls] at hq
      obtain ⟨h1, h2⟩ := hm.unborn q hq
      refine ⟨by rw [h.votes]; exact h1, ?_⟩
      by_cases hqp : q = p
      · subst hqp; exact hnone
      · rw [hlock q hqp]; exact h2
    · intro q u hu
      by_cases hqp : q = p
      · subst hqp; rw [hnone] at hu; cases hu
      · rw [hlock q hqp] at hu; exact hm.bal _ _ hu
    · rw [h.locks]; split
      · exact aok_adel hm.okl _
      · exact hm.okl
  · have hl : s'.locks a = s.locks a := by rw [h.locks, if_neg (fun e => ha e.1)]
    refine ⟨?_, ?_, ?_, ?_, ?_, ?_, ?_⟩
    · rw [h.votes, h.polls, hl]; exact hm.fwd
    · rw [h.votes, h.polls, hl]; exact hm.bwd
    · rw [h.frozenN, if_neg (fun e => ha e.1), hl]; exact hm.frozenN
    · intro k; rw [h.frozenA, if_neg (fun e => ha e.1), hl]; exact hm.frozenA k
    · rw [h.votes, h.polls, hl]; exact hm.unborn
    · rw [hl]; exact hm.bal
    · rw [hl]; exact hm.okl

theorem matchedFor_same {a : AccountId} {s s' : St} (hm : MatchedFor a s) (h1 : s'.votes = s.votes) (h2 : s'.locks = s.locks)
    (h3 : s'.frozenN = s.frozenN) (h4 : s'.frozenA = s.frozenA) (h5 : PollsMove s.world s'.world) : MatchedFor a s' := by
  have hong : ∀ q t c, s'.world.polls q = some (.ongoing t c) →
      s.world.polls q = some (.ongoing t c) ∨ s.world.polls q = none := by
    intro q t c hq
    have := h5 q
    cases hp : s.world.polls q with
    | none => exact .inr rfl
    | some x =>
      rw [hp] at this
      cases x with
      | ended => rw [hq] at this; cases this
      | ongoing t' c' =>
        rcases this with h | h
        · rw [hq] at h; cases h; exact .inl rfl
        · rw [hq] at h; cases h
  refine ⟨?_, ?_, by rw [h3, h2]; exact hm.frozenN, by rw [h4, h2]; exact hm.frozenA, ?_, by rw [h2]; exact hm.bal,
    by rw [h2]; exact hm.okl⟩
  · intro q t c m v hq hv hb
    rw [h1] at hv; rw [h2]
    rcases hong q t c hq with h | h
    · exact hm.fwd _ _ _ _ _ h hv hb
    · rw [(hm.unborn q h).1] at hv; cases hv
  · intro q t c v hq hv
    rw [h2] at hv; rw [h1]
    rcases hong q t c hq with h | h
    · exact hm.bwd _ _ _ _ h hv
    · rw [(hm.unborn q h).2] at hv; cases hv
  · intro q hq
    rw [h1, h2]
    apply hm.unborn
    have := h5 q
    cases hp : s.world.polls q with
    | none => rfl
    | some x =>
      rw [hp] at this
      cases x with
      | ended => rw [hq] at this; cases this
      | ongoing t c => rw [hq] at this; rcases this with h | h <;> cases h

theorem OwnHistory.matched {cfg : Config} {a : AccountId} {s : St} (h : OwnHistory cfg a s) : MatchedFor a s := by
  induction h with
  | start h =>
    refine ⟨?_, ?_, ?_, ?_, ?_, ?_, ?_⟩
    · intro p t c m v h1; rw [h.2.2.2.2.2.2 p] at h1; cases h1
    · intro p t c v h1; rw [h.2.2.2.2.2.2 p] at h1; cases h1
    · rw [h.2.2.2.2.1 a, h.2.2.2.1 a]; rfl
    · intro k; rw [h.2.2.2.2.2.1 k a, h.2.2.2.1 a]; rfl
    · intro p _; exact ⟨h.2.2.1 p, by rw [h.2.2.2.1 a]; rfl⟩
    · intro p v hl; rw [h.2.2.2.1 a] at hl; cases hl
    · rw [h.2.2.2.1 a]; exact aok_nil
  | @step s s' hh st hs ih =>
    cases step_voteMove st with
    | same h1 h2 h3 h4 h5 => exact matchedFor_same ih h1 h2 h3 h4 h5
    | vote env o m p v h =>
      obtain ⟨who, c, s1, s2, _, _, _, _, h4, ⟨t, h5⟩, rfl⟩ := vote_parts h
      have hs2 : OneVoteEach a s2 := hs
      have hm2 : MatchedFor a s2 := by
        rcases h4 with ⟨hn, rfl⟩ | ⟨t', u, voter, h4⟩
        · exact matchedFor_cast ih hs2 hn h5
        · refine matchedFor_cast (matchedFor_uncast ih hh.one h4).1 hs2 ?_ h5
          rw [h4.votes p, if_pos rfl, aget_adel_self]
      exact matchedFor_same hm2 rfl rfl rfl rfl (pollsMove_of_eq rfl)
    | remove env o m p h =>
      obtain ⟨who, c, s1, _, _, ⟨t, u, voter, h4⟩, rfl⟩ := removeVote_parts h
      exact matchedFor_same (matchedFor_uncast ih hh.one h4).1 rfl rfl rfl rfl (pollsMove_of_eq rfl)
    | unlock env o p h =>
      obtain ⟨who, v, _, h1⟩ := unlock_unlocked h
      exact matchedFor_unlock ih h1

/-! ## Theorems -/

/-- C53, for one account whatever others do: if the account itself never has two votes on record in a poll, each of its balance
votes on record in an ongoing poll is backed by its lock for exactly that vote, and by as much frozen. Missing: accounts that use
several memberships. -/
theorem C53_own_votes_partial (cfg : Config) (s : St) (w : AccountId) (h : OwnHistory cfg w s) (p : PollIx) (t : Tally) (c : CId)
    (m : MId) (v : Vote) (hp : s.world.polls p = some (.ongoing t c)) (hv : aget (s.votes p) m = some (v, w))
    (hb : ∀ b, v ≠ .standard b) :
    aget (s.locks w) p = some v ∧ lockedNative v ≤ s.frozenN w ∧ ∀ k, lockedAsset k v ≤ s.frozenA k w := by
  have hb' : v.isBalance = true := by cases v <;> first | rfl | exact absurd rfl (hb _)
  have hl := h.matched.fwd p t c m v hp hv hb'
  exact ⟨hl, C52_frozen_covers cfg s h.reachable w p v hl⟩

/-- C53, the other way round: a lock of such an account for an ongoing poll stands for a vote of its own on record. -/
theorem C53_own_locks_partial (cfg : Config) (s : St) (w : AccountId) (h : OwnHistory cfg w s) (p : PollIx) (t : Tally) (c : CId)
    (v : Vote) (hp : s.world.polls p = some (.ongoing t c)) (hl : aget (s.locks w) p = some v) :
    ∃ m, aget (s.votes p) m = some (v, w) := h.matched.bwd p t c v hp hl

/-- C87, for one account whatever others do: if the account itself never has two votes on record in a poll, what is frozen of it
is at all times exactly the largest of its standing locks, in every currency. -/
theorem C87_own_freeze_partial (cfg : Config) (s : St) (w : AccountId) (h : OwnHistory cfg w s) :
    LargestNative s w (s.frozenN w) ∧ ∀ k, LargestAsset s k w (s.frozenA k w) := by
  have hm := h.matched
  refine ⟨?_, fun k => ?_⟩
  · rw [hm.frozenN]; exact largestN_max hm.okl
  · rw [hm.frozenA k]; exact largestA_max hm.okl

/-- Example: alice has two memberships and bob a third; each has 1000 of the native currency (outside /repo). -/
def Demo.worldThree : World :=
  { Demo.world1 with items := [⟨1, 1, Demo.alice, 0⟩, ⟨1, 2, Demo.alice, 0⟩, ⟨1, 3, Demo.bob, 0⟩] }

/-- Example: where they vote with native currency (outside /repo). -/
def Demo.three : St := after kreivo Demo.env { Demo.chain with world := Demo.worldThree }
  [(.signed Demo.alice, .setDecisionMethod 1 .native)]

theorem vote_elsewhere {env : Env} {s s' : St} {o : Origin} {m : MId} {p : PollIx} {v : Vote}
    (h : vote env s o m p v = .ok s') (q : PollIx) (hq : q ≠ p) : s'.votes q = s.votes q := by
  obtain ⟨who, c, s1, s2, _, _, _, _, h4, ⟨t, h5⟩, rfl⟩ := vote_parts h
  show s2.votes q = _
  rw [h5.votes q, if_neg hq]
  rcases h4 with ⟨_, rfl⟩ | ⟨t', u, voter, h4⟩
  · rfl
  · rw [h4.votes q, if_neg hq]

theorem removeVote_elsewhere {env : Env} {s s' : St} {o : Origin} {m : MId} {p : PollIx}
    (h : removeVote env s o m p = .ok s') (q : PollIx) (hq : q ≠ p) : s'.votes q = s.votes q := by
  obtain ⟨who, c, s1, _, _, ⟨t, u, voter, h4⟩, rfl⟩ := removeVote_parts h
  show s1.votes q = _
  rw [h4.votes q, if_neg hq]

/-- Non-vacuity: alice votes with two memberships in the same poll and takes one vote back, so that the other is no longer backed
(`C53_backed_fails`); bob votes with one, and is covered by the theorems above. -/
example : ∃ s, OwnHistory kreivo Demo.bob s ∧ s.world.polls 0 = some (.ongoing ⟨160, 0, 160⟩ 1) ∧
    aget (s.votes 0) 3 = some (.native true 60, Demo.bob) ∧ s.frozenN Demo.bob = 60 ∧
    aget (s.votes 0) 1 = some (.native true 100, Demo.alice) ∧ s.frozenN Demo.alice = 0 := by
  have noVotes : ∀ s : St, s.votes = (fun _ => []) → OneVoteEach Demo.bob s := by
    intro s hs p m m' v v' h; rw [hs] at h; cases h
  have only : ∀ s : St, (∀ p, ∀ e ∈ s.votes p, e.2.2 = Demo.bob → e.1 = 3) → OneVoteEach Demo.bob s := by
    intro s hs p m m' v v' h1 h2
    exact (hs p _ (mem_of_aget h1) rfl).trans (hs p _ (mem_of_aget h2) rfl).symm
  have h1 : OwnHistory kreivo Demo.bob Demo.start := .start Demo.start_genesis
  have h2 := h1.step (.register Demo.env (.signed Demo.alice) 1 none rfl) (noVotes _ rfl)
  have h3 : OwnHistory kreivo Demo.bob { Demo.chain with world := Demo.world0 } := by
    refine h2.step (.register Demo.env (.signed Demo.bob) 2 none ?_) (noVotes _ rfl)
    unfold register payDeposit
    rw [if_neg (by decide), if_neg (by decide)]
    rfl
  have h4 : OwnHistory kreivo Demo.bob Demo.chain := h3.step (.world Demo.world1 Demo.polls_open) (noVotes _ rfl)
  have h5 : OwnHistory kreivo Demo.bob { Demo.chain with world := Demo.worldThree } :=
    h4.step (.world Demo.worldThree (pollsMove_of_eq rfl)) (noVotes _ rfl)
  have h6 : OwnHistory kreivo Demo.bob Demo.three :=
    h5.step (.call Demo.env Demo.env_lawful (.signed Demo.alice) (.setDecisionMethod 1 .native) rfl) (noVotes _ rfl)
  have hin : ∀ s : St, (∀ q, q ≠ 0 → s.votes q = []) → (∀ e ∈ s.votes 0, e.2.2 = Demo.bob → e.1 = 3) →
      OneVoteEach Demo.bob s := by
    intro s hs hl
    refine only s fun p e he => ?_
    by_cases hp : p = 0
    · subst hp; exact hl e he
    · rw [hs p hp] at he; cases he
  have e6 : ∀ q, q ≠ 0 → Demo.three.votes q = [] := fun _ _ => rfl
  have go : ∀ (s s' : St) (o : Origin) (m : MId) (v : Vote), OwnHistory kreivo Demo.bob s →
      (∀ q, q ≠ 0 → s.votes q = []) →
      vote Demo.env s o m 0 v = .ok s' → (∀ e ∈ s'.votes 0, e.2.2 = Demo.bob → e.1 = 3) →
      OwnHistory kreivo Demo.bob s' ∧ ∀ q, q ≠ 0 → s'.votes q = [] := by
    intro s s' o m v hs he hv hl
    have he' : ∀ q, q ≠ 0 → s'.votes q = [] := fun q hq => (vote_elsewhere hv q hq).trans (he q hq)
    exact ⟨hs.step (.call Demo.env Demo.env_lawful o (.vote m 0 v) hv) (hin s' he' hl), he'⟩
  obtain ⟨h7, e7⟩ := go Demo.three (after kreivo Demo.env Demo.three [(.signed Demo.alice, .vote 1 0 (.native true 100))])
    (.signed Demo.alice) 1 (.native true 100) h6 e6 rfl (by decide +kernel)
  obtain ⟨h8, e8⟩ := go _ (after kreivo Demo.env Demo.three [(.signed Demo.alice, .vote 1 0 (.native true 100)),
    (.signed Demo.bob, .vote 3 0 (.native true 60))]) (.signed Demo.bob) 3 (.native true 60) h7 e7 rfl (by decide +kernel)
  obtain ⟨h9, e9⟩ := go _ (after kreivo Demo.env Demo.three [(.signed Demo.alice, .vote 1 0 (.native true 100)),
    (.signed Demo.bob, .vote 3 0 (.native true 60)), (.signed Demo.alice, .vote 2 0 (.native true 50))])
    (.signed Demo.alice) 2 (.native true 50) h8 e8 rfl (by decide +kernel)
  have hv : removeVote Demo.env (after kreivo Demo.env Demo.three [(.signed Demo.alice, .vote 1 0 (.native true 100)),
    (.signed Demo.bob, .vote 3 0 (.native true 60)), (.signed Demo.alice, .vote 2 0 (.native true 50))])
    (.signed Demo.alice) 2 0 = .ok (after kreivo Demo.env Demo.three
    [(.signed Demo.alice, .vote 1 0 (.native true 100)), (.signed Demo.bob, .vote 3 0 (.native true 60)),
     (.signed Demo.alice, .vote 2 0 (.native true 50)), (.signed Demo.alice, .removeVote 2 0)]) := rfl
  refine ⟨_, h9.step (.call Demo.env Demo.env_lawful (.signed Demo.alice) (.removeVote 2 0) hv)
    (hin _ (fun q hq => (removeVote_elsewhere hv q hq).trans (e9 q hq)) (by decide +kernel)), ?_, ?_, ?_, ?_, ?_⟩ <;>
    decide +kernel

end Verif.Communities
