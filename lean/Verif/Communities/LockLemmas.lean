import Verif.Communities.TallyLemmas

/-! # Locks: invariants and helper facts -/

namespace Verif.Communities

open Verif Verif.Accounts

theorem lockedN_eq (v : Vote) : lockedNative v = lockN v := by cases v <;> rfl
theorem lockedA_eq (k : AssetKey) (v : Vote) : lockedAsset k v = lockA k v := by cases v <;> rfl

theorem largestN_max {s : St} {a : AccountId} (ok : AOk (s.locks a)) : LargestNative s a (maxLockN (s.locks a)) := by
  refine ⟨fun p v h => by rw [lockedN_eq]; exact le_maxLockN (mem_of_aget h), ?_⟩
  rcases maxLockN_attained (s.locks a) with h | ⟨e, he, h⟩
  · exact .inl h
  · exact .inr ⟨e.1, e.2, aget_of_mem ok he, by rw [lockedN_eq]; exact h⟩

theorem largestA_max {s : St} {k : AssetKey} {a : AccountId} (ok : AOk (s.locks a)) :
    LargestAsset s k a (maxLockA k (s.locks a)) := by
  refine ⟨fun p v h => by rw [lockedA_eq]; exact le_maxLockA (mem_of_aget h), ?_⟩
  rcases maxLockA_attained k (s.locks a) with h | ⟨e, he, h⟩
  · exact .inl h
  · exact .inr ⟨e.1, e.2, aget_of_mem ok he, by rw [lockedA_eq]; exact h⟩

/-- Locks are balance votes. -/
theorem reachable_lock_balance {cfg : Config} {s : St} (h : Reachable cfg s) :
    ∀ a p v, aget (s.locks a) p = some v → v.isBalance = true := by
  refine vote_invariant (I := fun s => ∀ a p v, aget (s.locks a) p = some v → v.isBalance = true) ?_ ?_ ?_ ?_ ?_ h
  · intro s hg a p v hl; rw [hg.2.2.2.1 a] at hl; cases hl
  · intro s s' hi _ h2 _ _ _; rw [h2]; exact hi
  · intro s s' c who m p v t hi hc a q u hl
    rw [hc.locks a] at hl
    split at hl
    · rename_i hb
      rw [aget_aset] at hl
      split at hl
      · cases hl; exact hb.2
      · exact hi _ _ _ hl
    · exact hi _ _ _ hl
  · intro s s' c dm voter m p v t hi hc a q u hl
    rw [hc.locks a] at hl
    split at hl
    · rw [aget_adel] at hl
      split at hl
      · cases hl
      · exact hi _ _ _ hl
    · exact hi _ _ _ hl
  · intro s s' who p v hi hc a q u hl
    rw [hc.locks a] at hl
    split at hl
    · rw [aget_adel] at hl
      split at hl
      · cases hl
      · exact hi _ _ _ hl
    · exact hi _ _ _ hl

/-- Histories in which no account ever has two votes on record in the same poll. -/
inductive SoloHistory (cfg : Config) : St → Prop
  | start {s : St} (h : Genesis s) : SoloHistory cfg s
  | step {s s' : St} (h : SoloHistory cfg s) (st : Step cfg s s') (hs : Solo s') : SoloHistory cfg s'

theorem SoloHistory.reachable {cfg : Config} {s : St} (h : SoloHistory cfg s) : Reachable cfg s := by
  induction h with
  | start h => exact ⟨_, h, .refl _⟩
  | step _ st _ ih => exact ih.step st

theorem SoloHistory.solo {cfg : Config} {s : St} (h : SoloHistory cfg s) : Solo s := by
  cases h with
  | start h => intro p m m' v v' w h1; rw [h.2.2.1 p] at h1; cases h1
  | step _ _ hs => exact hs

/-- Votes on record and locks of ongoing polls match, freezes are the largest locks, and polls that have not begun have
neither votes nor locks. -/
structure Matched (s : St) : Prop where
  fwd : ∀ p t c m v w, s.world.polls p = some (.ongoing t c) → aget (s.votes p) m = some (v, w) →
    v.isBalance = true → aget (s.locks w) p = some v
  bwd : ∀ p t c w v, s.world.polls p = some (.ongoing t c) → aget (s.locks w) p = some v →
    ∃ m, aget (s.votes p) m = some (v, w)
  frozenN : ∀ a, s.frozenN a = maxLockN (s.locks a)
  frozenA : ∀ k a, s.frozenA k a = maxLockA k (s.locks a)
  unborn : ∀ p, s.world.polls p = none → s.votes p = [] ∧ ∀ a, aget (s.locks a) p = none
  bal : ∀ a p v, aget (s.locks a) p = some v → v.isBalance = true
  okl : ∀ a, AOk (s.locks a)

theorem maxLockN_adel {l : List (PollIx × Vote)} {p : PollIx} (hl : ∀ e ∈ l, e.1 = p → lockN e.2 = 0) :
    maxLockN (adel l p) = maxLockN l := by
  induction l with
  | nil => rfl
  | cons e l ih =>
    have ih := ih (fun x hx => hl x (List.mem_cons_of_mem _ hx))
    by_cases he : e.1 = p
    · have : adel (e :: l) p = adel l p := by simp [adel, he]
      rw [this, ih, maxLockN_cons, hl e (by simp) he]; simp
    · have : adel (e :: l) p = e :: adel l p := by simp [adel, he]
      rw [this, maxLockN_cons, maxLockN_cons, ih]

theorem maxLockA_adel {k : AssetKey} {l : List (PollIx × Vote)} {p : PollIx}
    (hl : ∀ e ∈ l, e.1 = p → lockA k e.2 = 0) : maxLockA k (adel l p) = maxLockA k l := by
  induction l with
  | nil => rfl
  | cons e l ih =>
    have ih := ih (fun x hx => hl x (List.mem_cons_of_mem _ hx))
    by_cases he : e.1 = p
    · have : adel (e :: l) p = adel l p := by simp [adel, he]
      rw [this, ih, maxLockA_cons, hl e (by simp) he]; simp
    · have : adel (e :: l) p = e :: adel l p := by simp [adel, he]
      rw [this, maxLockA_cons, maxLockA_cons, ih]

theorem only_entry {l : List (PollIx × Vote)} (ok : AOk l) {p : PollIx} {v : Vote} (h : aget l p = some v)
    {e : PollIx × Vote} (he : e ∈ l) (hp : e.1 = p) : e.2 = v := by
  have := aget_of_mem ok (k := e.1) (v := e.2) he
  rw [hp, h] at this; cases this; rfl

/-- Deleting a lock leaves the freeze equal to the largest lock, in every currency. -/
theorem matched_del {l : List (PollIx × Vote)} (ok : AOk l) {p : PollIx} {v : Vote} (h : aget l p = some v)
    {fN : Nat} {fA : AssetKey → Nat} (hN : fN = maxLockN l) (hA : ∀ k, fA k = maxLockA k l) :
    (if v.isNative = true then maxLockN (adel l p) else fN) = maxLockN (adel l p) ∧
    ∀ k, (if v.isAsset k = true then maxLockA k (adel l p) else fA k) = maxLockA k (adel l p) := by
  refine ⟨?_, fun k => ?_⟩
  · split
    · rfl
    · rename_i hn
      rw [hN, maxLockN_adel]
      intro e he hp
      rw [only_entry ok h he hp]
      cases v <;> simp_all [Vote.isNative, lockN]
  · split
    · rfl
    · rename_i hn
      rw [hA, maxLockA_adel]
      intro e he hp
      rw [only_entry ok h he hp]
      cases v <;> simp_all [Vote.isAsset, lockA]

theorem matched_uncast {s s' : St} {c : CId} {dm : Method} {voter : AccountId} {m : MId} {p : PollIx} {v : Vote}
    {t : Tally} (hm : Matched s) (hs : Solo s) (h : Uncast s s' c dm voter m p v t) :
    Matched s' ∧ Solo s' ∧ aget (s'.locks voter) p = none := by
  have hvot : ∀ q n x, aget (s'.votes q) n = some x → aget (s.votes q) n = some x ∧ (q = p → n ≠ m) := by
    intro q n x hx
    rw [h.votes q] at hx
    split at hx
    · rw [aget_adel] at hx
      split at hx
      · cases hx
      · rename_i h1; exact ⟨hx, fun _ => h1⟩
    · rename_i h1; exact ⟨hx, fun h2 => absurd h2 h1⟩
  have hong : ∀ q t' c', s'.world.polls q = some (.ongoing t' c') → ∃ t'', s.world.polls q = some (.ongoing t'' c') := by
    intro q t' c' hq
    rw [h.polls q] at hq
    split at hq
    · rename_i h1; subst h1; cases hq; exact ⟨t, h.poll⟩
    · exact ⟨t', hq⟩
  have hlock : ∀ a q, (a ≠ voter ∨ q ≠ p) → aget (s'.locks a) q = aget (s.locks a) q := by
    intro a q haq
    rw [h.locks]
    split
    · rename_i h1
      rcases haq with h2 | h2
      · exact absurd h1.1 h2
      · rw [aget_adel_ne _ h2]
    · rfl
  have hnone : aget (s'.locks voter) p = none := by
    rw [h.locks]
    by_cases hb : v.isBalance = true
    · rw [if_pos ⟨rfl, hb⟩, aget_adel_self]
    · rw [if_neg (by rintro ⟨_, h1⟩; exact hb h1)]
      cases hl : aget (s.locks voter) p with
      | none => rfl
      | some u =>
        exfalso
        obtain ⟨n, hn⟩ := hm.bwd p _ _ voter u h.poll hl
        have := hs p n m u v voter hn h.recorded
        subst this
        rw [h.recorded] at hn; cases hn
        exact hb (hm.bal _ _ _ hl)
  refine ⟨⟨?_, ?_, ?_, ?_, ?_, ?_, ?_⟩, ?_, hnone⟩
  · intro q t' c' n u w hq hu hb
    obtain ⟨t'', hq⟩ := hong _ _ _ hq
    obtain ⟨h1, h2⟩ := hvot _ _ _ hu
    rw [hlock w q]
    · exact hm.fwd _ _ _ _ _ _ hq h1 hb
    · by_contra hc
      push Not at hc
      obtain ⟨rfl, rfl⟩ := hc
      exact h2 rfl (hs _ _ _ _ _ _ h1 h.recorded)
  · intro q t' c' w u hq hu
    obtain ⟨t'', hq⟩ := hong _ _ _ hq
    by_cases hwq : w = voter ∧ q = p
    · obtain ⟨rfl, rfl⟩ := hwq
      rw [hnone] at hu; cases hu
    · rw [hlock w q (by tauto)] at hu
      obtain ⟨n, hn⟩ := hm.bwd _ _ _ _ _ hq hu
      refine ⟨n, ?_⟩
      rw [h.votes q]
      split
      · rename_i hqp
        subst hqp
        rw [aget_adel_ne _ ?_]
        · exact hn
        · rintro rfl
          rw [h.recorded] at hn; cases hn
          exact hwq ⟨rfl, rfl⟩
      · exact hn
  · intro a
    rw [h.frozenN, h.locks]
    by_cases ha : a = voter
    · subst ha
      by_cases hb : v.isBalance = true
      · have hl := hm.fwd p _ _ m _ _ h.poll h.recorded hb
        simp only [hb, true_and, if_true, and_self]
        exact (matched_del (hm.okl a) hl (hm.frozenN a) (fun k => hm.frozenA k a)).1
      · cases v <;> simp_all [Vote.isNative, Vote.isBalance]
        exact hm.frozenN a
    · simp only [ha, false_and, if_false]; exact hm.frozenN a
  · intro k a
    rw [h.frozenA, h.locks]
    by_cases ha : a = voter
    · subst ha
      by_cases hb : v.isBalance = true
      · have hl := hm.fwd p _ _ m _ _ h.poll h.recorded hb
        simp only [hb, true_and, if_true, and_self]
        exact (matched_del (hm.okl a) hl (hm.frozenN a) (fun k => hm.frozenA k a)).2 k
      · cases v <;> simp_all [Vote.isAsset, Vote.isBalance]
        exact hm.frozenA k a
    · simp only [ha, false_and, if_false]; exact hm.frozenA k a
  · intro q hq
    have hne : q ≠ p := by rintro rfl; rw [h.polls q, if_pos rfl] at hq; cases hq
    rw [h.polls q, if_neg hne] at hq
    obtain ⟨h1, h2⟩ := hm.unborn q hq
    refine ⟨by rw [h.votes q, if_neg hne]; exact h1, fun a => ?_⟩
    rw [hlock a q (.inr hne)]; exact h2 a
  · intro a q u hu
    by_cases hwq : a = voter ∧ q = p
    · obtain ⟨rfl, rfl⟩ := hwq
      rw [hnone] at hu; cases hu
    · rw [hlock a q (by tauto)] at hu; exact hm.bal _ _ _ hu
  · intro a
    rw [h.locks]; split
    · exact aok_adel (hm.okl a) _
    · exact hm.okl a
  · intro q n n' u u' w h1 h2
    exact hs _ _ _ _ _ _ (hvot _ _ _ h1).1 (hvot _ _ _ h2).1

theorem matched_cast {s s' : St} {c : CId} {who : AccountId} {m : MId} {p : PollIx} {v : Vote} {t : Tally}
    (hm : Matched s) (hs : Solo s') (hn : aget (s.votes p) m = none) (h : Cast s s' c who m p v t) : Matched s' := by
  have hvot : ∀ q n, (q ≠ p ∨ n ≠ m) → aget (s'.votes q) n = aget (s.votes q) n := by
    intro q n hx
    rw [h.votes q]
    split
    · rename_i h1
      rcases hx with h2 | h2
      · exact absurd h1 h2
      · rw [aget_aset_ne _ _ h2]
    · rfl
  have hnew : aget (s'.votes p) m = some (v, who) := by rw [h.votes p, if_pos rfl, aget_aset_self]
  have hong : ∀ q t' c', s'.world.polls q = some (.ongoing t' c') → ∃ t'', s.world.polls q = some (.ongoing t'' c') := by
    intro q t' c' hq
    rw [h.polls q] at hq
    split at hq
    · rename_i h1; subst h1; cases hq; exact ⟨t, h.poll⟩
    · exact ⟨t', hq⟩
  have hlock : ∀ a q, (a ≠ who ∨ q ≠ p) → aget (s'.locks a) q = aget (s.locks a) q := by
    intro a q haq
    rw [h.locks]
    split
    · rename_i h1
      rcases haq with h2 | h2
      · exact absurd h1.1 h2
      · rw [aget_aset_ne _ _ h2]
    · rfl
  -- the voter had no lock for this poll
  have hnone : aget (s.locks who) p = none := by
    cases hl : aget (s.locks who) p with
    | none => rfl
    | some u =>
      exfalso
      obtain ⟨n, hu⟩ := hm.bwd p _ _ who u h.poll hl
      have hne : n ≠ m := by rintro rfl; rw [hn] at hu; cases hu
      have h1 : aget (s'.votes p) n = some (u, who) := by rw [hvot p n (.inr hne)]; exact hu
      exact hne (hs _ _ _ _ _ _ h1 hnew)
  have hnewlock : v.isBalance = true → aget (s'.locks who) p = some v := by
    intro hb; rw [h.locks, if_pos ⟨rfl, hb⟩, aget_aset_self]
  have holdlock : v.isBalance ≠ true → s'.locks who = s.locks who := by
    intro hb; rw [h.locks, if_neg (by rintro ⟨_, h1⟩; exact hb h1)]
  refine ⟨?_, ?_, ?_, ?_, ?_, ?_, ?_⟩
  · intro q t' c' n u w hq hu hb
    obtain ⟨t'', hq⟩ := hong _ _ _ hq
    by_cases hnew' : q = p ∧ n = m
    · obtain ⟨rfl, rfl⟩ := hnew'
      rw [hnew] at hu; cases hu
      exact hnewlock hb
    · have hu' := hu
      rw [hvot q n (by tauto)] at hu
      have h1 := hm.fwd _ _ _ _ _ _ hq hu hb
      rw [hlock w q]
      · exact h1
      · by_contra hc
        push Not at hc
        obtain ⟨rfl, rfl⟩ := hc
        rw [hnone] at h1; cases h1
  · intro q t' c' w u hq hu
    obtain ⟨t'', hq⟩ := hong _ _ _ hq
    by_cases hwq : w = who ∧ q = p
    · obtain ⟨rfl, rfl⟩ := hwq
      by_cases hb : v.isBalance = true
      · rw [hnewlock hb] at hu; cases hu
        exact ⟨m, hnew⟩
      · rw [holdlock hb, hnone] at hu; cases hu
    · rw [hlock w q (by tauto)] at hu
      obtain ⟨n, h1⟩ := hm.bwd _ _ _ _ _ hq hu
      refine ⟨n, ?_⟩
      rw [hvot q n]
      · exact h1
      · by_contra hc
        push Not at hc
        obtain ⟨rfl, rfl⟩ := hc
        rw [hn] at h1; cases h1
  · intro a
    rw [h.frozenN, h.locks]
    by_cases ha : a = who
    · subst ha
      rw [if_pos rfl]
      by_cases hb : v.isBalance = true
      · rw [if_pos ⟨rfl, hb⟩, aset, maxLockN_cons, adel_of_none hnone, hm.frozenN a]
      · rw [if_neg (by rintro ⟨_, h1⟩; exact hb h1), hm.frozenN a]
        cases v <;> simp_all [Vote.isBalance, lockN]
    · simp only [ha, false_and, if_false]; exact hm.frozenN a
  · intro k a
    rw [h.frozenA, h.locks]
    by_cases ha : a = who
    · subst ha
      rw [if_pos rfl]
      by_cases hb : v.isBalance = true
      · rw [if_pos ⟨rfl, hb⟩, aset, maxLockA_cons, adel_of_none hnone, hm.frozenA k a]
      · rw [if_neg (by rintro ⟨_, h1⟩; exact hb h1), hm.frozenA k a]
        cases v <;> simp_all [Vote.isBalance, lockA]
    · simp only [ha, false_and, if_false]; exact hm.frozenA k a
  · intro q hq
    have hne : q ≠ p := by rintro rfl; rw [h.polls q, if_pos rfl] at hq; cases hq
    rw [h.polls q, if_neg hne] at hq
    obtain ⟨h1, h2⟩ := hm.unborn q hq
    refine ⟨by rw [h.votes q, if_neg hne]; exact h1, fun a => ?_⟩
    rw [hlock a q (.inr hne)]; exact h2 a
  · intro a q u hu
    by_cases hwq : a = who ∧ q = p
    · obtain ⟨rfl, rfl⟩ := hwq
      by_cases hb : v.isBalance = true
      · rw [hnewlock hb] at hu; cases hu; exact hb
      · rw [holdlock hb, hnone] at hu; cases hu
    · rw [hlock a q (by tauto)] at hu; exact hm.bal _ _ _ hu
  · intro a
    rw [h.locks]; split
    · exact aok_aset (hm.okl a) _ _
    · exact hm.okl a

theorem matched_unlock {s s' : St} {who : AccountId} {p : PollIx} {v : Vote} (hm : Matched s)
    (h : Unlocked s s' who p v) : Matched s' := by
  have hb := hm.bal _ _ _ h.recorded
  have hlock : ∀ a q, (a ≠ who ∨ q ≠ p) → aget (s'.locks a) q = aget (s.locks a) q := by
    intro a q haq
    rw [h.locks]
    split
    · rename_i h1
      rcases haq with h2 | h2
      · exact absurd h1.1 h2
      · rw [aget_adel_ne _ h2]
    · rfl
  have hnone : aget (s'.locks who) p = none := by rw [h.locks, if_pos ⟨rfl, hb⟩, aget_adel_self]
  have hov : ∀ q t c, s'.world.polls q = some (.ongoing t c) → q ≠ p := by
    rintro q t c hq rfl
    rw [h.polls] at hq
    have := h.over
    simp [isOngoing, hq] at this
  refine ⟨?_, ?_, ?_, ?_, ?_, ?_, ?_⟩
  · intro q t c m u w hq hu hbu
    rw [hlock w q (.inr (hov _ _ _ hq))]
    rw [h.votes] at hu; rw [h.polls] at hq
    exact hm.fwd _ _ _ _ _ _ hq hu hbu
  · intro q t c w u hq hu
    rw [hlock w q (.inr (hov _ _ _ hq))] at hu
    rw [h.votes]; rw [h.polls] at hq
    exact hm.bwd _ _ _ _ _ hq hu
  · intro a
    rw [h.frozenN, h.locks]
    by_cases ha : a = who
    · subst ha
      simp only [hb, true_and, if_true, and_self]
      exact (matched_del (hm.okl a) h.recorded (hm.frozenN a) (fun k => hm.frozenA k a)).1
    · simp only [ha, false_and, if_false]; exact hm.frozenN a
  · intro k a
    rw [h.frozenA, h.locks]
    by_cases ha : a = who
    · subst ha
      simp only [hb, true_and, if_true, and_self]
      exact (matched_del (hm.okl a) h.recorded (hm.frozenN a) (fun k => hm.frozenA k a)).2 k
    · simp only [ha, false_and, if_false]; exact hm.frozenA k a
  · intro q hq
    rw [h.polls] at hq
    obtain ⟨h1, h2⟩ := hm.unborn q hq
    refine ⟨by rw [h.votes]; exact h1, fun a => ?_⟩
    by_cases hwq : a = who ∧ q = p
    · obtain ⟨rfl, rfl⟩ := hwq; exact hnone
    · rw [hlock a q (by tauto)]; exact h2 a
  · intro a q u hu
    by_cases hwq : a = who ∧ q = p
    · obtain ⟨rfl, rfl⟩ := hwq
      rw [hnone] at hu; cases hu
    · rw [hlock a q (by tauto)] at hu; exact hm.bal _ _ _ hu
  · intro a
    rw [h.locks]; split
    · exact aok_adel (hm.okl a) _
    · exact hm.okl a

theorem matched_same {s s' : St} (hm : Matched s) (h1 : s'.votes = s.votes) (h2 : s'.locks = s.locks)
    (h3 : s'.frozenN = s.frozenN) (h4 : s'.frozenA = s.frozenA) (h5 : PollsMove s.world s'.world) : Matched s' := by
  have hong : ∀ q t c, s'.world.polls q = some (.ongoing t c) →
      s.world.polls q = some (.ongoing t c) ∨ s.world.polls q = none := by
    intro q t c hq
    have := h5 q
    cases hp : s.world.polls q with
    | none => exact .inr rfl
    | some x =>
      rw [hp] at this
      cases x with
      | ended => rw [hq] at this; cases this
      | ongoing t' c' =>
        rcases this with h | h
        · rw [hq] at h; cases h; exact .inl rfl
        · rw [hq] at h; cases h
  refine ⟨?_, ?_, by rw [h3, h2]; exact hm.frozenN, by rw [h4, h2]; exact hm.frozenA, ?_, by rw [h2]; exact hm.bal,
    by rw [h2]; exact hm.okl⟩
  · intro q t c m v w hq hv hb
    rw [h1] at hv; rw [h2]
    rcases hong q t c hq with h | h
    · exact hm.fwd _ _ _ _ _ _ h hv hb
    · rw [(hm.unborn q h).1] at hv; cases hv
  · intro q t c w v hq hv
    rw [h2] at hv; rw [h1]
    rcases hong q t c hq with h | h
    · exact hm.bwd _ _ _ _ _ h hv
    · rw [(hm.unborn q h).2 w] at hv; cases hv
  · intro q hq
    rw [h1, h2]
    apply hm.unborn
    have := h5 q
    cases hp : s.world.polls q with
    | none => rfl
    | some x =>
      rw [hp] at this
      cases x with
      | ended => rw [hq] at this; cases this
      | ongoing t c => rw [hq] at this; rcases this with h | h <;> cases h

theorem SoloHistory.matched {cfg : Config} {s : St} (h : SoloHistory cfg s) : Matched s := by
  induction h with
  | start h =>
    refine ⟨?_, ?_, ?_, ?_, ?_, ?_, ?_⟩
    · intro p t c m v w h1; rw [h.2.2.2.2.2.2 p] at h1; cases h1
    · intro p t c w v h1; rw [h.2.2.2.2.2.2 p] at h1; cases h1
    · intro a; rw [h.2.2.2.2.1 a, h.2.2.2.1 a]; rfl
    · intro k a; rw [h.2.2.2.2.2.1 k a, h.2.2.2.1 a]; rfl
    · intro p _; exact ⟨h.2.2.1 p, fun a => by rw [h.2.2.2.1 a]; rfl⟩
    · intro a p v hl; rw [h.2.2.2.1 a] at hl; cases hl
    · intro a; rw [h.2.2.2.1 a]; exact aok_nil
  | @step s s' hh st hs ih =>
    cases step_voteMove st with
    | same h1 h2 h3 h4 h5 => exact matched_same ih h1 h2 h3 h4 h5
    | vote env o m p v h =>
      obtain ⟨who, c, s1, s2, _, _, _, _, h4, ⟨t, h5⟩, rfl⟩ := vote_parts h
      have hs2 : Solo s2 := hs
      have hm2 : Matched s2 := by
        rcases h4 with ⟨hn, rfl⟩ | ⟨t', u, voter, h4⟩
        · exact matched_cast ih hs2 hn h5
        · refine matched_cast (matched_uncast ih hh.solo h4).1 hs2 ?_ h5
          rw [h4.votes p, if_pos rfl, aget_adel_self]
      exact matched_same hm2 rfl rfl rfl rfl (pollsMove_of_eq rfl)
    | remove env o m p h =>
      obtain ⟨who, c, s1, _, _, ⟨t, u, voter, h4⟩, rfl⟩ := removeVote_parts h
      exact matched_same (matched_uncast ih hh.solo h4).1 rfl rfl rfl rfl (pollsMove_of_eq rfl)
    | unlock env o p h =>
      obtain ⟨who, v, _, h1⟩ := unlock_unlocked h
      exact matched_unlock ih h1

end Verif.Communities
