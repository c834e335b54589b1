import Verif.Communities.LockTheorems
import Verif.Governance.BalanceTheorems

/-!
# C198: a coin counts at most once in a vote
-/

namespace Verif.Governance

open Verif Verif.Accounts Verif.Communities

/-! ## The specification -/

/-- Whoever has less after the step still has what was frozen for their votes before it. Specification only, no code behind it
(outside /repo). -/
def Polite (s s' : Communities.St) : Prop :=
  (∀ a, s'.world.native a < s.world.native a → s.frozenN a ≤ s'.world.native a) ∧
  ∀ k a, s'.world.asset k a < s.world.asset k a → s.frozenA k a ≤ s'.world.asset k a

/-- Histories of the communities pallet in which no account has two votes on record in a poll and what is frozen is not taken.
Specification only, no code behind it (outside /repo). -/
inductive OnceHistory (cfg : Config) : Communities.St → Prop
  | start {s : Communities.St} (h : Genesis s) : OnceHistory cfg s
  | step {s s' : Communities.St} (h : OnceHistory cfg s) (st : Step cfg s s') (hs : Solo s') (hp : Polite s s') :
    OnceHistory cfg s'

/-- What was cast in the native currency in a poll, all votes on record together. Specification only, no code behind it
(outside /repo). -/
def castNative (s : Communities.St) (p : PollIx) : Nat := asum (fun e => lockedNative e.2.1) (s.votes p)

/-- The same of an asset. Specification only, no code behind it (outside /repo). -/
def castAsset (s : Communities.St) (k : AssetKey) (p : PollIx) : Nat := asum (fun e => lockedAsset k e.2.1) (s.votes p)

/-- No accounts have more together than there is. Specification only, no code behind it (outside /repo). -/
def Whole (w : World) : Prop :=
  (∀ l : List AccountId, l.Nodup → (l.map w.native).sum ≤ w.nativeIssuance) ∧
  ∀ k, ∀ l : List AccountId, l.Nodup → (l.map (w.asset k)).sum ≤ w.assetIssuance k

/-- The account has the existential deposit, or something reserved, as all accounts on record have. Specification only, no code
behind it (outside /repo). -/
def Stands (s : Runtime.Native.St) (a : AccountId) : Prop := s.ed ≤ (s.acc a).free ∨ 0 < (s.acc a).reserved

/-! ## Lemmas -/

theorem OnceHistory.solo {cfg : Config} {s : Communities.St} (h : OnceHistory cfg s) : SoloHistory cfg s := by
  induction h with
  | start h => exact .start h
  | step _ st hs _ ih => exact ih.step st hs

theorem maxLockN_adel_le {l : List (PollIx × Vote)} {p : PollIx} {n : Nat} (h : maxLockN l ≤ n) : maxLockN (adel l p) ≤ n := by
  rcases maxLockN_attained (adel l p) with e | ⟨e, he, h1⟩
  · omega
  · rw [← h1]; exact (le_maxLockN (List.mem_of_mem_filter he)).trans h

theorem maxLockA_adel_le {k : AssetKey} {l : List (PollIx × Vote)} {p : PollIx} {n : Nat} (h : maxLockA k l ≤ n) :
    maxLockA k (adel l p) ≤ n := by
  rcases maxLockA_attained k (adel l p) with e | ⟨e, he, h1⟩
  · omega
  · rw [← h1]; exact (le_maxLockA (List.mem_of_mem_filter he)).trans h

theorem maxLock_frozen {cfg : Config} {s : Communities.St} (h : Reachable cfg s) (a : AccountId) :
    maxLockN (s.locks a) ≤ s.frozenN a ∧ ∀ k, maxLockA k (s.locks a) ≤ s.frozenA k a := by
  have ok := (reachable_aok h).2 a
  constructor
  · rcases maxLockN_attained (s.locks a) with e | ⟨e, he, h1⟩
    · omega
    · rw [← h1, ← lockedN_eq]; exact (C52_frozen_covers cfg s h a e.1 e.2 (aget_of_mem ok he)).1
  · intro k
    rcases maxLockA_attained k (s.locks a) with e | ⟨e, he, h1⟩
    · omega
    · rw [← h1, ← lockedA_eq]; exact (C52_frozen_covers cfg s h a e.1 e.2 (aget_of_mem ok he)).2 k

/-- Taking a vote off the record freezes nothing more. -/
theorem uncast_frozen {s s' : Communities.St} {c : CId} {dm : Method} {voter : AccountId} {m : MId} {p : PollIx}
    {v : Vote} {t : Tally} {a : AccountId}
    (h : maxLockN (s.locks a) ≤ s.frozenN a ∧ ∀ k, maxLockA k (s.locks a) ≤ s.frozenA k a)
    (hu : Uncast s s' c dm voter m p v t) :
    s'.frozenN a ≤ s.frozenN a ∧ ∀ k, s'.frozenA k a ≤ s.frozenA k a := by
  obtain ⟨h1, h2⟩ := h
  refine ⟨?_, fun k => ?_⟩
  · rw [hu.frozenN a]; split
    · exact maxLockN_adel_le h1
    · exact le_refl _
  · rw [hu.frozenA k a]; split
    · exact maxLockA_adel_le (h2 k)
    · exact le_refl _

/-- A step freezes only what is there, if what is locked is frozen. -/
theorem step_frozen_of {cfg : Config} {s s' : Communities.St} {a : AccountId}
    (h : maxLockN (s.locks a) ≤ s.frozenN a ∧ ∀ k, maxLockA k (s.locks a) ≤ s.frozenA k a) (st : Step cfg s s') :
    (s'.frozenN a ≤ s.frozenN a ∨ s'.frozenN a ≤ s'.world.native a) ∧
    ∀ k, s'.frozenA k a ≤ s.frozenA k a ∨ s'.frozenA k a ≤ s'.world.asset k a := by
  cases step_voteMove st with
  | same _ _ h3 h4 _ => rw [h3, h4]; exact ⟨.inl (le_refl _), fun _ => .inl (le_refl _)⟩
  | vote env o m p v hv =>
    obtain ⟨who, c, s1, s2, _, _, _, _, h5, ⟨t, h6⟩, rfl⟩ := vote_parts hv
    have e : s1.frozenN a ≤ s.frozenN a ∧ ∀ k, s1.frozenA k a ≤ s.frozenA k a := by
      rcases h5 with ⟨_, rfl⟩ | ⟨_, u, voter, h5⟩
      · exact ⟨le_refl _, fun _ => le_refl _⟩
      · exact uncast_frozen h h5
    refine ⟨?_, fun k => ?_⟩
    · show s2.frozenN a ≤ _ ∨ s2.frozenN a ≤ s2.world.native a
      rw [h6.frozenN a, h6.native]
      have := h6.enoughN
      split
      · rename_i ha; subst ha
        have := e.1
        omega
      · exact .inl e.1
    · show s2.frozenA k a ≤ _ ∨ s2.frozenA k a ≤ s2.world.asset k a
      rw [h6.frozenA k a, h6.asset]
      have := h6.enoughA k
      split
      · rename_i ha; subst ha
        have := e.2 k
        omega
      · exact .inl (e.2 k)
  | remove env o m p hv =>
    obtain ⟨who, c, s1, _, _, ⟨t, u, voter, h4⟩, rfl⟩ := removeVote_parts hv
    have := uncast_frozen h h4
    exact ⟨.inl this.1, fun k => .inl (this.2 k)⟩
  | unlock env o p hv =>
    obtain ⟨who, v, _, h1⟩ := unlock_unlocked hv
    obtain ⟨g1, g2⟩ := h
    refine ⟨.inl ?_, fun k => .inl ?_⟩
    · rw [h1.frozenN a]; split
      · exact maxLockN_adel_le g1
      · exact le_refl _
    · rw [h1.frozenA k a]; split
      · exact maxLockA_adel_le (g2 k)
      · exact le_refl _

/-- A step freezes only what is there. -/
theorem step_frozen {cfg : Config} {s s' : Communities.St} (h : Reachable cfg s) (st : Step cfg s s') (a : AccountId) :
    (s'.frozenN a ≤ s.frozenN a ∨ s'.frozenN a ≤ s'.world.native a) ∧
    ∀ k, s'.frozenA k a ≤ s.frozenA k a ∨ s'.frozenA k a ≤ s'.world.asset k a :=
  step_frozen_of (maxLock_frozen h a) st

/-- What is frozen for votes is there. -/
theorem once_covered {cfg : Config} {s : Communities.St} (h : OnceHistory cfg s) (a : AccountId) :
    s.frozenN a ≤ s.world.native a ∧ ∀ k, s.frozenA k a ≤ s.world.asset k a := by
  induction h with
  | start hg => rw [hg.2.2.2.2.1 a]; exact ⟨by omega, fun k => by rw [hg.2.2.2.2.2.1 k a]; omega⟩
  | @step s s' h0 st hs hp ih =>
    obtain ⟨h1, h2⟩ := step_frozen h0.solo.reachable st a
    refine ⟨?_, fun k => ?_⟩
    · have := hp.1 a; have := ih.1; omega
    · have := hp.2 k a; have := ih.2 k; have := h2 k; omega

theorem asum_le_voters {l : List (MId × (Vote × AccountId))} {f : Vote → Nat} {bal : AccountId → Nat}
    (h : ∀ e ∈ l, f e.2.1 ≤ bal e.2.2) : asum (fun e => f e.2.1) l ≤ ((l.map (·.2.2)).map bal).sum := by
  induction l with
  | nil => simp
  | cons e l ih =>
    rw [asum_cons]
    simp only [List.map_cons, List.sum_cons]
    have := h e (by simp)
    have := ih fun x hx => h x (by simp [hx])
    omega

theorem voters_nodup {s : Communities.St} {p : PollIx} (ok : AOk (s.votes p)) (hs : Solo s) :
    ((s.votes p).map (·.2.2)).Nodup := by
  have hs : ∀ m m' v v' w, aget (s.votes p) m = some (v, w) → aget (s.votes p) m' = some (v', w) → m = m' := hs p
  revert ok hs
  generalize s.votes p = l
  intro ok hs
  rw [List.Nodup, List.pairwise_map]
  unfold AOk at ok
  rw [List.Nodup, List.pairwise_map] at ok
  refine List.Pairwise.imp_of_mem (R := fun a b => a.1 ≠ b.1) ?_ ok
  intro a b ha hb hab e
  have ok' : AOk l := by unfold AOk; rw [List.Nodup, List.pairwise_map]; exact ok
  have g1 := aget_of_mem ok' (k := a.1) (v := a.2) ha
  have g2 := aget_of_mem ok' (k := b.1) (v := b.2) hb
  exact hab (hs a.1 b.1 a.2.1 b.2.1 a.2.2 g1 (by rw [g2]; exact congrArg some (Prod.ext rfl e.symm)))

/-! ## C198 -/

/-- C198 (partial: in histories in which no account has two votes on record in a poll): each vote on record in an open poll is
of money its voter still has, and all votes together are of no more money than there is. -/
theorem C198_counts_once_partial (cfg : Config) (s : Communities.St) (h : OnceHistory cfg s) (p : PollIx) (t : Tally) (c : CId)
    (hp : s.world.polls p = some (.ongoing t c)) :
    (∀ m v w, aget (s.votes p) m = some (v, w) →
      lockedNative v ≤ s.world.native w ∧ ∀ k, lockedAsset k v ≤ s.world.asset k w) ∧
    (Whole s.world → castNative s p ≤ s.world.nativeIssuance ∧ ∀ k, castAsset s k p ≤ s.world.assetIssuance k) := by
  have hsolo := h.solo
  have ok := (reachable_aok hsolo.reachable).1 p
  have each : ∀ m v w, aget (s.votes p) m = some (v, w) →
      lockedNative v ≤ s.world.native w ∧ ∀ k, lockedAsset k v ≤ s.world.asset k w := by
    intro m v w hv
    by_cases hb : ∃ b, v = .standard b
    · obtain ⟨b, rfl⟩ := hb
      exact ⟨Nat.zero_le _, fun _ => Nat.zero_le _⟩
    · obtain ⟨_, h1, h2⟩ := C53_backed_partial cfg s hsolo p t c m v w hp hv fun b e => hb ⟨b, e⟩
      obtain ⟨g1, g2⟩ := once_covered h w
      exact ⟨h1.trans g1, fun k => (h2 k).trans (g2 k)⟩
  refine ⟨each, fun hw => ?_⟩
  have hs : Solo s := by
    cases h with
    | start hg => intro q m m' v v' w h1; rw [hg.2.2.1 q] at h1; cases h1
    | step _ _ hs _ => exact hs
  have hn := voters_nodup ok hs
  have each' : ∀ e ∈ s.votes p, lockedNative e.2.1 ≤ s.world.native e.2.2 ∧ ∀ k, lockedAsset k e.2.1 ≤ s.world.asset k e.2.2 :=
    fun e he => each e.1 e.2.1 e.2.2 (aget_of_mem ok he)
  exact ⟨(asum_le_voters fun e he => (each' e he).1).trans (hw.1 _ hn),
    fun k => (asum_le_voters fun e he => (each' e he).2 k).trans (hw.2 k _ hn)⟩

/-- C198: calls of the balances pallet that accounts make take nothing that is frozen: an account that has funds frozen, and is
kept for that, has what is frozen afterwards if it did before, and the freeze is no smaller. -/
theorem C198_calls_polite (fixed : AccountId → Bool) (s s' : Runtime.Native.St) (o : RtOrigin) (c : Runtime.Native.Call)
    (ho : o ≠ .root) (h : Runtime.Native.dispatch fixed s o c = some s') (a : AccountId) (n : Nat) (hn : 0 < n)
    (hf : fixed a = true) (hl : Stands s a) (h1 : n ≤ (s.acc a).frozen) (h2 : n ≤ (s.acc a).total) :
    Stands s' a ∧ n ≤ (s'.acc a).frozen ∧ n ≤ (s'.acc a).total := by
  unfold Stands at *
  have tr : ∀ src dst m keep, Runtime.Native.transfer fixed s src dst m keep = some s' →
      (s'.ed ≤ (s'.acc a).free ∨ 0 < (s'.acc a).reserved) ∧ n ≤ (s'.acc a).frozen ∧ n ≤ (s'.acc a).total := by
    intro src dst m keep ht
    rcases transfer_facts ht with rfl | ⟨hne, hm, hle, hd, rfl⟩
    · exact ⟨hl, h1, h2⟩
    · have hdst : (Runtime.Native.put s src { s.acc src with free := (s.acc src).free - m }).ed = s.ed := put_ed _ _ _
      unfold Runtime.Native.Acct.total at *
      unfold Runtime.Native.reducible at hle
      dsimp only at hle
      rw [put_ed, hdst, put_acc]
      by_cases e1 : a = dst
      · subst e1
        rw [if_pos rfl, hdst, if_neg (by dsimp only; omega)]
        dsimp only
        omega
      · rw [if_neg e1, put_acc]
        by_cases e2 : a = src
        · subst e2
          rw [if_pos rfl]
          rw [if_pos (.inr ⟨by intro e; rw [e] at hle; omega, hf⟩)] at hle
          rw [if_neg (by dsimp only; omega)]
          dsimp only
          omega
        · rw [if_neg e2]; exact ⟨hl, h1, h2⟩
  cases o with
  | root => exact absurd rfl ho
  | signed who =>
    cases c with
    | transferAllowDeath dst m => exact tr _ _ _ _ h
    | transferKeepAlive dst m => exact tr _ _ _ _ h
    | transferAll dst keep => exact tr _ _ _ _ h
    | burn m keep =>
      have h : (if m ≤ Runtime.Native.reducible fixed s who keep then
        some (Runtime.Native.put { s with issuance := s.issuance - m } who { s.acc who with free := (s.acc who).free - m })
        else none) = some s' := h
      split at h
      · rename_i hle
        cases h
        unfold Runtime.Native.reducible at hle
        dsimp only at hle
        unfold Runtime.Native.Acct.total at *
        rw [put_ed, put_acc]
        by_cases e2 : a = who
        · subst e2
          rw [if_pos rfl]
          by_cases e0 : (s.acc a).free = 0
          · rw [if_neg (by dsimp only; omega)]
            dsimp only
            omega
          · rw [if_pos (.inr ⟨e0, hf⟩)] at hle
            rw [if_neg (by dsimp only; omega)]
            dsimp only
            omega
        · rw [if_neg e2]; exact ⟨hl, h1, h2⟩
      · cases h
    | upgradeAccounts => cases h; exact ⟨hl, h1, h2⟩
    | _ => cases h
  | _ => cases h

/-! ## Examples and the case that fails -/

/-- Example: alice has all the money there is, 100 (outside /repo). -/
def Demo.onlyAlice : World :=
  { Communities.Demo.worldTwice with
    native := fun a => if a = Communities.Demo.alice then 100 else 0
    asset := fun _ _ => 0
    nativeIssuance := 100
    assetIssuance := fun _ => 0 }

theorem Demo.onlyAlice_whole : Whole Demo.onlyAlice := by
  refine ⟨fun l hl => ?_, fun k l _ => ?_⟩
  · show (l.map fun a => if a = Communities.Demo.alice then 100 else 0).sum ≤ 100
    induction l with
    | nil => simp
    | cons a l ih =>
      have ⟨h1, h2⟩ := List.nodup_cons.1 hl
      simp only [List.map_cons, List.sum_cons]
      split
      · rename_i e
        subst e
        have : (l.map fun a => if a = Communities.Demo.alice then 100 else 0).sum = 0 := by
          rw [List.sum_eq_zero]
          intro x hx
          obtain ⟨b, hb, rfl⟩ := List.mem_map.1 hx
          exact if_neg fun (e : b = Communities.Demo.alice) => h1 (e ▸ hb)
        omega
      · have := ih h2; omega
  · show (l.map fun _ => 0).sum ≤ 0
    simp

/-- Example: alice's community decides with the native currency, and alice has 100 of it (outside /repo). -/
def Demo.poor : Communities.St := { Communities.Demo.twice with world := Demo.onlyAlice }

theorem Demo.poor_reachable : Reachable kreivo Demo.poor :=
  Communities.Demo.twice_reachable.step (.world Demo.onlyAlice (pollsMove_of_eq rfl))

/-- C198 fails for accounts with two memberships: alice, who has the only 100 there are, casts them with both, and 200 are on
record. -/
theorem C198_counts_once_fails :
    ∃ s, Reachable kreivo s ∧ Whole s.world ∧ s.world.polls 0 = some (.ongoing ⟨200, 0, 200⟩ 1) ∧
      s.world.nativeIssuance = 100 ∧ s.world.native Communities.Demo.alice = 100 ∧
      s.votes 0 = [(2, (.native true 100, Communities.Demo.alice)), (1, (.native true 100, Communities.Demo.alice))] ∧
      castNative s 0 = 200 := by
  refine ⟨after kreivo Communities.Demo.env Demo.poor
    [(.signed Communities.Demo.alice, .vote 1 0 (.native true 100)), (.signed Communities.Demo.alice, .vote 2 0 (.native true 100))],
    after_reachable Communities.Demo.env_lawful Demo.poor_reachable _, ?_, by decide +kernel, by decide +kernel,
    by decide +kernel, by decide +kernel, by decide +kernel⟩
  exact Demo.onlyAlice_whole

/-- Alice casts all the money there is once, in a history as C198 has it. -/
example :
    let s := after kreivo Communities.Demo.env Demo.poor [(.signed Communities.Demo.alice, .vote 1 0 (.native true 100))]
    OnceHistory kreivo s ∧ Whole s.world ∧ s.world.polls 0 = some (.ongoing ⟨100, 0, 100⟩ 1) ∧ castNative s 0 = 100 ∧
      s.frozenN Communities.Demo.alice = 100 := by
  refine ⟨?_, Demo.onlyAlice_whole, by decide +kernel, by decide +kernel, by decide +kernel⟩
  have noVotes : ∀ s : Communities.St, s.votes = (fun _ => []) → Solo s := by
    intro s hs p m m' v v' w h; rw [hs] at h; cases h
  have free : ∀ s s' : Communities.St, s.frozenN = (fun _ => 0) → s.frozenA = (fun _ _ => 0) → Polite s s' := by
    intro s s' h1 h2
    refine ⟨fun a _ => ?_, fun k a _ => ?_⟩
    · rw [h1]; exact Nat.zero_le _
    · rw [h2]; exact Nat.zero_le _
  have h1 : OnceHistory kreivo Communities.Demo.start := .start Communities.Demo.start_genesis
  have h2 := h1.step (.register Communities.Demo.env (.signed Communities.Demo.alice) 1 none rfl) (noVotes _ rfl)
    (free _ _ rfl rfl)
  have h3 : OnceHistory kreivo { Communities.Demo.chain with world := Communities.Demo.world0 } := by
    refine h2.step (.register Communities.Demo.env (.signed Communities.Demo.bob) 2 none ?_) (noVotes _ rfl) (free _ _ rfl rfl)
    unfold register payDeposit
    rw [if_neg (by decide), if_neg (by decide)]
    rfl
  have h4 : OnceHistory kreivo Communities.Demo.chain :=
    h3.step (.world Communities.Demo.world1 Communities.Demo.polls_open) (noVotes _ rfl) (free _ _ rfl rfl)
  have h5 : OnceHistory kreivo { Communities.Demo.chain with world := Communities.Demo.worldTwice } :=
    h4.step (.world Communities.Demo.worldTwice (pollsMove_of_eq rfl)) (noVotes _ rfl) (free _ _ rfl rfl)
  have h6 : OnceHistory kreivo Communities.Demo.twice :=
    h5.step (.call Communities.Demo.env Communities.Demo.env_lawful (.signed Communities.Demo.alice)
      (.setDecisionMethod 1 .native) rfl) (noVotes _ rfl) (free _ _ rfl rfl)
  have h7 : OnceHistory kreivo Demo.poor :=
    h6.step (.world Demo.onlyAlice (pollsMove_of_eq rfl)) (noVotes _ rfl) (free _ _ rfl rfl)
  refine h7.step (.call Communities.Demo.env Communities.Demo.env_lawful (.signed Communities.Demo.alice)
    (.vote 1 0 (.native true 100)) rfl) ?_ (free _ _ rfl rfl)
  suffices hsolo : Solo (after kreivo Communities.Demo.env Demo.poor
    [(.signed Communities.Demo.alice, .vote 1 0 (.native true 100))]) from hsolo
  intro p m m' v v' w h1 h2
  have hv : ∀ p, (after kreivo Communities.Demo.env Demo.poor
      [(.signed Communities.Demo.alice, .vote 1 0 (.native true 100))]).votes p =
      if p = 0 then [(1, (.native true 100, Communities.Demo.alice))] else [] := by
    intro p
    by_cases hp : p = 0
    · subst hp; rfl
    · show (if p = 0 then _ else _) = _
      rw [if_neg hp, if_neg hp]; rfl
  rw [hv p] at h1 h2
  split at h1
  · rename_i hp
    rw [if_pos hp] at h2
    rw [aget_cons] at h1 h2
    split at h1
    · split at h2
      · rename_i e1 e2; exact e1.symm.trans e2
      · cases h2
    · cases h1
  · cases h1

/-- Example: alice has 150, of which 100 are frozen (outside /repo). -/
def Demo.iced : Runtime.Native.St :=
  ⟨fun a => if a = Communities.Demo.alice then ⟨150, 0, 100⟩ else ⟨0, 0, 0⟩, 150, 10⟩

/-- Alice can send 50 but not 51. -/
example :
    let fixed := fun a => a == Communities.Demo.alice
    let c n : Runtime.Native.Call := .transferAllowDeath Communities.Demo.bob n
    Stands Demo.iced Communities.Demo.alice ∧
    ((Runtime.Native.dispatch fixed Demo.iced (.signed Communities.Demo.alice) (c 50)).map
      fun s => s.acc Communities.Demo.alice) = some ⟨100, 0, 100⟩ ∧
    (Runtime.Native.dispatch fixed Demo.iced (.signed Communities.Demo.alice) (c 51)).isNone := by
  refine ⟨.inl (by decide +kernel), by decide +kernel, by decide +kernel⟩

end Verif.Governance
