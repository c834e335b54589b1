import Verif.Communities.LockTheorems
import Verif.Runtime.CallWeights

/-!
# What giving up a lock reads (C116)

`update_locks` walks over all of an account's vote locks to find the largest one left, while the weight of the calls
that do so is a constant.
-/

namespace Verif.Communities

open Verif Verif.Accounts

/-- Entries of `CommunityVoteLocks` read by `update_locks` (functions.rs 170-189): with `Remove`, `iter_prefix_values`
yields every lock the account has left. -/
def lockScan (s : St) (who : AccountId) (p : PollIx) (v : Vote) : LockUpdate → Nat
  | .add => 0
  | .remove => match v with
    | .standard _ => 0
    | _ => (adel (s.locks who) p).length

/-- Entries of the storage maps of this pallet and of the polls that `unlock` reads (pallets/communities/src/lib.rs 553-558): the referendum, the
lock to give up, and the locks `update_locks` walks over; then the account, its freezes and its locks in the currency
pallet, as counted in runtime/kreivo/src/weights/pallet_communities.rs 224-233. -/
def unlockReads (s : St) (who : AccountId) (p : PollIx) : Nat :=
  match aget (s.locks who) p with
  | none => 2
  | some v => 2 + lockScan s who p v .remove + 3

/-- The reads `unlock` is charged for: runtime/kreivo/src/weights/pallet_communities.rs 234-242. -/
def unlockCharged : Nat := 6

/-- The charge is the one in the declared weight. -/
theorem unlockCharged_eq (p : PollIx) (other : Nat → Runtime.Weight) :
    Runtime.communityWeight other (.unlock p) = Runtime.measured 224360000 8123 unlockCharged 3 := rfl

theorem adel_length {l : List (PollIx × Vote)} (ok : AOk l) {p : PollIx} {v : Vote} (hl : aget l p = some v) :
    (adel l p).length + 1 = l.length := by
  induction l with
  | nil => cases hl
  | cons e l ih =>
    have ok' : AOk l := (List.nodup_cons.1 ok).2
    by_cases he : e.1 = p
    · have hno : ∀ x ∈ l, x.1 ≠ p := by
        intro x hx hxp
        exact (List.nodup_cons.1 ok).1 (List.mem_map.2 ⟨x, hx, hxp.trans he.symm⟩)
      have : adel (e :: l) p = l := by
        unfold adel
        rw [List.filter_cons_of_neg (by simp [he])]
        exact List.filter_eq_self.2 (fun x hx => by simp [hno x hx])
      rw [this]; rfl
    · have : adel (e :: l) p = e :: adel l p := by
        unfold adel
        rw [List.filter_cons_of_pos (by simp [he])]
      rw [this, List.length_cons, List.length_cons]
      rw [aget_cons, if_neg he] at hl
      rw [ih ok' hl]

/-! ## C116 -/

/-- C116: `unlock` reads no more than it is charged for exactly when the account has at most one other lock. Missing:
accounts with more locks. -/
theorem C116_charged_partial (cfg : Config) (s : St) (h : Reachable cfg s) (who : AccountId) (p : PollIx) (v : Vote)
    (hl : aget (s.locks who) p = some v) :
    unlockReads s who p ≤ unlockCharged ↔ (s.locks who).length ≤ 2 := by
  have ok := (reachable_aok h).2 who
  have hb := reachable_lock_balance h who p v hl
  have hlen := adel_length ok hl
  unfold unlockReads unlockCharged
  rw [hl]
  have : lockScan s who p v .remove = (adel (s.locks who) p).length := by
    cases v <;> first | rfl | cases hb
  dsimp only
  rw [this]
  omega

/-- Alice has voted with one unit in `n` polls of community 1, from number 1 on. -/
structure Demo.Many (n : Nat) (s : St) : Prop where
  reach : Reachable kreivo s
  method : s.method 1 = .native
  native : s.world.native Demo.alice = 1000
  frozenN : s.frozenN Demo.alice ≤ 1
  frozenA : ∀ k, s.frozenA k Demo.alice ≤ s.world.asset k Demo.alice
  member : checkMembership s.world.items Demo.alice 1 = some 1
  fresh : ∀ p : Nat, n < p → s.world.polls p = none
  unvoted : ∀ p : Nat, n < p → s.votes p = []
  unlocked : ∀ p : Nat, n < p → aget (s.locks Demo.alice) p = none
  count : (s.locks Demo.alice).length = n
  locked : ∀ p : Nat, 0 < p → p ≤ n → aget (s.locks Demo.alice) p = some (.native true 1)
  opened : ∀ p : Nat, 0 < p → p ≤ n → ∃ t, s.world.polls p = some (.ongoing t 1)

/-- Any number of polls can be opened and voted in. -/
theorem Demo.many (n : Nat) : ∃ s, Demo.Many n s := by
  induction n with
  | zero =>
    refine ⟨Demo.twice, Demo.twice_reachable, rfl, rfl, by decide, fun k => Nat.zero_le _, by decide +kernel, ?_,
      fun p _ => rfl, fun p _ => rfl, rfl, fun p h1 h2 => by omega, fun p h1 h2 => by omega⟩
    intro p hp
    show (if p = 0 then _ else _) = _
    rw [if_neg (by omega)]
  | succ n ih =>
    obtain ⟨s, hi⟩ := ih
    have hmove : PollsMove s.world { s.world with polls := fun p => if p = n + 1 then some (.ongoing .zero 1) else s.world.polls p } := by
      intro p
      dsimp only
      by_cases he : p = n + 1
      · subst he
        rw [hi.fresh (n + 1) (by omega), if_pos rfl]
        exact .inr ⟨1, rfl⟩
      · rw [if_neg he]
        exact pollsMove_of_eq (w := s.world) (w' := s.world) rfl p
    have hr1 := hi.reach.step (.world _ hmove)
    generalize hs1 : { s with world := { s.world with polls := fun p => if p = n + 1 then some (.ongoing .zero 1) else s.world.polls p } } = s1 at hr1
    have e1 : s1.method = s.method := by rw [← hs1]
    have e2 : s1.world.native = s.world.native := by rw [← hs1]
    have e3 : s1.frozenN = s.frozenN := by rw [← hs1]
    have e4 : s1.frozenA = s.frozenA := by rw [← hs1]
    have e5 : s1.world.asset = s.world.asset := by rw [← hs1]
    have e6 : s1.world.items = s.world.items := by rw [← hs1]
    have e7 : s1.votes = s.votes := by rw [← hs1]
    have e8 : s1.locks = s.locks := by rw [← hs1]
    have e9 : ∀ p, s1.world.polls p = if p = n + 1 then some (.ongoing .zero 1) else s.world.polls p := by
      intro p; rw [← hs1]
    have hnone : aget (s1.votes (n + 1)) 1 = none := by rw [e7, hi.unvoted _ (by omega)]; rfl
    obtain ⟨s2, hcall, _⟩ := C48_sufficient kreivo Demo.env s1 Demo.alice 1 (n + 1) (.native true 1) 1 .zero
      (by rw [e6]; exact hi.member) (by rw [e9, if_pos rfl]) (by rw [e1, hi.method]; simp [Suits]) hnone
      (by
        have h1 := hi.native
        have h2 := hi.frozenN
        rw [e2, e3, h1]
        simp only [lockedNative]
        omega)
      (by
        intro k
        rw [e4, e5]
        have := hi.frozenA k
        simpa [lockedAsset] using this)
      (fun _ _ _ => rfl) (fun _ _ _ _ => rfl)
    have hr2 := hr1.step (.call Demo.env Demo.env_lawful _ _ hcall)
    obtain ⟨who, c, s3, s4, ho, _, hm, _, hd, ⟨t, hcast⟩, rfl⟩ := vote_parts (show vote Demo.env s1 _ 1 (n + 1) _ = _ from hcall)
    cases ho
    have hs3 : s3 = s1 := by
      rcases hd with ⟨_, h⟩ | ⟨t, u, voter, h⟩
      · exact h
      · have := h.recorded
        rw [hnone] at this; cases this
    subst hs3
    have hc1 : c = 1 := by
      rw [e6, hi.member] at hm
      exact (Option.some.inj hm).symm
    subst hc1
    have hdel : adel (s.locks Demo.alice) (n + 1) = s.locks Demo.alice := by
      unfold adel
      refine List.filter_eq_self.2 (fun x hx => ?_)
      have ok := (reachable_aok hi.reach).2 Demo.alice
      have := aget_of_mem ok hx
      by_cases hxe : x.1 = n + 1
      · rw [hxe, hi.unlocked _ (by omega)] at this; cases this
      · simp [hxe]
    have hlocks : s4.locks Demo.alice = (n + 1, .native true 1) :: s.locks Demo.alice := by
      rw [hcast.locks, if_pos ⟨rfl, rfl⟩, e8, aset, hdel]
    refine ⟨_, hr2, ?_, ?_, ?_, ?_, ?_, ?_, ?_, ?_, ?_, ?_, ?_⟩
    · show s4.method 1 = _
      rw [hcast.method, e1, hi.method]
    · show s4.world.native _ = _
      rw [hcast.native, e2, hi.native]
    · show s4.frozenN _ ≤ _
      rw [hcast.frozenN, if_pos rfl, e3]
      have := hi.frozenN
      simp only [lockN]
      omega
    · intro k
      show s4.frozenA k _ ≤ s4.world.asset k _
      rw [hcast.frozenA, if_pos rfl, hcast.asset, e4, e5]
      have := hi.frozenA k
      simpa [lockA] using this
    · show checkMembership s4.world.items _ _ = _
      rw [hcast.items, e6, hi.member]
    · intro p hp
      have hne : p ≠ n + 1 := by omega
      show s4.world.polls p = none
      rw [hcast.polls, if_neg hne, e9, if_neg hne, hi.fresh p (by omega)]
    · intro p hp
      have hne : p ≠ n + 1 := by omega
      show s4.votes p = []
      rw [hcast.votes, if_neg hne, e7, hi.unvoted p (by omega)]
    · intro p hp
      have hne : n + 1 ≠ p := by omega
      show aget (s4.locks _) p = none
      rw [hlocks, aget_cons, if_neg hne, hi.unlocked p (by omega)]
    · show (s4.locks _).length = _
      rw [hlocks, List.length_cons, hi.count]
    · intro p h1 h2
      show aget (s4.locks _) p = _
      rw [hlocks, aget_cons]
      split
      · rfl
      · rename_i hne
        have hne' : ¬ n + 1 = p := hne
        exact hi.locked p h1 (by omega)
    · intro p h1 h2
      show ∃ t, s4.world.polls p = _
      rw [hcast.polls]
      split
      · exact ⟨_, rfl⟩
      · rename_i hne
        rw [e9, if_neg hne]
        have hne' : ¬ p = n + 1 := hne
        exact hi.opened p h1 (by omega)

/-- C116 fails: for every number there is a reachable state in which `unlock` succeeds and reads more entries than
that, for the same charge. -/
theorem C116_charged_fails (n : Nat) :
    ∃ s who p s', Reachable kreivo s ∧ dispatch kreivo Demo.env s (.signed who) (.unlock p) = .ok s' ∧
      n < unlockReads s who p := by
  obtain ⟨s, hi⟩ := Demo.many (n + 1)
  obtain ⟨t, ht⟩ := hi.opened 1 (by omega) (by omega)
  have hmove : PollsMove s.world { s.world with polls := fun p => if p = 1 then some .ended else s.world.polls p } := by
    intro p
    dsimp only
    by_cases he : p = 1
    · subst he
      rw [ht, if_pos rfl]
      exact .inr rfl
    · rw [if_neg he]
      exact pollsMove_of_eq (w := s.world) (w' := s.world) rfl p
  have hr := hi.reach.step (.world _ hmove)
  have hl := hi.locked 1 (by omega) (by omega)
  obtain ⟨s', hs', _⟩ := C54_afterwards kreivo Demo.env _ hr Demo.alice 1 (.native true 1)
    (by intro t c h; simp at h) hl
    (by have h1 := hi.native; have h2 := hi.frozenN; show s.frozenN _ ≤ s.world.native _; omega) hi.frozenA
    (fun _ _ _ => rfl) (fun _ _ _ _ => rfl)
  refine ⟨_, Demo.alice, 1, s', hr, hs', ?_⟩
  have hc := hi.count
  unfold unlockReads
  show n < match aget (s.locks Demo.alice) 1 with | none => 2 | some v => 2 + lockScan _ Demo.alice 1 v .remove + 3
  rw [hl]
  show n < 2 + (adel (s.locks Demo.alice) 1).length + 3
  have hlen : n ≤ (adel (s.locks Demo.alice) 1).length := by
    have := adel_length ((reachable_aok hi.reach).2 _) hl
    omega
  omega

/-- The condition of the partial theorem is met by someone with a single lock. -/
example :
    let s := after kreivo Demo.env Demo.twice [(.signed Demo.alice, .vote 1 0 (.native true 100))]
    Reachable kreivo s ∧ aget (s.locks Demo.alice) 0 = some (.native true 100) ∧ unlockReads s Demo.alice 0 = 5 :=
  ⟨after_reachable Demo.env_lawful Demo.twice_reachable _, by decide +kernel, by decide +kernel⟩

end Verif.Communities
