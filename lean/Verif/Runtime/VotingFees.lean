import Verif.Communities.LockTheorems
import Verif.Runtime.Charge

/-!
# C215: paying for votes

Calls of the communities pallet as transactions: the fee is charged first, out of what is not frozen (`Charge`), then the call
runs, then what was charged too much is given back.
-/

namespace Verif.Runtime

open Verif Verif.Accounts Verif.Communities

/-- The balances the fee is taken from: those the votes freeze. Both pallets use `Balances` and `Assets`
(runtime/kreivo/src/communities/mod.rs, `type Balances` and `type Assets`; configuration/monetary_stuff.rs 43 and 106-109).
Simplification: no other freezes, and no funds reserved. -/
def moneyOf (s : St) : Money :=
  ⟨s.world.native, s.frozenN, s.world.nativeIssuance, s.world.asset, s.frozenA, s.world.assetIssuance⟩

/-- The state with other balances. Part of the transition system around the code (outside /repo). -/
def withMoney (s : St) (m : Money) : St :=
  { s with world := { s.world with
      native := m.native
      nativeIssuance := m.issued
      asset := m.asset
      assetIssuance := m.issuedA } }

/-- A transaction signed by an account that has no gas: `fee` is what the declared weight costs and `due` what the weight used
does. `none`: the transaction is invalid and in no block. The order of charging, calling and settling is that of the signed
extension `ChargeTransaction`, runtime/kreivo/src/lib.rs 128. -/
def signAndSend (cenv : ChargeEnv) (cfg : Config) (env : Env) (s : St) (who : AccountId) (asset : Option Nat) (fee due : Nat)
    (c : Communities.Call) : Option St :=
  match charge cenv (moneyOf s) who false asset fee with
  | none => none
  | some (m, paid) =>
    let s1 := withMoney s m
    let s2 := match Communities.dispatch cfg env s1 (.signed who) c with
      | .ok s2 => s2
      | .error _ => s1
    (settle cenv (moneyOf s2) paid due).map (withMoney s2)

/-! ## Lemmas -/

theorem withMoney_step {cfg : Config} {s : St} (h : Communities.Reachable cfg s) (m : Money) :
    Communities.Reachable cfg (withMoney s m) :=
  h.step (.world _ (pollsMove_of_eq rfl))

/-- Transactions are steps of the chain. -/
theorem signAndSend_reachable {cenv : ChargeEnv} {cfg : Config} {env : Env} (he : Lawful env) {s s' : St} {who : AccountId}
    {asset : Option Nat} {fee due : Nat} {c : Communities.Call} (h : Communities.Reachable cfg s)
    (hs : signAndSend cenv cfg env s who asset fee due c = some s') : Communities.Reachable cfg s' := by
  unfold signAndSend at hs
  cases hc : charge cenv (moneyOf s) who false asset fee with
  | none => rw [hc] at hs; cases hs
  | some r =>
    obtain ⟨m, paid⟩ := r
    rw [hc] at hs
    simp only [Option.map_eq_some_iff] at hs
    obtain ⟨m2, _, rfl⟩ := hs
    refine withMoney_step ?_ _
    cases hd : Communities.dispatch cfg env (withMoney s m) (.signed who) c with
    | ok s2 => exact (withMoney_step h m).step (.call env he _ _ hd)
    | error e => exact withMoney_step h m

/-- Settling takes nothing from anybody. -/
theorem settle_native_le {cenv : ChargeEnv} {m m' : Money} {who : Acct} {amount due : Nat}
    (h : settle cenv m (.native who amount) due = some m') (a : Acct) : m.native a ≤ m'.native a := by
  simp only [settle, Option.some.injEq] at h
  subst h
  generalize (if 0 < m.native who then amount - due else 0) = r
  have h1 : m.native a ≤ put m.native who (m.native who + r) a := by
    unfold put; split
    · rename_i e; subst e; omega
    · exact Nat.le_refl _
  unfold resolveN
  split
  · exact h1
  · split
    · exact h1
    · show _ ≤ put _ _ _ a
      unfold put at h1 ⊢
      dsimp only
      split
      · rename_i e; subst e; omega
      · exact h1

theorem charge_native {cenv : ChargeEnv} {m : Money} {who : Acct} {fee : Nat} (hf : 0 < fee)
    (h : fee + max cenv.ed (m.locked who) ≤ m.native who) :
    charge cenv m who false none fee =
      some ({ m with native := put m.native who (m.native who - fee) }, .native who fee) := by
  unfold charge withdrawFee
  rw [if_neg (by decide), if_neg (by omega)]
  simp only
  rw [if_neg (by omega)]

/-! ## C215 -/

/-- **C215.** Whoever has a lock of a poll that is over, and the fee beyond what is frozen and the existential deposit, gets rid
of the lock by a transaction of their own, and what stays frozen is the largest lock left. Missing: voters who staked
all they have. -/
theorem C215_unlock_partial {cenv : ChargeEnv} {cfg : Config} {env : Env} {s : St} {who : AccountId} {fee due : Nat} {p : PollIx}
    {v : Vote} (h : Communities.Reachable cfg s) (hf : 0 < fee)
    (hmoney : fee + max cenv.ed (s.frozenN who) ≤ s.world.native who)
    (hA : ∀ k, s.frozenA k who ≤ s.world.asset k who)
    (hp : ∀ t c, s.world.polls p ≠ some (.ongoing t c)) (hl : aget (s.locks who) p = some v)
    (d1 : ∀ x a n, env.denyFreezeN x a n = false) (d2 : ∀ x k a n, env.denyFreezeA x k a n = false) :
    ∃ s', signAndSend cenv cfg env s who none fee due (.unlock p) = some s' ∧ aget (s'.locks who) p = none ∧
      (∀ q, q ≠ p → aget (s'.locks who) q = aget (s.locks who) q) ∧
      (∀ b n, v = .native b n → LargestNative s' who (s'.frozenN who)) ∧
      (∀ b k n, v = .asset b k n → LargestAsset s' k who (s'.frozenA k who)) ∧
      s.world.native who - fee ≤ s'.world.native who := by
  have hc := charge_native (m := moneyOf s) hf hmoney
  generalize hm : ({ moneyOf s with native := put (moneyOf s).native who ((moneyOf s).native who - fee) } : Money) = m at hc
  have hn : m.native who = s.world.native who - fee := by subst hm; exact if_pos rfl
  have ha : m.asset = s.world.asset := by subst hm; rfl
  obtain ⟨s2, g1, g2, g3, g4, g5, g6⟩ := C54_afterwards cfg env (withMoney s m) (withMoney_step h m) who p v hp hl
    (by show s.frozenN who ≤ m.native who; rw [hn]; omega) (by intro k; show _ ≤ m.asset k who; rw [ha]; exact hA k) d1 d2
  have hw : s2.world = (withMoney s m).world := by
    obtain ⟨w', v', e1, hu⟩ := unlock_unlocked (show unlock env (withMoney s m) (.signed who) p = .ok s2 from g1)
    exact hu.polls
  have hsome : ∃ m2, settle cenv (moneyOf s2) (.native who fee) due = some m2 := ⟨_, rfl⟩
  obtain ⟨m2, hm2⟩ := hsome
  refine ⟨withMoney s2 m2, ?_, g2, fun q hq => g3 who q (.inr hq), g4, g5, ?_⟩
  · unfold signAndSend
    rw [hc]
    simp only [g1, hm2, Option.map_some]
  · have := settle_native_le hm2 who
    have e : (moneyOf s2).native who = m.native who := by show s2.world.native who = _; rw [hw]; rfl
    show _ ≤ m2.native who
    omega

/-- **C215.** A member who keeps the fees of two transactions beyond the stake can vote, and can afford to unlock right after.
Missing: voters who stake more. -/
theorem C215_keep_partial {cenv : ChargeEnv} {cfg : Config} {env : Env} {s : St} {who : AccountId} {fee fee2 due : Nat}
    {m : MId} {p : PollIx} {c : CId} {t : Tally} {b : Bool} {n : Nat}
    (hf : 0 < fee) (hmoney : fee + fee2 + max cenv.ed (max (s.frozenN who) n) ≤ s.world.native who)
    (hA : ∀ k, s.frozenA k who ≤ s.world.asset k who)
    (hm : checkMembership s.world.items who m = some c) (hp : s.world.polls p = some (.ongoing t c))
    (hs : s.method c = .native) (hn0 : 0 < n) (hfresh : aget (s.votes p) m = none)
    (d1 : ∀ x a n, env.denyFreezeN x a n = false) (d2 : ∀ x k a n, env.denyFreezeA x k a n = false) :
    ∃ s', signAndSend cenv cfg env s who none fee due (.vote m p (.native b n)) = some s' ∧
      aget (s'.votes p) m = some (.native b n, who) ∧ aget (s'.locks who) p = some (.native b n) ∧
      s'.frozenN who = max (s.frozenN who) n ∧ fee2 + max cenv.ed (s'.frozenN who) ≤ s'.world.native who := by
  have hc := charge_native (m := moneyOf s) (cenv := cenv) (who := who) (fee := fee) hf
    (by show _ + max _ (s.frozenN who) ≤ s.world.native who; omega)
  generalize hmm : ({ moneyOf s with native := put (moneyOf s).native who ((moneyOf s).native who - fee) } : Money) = mm at hc
  have hn : mm.native who = s.world.native who - fee := by subst hmm; exact if_pos rfl
  have ha : mm.asset = s.world.asset := by subst hmm; rfl
  obtain ⟨s2, g1, g2⟩ := C48_sufficient cfg env (withMoney s mm) who m p (.native b n) c t hm hp ⟨hs, hn0⟩ hfresh
    (by show max (s.frozenN who) n ≤ mm.native who; rw [hn]; omega)
    (by intro k; show max (s.frozenA k who) 0 ≤ mm.asset k who; rw [ha]; have := hA k; omega) d1 d2
  obtain ⟨who', c', s0, s1, e1, _, _, _, h5, ⟨t', h6⟩, e2⟩ :=
    vote_parts (show vote env (withMoney s mm) (.signed who) m p (.native b n) = .ok s2 from g1)
  cases e1
  have hs0 : s0 = withMoney s mm := by
    rcases h5 with ⟨_, h⟩ | ⟨_, u, voter, h⟩
    · exact h
    · have hr := h.recorded
      have : aget ((withMoney s mm).votes p) m = none := hfresh
      rw [this] at hr; cases hr
  subst hs0
  have hfz : s2.frozenN who = max (s.frozenN who) n := by
    rw [e2]
    show s1.frozenN who = _
    rw [h6.frozenN, if_pos rfl]; rfl
  have hlk : aget (s2.locks who) p = some (.native b n) := by
    rw [e2]
    show aget (s1.locks who) p = _
    rw [h6.locks, if_pos ⟨rfl, rfl⟩, aget_aset_self]
  have hnat : s2.world.native who = s.world.native who - fee := by
    rw [e2]
    show s1.world.native who = _
    rw [h6.native]; exact hn
  have hsome : ∃ m2, settle cenv (moneyOf s2) (.native who fee) due = some m2 := ⟨_, rfl⟩
  obtain ⟨m2, hm2⟩ := hsome
  refine ⟨withMoney s2 m2, ?_, g2, hlk, hfz, ?_⟩
  · unfold signAndSend
    rw [hc]
    simp only [g1, hm2, Option.map_some]
  · have := settle_native_le hm2 who
    have e : (moneyOf s2).native who = s2.world.native who := rfl
    show fee2 + max _ (s2.frozenN who) ≤ m2.native who
    rw [hfz]
    omega

/-! ## Examples and a counterexample -/

/-- Existential deposit 10; the treasury is account `[9]`; there are no assets to pay fees with. Example (outside /repo). -/
def Demo.cenv : ChargeEnv := ⟨10, [9], none, fun _ => none, fun _ _ => false⟩

/-- Alice votes with 995 of their 1000, after 5 for the fee, and the poll ends. Example (outside /repo). -/
def Demo.staked : St :=
  Communities.Demo.closed ((signAndSend Demo.cenv kreivo Communities.Demo.env Communities.Demo.twice Communities.Demo.alice none 5 5
    (.vote 1 0 (.native true 995))).getD Communities.Demo.twice)

theorem Demo.staked_vote : ∃ s, signAndSend Demo.cenv kreivo Communities.Demo.env Communities.Demo.twice Communities.Demo.alice none
    5 5 (.vote 1 0 (.native true 995)) = some s ∧ Demo.staked = Communities.Demo.closed s ∧
    s.votes 0 = [(1, (.native true 995, Communities.Demo.alice))] ∧ (∃ t c, s.world.polls 0 = some (.ongoing t c)) :=
  ⟨_, rfl, rfl, by decide +kernel, _, _, rfl⟩

/-- **C215** is false of the code: a vote with all that is left after its fee is accepted, and from then on no transaction of the
voter is valid, to unlock the stake or for any other call, even when the poll is over. (They have no gas and no asset that fees
can be paid with; somebody else has to send them funds.) -/
theorem C215_stuck_fails : Communities.Reachable kreivo Demo.staked ∧
    (∀ t c, Demo.staked.world.polls 0 ≠ some (.ongoing t c)) ∧
    aget (Demo.staked.locks Communities.Demo.alice) 0 = some (.native true 995) ∧
    ∀ (env : Env) (asset : Option Nat) (fee due : Nat) (c : Communities.Call), 0 < fee →
      signAndSend Demo.cenv kreivo env Demo.staked Communities.Demo.alice asset fee due c = none := by
  obtain ⟨s, h1, h2, _, h4⟩ := Demo.staked_vote
  refine ⟨?_, ?_, by decide +kernel, ?_⟩
  · rw [h2]
    exact Communities.Demo.closed_reachable
      (signAndSend_reachable Communities.Demo.env_lawful Communities.Demo.twice_reachable h1) h4
  · intro t c h
    have : Demo.staked.world.polls 0 = some .ended := by rw [h2]; rfl
    rw [this] at h; cases h
  · intro env asset fee due c hf
    have hn : Demo.staked.world.native Communities.Demo.alice = 995 := by decide +kernel
    have hz : Demo.staked.frozenN Communities.Demo.alice = 995 := by decide +kernel
    have hc : charge Demo.cenv (moneyOf Demo.staked) Communities.Demo.alice false asset fee = none := by
      unfold charge withdrawFee
      rw [if_neg (by decide), if_neg (by omega)]
      cases asset with
      | none =>
        simp only
        have h1 : (moneyOf Demo.staked).native Communities.Demo.alice = 995 := hn
        have h2 : (moneyOf Demo.staked).locked Communities.Demo.alice = 995 := hz
        rw [h1, h2, if_pos (by omega)]
      | some k => rfl
    unfold signAndSend
    rw [hc]

/-- With 985 the vote can be taken back. -/
example : ∃ s', signAndSend Demo.cenv kreivo Communities.Demo.env Communities.Demo.twice Communities.Demo.alice none 5 5
    (.vote 1 0 (.native true 985)) = some s' ∧ aget (s'.votes 0) 1 = some (.native true 985, Communities.Demo.alice) ∧
    aget (s'.locks Communities.Demo.alice) 0 = some (.native true 985) ∧
    s'.frozenN Communities.Demo.alice = max (Communities.Demo.twice.frozenN Communities.Demo.alice) 985 ∧
    10 + max 10 (s'.frozenN Communities.Demo.alice) ≤ s'.world.native Communities.Demo.alice :=
  C215_keep_partial (cenv := Demo.cenv) (c := 1) (t := .zero) (by decide) (by decide +kernel)
    (fun k => by show 0 ≤ 1000; omega) (by decide +kernel) (by decide +kernel) (by decide +kernel) (by decide) (by decide +kernel)
    (fun _ _ _ => rfl) (fun _ _ _ _ => rfl)

/-- And the stake is unlocked for a fee of 10. -/
example :
    let s := Communities.Demo.closed ((signAndSend Demo.cenv kreivo Communities.Demo.env Communities.Demo.twice
      Communities.Demo.alice none 5 5 (.vote 1 0 (.native true 985))).getD Communities.Demo.twice)
    ∃ s', signAndSend Demo.cenv kreivo Communities.Demo.env s Communities.Demo.alice none 10 7 (.unlock 0) = some s' ∧
      s'.frozenN Communities.Demo.alice = 0 ∧ s'.world.native Communities.Demo.alice = 988 :=
  ⟨_, rfl, by decide +kernel, by decide +kernel⟩

end Verif.Runtime
