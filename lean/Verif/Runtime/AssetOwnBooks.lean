import Verif.Runtime.AssetGivenTheorems

/-!
# The books of one asset, whatever happens to others (C203, C208)
-/

namespace Verif.Runtime.Units

open Verif Verif.Accounts

/-- Steps after which no units of the asset have gone astray: no account of it is given up with units on it or destroyed, and
root sets no other minimum for it. Specification only, no code behind it (outside /repo). -/
def TidyFor (k : Key) : Step → Prop
  | .call _ (.refund q true) => q ≠ k
  | .call _ (.destroyAccounts q _) => q ≠ k
  | .call _ (.forceAssetStatus q _ _ _ _ _ _ _) => q ≠ k
  | _ => True

/-- Root does not set another minimum for the asset. Specification only, no code behind it (outside /repo). -/
def UnforcedFor (k : Key) : Step → Prop
  | .call _ (.forceAssetStatus q _ _ _ _ _ _ _) => q ≠ k
  | _ => True

theorem drop_elsewhere {s : St} {q k : Key} (hq : q ≠ k) (who : AccountId) :
    (drop s q who).info k = s.info k ∧ ∀ a, (drop s q who).acct k a = s.acct k a := by
  cases hi : s.info q with
  | none => unfold drop; rw [hi]; exact ⟨rfl, fun _ => rfl⟩
  | some d =>
    refine ⟨?_, fun a => ?_⟩
    · rw [drop_info hi, if_neg fun e => hq e.symm]
    · rw [drop_acct hi, if_neg fun e => hq e.1.symm]

theorem destroy_elsewhere {q k : Key} (hq : q ≠ k) (l : List AccountId) : ∀ s : St,
    (l.foldl (destroyAccount q) s).info k = s.info k ∧ ∀ a, (l.foldl (destroyAccount q) s).acct k a = s.acct k a := by
  induction l with
  | nil => exact fun s => ⟨rfl, fun _ => rfl⟩
  | cons x l ih =>
    intro s
    have h1 := ih (destroyAccount q s x)
    have h2 : (destroyAccount q s x).info k = s.info k ∧ ∀ a, (destroyAccount q s x).acct k a = s.acct k a := by
      rcases destroyAccount_facts q s x with ⟨_, e⟩ | ⟨a, _, e⟩
      · rw [e]; exact ⟨rfl, fun _ => rfl⟩
      · rw [e]
        have h3 := drop_elsewhere (s := payBack s x a.reason) hq x
        have h4 := payBack_eq s x a.reason
        rw [h4.1, h4.2.1] at h3
        exact h3
    exact ⟨h1.1.trans h2.1, fun a => (h1.2 a).trans (h2.2 a)⟩

/-- An untidy step about another asset leaves this one alone. -/
theorem untidy_elsewhere {env : Env} {s s' : St} {x : Step} {k : Key} (hs : step env s x = some s') (ht : ¬ Tidy x)
    (hk : TidyFor k x) : s'.info k = s.info k ∧ ∀ a, s'.acct k a = s.acct k a := by
  unfold Tidy at ht
  split at ht
  · rename_i o q
    cases o with
    | signed by_ =>
      have hq : q ≠ k := hk
      obtain ⟨d, a, hi, ha, _, _, ⟨_, rfl⟩ | ⟨n, _, rfl⟩⟩ := refund_facts (show refund s q by_ true = some s' from hs)
      · exact drop_elsewhere hq _
      · exact drop_elsewhere (s := s.unreserve by_ n) hq _
    | _ => cases hs
  · rename_i o q l
    cases o with
    | signed by_ =>
      have hq : q ≠ k := hk
      simp only [step, call, bySigner] at hs
      split at hs
      · split at hs
        · cases hs; exact destroy_elsewhere hq l s
        · cases hs
      · cases hs
    | _ => cases hs
  · rename_i o q _ _ _ _ _ _ _
    cases o with
    | root =>
      have hq : q ≠ k := hk
      simp only [step, call, byRoot] at hs
      split at hs
      · split at hs
        · cases hs
        · cases hs
          exact ⟨by rw [setInfo_info, if_neg fun e => hq e.symm], fun _ => rfl⟩
      · cases hs
    | _ => cases hs
  · exact (ht trivial).elim

/-- **C203**, what holds of it for one asset: as long as no account of it is given up with units on it, none is destroyed with
it, and root forces no other minimum for it, its units add up to its supply, whatever happens to other assets. -/
theorem C203_own_supply_partial (l : List Step) (s : St) (h : Reach genesis l s) (k : Key) (ht : ∀ x ∈ l, TidyFor k x) :
    SumsTo (s.has k) (s.supply k) := by
  have key : CountedA s ∧ FedAt s k ∧ AddsUp s k 0 := by
    induction h with
    | refl => exact ⟨fun k => (genesis_counted k).1, (fun d a x hi => nomatch hi), addsUp_zero (fun _ => rfl) rfl⟩
    | @step l s s' env x h hs ih =>
      obtain ⟨hc, hf, ha⟩ := ih fun y hy => ht y (List.mem_cons_of_mem _ hy)
      by_cases hx : Tidy x
      · refine (step_acts true hs fun _ => hx).keep (P := fun s => CountedA s ∧ FedAt s k ∧ AddsUp s k 0)
          (fun s s' act hp => ?_) ⟨hc, hf, ha⟩
        obtain ⟨hc, hf, ha⟩ := hp
        obtain ⟨y, hy, e1, e2⟩ := act_addsUp s s' act hc k 0 ha (fun _ => hf)
        refine ⟨act_countedA s s' act hc, act_fedAt k s s' act hc hf, ?_⟩
        have : y = 0 := by
          by_cases h1 : s.info k = none
          · exact (e2 rfl (.inl h1)).elim id id
          · by_cases h2 : s'.info k = none
            · exact (e2 rfl (.inr h2)).elim id id
            · exact e1 rfl h1 h2
        rw [← this]; exact hy
      · obtain ⟨h1, h2⟩ := untidy_elsewhere hs hx (ht x List.mem_cons_self)
        refine ⟨(step_acts false hs fun e => nomatch e).keep act_countedA hc, ?_, ?_⟩
        · intro d a y hi hy hp
          rw [h1] at hi; rw [h2] at hy
          exact hf d a y hi hy hp
        · exact addsUp_same ha (fun a => by unfold St.has; rw [h2]) (by unfold St.supply; rw [h1])
  obtain ⟨t, h1, h2⟩ := key.2.2
  have e : t = s.supply k := by omega
  rw [← e]; exact h1

/-- **C208**: in every history in which root sets no other minimum for the asset, an account of it nobody left a deposit for has
at least the minimum, whatever happens to other assets. -/
theorem C208_own_minimum (l : List Step) (s : St) (h : Reach genesis l s) (k : Key) (hl : ∀ x ∈ l, UnforcedFor k x) (d : Info)
    (a : AccountId) (x : Acct) (hd : s.info k = some d) (hx : s.acct k a = some x) (hr : x.reason.pinned = false) :
    d.min ≤ x.balance := by
  have drop_fed : ∀ (s : St) (q : Key) (who : AccountId), FedAt s k → FedAt (drop s q who) k := by
    intro s q who hf d b y hi hy hp
    cases hk : s.info q with
    | none => unfold drop at hi hy; rw [hk] at hi hy; exact hf d b y hi hy hp
    | some d0 =>
      rw [drop_info hk] at hi
      rw [drop_acct hk] at hy
      split at hy
      · cases hy
      · split at hi
        · rename_i e; subst e; cases hi; exact hf d0 b y hk hy hp
        · exact hf d b y hi hy hp
  have same_fed : ∀ (s s' : St), s'.info = s.info → s'.acct = s.acct → FedAt s k → FedAt s' k := by
    intro s s' h1 h2 hf d b y hi hy hp
    rw [h1] at hi; rw [h2] at hy
    exact hf d b y hi hy hp
  have destroy_fed : ∀ (q : Key) (l : List AccountId) (s : St), FedAt s k → FedAt (l.foldl (destroyAccount q) s) k := by
    intro q l
    induction l with
    | nil => exact fun s h => h
    | cons x l ih =>
      intro s h
      refine ih _ ?_
      rcases destroyAccount_facts q s x with ⟨_, e⟩ | ⟨a, _, e⟩
      · rw [e]; exact h
      · rw [e]
        have := payBack_eq s x a.reason
        exact drop_fed _ q x (same_fed _ _ this.1 this.2.1 h)
  have key : CountedA s ∧ FedAt s k := by
    clear hd hx
    induction h with
    | refl => exact ⟨fun k => (genesis_counted k).1, fun d a x hi => nomatch hi⟩
    | @step l s s' env x h hs ih =>
      obtain ⟨hc, hf⟩ := ih fun y hy => hl y (List.mem_cons_of_mem _ hy)
      have hx := hl x List.mem_cons_self
      refine ⟨(step_acts false hs fun e => nomatch e).keep act_countedA hc, ?_⟩
      by_cases ht : Tidy x
      · exact ((step_acts true hs fun _ => ht).keep (P := fun s => CountedA s ∧ FedAt s k)
          (fun a b h1 h2 => ⟨act_countedA a b h1 h2.1, act_fedAt k a b h1 h2.1 h2.2⟩) ⟨hc, hf⟩).2
      · by_cases hk : TidyFor k x
        · obtain ⟨h1, h2⟩ := untidy_elsewhere hs ht hk
          intro d a y hi hy hp
          rw [h1] at hi; rw [h2] at hy
          exact hf d a y hi hy hp
        · unfold Tidy at ht
          split at ht
          · rename_i o q
            cases o with
            | signed by_ =>
              obtain ⟨d, a, hi, ha, _, _, ⟨_, rfl⟩ | ⟨n, _, rfl⟩⟩ := refund_facts (show refund s q by_ true = some s' from hs)
              · exact drop_fed _ _ _ hf
              · exact drop_fed _ _ _ (same_fed s (s.unreserve by_ n) rfl rfl hf)
            | _ => cases hs
          · rename_i o q l
            cases o with
            | signed by_ =>
              simp only [step, call, bySigner] at hs
              split at hs
              · split at hs
                · cases hs; exact destroy_fed q l s hf
                · cases hs
              · cases hs
            | _ => cases hs
          · exact (hk hx).elim
          · exact (ht trivial).elim
  exact key.2 d a x hd hx hr

/-- Bob gives up 100 units of one asset; the units of another still add up. -/
example :
    let l : List Step := [.call .root (.forceCreate 0 Demo.alice false 10), .call (.signed Demo.alice) (.mint 0 Demo.bob 100),
      .call .root (.forceCreate 1 Demo.alice false 10), .call (.signed Demo.alice) (.mint 1 Demo.bob 50),
      .call (.signed Demo.bob) (.refund 0 true)]
    (∀ x ∈ l, TidyFor 1 x) ∧ ¬ (∀ x ∈ l, Tidy x) ∧
      (Demo.run genesis l).map (fun s => (s.has 1 Demo.bob, s.supply 1, s.has 0 Demo.bob, s.supply 0)) =
        some (50, 50, 0, 100) := by
  refine ⟨by simp [TidyFor], by simp [Tidy], by decide +kernel⟩

end Verif.Runtime.Units
