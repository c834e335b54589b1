import Verif.Xcm.ExactTheorems

/-!
# C199: what is teleported away stays behind, and nothing arrives by teleport
-/

namespace Verif.Xcm

open Verif Verif.Runtime Verif.Accounts

/-! ## Specification -/

/-- The account teleports are recorded on: the bytes of `modlpy/xcmch` and zeros. Specification only, no code behind it (outside
/repo). -/
def checking : AccountId := [109, 111, 100, 108, 112, 121, 47, 120, 99, 109, 99, 104] ++ List.replicate 20 0

/-- Somebody on another chain, or an account, but not the checking account, nor the relay chain as a whole. Specification only,
no code behind it (outside /repo). -/
def NotChecking (l : Location) : Prop :=
  (∃ p more, l = ⟨1, .parachain p :: more⟩) ∨ (∃ n a, l = ⟨1, [.accountId32 n a]⟩ ∧ a ≠ checking) ∨
  ∃ n a, l = ⟨0, [.accountId32 n a]⟩ ∧ a ≠ checking

theorem checking_eq : checkAccount = checking := by decide +kernel

theorem sibling_ne_checking (p : UInt32) : siblingAccount p ≠ checking := by
  intro h
  have h1 : (siblingAccount p)[0]? = some 115 := by
    unfold siblingAccount pad32 sibl
    rfl
  rw [h] at h1
  exact absurd h1 (by decide +kernel)

/-! ## C199 -/

/-- C199: what a message teleports away is put on the checking account, exactly, and on no other; of an asset of which nothing
exists on this chain, nothing is put anywhere. -/
theorem C199_kept (m m' : Mach) (luck : Luck) (dst l : Location) (n : Nat) (cur : Cur) (hm : matchAsset l = .cur cur)
    (h : m.effect luck (.initiateTeleport (.definite [(l, n)]) dst) = .ok m') :
    (∀ k, amt m'.holding k = amt m.holding k - if k = l then Nat.min n (amt m.holding l) else 0) ∧
    (cur = .native ∨ m.chain.ledger.supply cur ≠ 0 → ∀ k x, m'.chain.ledger.get k x =
      m.chain.ledger.get k x + if k = cur ∧ x = checking then Nat.min n (amt m.holding l) else 0) ∧
    (cur ≠ .native → m.chain.ledger.supply cur = 0 → m'.chain.ledger = m.chain.ledger) := by
  have hold : ∀ k, amt (aset m.holding l (amt m.holding l - Nat.min n (amt m.holding l))) k =
      amt m.holding k - if k = l then Nat.min n (amt m.holding l) else 0 := by
    intro k
    rw [amt_aset]
    split
    · rename_i e; rw [e]
    · rfl
  unfold Mach.effect at h
  simp only [VFilter.wanted, takeList] at h
  by_cases h0 : Nat.min n (amt m.holding l) = 0
  · rw [if_pos h0] at h
    simp only [eachAsset] at h
    cases h
    refine ⟨hold, fun _ k x => ?_, fun _ _ => rfl⟩
    rw [h0]
    simp [Mach.setAcc, Mach.acc]
  · rw [if_neg h0] at h
    simp only [eachAsset, hm, checkOut] at h
    by_cases hc : cur ≠ .native ∧ (Mach.acc m).1.supply cur = 0
    · rw [if_pos hc] at h
      cases h
      refine ⟨hold, fun hs => ?_, fun _ _ => rfl⟩
      rcases hs with hs | hs
      · exact absurd hs hc.1
      · exact absurd hc.2 hs
    · rw [if_neg hc] at h
      cases hd : (Mach.acc m).1.deposit cur checkAccount (Nat.min n (amt m.holding l)) with
      | none => rw [hd] at h; cases h
      | some L =>
        rw [hd] at h
        simp only [Option.map_some] at h
        cases h
        rw [checking_eq] at hd
        exact ⟨hold, fun _ => (deposit_precise hd).2, fun h1 h2 => absurd ⟨h1, h2⟩ hc⟩

/-- What is checked out goes to the checking account, asset by asset. -/
theorem checkOuts {as : List XAsset} : ∀ {a a' : Acc}, AOk a.1.bal → eachAsset checkOut a as = .ok a' → ∀ c : Cur,
    (a'.1.supply c = 0 ↔ a.1.supply c = 0 ∧ (c = .native → sumAt as c.location = 0)) ∧
    ∀ x, a'.1.get c x = a.1.get c x +
      if x = checking ∧ (c = .native ∨ a.1.supply c ≠ 0) then sumAt as c.location else 0 := by
  induction as with
  | nil =>
    intro a a' _ h c
    simp only [eachAsset] at h
    cases h
    simp [sumAt]
  | cons e as ih =>
    obtain ⟨l, n⟩ := e
    intro a a' ok h c
    simp only [eachAsset] at h
    cases hm : matchAsset l with
    | panic => rw [hm] at h; cases h
    | no => rw [hm] at h; cases h
    | cur d =>
      rw [hm] at h
      have hl := match_location hm
      have hinj : ∀ c' : Cur, l = c'.location → d = c' := by
        intro c' e
        have := location_match c'
        rw [← e, hm] at this
        cases this; rfl
      simp only [sumAt]
      by_cases hc : d ≠ .native ∧ a.1.supply d = 0
      · simp only [checkOut, if_pos hc] at h
        obtain ⟨h1, h2⟩ := ih (a := (a.1, put a.2 d.location n)) ok h c
        refine ⟨?_, fun x => ?_⟩
        · rw [h1]
          by_cases hcn : c = .native
          · have : l ≠ c.location := fun e => hc.1 ((hinj c e).trans hcn)
            simp [this]
          · simp [hcn]
        · rw [h2 x]
          by_cases e : l = c.location
          · have := hinj c e
            subst this
            simp [hc.1, hc.2]
          · simp [e]
      · simp only [checkOut, if_neg hc] at h
        cases hd : a.1.deposit d checkAccount n with
        | none => rw [hd] at h; cases h
        | some L =>
          rw [hd] at h
          simp only [Option.map_some] at h
          rw [checking_eq] at hd
          obtain ⟨ok', hs⟩ := deposit_supply ok hd c
          have hg := (deposit_precise hd).2
          obtain ⟨h1, h2⟩ := ih (a := (L, a.2)) ok' h c
          have hh : d = .native ∨ a.1.supply d ≠ 0 := by
            by_contra hcon; exact hc ⟨fun e => hcon (.inl e), by by_contra h0; exact hcon (.inr h0)⟩
          by_cases e : d = c
          · subst e
            rw [if_pos rfl] at hs
            simp only [hl, if_true] at *
            refine ⟨?_, fun x => ?_⟩
            · rw [h1, hs]
              rcases hh with hh | hh
              · simp [hh]; omega
              · constructor
                · rintro ⟨h3, _⟩; omega
                · rintro ⟨h3, _⟩; exact absurd h3 hh
            · rw [h2 x, hg d x, hs]
              by_cases hx : x = checking
              · have h3 : d = .native ∨ a.1.supply d + n ≠ 0 := by
                  rcases hh with hh | hh
                  · exact .inl hh
                  · exact .inr (by omega)
                simp only [hx, h3, hh, true_and, and_self, if_true]
                omega
              · simp [hx]
          · have e' : l ≠ c.location := fun h => e (hinj c h)
            rw [if_neg e, Nat.add_zero] at hs
            simp only [e', if_false, Nat.zero_add] at *
            rw [hs] at h1
            refine ⟨h1, fun x => ?_⟩
            rw [h2 x, hg c x, hs, if_neg (by rintro ⟨h, _⟩; exact e h.symm), Nat.add_zero]

/-- C199, whatever the message chooses to teleport, many assets or all it holds: of each currency of this chain, just what leaves
the holding is put on the checking account, and on no other; of an asset of which nothing exists here, nothing is put anywhere.
(`AOk`: the ledger has one entry for each account.) -/
theorem C199_kept_all (m m' : Mach) (luck : Luck) (dst : Location) (f : VFilter) (ok : AOk m.chain.ledger.bal)
    (h : m.effect luck (.initiateTeleport f dst) = .ok m') :
    (∀ l, amt m'.holding l ≤ amt m.holding l) ∧
    ∀ c x, m'.chain.ledger.get c x = m.chain.ledger.get c x +
      if x = checking ∧ (c = .native ∨ m.chain.ledger.supply c ≠ 0) then amt m.holding c.location - amt m'.holding c.location
      else 0 := by
  unfold Mach.effect at h
  simp only at h
  cases he : eachAsset checkOut m.acc (takeList m.holding (f.wanted m.holding luck.pick)).1 with
  | err => rw [he] at h; cases h
  | panic => rw [he] at h; cases h
  | ok a =>
    rw [he] at h
    cases h
    refine ⟨fun l => takeList_le _ _ _, fun c x => ?_⟩
    have h1 := (checkOuts (show AOk m.acc.1.bal from ok) he c).2 x
    have h2 := takeList_spec (f.wanted m.holding luck.pick) m.holding c.location
    show a.1.get c x = m.chain.ledger.get c x + if _ then amt m.holding c.location -
      amt (takeList m.holding (f.wanted m.holding luck.pick)).2 c.location else 0
    rw [h1]
    rw [show amt m.holding c.location - amt (takeList m.holding (f.wanted m.holding luck.pick)).2 c.location =
      sumAt (takeList m.holding (f.wanted m.holding luck.pick)).1 c.location by omega]
    rfl

/-- C199: nothing arrives by teleport, whoever sends it. -/
theorem C199_none_arrive (m : Mach) (luck : Luck) (as : List XAsset) (ha : as ≠ []) :
    m.effect luck (.receiveTeleportedAsset as) = .err := by
  cases as with
  | nil => exact absurd rfl ha
  | cons a as => unfold Mach.effect; cases m.origin <;> rfl

/-- C199: messages of parachains, of anything inside them, and of accounts on either chain never take anything from the checking
account. -/
theorem C199_stays (c c' : Chain) (ds : List Delivery) (h : deliverAll c ds = some c') (hs : ∀ d ∈ ds, NotChecking d.sender)
    (k : Cur) : c.ledger.get k checking ≤ c'.ledger.get k checking := by
  refine C106_only_own_accounts c c' ds h checking ?_ k
  intro d hd ho
  rcases hs d hd with ⟨p, more, e⟩ | ⟨n, a, e, hne⟩ | ⟨n, a, e, hne⟩
  · rw [e] at ho
    cases more with
    | nil => rw [C106_parachain] at ho; exact sibling_ne_checking p ho.symm
    | cons j more => exact C106_inside_parachain p j more _ ho
  · rw [e] at ho; exact hne (C106_relay_account n a _ ho).symm
  · rw [e] at ho; exact hne (C106_local_account n a _ ho).symm

/-! ## Examples -/

/-- A parachain withdraws 300 and teleports 200 of it away: they are on the checking account. -/
example : (execute fundedChain ⟨1, [.parachain 2000]⟩
    [.withdrawAsset [(⟨1, []⟩, 300)], .initiateTeleport (.definite [(⟨1, []⟩, 200)]) ⟨1, [.parachain 1000]⟩]
    [fineLuck, fineLuck] ⟨[], 0⟩).any
    (fun c => decide (c.ledger.get .native (siblingAccount 2000) = 200 ∧ c.ledger.get .native checking = 200 ∧
      trapped c.traps ⟨1, []⟩ = 100)) = true := by decide +kernel

/-- It withdraws 300 and teleports away everything it holds: of two assets, one of which nothing exists here (C199_kept_all). -/
example : (({ Mach.start fundedChain ⟨1, [.parachain 2000]⟩ [] with
      holding := [(⟨1, []⟩, 300), ((Cur.asset (.sibling ⟨1000, 50, 1984⟩)).location, 70)] } : Mach).effect fineLuck
        (.initiateTeleport .all ⟨1, [.parachain 1000]⟩) |> fun r => match r with
      | .ok m => decide (m.chain.ledger.get .native checking = 300 ∧
          m.chain.ledger.get (.asset (.sibling ⟨1000, 50, 1984⟩)) checking = 0 ∧ amt m.holding ⟨1, []⟩ = 0)
      | _ => false) = true ∧ AOk fundedChain.ledger.bal := ⟨by decide +kernel, by unfold AOk; decide +kernel⟩

/-- And the hypotheses of C199_stays are met by its sender. -/
example : NotChecking ⟨1, [.parachain 2000]⟩ ∧ matchAsset ⟨1, []⟩ = .cur .native := ⟨.inl ⟨2000, [], rfl⟩, rfl⟩

end Verif.Xcm
