import Verif.Runtime.Treasury

/-!
# C147: what the treasury owes from before

No call approves a payment on Kreivo, but a runtime from before may have. These theorems say exactly when such a payment is
made, to whom and how much, and when it is forgotten. They hold in every state.
-/

namespace Verif.Runtime.Treasury

open Verif Verif.Accounts Verif.Runtime

/-- C147: a payment that is due is made just when somebody signs for it between its first and its last block, it was not made
before and the treasury has the amount. The beneficiary gets the amount and nobody but the treasury pays. -/
theorem C147_pays (s : St) (o : RtOrigin) (i : Nat) (s' : St) :
    payout s o i = some s' ↔ ∃ who sp, o = .signed who ∧ s.spends i = some sp ∧ sp.validFrom ≤ s.now ∧
      s.now < sp.expireAt ∧ sp.attempted = false ∧ sp.amount ≤ s.free treasuryAccount ∧
      s' = { s with
        spends := fun j => if j = i then some { sp with attempted := true } else s.spends j
        free := fun a =>
          if sp.beneficiary = treasuryAccount then s.free a
          else if a = treasuryAccount then s.free a - sp.amount
          else if a = sp.beneficiary then s.free a + sp.amount
          else s.free a } := by
  have hf : ∀ sp : Spend, sp.amount ≤ s.free treasuryAccount →
      put (put s.free treasuryAccount (s.free treasuryAccount - sp.amount)) sp.beneficiary
        (put s.free treasuryAccount (s.free treasuryAccount - sp.amount) sp.beneficiary + sp.amount) =
      fun a =>
          if sp.beneficiary = treasuryAccount then s.free a
          else if a = treasuryAccount then s.free a - sp.amount
          else if a = sp.beneficiary then s.free a + sp.amount
          else s.free a := by
    intro sp hle
    funext a
    unfold put
    by_cases hb : sp.beneficiary = treasuryAccount
    · rw [if_pos hb, if_pos hb, hb]
      by_cases ha : a = treasuryAccount
      · rw [if_pos ha, ha]; omega
      · rw [if_neg ha, if_neg ha]
    · rw [if_neg hb, if_neg hb]
      by_cases ha : a = treasuryAccount
      · rw [if_pos ha, if_neg (fun e => hb (e.symm.trans ha)), if_pos ha, ha]
      · rw [if_neg ha, if_neg ha]
        by_cases hc : a = sp.beneficiary
        · rw [if_pos hc, if_pos hc, hc]
        · rw [if_neg hc, if_neg hc]
  constructor
  · intro h
    unfold payout at h
    split at h
    · rename_i who
      split at h
      · rename_i sp hsp
        split at h
        · rename_i hc
          unfold payFrom at h
          by_cases hle : sp.amount ≤ s.free treasuryAccount
          · rw [if_pos hle] at h
            dsimp only at h
            rw [hf sp hle] at h
            cases h
            exact ⟨who, sp, rfl, hsp, hc.1, hc.2.1, hc.2.2, hle, rfl⟩
          · rw [if_neg hle] at h
            cases h
        · cases h
      · cases h
    · cases h
  · rintro ⟨who, sp, rfl, hsp, h1, h2, h3, hle, rfl⟩
    unfold payout payFrom
    dsimp only
    rw [hsp]
    dsimp only
    rw [if_pos ⟨h1, h2, h3⟩, if_pos hle]
    dsimp only
    rw [hf sp hle]
    rfl

/-- C147: a payment that is due is forgotten just when it was made or its last block has passed, if anybody signs for that, or
when root takes it back before it was made. Nobody's balance changes, and no other payment is forgotten. -/
theorem C147_forgets (s : St) (o : RtOrigin) (i : Nat) (s' : St) :
    (checkStatus s o i = some s' ↔ ∃ who sp, o = .signed who ∧ s.spends i = some sp ∧
      (sp.attempted = true ∨ sp.expireAt < s.now) ∧
      s' = { s with spends := fun j => if j = i then none else s.spends j }) ∧
    (voidSpend s o i = some s' ↔ ∃ sp, o = .root ∧ s.spends i = some sp ∧ sp.attempted = false ∧
      s' = { s with spends := fun j => if j = i then none else s.spends j }) := by
  constructor
  · constructor
    · intro h
      unfold checkStatus at h
      split at h
      · rename_i who
        split at h
        · rename_i sp hsp
          split at h
          · rename_i hc
            cases h
            exact ⟨who, sp, rfl, hsp, hc, rfl⟩
          · cases h
        · cases h
      · cases h
    · rintro ⟨who, sp, rfl, hsp, hc, rfl⟩
      unfold checkStatus
      dsimp only
      rw [hsp]
      dsimp only
      rw [if_pos hc]
      rfl
  · constructor
    · intro h
      unfold voidSpend at h
      split at h
      · rename_i sp hsp
        split at h
        · rename_i hc
          cases h
          exact ⟨sp, (C147_rejects s o i).2 (by
            unfold voidSpend
            rw [hsp]
            dsimp only
            rw [if_pos hc]
            exact Option.some_ne_none _), hsp, hc.2, rfl⟩
        · cases h
      · cases h
    · rintro ⟨sp, rfl, hsp, hc, rfl⟩
      unfold voidSpend
      rw [hsp]
      dsimp only
      rw [if_pos ⟨rfl, hc⟩]
      rfl

/-- C147: an approval is taken back by root just when it is on the list, and then one entry of it is gone. -/
theorem C147_takes_back (s : St) (o : RtOrigin) (i : Nat) (s' : St) :
    removeApproval s o i = some s' ↔ o = .root ∧ i ∈ s.approvals ∧ s' = { s with approvals := s.approvals.erase i } := by
  constructor
  · intro h
    have hr := (C147_rejects s o i).1 (by rw [h]; exact Option.some_ne_none _)
    unfold removeApproval at h
    split at h
    · rename_i hc
      cases h
      exact ⟨hr, hc.2, rfl⟩
    · cases h
  · rintro ⟨rfl, hi, rfl⟩
    unfold removeApproval
    rw [if_pos ⟨rfl, hi⟩]

theorem dues_le (f g : Nat → Nat) (h : ∀ i, f i ≤ g i) : ∀ l : List Nat, (l.map f).sum ≤ (l.map g).sum
  | [] => Nat.le_refl _
  | i :: l => by
    rw [List.map_cons, List.map_cons, List.sum_cons, List.sum_cons]
    exact Nat.add_le_add (h i) (dues_le f g h l)

theorem spend_all : ∀ (l : List Nat) (s : St) (b : Nat) (k : List Nat) (m : Bool), (l.map s.due).sum ≤ b →
    (l.foldl spendOne (s, b, k, m)).2.2.1 = k ∧ (∀ i ∈ l, (l.foldl spendOne (s, b, k, m)).1.proposals i = none) ∧
      ∀ i, s.proposals i = none → (l.foldl spendOne (s, b, k, m)).1.proposals i = none
  | [], _, _, _, _, _ => ⟨rfl, fun _ h => absurd h List.not_mem_nil, fun _ h => h⟩
  | id :: l, s, b, k, m, h => by
    rw [List.map_cons, List.sum_cons] at h
    rw [List.foldl_cons]
    cases hp : s.proposals id with
    | none =>
      have he : spendOne (s, b, k, m) id = (s, b, k, m) := by simp only [spendOne, hp]
      rw [he]
      obtain ⟨h1, h2, h3⟩ := spend_all l s b k m (by omega)
      refine ⟨h1, fun i hi => ?_, h3⟩
      rcases List.mem_cons.1 hi with rfl | hi
      · exact h3 i hp
      · exact h2 i hi
    | some p =>
      have hd : s.due id = p.value := by simp only [St.due, hp]
      have he : spendOne (s, b, k, m) id =
          ({ s with
            proposals := put s.proposals id none,
            free := put (put s.free treasuryAccount (s.free treasuryAccount - p.value)) p.beneficiary
              (put s.free treasuryAccount (s.free treasuryAccount - p.value) p.beneficiary + p.value) },
            b - p.value, k, m) := by
        simp only [spendOne, hp]
        rw [if_pos (by omega)]
      rw [he]
      obtain ⟨h1, h2, h3⟩ := spend_all l { s with
            proposals := put s.proposals id none,
            free := put (put s.free treasuryAccount (s.free treasuryAccount - p.value)) p.beneficiary
              (put s.free treasuryAccount (s.free treasuryAccount - p.value) p.beneficiary + p.value) } (b - p.value) k m (by
        refine Nat.le_trans (dues_le _ s.due (fun i => ?_) l) (by omega)
        unfold St.due
        dsimp only [put]
        by_cases hx : i = id
        · rw [if_pos hx]
          exact Nat.zero_le _
        · rw [if_neg hx])
      refine ⟨h1, fun i hi => ?_, fun i hi => h3 i ?_⟩
      · rcases List.mem_cons.1 hi with rfl | hi
        · exact h3 i (by simp [put])
        · exact h2 i hi
      · dsimp only [put]
        split
        · rfl
        · exact hi

/-- C147: what was approved before is paid in the first block of a period of six days, and in no other block; if the treasury has
enough above the existential deposit, all of it. -/
theorem C147_six_days (s : St) (n : Nat) :
    (¬ 6 * s.day ∣ n → (onInitialize s n).free = s.free ∧ (onInitialize s n).approvals = s.approvals ∧
      (onInitialize s n).proposals = s.proposals) ∧
    (6 * s.day ∣ n → (s.approvals.map s.due).sum ≤ s.free treasuryAccount - s.ed →
      (onInitialize s n).approvals = [] ∧ ∀ i ∈ s.approvals, (onInitialize s n).proposals i = none) := by
  have hp : spendPeriod s.day = 6 * s.day := rfl
  unfold onInitialize
  dsimp only
  rw [hp]
  constructor
  · intro h
    rw [if_neg (fun h' => h (Nat.dvd_of_mod_eq_zero h'))]
    exact ⟨rfl, rfl, rfl⟩
  · intro h hs
    rw [if_pos (Nat.mod_eq_zero_of_dvd h)]
    obtain ⟨h1, h2, -⟩ := spend_all s.approvals { s with now := n, deactivated := s.pot } s.pot [] false hs
    unfold spendFunds
    dsimp only
    rw [if_neg (fun hb => hb.2 rfl)]
    exact ⟨h1, h2⟩

-- The spend of 300 of `s1` is due from block 0 on, before block 500000: it is paid at block 1, forgotten after that, and not
-- before; root takes it back if it is not paid yet.
example : ∃ s', payout s1 (.signed (communityAccount 2)) 0 = some s' ∧ s'.free (communityAccount 1) = 300 ∧
    s'.free treasuryAccount = 700 ∧ (checkStatus s' (.signed (communityAccount 2)) 0).isSome ∧
    (voidSpend s' .root 0).isNone := ⟨_, rfl, by decide +kernel⟩
example : (checkStatus s1 (.signed (communityAccount 2)) 0).isNone ∧ (voidSpend s1 .root 0).isSome ∧
    (payout { s1 with now := 500000 } (.signed (communityAccount 2)) 0).isNone ∧
    (checkStatus { s1 with now := 500001 } (.signed (communityAccount 2)) 0).isSome := by decide +kernel
-- At its last block a payment is neither made nor forgotten.
example : (checkStatus { s1 with now := 500000 } (.signed (communityAccount 2)) 0).isNone := by decide +kernel

-- Two approved proposals are both paid at block 86400, six days of 14400 blocks, and not a block later.
example : (onInitialize { s2 with approvals := [0, 2] } 86400).approvals = [] ∧
    (onInitialize { s2 with approvals := [0, 2] } 86401).approvals = [0, 2] :=
  ⟨((C147_six_days { s2 with approvals := [0, 2] } 86400).2 (by decide +kernel) (by decide +kernel)).1,
    ((C147_six_days { s2 with approvals := [0, 2] } 86401).1 (by decide +kernel)).2.1⟩

end Verif.Runtime.Treasury
