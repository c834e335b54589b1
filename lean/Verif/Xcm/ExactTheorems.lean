import Verif.Xcm.ArrivalTheorems

/-!
# C139: what withdrawals, deposits and transfers of a message do to accounts
-/

namespace Verif.Xcm

open Verif Verif.Runtime Verif.Accounts

/-! ## Specification -/

/-- What is left to an account of which `n` is taken: a rest below the least balance is not left. Specification only, no code
behind it (outside /repo). -/
def restOf (least balance n : Nat) : Nat := if balance - n < least then 0 else balance - n

/-! ## Lemmas -/

theorem subsume_one (m : Mach) (l : Location) (n : Nat) :
    (m.subsume [(l, n)]).chain.ledger = m.chain.ledger ∧
    ∀ k, amt (m.subsume [(l, n)]).holding k = amt m.holding k + if l = k then Nat.min n (amountMax - amt m.holding l) else 0 := by
  unfold Mach.subsume Mach.subsume
  exact ⟨rfl, fun k => amt_put _ _ _ _⟩

theorem withdraw_precise {L : XLedger} {c : Cur} {a : AccountId} {n : Nat} :
    (∃ r, L.withdraw c a n = some r) ↔ (∃ least, L.minBal c = some least) ∧ n ≤ L.get c a := by
  unfold XLedger.withdraw
  constructor
  · rintro ⟨r, h⟩
    split at h
    · cases h
    · rename_i least hl
      split at h
      · cases h
      · exact ⟨⟨least, hl⟩, by omega⟩
  · rintro ⟨⟨least, hl⟩, hn⟩
    rw [hl]
    dsimp only
    rw [if_neg (by omega)]
    split <;> exact ⟨_, rfl⟩

theorem withdraw_rest {L L' : XLedger} {c : Cur} {a : AccountId} {n dust least : Nat} (h : L.withdraw c a n = some (L', dust))
    (hl : L.minBal c = some least) :
    n ≤ L.get c a ∧ dust = L.get c a - n - restOf least (L.get c a) n ∧ L'.minBal = L.minBal ∧
      ∀ k b, L'.get k b = if k = c ∧ b = a then restOf least (L.get c a) n else L.get k b := by
  unfold XLedger.withdraw at h
  rw [hl] at h
  dsimp only at h
  split at h
  · cases h
  · rename_i hn
    unfold restOf
    split at h
    · rename_i hd
      cases h
      refine ⟨by omega, by rw [if_pos hd]; omega, rfl, fun k b => ?_⟩
      rw [get_set, if_pos hd]
    · rename_i hd
      cases h
      refine ⟨by omega, by rw [if_neg hd]; omega, rfl, fun k b => ?_⟩
      rw [get_set, if_neg hd]

theorem deposit_precise {L L' : XLedger} {c : Cur} {a : AccountId} {n : Nat} (h : L.deposit c a n = some L') :
    (n = 0 ∨ ∃ least, L.minBal c = some least ∧ least ≤ L.get c a + n ∧ L.get c a + n ≤ amountMax) ∧
      ∀ k b, L'.get k b = L.get k b + if k = c ∧ b = a then n else 0 := by
  by_cases h0 : n = 0
  · unfold XLedger.deposit at h
    rw [if_pos h0] at h
    cases h
    exact ⟨.inl h0, fun k b => by simp [h0]⟩
  · cases hl : L.minBal c with
    | none =>
      unfold XLedger.deposit at h
      rw [if_neg h0, hl] at h
      cases h
    | some least =>
      have hb : least ≤ L.get c a + n ∧ L.get c a + n ≤ amountMax := by
        unfold XLedger.deposit at h
        rw [if_neg h0, hl] at h
        dsimp only at h
        split at h
        · cases h
        · split at h
          · cases h
          · constructor <;> omega
      obtain ⟨L2, h2, _, hg⟩ := deposit_ok hl hb.1 hb.2
      rw [h] at h2
      cases h2
      exact ⟨.inr ⟨least, rfl, hb.1, hb.2⟩, hg⟩

/-! ## C139 -/

/-- C139: a message withdraws from the account of its origin exactly when that has as much, of an asset Kreivo has. -/
theorem C139_withdraw_when (m : Mach) (luck : Luck) (o l : Location) (n : Nat) (ho : m.origin = some o) :
    (∃ m', m.effect luck (.withdrawAsset [(l, n)]) = .ok m') ↔
      ∃ cur acct least, matchAsset l = .cur cur ∧ locationToAccount o = some acct ∧ m.chain.ledger.minBal cur = some least ∧
        n ≤ m.chain.ledger.get cur acct := by
  unfold Mach.effect
  rw [ho]
  dsimp only
  unfold eachAsset
  constructor
  · rintro ⟨m', h⟩
    cases hm : matchAsset l with
    | panic => rw [hm] at h; cases h
    | no => rw [hm] at h; cases h
    | cur c =>
      rw [hm] at h
      dsimp only at h
      cases ha : locationToAccount o with
      | none => simp only [withdrawFrom, ha] at h; cases h
      | some acct =>
        simp only [withdrawFrom, ha] at h
        cases hw : (Mach.acc m).1.withdraw c acct n with
        | none => rw [hw] at h; cases h
        | some r =>
          obtain ⟨⟨least, hl⟩, hn⟩ := withdraw_precise.1 ⟨r, hw⟩
          exact ⟨c, acct, least, rfl, rfl, hl, hn⟩
  · rintro ⟨c, acct, least, hm, ha, hl, hn⟩
    obtain ⟨r, hr⟩ := withdraw_precise.2 ⟨⟨least, hl⟩, hn⟩
    have hr : (Mach.acc m).1.withdraw c acct n = some r := hr
    simp only [hm, withdrawFrom, ha, hr, Option.map_some, eachAsset]
    exact ⟨_, rfl⟩

/-- C139: and then takes exactly that from it, unless the rest would be below the least balance, which is then lost too; it
holds what it took, and no other balance changes. -/
theorem C139_withdraw (m m' : Mach) (luck : Luck) (o l : Location) (n least : Nat) (cur : Cur) (acct : AccountId)
    (ho : m.origin = some o) (hm : matchAsset l = .cur cur) (ha : locationToAccount o = some acct)
    (hl : m.chain.ledger.minBal cur = some least) (h : m.effect luck (.withdrawAsset [(l, n)]) = .ok m') :
    (∀ k b, m'.chain.ledger.get k b =
      if k = cur ∧ b = acct then restOf least (m.chain.ledger.get cur acct) n else m.chain.ledger.get k b) ∧
    (∀ k, amt m'.holding k = amt m.holding k + if l = k then Nat.min n (amountMax - amt m.holding l) else 0) := by
  unfold Mach.effect at h
  rw [ho] at h
  dsimp only at h
  simp only [eachAsset, hm, withdrawFrom, ha] at h
  cases hw : (Mach.acc m).1.withdraw cur acct n with
  | none => rw [hw] at h; cases h
  | some r =>
    obtain ⟨L, dust⟩ := r
    rw [hw] at h
    simp only [Option.map_some] at h
    cases h
    obtain ⟨_, _, _, hg⟩ := withdraw_rest hw hl
    obtain ⟨s1, s2⟩ := subsume_one (m.setAcc (L, put m.acc.2 cur.location dust)) l n
    refine ⟨fun k b => ?_, s2⟩
    rw [s1]
    exact hg k b

/-- C139: a message transfers from the account of its origin to another exactly the amount named, which the sender had; a rest
below the least balance is lost or goes to the receiver as well. No other balance changes. -/
theorem C139_transfer (m m' : Mach) (luck : Luck) (o dst l : Location) (n least : Nat) (cur : Cur) (a b : AccountId)
    (ho : m.origin = some o) (hm : matchAsset l = .cur cur) (ha : locationToAccount o = some a)
    (hb : locationToAccount dst = some b) (hab : a ≠ b) (hl : m.chain.ledger.minBal cur = some least)
    (h : m.effect luck (.transferAsset [(l, n)] dst) = .ok m') :
    n ≤ m.chain.ledger.get cur a ∧
    ∃ extra, (extra = 0 ∨ extra = m.chain.ledger.get cur a - n - restOf least (m.chain.ledger.get cur a) n) ∧
      (n + extra = 0 ∨ least ≤ m.chain.ledger.get cur b + (n + extra)) ∧
      ∀ k x, m'.chain.ledger.get k x =
        if k = cur ∧ x = a then restOf least (m.chain.ledger.get cur a) n
        else if k = cur ∧ x = b then m.chain.ledger.get cur b + (n + extra) else m.chain.ledger.get k x := by
  unfold Mach.effect at h
  rw [ho] at h
  dsimp only at h
  simp only [eachAsset, hm, transferTo, ha, hb, XLedger.transfer, if_neg hab] at h
  cases hw : (Mach.acc m).1.withdraw cur a n with
  | none => rw [hw] at h; cases h
  | some r =>
    obtain ⟨L, dust⟩ := r
    rw [hw] at h
    obtain ⟨hn, hdust, hmb, hg⟩ := withdraw_rest hw hl
    have hg : ∀ k x, L.get k x = if k = cur ∧ x = a then restOf least (m.chain.ledger.get cur a) n else m.chain.ledger.get k x := hg
    have hmb : L.minBal = m.chain.ledger.minBal := hmb
    refine ⟨hn, ?_⟩
    have hgb : L.get cur b = m.chain.ledger.get cur b := by rw [hg, if_neg (fun e => hab e.2.symm)]
    have done : ∀ extra L2, L.deposit cur b (n + extra) = some L2 →
        (n + extra = 0 ∨ least ≤ m.chain.ledger.get cur b + (n + extra)) ∧
        ∀ k x, L2.get k x = if k = cur ∧ x = a then restOf least (m.chain.ledger.get cur a) n
          else if k = cur ∧ x = b then m.chain.ledger.get cur b + (n + extra) else m.chain.ledger.get k x := by
      intro extra L2 hd
      obtain ⟨d1, d2⟩ := deposit_precise hd
      constructor
      · rcases d1 with d1 | ⟨least', e1, e2, _⟩
        · exact .inl d1
        · rw [hmb, hl] at e1
          cases e1
          rw [hgb] at e2
          exact .inr e2
      · intro k x
        rw [d2, hg]
        by_cases e : k = cur ∧ x = a
        · rw [if_pos e, if_neg (fun e' => hab (e.2.symm.trans e'.2)), if_pos e]
          rfl
        · rw [if_neg e, if_neg e]
          by_cases e' : k = cur ∧ x = b
          · rw [if_pos e', if_pos e', e'.1, e'.2]
          · rw [if_neg e', if_neg e']
            rfl
    cases ht : luck.dustToDest cur with
    | true =>
      simp only [ht, if_true] at h
      cases hd : L.deposit cur b (n + dust) with
      | none => rw [hd] at h; cases h
      | some L2 =>
        rw [hd] at h
        simp only [Option.map_some] at h
        cases h
        obtain ⟨d1, d2⟩ := done dust L2 hd
        exact ⟨dust, .inr hdust, d1, d2⟩
    | false =>
      simp only [ht, Bool.false_eq_true, if_false] at h
      cases hd : L.deposit cur b n with
      | none => rw [hd] at h; cases h
      | some L2 =>
        rw [hd] at h
        simp only [Option.map_some] at h
        cases h
        obtain ⟨d1, d2⟩ := done 0 L2 (by simpa using hd)
        exact ⟨0, .inl rfl, d1, d2⟩

/-- C139: a transfer to oneself succeeds exactly when one has as much, and changes nothing. -/
theorem C139_transfer_self (m : Mach) (luck : Luck) (o dst l : Location) (n : Nat) (cur : Cur) (a : AccountId)
    (ho : m.origin = some o) (hm : matchAsset l = .cur cur) (ha : locationToAccount o = some a)
    (hb : locationToAccount dst = some a) :
    ((∃ m', m.effect luck (.transferAsset [(l, n)] dst) = .ok m') ↔ n ≤ m.chain.ledger.get cur a) ∧
    ∀ m', m.effect luck (.transferAsset [(l, n)] dst) = .ok m' → m'.chain.ledger = m.chain.ledger := by
  have e : m.effect luck (.transferAsset [(l, n)] dst) =
      if m.chain.ledger.get cur a < n then .err else .ok (m.setAcc (m.chain.ledger, put m.chain.gone cur.location 0)) := by
    unfold Mach.effect
    rw [ho]
    dsimp only
    simp only [eachAsset, hm, transferTo, ha, hb, XLedger.transfer, if_true]
    by_cases h : m.chain.ledger.get cur a < n
    · have h' : m.acc.1.get cur a < n := h
      rw [if_pos h, if_pos h']; rfl
    · have h' : ¬ m.acc.1.get cur a < n := h
      rw [if_neg h, if_neg h']; rfl
  rw [e]
  by_cases h : m.chain.ledger.get cur a < n
  · rw [if_pos h]
    exact ⟨⟨(fun ⟨_, h'⟩ => by cases h'), fun h' => by omega⟩, fun _ h' => by cases h'⟩
  · rw [if_neg h]
    exact ⟨⟨fun _ => by omega, fun _ => ⟨_, rfl⟩⟩, fun _ h' => by cases h'; rfl⟩

/-- C139: a message deposits at most what it holds, and the receiver gets exactly what it no longer holds. -/
theorem C139_deposit (m m' : Mach) (luck : Luck) (dst l : Location) (n : Nat) (cur : Cur) (b : AccountId)
    (hm : matchAsset l = .cur cur) (hb : locationToAccount dst = some b)
    (h : m.effect luck (.depositAsset (.definite [(l, n)]) dst) = .ok m') :
    (∀ k, amt m'.holding k = amt m.holding k - if k = l then Nat.min n (amt m.holding l) else 0) ∧
    (∀ k x, m'.chain.ledger.get k x = m.chain.ledger.get k x + if k = cur ∧ x = b then Nat.min n (amt m.holding l) else 0) := by
  have hpan : panics l = false := by unfold panics; rw [hm]
  have hold : ∀ k, amt (aset m.holding l (amt m.holding l - Nat.min n (amt m.holding l))) k =
      amt m.holding k - if k = l then Nat.min n (amt m.holding l) else 0 := by
    intro k
    rw [amt_aset]
    split
    · rename_i e; rw [e]
    · rfl
  unfold Mach.effect at h
  simp only [VFilter.wanted, takeList] at h
  by_cases h0 : Nat.min n (amt m.holding l) = 0
  · rw [if_pos h0] at h
    simp only [depositAll, List.any_nil, Bool.false_eq_true, if_false, eachAsset] at h
    cases h
    refine ⟨hold, fun k x => ?_⟩
    rw [h0]
    simp [Mach.setAcc, Mach.acc]
  · rw [if_neg h0] at h
    simp only [depositAll, List.any_cons, hpan, List.any_nil, Bool.or_false, Bool.false_eq_true, if_false, eachAsset, hm, depositTo, hb] at h
    cases hd : (Mach.acc m).1.deposit cur b (Nat.min n (amt m.holding l)) with
    | none => rw [hd] at h; cases h
    | some L =>
      rw [hd] at h
      simp only [Option.map_some] at h
      cases h
      exact ⟨hold, (deposit_precise hd).2⟩

/-! ## Examples -/

/-- The treasury's chain, at the beginning of a message of a parachain with a balance. Example for non-vacuity (outside /repo). -/
def withdrawer : Mach := Mach.start hundredthChain ⟨1, [.parachain 2000]⟩ []

/-- Withdrawing nearly everything loses the rest. -/
example :
    withdrawer.origin = some ⟨1, [.parachain 2000]⟩ ∧ matchAsset ⟨1, []⟩ = .cur .native ∧
      locationToAccount ⟨1, [.parachain 2000]⟩ = some (siblingAccount 2000) ∧
      withdrawer.chain.ledger.minBal .native = some 33333333 ∧
      19999999999 ≤ withdrawer.chain.ledger.get .native (siblingAccount 2000) ∧
      restOf 33333333 (withdrawer.chain.ledger.get .native (siblingAccount 2000)) 19999999999 = 0 ∧
      restOf 33333333 (withdrawer.chain.ledger.get .native (siblingAccount 2000)) 19966666667 = 33333333 :=
  ⟨rfl, rfl, by decide +kernel, rfl, by decide +kernel, by decide +kernel, by decide +kernel⟩

end Verif.Xcm
