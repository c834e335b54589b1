import Verif.Runtime.AssetBooksLemmas

/-!
# The books of the assets pallet: what holds throughout
-/

namespace Verif.Runtime.Units

open Verif Verif.Accounts

/-! ## Specification -/

/-- One if there is an account. Specification only, no code behind it (outside /repo). -/
def there (s : St) (k : Key) (a : AccountId) : Nat := ((s.acct k a).map fun _ => 1).getD 0

/-- One if there is an approval. Specification only, no code behind it (outside /repo). -/
def granted (s : St) (k : Key) (x : AccountId × AccountId) : Nat := ((s.appr k x.1 x.2).map fun _ => 1).getD 0

/-- The number of accounts on record. Specification only, no code behind it (outside /repo). -/
def accountsOf (s : St) (k : Key) : Nat := ((s.info k).map (·.accounts)).getD 0

/-- The number of approvals on record. Specification only, no code behind it (outside /repo). -/
def approvalsOf (s : St) (k : Key) : Nat := ((s.info k).map (·.approvals)).getD 0

/-- Accounts and approvals are as many as on record. Specification only, no code behind it (outside /repo). -/
def Counted (s : St) : Prop :=
  ∀ k, SumsTo (there s k) (accountsOf s k) ∧ SumsTo (granted s k) (approvalsOf s k)

/-- Something deposits are left for: an account, or an approval. Specification only, no code behind it (outside /repo). -/
abbrev Slot := (Key × AccountId) ⊕ (Key × AccountId × AccountId)

/-- What `who` left for an account or an approval. Specification only, no code behind it (outside /repo). -/
def leftFor (s : St) (who : AccountId) : Slot → Nat
  | .inl (k, a) =>
    match s.acct k a with
    | some ⟨_, _, .held n⟩ => if who = a then n else 0
    | some ⟨_, _, .lent b n⟩ => if who = b then n else 0
    | _ => 0
  | .inr (k, o, g) =>
    match s.appr k o g with
    | some p => if who = o then p.deposit else 0
    | none => 0

/-- What an account has reserved is what it left for accounts and approvals. Specification only, no code behind it (outside
/repo). -/
def Deposited (s : St) : Prop := ∀ who, SumsTo (leftFor s who) (s.reserved who)

/-- The units of all accounts, and `lost` ones that nobody has, add up to the supply. Specification only, no code behind it
(outside /repo). -/
def AddsUp (s : St) (k : Key) (lost : Nat) : Prop := ∃ t, SumsTo (s.has k) t ∧ t + lost = s.supply k

/-- Accounts nobody left a deposit for have the minimum. Specification only, no code behind it (outside /repo). -/
def Fed (s : St) : Prop :=
  ∀ k d a x, s.info k = some d → s.acct k a = some x → x.reason.pinned = false → d.min ≤ x.balance

/-- The same of one asset. Specification only, no code behind it (outside /repo). -/
def FedAt (s : St) (k : Key) : Prop :=
  ∀ d a x, s.info k = some d → s.acct k a = some x → x.reason.pinned = false → d.min ≤ x.balance

/-! ## Counting accounts and approvals -/

theorem accountsOf_some {s : St} {k : Key} {d : Info} (h : s.info k = some d) : accountsOf s k = d.accounts := by
  unfold accountsOf; rw [h]; rfl

theorem approvalsOf_some {s : St} {k : Key} {d : Info} (h : s.info k = some d) : approvalsOf s k = d.approvals := by
  unfold approvalsOf; rw [h]; rfl

theorem supply_some {s : St} {k : Key} {d : Info} (h : s.info k = some d) : s.supply k = d.supply := by
  unfold St.supply; rw [h]; rfl

theorem there_some {s : St} {k : Key} {a : AccountId} {x : Acct} (h : s.acct k a = some x) : there s k a = 1 := by
  unfold there; rw [h]; rfl

theorem there_none {s : St} {k : Key} {a : AccountId} (h : s.acct k a = none) : there s k a = 0 := by
  unfold there; rw [h]; rfl

theorem granted_some {s : St} {k : Key} {o g : AccountId} {p : Leave} (h : s.appr k o g = some p) :
    granted s k (o, g) = 1 := by
  unfold granted; rw [h]; rfl

theorem granted_none {s : St} {k : Key} {o g : AccountId} (h : s.appr k o g = none) : granted s k (o, g) = 0 := by
  unfold granted; rw [h]; rfl

/-- The account half of `Counted`. Specification only, no code behind it (outside /repo). -/
def CountedA (s : St) : Prop := ∀ k, SumsTo (there s k) (accountsOf s k)

/-- The approval half of `Counted`. Specification only, no code behind it (outside /repo). -/
def CountedP (s : St) : Prop := ∀ k, SumsTo (granted s k) (approvalsOf s k)

theorem countedA_same {s s' : St} (h : CountedA s) (h1 : ∀ k a, there s' k a = there s k a)
    (h2 : ∀ k, accountsOf s' k = accountsOf s k) : CountedA s' := fun k => by
  rw [h2]; exact (h k).same (h1 k)

theorem countedP_same {s s' : St} (h : CountedP s) (h1 : s'.appr = s.appr)
    (h2 : ∀ k, approvalsOf s' k = approvalsOf s k) : CountedP s' := fun k => by
  rw [h2]; exact (h k).same fun x => by unfold granted; rw [h1]

/-- Writing details. -/
theorem accountsOf_setInfo (s : St) (k q : Key) (v : Option Info) :
    accountsOf (s.setInfo k v) q = if q = k then (v.map (·.accounts)).getD 0 else accountsOf s q := by
  unfold accountsOf
  rw [setInfo_info]
  split <;> rfl

theorem approvalsOf_setInfo (s : St) (k q : Key) (v : Option Info) :
    approvalsOf (s.setInfo k v) q = if q = k then (v.map (·.approvals)).getD 0 else approvalsOf s q := by
  unfold approvalsOf
  rw [setInfo_info]
  split <;> rfl

theorem supply_setInfo (s : St) (k q : Key) (v : Option Info) :
    (s.setInfo k v).supply q = if q = k then (v.map (·.supply)).getD 0 else s.supply q := by
  unfold St.supply
  rw [setInfo_info]
  split <;> rfl

theorem countedA_give {s : St} {k : Key} {who : AccountId} {n : Nat} {d : Info} (hi : s.info k = some d)
    (h : CountedA s) : CountedA (give s k who n) := by
  intro q
  by_cases hq : q = k
  · subst hq
    refine (h q).change who (fun y hy => ?_) ?_
    · unfold there; rw [give_acct hi, if_neg (fun e => hy e.2)]
    · rw [accountsOf_some (give_info hi), accountsOf_some hi]
      have e : there (give s q who n) q who = 1 := by unfold there; rw [give_acct hi, if_pos ⟨rfl, rfl⟩]; simp
      rw [e]
      unfold there
      cases s.acct q who <;> simp
  · rw [show accountsOf (give s k who n) q = accountsOf s q by unfold accountsOf; rw [give_info_other hq]]
    refine (h q).same fun y => ?_
    unfold there
    rw [give_acct hi, if_neg (fun e => hq e.1)]

theorem countedA_drop {s : St} {k : Key} {who : AccountId} {d : Info} {a : Acct} (hi : s.info k = some d)
    (ha : s.acct k who = some a) (h : CountedA s) : CountedA (drop s k who) := by
  intro q
  by_cases hq : q = k
  · subst hq
    refine (h q).change who (fun y hy => ?_) ?_
    · unfold there; rw [drop_acct hi, if_neg (fun e => hy e.2)]
    · have h1 := (h q).le who
      rw [accountsOf_some (d := { d with accounts := d.accounts - 1 }) (by rw [drop_info hi, if_pos rfl])]
      rw [accountsOf_some hi, there_some ha] at *
      have e : there (drop s q who) q who = 0 := by unfold there; rw [drop_acct hi, if_pos ⟨rfl, rfl⟩]; rfl
      rw [e]
      dsimp only
      omega
  · rw [show accountsOf (drop s k who) q = accountsOf s q by unfold accountsOf; rw [drop_info hi, if_neg hq]]
    refine (h q).same fun y => ?_
    unfold there
    rw [drop_acct hi, if_neg (fun e => hq e.1)]

theorem countedA_take {s : St} {k : Key} {who : AccountId} {n : Nat} {d : Info} {a : Acct} (hi : s.info k = some d)
    (ha : s.acct k who = some a) (h : CountedA s) : CountedA (take s k who n) := by
  rw [take_eq hi ha]
  split
  · exact countedA_drop hi ha h
  · refine countedA_same h (fun q b => ?_) fun q => rfl
    unfold there
    rw [setAcct_acct]
    split
    · rename_i e; obtain ⟨rfl, rfl⟩ := e; rw [ha]; rfl
    · rfl

theorem accountsOf_setSupply (s : St) (k q : Key) (f : Nat → Nat) : accountsOf (s.setSupply k f) q = accountsOf s q := by
  unfold St.setSupply
  rw [accountsOf_setInfo]
  split
  · rename_i e; subst e; unfold accountsOf; cases s.info q <;> rfl
  · rfl

theorem approvalsOf_setSupply (s : St) (k q : Key) (f : Nat → Nat) : approvalsOf (s.setSupply k f) q = approvalsOf s q := by
  unfold St.setSupply
  rw [approvalsOf_setInfo]
  split
  · rename_i e; subst e; unfold approvalsOf; cases s.info q <;> rfl
  · rfl

theorem approvalsOf_give (s : St) (k q : Key) (who : AccountId) (n : Nat) :
    approvalsOf (give s k who n) q = approvalsOf s q := by
  unfold give
  split
  · rfl
  · rename_i d hi ha
    rw [approvalsOf_setInfo]
    split
    · rename_i e; subst e; rw [approvalsOf_some hi]; rfl
    · rfl
  · rfl

theorem approvalsOf_drop (s : St) (k q : Key) (who : AccountId) : approvalsOf (drop s k who) q = approvalsOf s q := by
  unfold drop
  split
  · rename_i d hi
    show approvalsOf (St.setInfo _ k _) q = _
    rw [approvalsOf_setInfo]
    split
    · rename_i e; subst e; rw [approvalsOf_some hi]; rfl
    · rfl
  · rfl

theorem approvalsOf_take (s : St) (k q : Key) (who : AccountId) (n : Nat) :
    approvalsOf (take s k who n) q = approvalsOf s q := by
  unfold take
  split
  · split
    · exact approvalsOf_drop _ _ _ _
    · rfl
  · rfl

theorem supply_give (s : St) (k q : Key) (who : AccountId) (n : Nat) : (give s k who n).supply q = s.supply q := by
  unfold give
  split
  · rfl
  · rename_i d hi ha
    rw [supply_setInfo]
    split
    · rename_i e; subst e; rw [supply_some hi]; rfl
    · rfl
  · rfl

theorem supply_drop (s : St) (k q : Key) (who : AccountId) : (drop s k who).supply q = s.supply q := by
  unfold drop
  split
  · rename_i d hi
    show (St.setInfo _ k _).supply q = _
    rw [supply_setInfo]
    split
    · rename_i e; subst e; rw [supply_some hi]; rfl
    · rfl
  · rfl

theorem supply_take (s : St) (k q : Key) (who : AccountId) (n : Nat) : (take s k who n).supply q = s.supply q := by
  unfold take
  split
  · split
    · exact supply_drop _ _ _ _
    · rfl
  · rfl

theorem give_info' {s : St} {k : Key} {who : AccountId} {n : Nat} {d : Info} (hi : s.info k = some d) :
    ∃ c, (give s k who n).info k = some { d with accounts := c } := ⟨_, give_info hi⟩

theorem give_acct_src {s : St} {k : Key} {src dst : AccountId} {m : Nat} {d : Info} {a : Acct} (hne : src ≠ dst)
    (hi : s.info k = some d) (ha : s.acct k src = some a) : (give s k dst m).acct k src = some a := by
  rw [give_acct hi, if_neg (fun e => hne e.2)]; exact ha

theorem act_countedA {tidy : Bool} (s s' : St) (h : Act tidy s s') (hc : CountedA s) : CountedA s' := by
  cases h with
  | info k d d' hi h1 h2 h3 h4 =>
    refine countedA_same hc (fun _ _ => rfl) fun q => ?_
    rw [accountsOf_setInfo]
    split
    · rename_i e; subst e; rw [accountsOf_some hi, ← h1]; rfl
    · rfl
  | make k d hi h1 h2 h3 =>
    refine countedA_same hc (fun _ _ => rfl) fun q => ?_
    rw [accountsOf_setInfo]
    split
    · rename_i e; subst e; unfold accountsOf; rw [hi]; exact h1
    · rfl
  | unmake k d hi h0 h1 h2 =>
    refine countedA_same hc (fun _ _ => rfl) fun q => ?_
    rw [accountsOf_setInfo]
    split
    · rename_i e; subst e; rw [accountsOf_some hi, h1]; rfl
    · rfl
  | move k src dst n m d a hne hi ha hl hg =>
    exact countedA_take (give_info hi) (give_acct_src hne hi ha) (countedA_give hi hc)
  | mint k who n d hi hg =>
    exact countedA_same (countedA_give hi hc) (fun _ _ => rfl) fun q => accountsOf_setSupply _ _ _ _
  | burn k who m d a hi ha hm hg =>
    exact countedA_same (countedA_take hi ha hc) (fun _ _ => rfl) fun q => accountsOf_setSupply _ _ _ _
  | hand k who a h ha =>
    refine countedA_same hc (fun q b => ?_) fun q => rfl
    unfold there
    rw [setAcct_acct]
    split
    · rename_i e; obtain ⟨rfl, rfl⟩ := e; rw [ha]; rfl
    · rfl
  | touch k who by_ n d hi ha =>
    intro q
    by_cases hq : q = k
    · subst hq
      refine (hc q).change who (fun y hy => ?_) ?_
      · unfold there
        rw [setInfo_acct, setAcct_acct, if_neg (fun e => hy e.2)]; rfl
      · rw [accountsOf_setInfo, if_pos rfl, accountsOf_some hi, there_none ha]
        rw [there_some (x := ⟨0, .liquid, if by_ = who then .held n else .lent by_ n⟩)
          (by rw [setInfo_acct, setAcct_acct, if_pos ⟨rfl, rfl⟩])]
        rfl
    · rw [accountsOf_setInfo, if_neg hq]
      refine (hc q).same fun y => ?_
      unfold there
      rw [setInfo_acct, setAcct_acct, if_neg (fun e => hq e.1)]; rfl
  | shut k who d a hi ha ht =>
    have e := payBack_eq s who a.reason
    refine countedA_drop (d := d) (a := a) (by rw [e.1]; exact hi) (by rw [e.2.1]; exact ha) ?_
    exact countedA_same hc (fun _ _ => by unfold there; rw [e.2.1]) fun _ => by unfold accountsOf; rw [e.1]
  | approve k o g n dep d hi =>
    refine countedA_same hc (fun _ _ => rfl) fun q => ?_
    rw [accountsOf_setInfo]
    split
    · rename_i e; subst e; rw [accountsOf_some hi]; rfl
    · rfl
  | unapprove k o g d p hi hp =>
    refine countedA_same hc (fun _ _ => rfl) fun q => ?_
    rw [accountsOf_setInfo]
    split
    · rename_i e; subst e; rw [accountsOf_some hi]; rfl
    · rfl
  | lessen k o g p n hp => exact hc
  | ice k who f => exact hc

theorem act_countedP {tidy : Bool} (s s' : St) (h : Act tidy s s') (hc : CountedP s) : CountedP s' := by
  cases h with
  | info k d d' hi h1 h2 h3 h4 =>
    refine countedP_same hc rfl fun q => ?_
    rw [approvalsOf_setInfo]
    split
    · rename_i e; subst e; rw [approvalsOf_some hi, ← h2]; rfl
    · rfl
  | make k d hi h1 h2 h3 =>
    refine countedP_same hc rfl fun q => ?_
    rw [approvalsOf_setInfo]
    split
    · rename_i e; subst e; unfold approvalsOf; rw [hi]; exact h2
    · rfl
  | unmake k d hi h0 h1 h2 =>
    refine countedP_same hc rfl fun q => ?_
    rw [approvalsOf_setInfo]
    split
    · rename_i e; subst e; rw [approvalsOf_some hi, h2]; rfl
    · rfl
  | move k src dst n m d a hne hi ha hl hg =>
    exact countedP_same hc (moved_appr _ _ _ _ _) fun q => by rw [approvalsOf_take, approvalsOf_give]
  | mint k who n d hi hg =>
    exact countedP_same hc (give_appr _ _ _ _) fun q => by rw [approvalsOf_setSupply, approvalsOf_give]
  | burn k who m d a hi ha hm hg =>
    exact countedP_same hc (take_appr _ _ _ _) fun q => by rw [approvalsOf_setSupply, approvalsOf_take]
  | hand k who a h ha => exact hc
  | touch k who by_ n d hi ha =>
    refine countedP_same hc rfl fun q => ?_
    rw [approvalsOf_setInfo]
    split
    · rename_i e; subst e; rw [approvalsOf_some hi]; rfl
    · rfl
  | shut k who d a hi ha ht =>
    have e := payBack_eq s who a.reason
    refine countedP_same hc ?_ fun q => ?_
    · rw [drop_appr, e.2.2.1]
    · rw [approvalsOf_drop]; unfold approvalsOf; rw [e.1]
  | approve k o g n dep d hi =>
    intro q
    by_cases hq : q = k
    · subst hq
      refine (hc q).change (o, g) (fun y hy => ?_) ?_
      · unfold granted
        rw [setInfo_appr, setAppr_appr, if_neg]
        · rfl
        · rintro ⟨_, e1, e2⟩; exact hy (Prod.ext e1 e2)
      · rw [approvalsOf_setInfo, if_pos rfl, approvalsOf_some hi]
        cases hx : s.appr q o g with
        | none =>
          rw [granted_none hx, granted_some (by rw [setInfo_appr, setAppr_appr, if_pos ⟨rfl, rfl, rfl⟩])]; rfl
        | some p =>
          rw [granted_some hx, granted_some (by rw [setInfo_appr, setAppr_appr, if_pos ⟨rfl, rfl, rfl⟩])]; rfl
    · rw [approvalsOf_setInfo, if_neg hq]
      refine (hc q).same fun y => ?_
      unfold granted
      rw [setInfo_appr, setAppr_appr, if_neg (fun e => hq e.1)]; rfl
  | unapprove k o g d p hi hp =>
    intro q
    by_cases hq : q = k
    · subst hq
      have h1 := (hc q).le (o, g)
      rw [approvalsOf_some hi] at h1
      have e1 : granted s q (o, g) = 1 := by unfold granted; rw [hp]; rfl
      rw [e1] at h1
      refine (hc q).change (o, g) (fun y hy => ?_) ?_
      · unfold granted
        rw [setInfo_appr, setAppr_appr, if_neg]
        · rfl
        · rintro ⟨_, e1, e2⟩; exact hy (Prod.ext e1 e2)
      · rw [approvalsOf_setInfo, if_pos rfl, approvalsOf_some hi, e1]
        unfold granted
        rw [setInfo_appr, setAppr_appr, if_pos ⟨rfl, rfl, rfl⟩]
        dsimp only [Option.map, Option.getD]
        simp; omega
    · rw [approvalsOf_setInfo, if_neg hq]
      refine (hc q).same fun y => ?_
      unfold granted
      rw [setInfo_appr, setAppr_appr, if_neg (fun e => hq e.1)]; rfl
  | lessen k o g p n hp =>
    intro q
    refine (hc q).same fun y => ?_
    unfold granted
    rw [setAppr_appr]
    split
    · rename_i e
      obtain ⟨rfl, e1, e2⟩ := e
      rw [e1, e2, hp]; rfl
    · rfl
  | ice k who f => exact hc

theorem genesis_counted : Counted genesis := fun _ => ⟨SumsTo.none, SumsTo.none⟩

theorem reach_counted {l : List Step} {s : St} (h : Reach genesis l s) : Counted s := fun k =>
  ⟨h.keep (P := CountedA) act_countedA (fun q => (genesis_counted q).1) k,
    h.keep (P := CountedP) act_countedP (fun q => (genesis_counted q).2) k⟩

/-! ## Deposits -/

theorem leftFor_acct {s s' : St} {who : AccountId} {k : Key} {a : AccountId} (h : s'.acct k a = s.acct k a) :
    leftFor s' who (.inl (k, a)) = leftFor s who (.inl (k, a)) := by
  unfold leftFor; dsimp only; rw [h]

theorem leftFor_appr {s s' : St} {who : AccountId} {k : Key} {o g : AccountId} (h : s'.appr k o g = s.appr k o g) :
    leftFor s' who (.inr (k, o, g)) = leftFor s who (.inr (k, o, g)) := by
  unfold leftFor; dsimp only; rw [h]

/-- What is left for an account with a reason. Specification only, no code behind it (outside /repo). -/
def leftBy (who a : AccountId) : Reason → Nat
  | .held n => if who = a then n else 0
  | .lent b n => if who = b then n else 0
  | _ => 0

theorem leftFor_some {s : St} {who : AccountId} {k : Key} {a : AccountId} {x : Acct} (h : s.acct k a = some x) :
    leftFor s who (.inl (k, a)) = leftBy who a x.reason := by
  unfold leftFor
  dsimp only
  rw [h]
  obtain ⟨b, st, r⟩ := x
  cases r <;> rfl

theorem leftFor_none {s : St} {who : AccountId} {k : Key} {a : AccountId} (h : s.acct k a = none) :
    leftFor s who (.inl (k, a)) = 0 := by
  unfold leftFor; dsimp only; rw [h]

theorem leftBy_unpinned {who a : AccountId} {r : Reason} (h : r.pinned = false) : leftBy who a r = 0 := by
  cases r <;> first | rfl | cases h

/-- Deposits stay as they are when what is left stays so. -/
theorem deposited_same {s s' : St} (h : Deposited s) (h1 : s'.reserved = s.reserved)
    (h2 : ∀ who x, leftFor s' who x = leftFor s who x) : Deposited s' := fun who => by
  rw [h1]; exact (h who).same (h2 who)

theorem deposited_plain {s s' : St} (h : Deposited s) (h1 : s'.reserved = s.reserved) (h2 : s'.acct = s.acct)
    (h3 : s'.appr = s.appr) : Deposited s' :=
  deposited_same h h1 fun who x => by
    rcases x with ⟨k, a⟩ | ⟨k, o, g⟩
    · exact leftFor_acct (by rw [h2])
    · exact leftFor_appr (by rw [h3])

theorem deposited_give {s : St} {k : Key} {who : AccountId} {n : Nat} {d : Info} (hi : s.info k = some d)
    (h : Deposited s) : Deposited (give s k who n) := by
  refine deposited_same h (give_reserved _ _ _ _) fun w x => ?_
  rcases x with ⟨q, a⟩ | ⟨q, o, g⟩
  · by_cases e : q = k ∧ a = who
    · obtain ⟨rfl, rfl⟩ := e
      rw [leftFor_some (by rw [give_acct hi, if_pos ⟨rfl, rfl⟩])]
      cases ha : s.acct q a with
      | some y => rw [leftFor_some ha]
      | none =>
        rw [leftFor_none ha]
        dsimp only
        split <;> rfl
    · exact leftFor_acct (by rw [give_acct hi, if_neg e])
  · exact leftFor_appr (by rw [give_appr])

theorem deposited_take {s : St} {k : Key} {who : AccountId} {n : Nat} {d : Info} {a : Acct} (hi : s.info k = some d)
    (ha : s.acct k who = some a) (h : Deposited s) : Deposited (take s k who n) := by
  refine deposited_same h (take_reserved _ _ _ _) fun w x => ?_
  rcases x with ⟨q, b⟩ | ⟨q, o, g⟩
  · by_cases e : q = k ∧ b = who
    · obtain ⟨rfl, rfl⟩ := e
      rw [leftFor_some ha]
      by_cases hg : Goes d a n
      · rw [leftFor_none (by rw [take_acct hi ha, if_pos ⟨rfl, rfl⟩, if_pos hg]), leftBy_unpinned hg.2]
      · rw [leftFor_some (by rw [take_acct hi ha, if_pos ⟨rfl, rfl⟩, if_neg hg])]
    · exact leftFor_acct (by rw [take_acct hi ha, if_neg e])
  · exact leftFor_appr (by rw [take_appr])

theorem payBack_reserved (s : St) (a w : AccountId) (r : Reason) :
    (payBack s a r).reserved w = s.reserved w - leftBy w a r := by
  cases r with
  | consumer => rfl
  | sufficient => rfl
  | held n =>
    show (if w = a then s.reserved w - n else s.reserved w) = s.reserved w - if w = a then n else 0
    split <;> rfl
  | lent b n =>
    show (if w = b then s.reserved w - n else s.reserved w) = s.reserved w - if w = b then n else 0
    split <;> rfl

theorem act_deposited {tidy : Bool} (s s' : St) (h : Act tidy s s') (hd : Deposited s) : Deposited s' := by
  cases h with
  | info k d d' hi h1 h2 h3 h4 => exact deposited_plain hd rfl rfl rfl
  | make k d hi h1 h2 h3 => exact deposited_plain hd rfl rfl rfl
  | unmake k d hi h0 h1 h2 => exact deposited_plain hd rfl rfl rfl
  | move k src dst n m d a hne hi ha hl hg =>
    exact deposited_take (give_info hi) (give_acct_src hne hi ha) (deposited_give hi hd)
  | mint k who n d hi hg => exact deposited_plain (deposited_give hi hd) rfl rfl rfl
  | burn k who m d a hi ha hm hg => exact deposited_plain (deposited_take hi ha hd) rfl rfl rfl
  | hand k who a h ha =>
    refine deposited_same hd rfl fun w x => ?_
    rcases x with ⟨q, b⟩ | ⟨q, o, g⟩
    · by_cases e : q = k ∧ b = who
      · obtain ⟨rfl, rfl⟩ := e
        rw [leftFor_some ha, leftFor_some (by rw [setAcct_acct, if_pos ⟨rfl, rfl⟩])]
      · exact leftFor_acct (by rw [setAcct_acct, if_neg e])
    · rfl
  | touch k who by_ n d hi ha =>
    intro w
    refine (hd w).change (.inl (k, who)) (fun y hy => ?_) ?_
    · rcases y with ⟨q, b⟩ | ⟨q, o, g⟩
      · refine leftFor_acct ?_
        rw [setInfo_acct, setAcct_acct, if_neg]
        · rfl
        · rintro ⟨rfl, rfl⟩; exact hy rfl
      · rfl
    · rw [leftFor_none ha, leftFor_some (by rw [setInfo_acct, setAcct_acct, if_pos ⟨rfl, rfl⟩])]
      show (if w = by_ then s.reserved w + n else s.reserved w) + 0 = s.reserved w + leftBy w who _
      by_cases e : by_ = who
      · rw [if_pos e, e]
        show _ = s.reserved w + if w = who then n else 0
        split <;> rfl
      · rw [if_neg e]
        show _ = s.reserved w + if w = by_ then n else 0
        split <;> rfl
  | shut k who d a hi ha ht =>
    have e := payBack_eq s who a.reason
    have hi' : (payBack s who a.reason).info k = some d := by rw [e.1]; exact hi
    intro w
    have hle := (hd w).le (.inl (k, who))
    rw [leftFor_some ha] at hle
    refine (hd w).change (.inl (k, who)) (fun y hy => ?_) ?_
    · rcases y with ⟨q, b⟩ | ⟨q, o, g⟩
      · refine leftFor_acct ?_
        rw [drop_acct hi', if_neg, e.2.1]
        rintro ⟨rfl, rfl⟩; exact hy rfl
      · exact leftFor_appr (by rw [drop_appr, e.2.2.1])
    · rw [leftFor_some ha, leftFor_none (by rw [drop_acct hi', if_pos ⟨rfl, rfl⟩]), drop_reserved, payBack_reserved]
      omega
  | approve k o g n dep d hi =>
    intro w
    refine (hd w).change (.inr (k, o, g)) (fun y hy => ?_) ?_
    · rcases y with ⟨q, b⟩ | ⟨q, b, c⟩
      · rfl
      · refine leftFor_appr ?_
        rw [setInfo_appr, setAppr_appr, if_neg]
        · rfl
        · rintro ⟨rfl, rfl, rfl⟩; exact hy rfl
    · have e1 : leftFor s w (.inr (k, o, g)) = if w = o then ((s.appr k o g).getD ⟨0, 0⟩).deposit else 0 := by
        unfold leftFor
        dsimp only
        cases s.appr k o g with
        | none => simp
        | some p => rfl
      obtain ⟨x, hx⟩ : ∃ x, x = ((s.appr k o g).getD ⟨0, 0⟩).deposit := ⟨_, rfl⟩
      rw [← hx] at e1 ⊢
      have e2 : ∀ s' : St, s'.appr k o g = some ⟨n, Nat.max x dep⟩ →
          leftFor s' w (.inr (k, o, g)) = if w = o then Nat.max x dep else 0 := fun s' h => by
        unfold leftFor; dsimp only; rw [h]
      rw [e1, e2 _ (by rw [setInfo_appr, setAppr_appr, if_pos ⟨rfl, rfl, rfl⟩])]
      show (if w = o then s.reserved w + (dep - x) else s.reserved w) + _ = s.reserved w + if w = o then Nat.max x dep else 0
      have hmax : x + (dep - x) = Nat.max x dep := by
        show _ = max x dep
        omega
      split <;> omega
  | unapprove k o g d p hi hp =>
    intro w
    have hle := (hd w).le (.inr (k, o, g))
    have e1 : leftFor s w (.inr (k, o, g)) = if w = o then p.deposit else 0 := by
      unfold leftFor
      dsimp only
      rw [hp]
    rw [e1] at hle
    refine (hd w).change (.inr (k, o, g)) (fun y hy => ?_) ?_
    · rcases y with ⟨q, b⟩ | ⟨q, b, c⟩
      · rfl
      · refine leftFor_appr ?_
        rw [setInfo_appr, setAppr_appr, if_neg]
        · rfl
        · rintro ⟨rfl, rfl, rfl⟩; exact hy rfl
    · rw [e1]
      have e2 : leftFor (((s.unreserve o p.deposit).setAppr k o g none).setInfo k
          (some { d with approvals := d.approvals - 1 })) w (.inr (k, o, g)) = 0 := by
        unfold leftFor
        dsimp only
        rw [setInfo_appr, setAppr_appr, if_pos ⟨rfl, rfl, rfl⟩]
      rw [e2]
      show (if w = o then s.reserved w - p.deposit else s.reserved w) + _ = _
      split
      · rename_i e; rw [if_pos e] at hle; omega
      · rfl
  | lessen k o g p n hp =>
    refine deposited_same hd rfl fun w x => ?_
    rcases x with ⟨q, b⟩ | ⟨q, b, c⟩
    · rfl
    · unfold leftFor
      dsimp only
      rw [setAppr_appr]
      by_cases e : q = k ∧ b = o ∧ c = g
      · rw [if_pos e]
        obtain ⟨rfl, rfl, rfl⟩ := e
        rw [hp]
      · rw [if_neg e]
  | ice k who f => exact deposited_plain hd rfl rfl rfl

/-! ## Units and supply -/

theorem supply_setSupply (s : St) (k q : Key) (f : Nat → Nat) (d : Info) (hi : s.info k = some d) :
    (s.setSupply k f).supply q = if q = k then f (s.supply k) else s.supply q := by
  unfold St.setSupply
  rw [supply_setInfo, hi, supply_some hi]
  rfl

theorem addsUp_same {s s' : St} {k : Key} {x : Nat} (h : AddsUp s k x) (h1 : ∀ a, s'.has k a = s.has k a)
    (h2 : s'.supply k = s.supply k) : AddsUp s' k x := by
  obtain ⟨t, g1, g2⟩ := h
  exact ⟨t, g1.same h1, by rw [h2]; exact g2⟩

/-- With nobody's units and no supply. -/
theorem addsUp_zero {s : St} {k : Key} (h1 : ∀ a, s.has k a = 0) (h2 : s.supply k = 0) : AddsUp s k 0 :=
  ⟨0, SumsTo.none.same h1, by rw [h2]⟩

/-- The units stay within the supply, and what is lost is only what is lost by untidy changes. -/
theorem act_addsUp {tidy : Bool} (s s' : St) (h : Act tidy s s') (hc : CountedA s) (k : Key) (x : Nat)
    (ha : AddsUp s k x) (hf : tidy = true → FedAt s k) :
    ∃ y, AddsUp s' k y ∧ (tidy = true → (s.info k ≠ none → s'.info k ≠ none → y = x)) ∧
      (tidy = true → (s.info k = none ∨ s'.info k = none) → y = 0 ∨ y = x) := by
  have same : (∀ a, s'.has k a = s.has k a) → s'.supply k = s.supply k →
      ∃ y, AddsUp s' k y ∧ (tidy = true → (s.info k ≠ none → s'.info k ≠ none → y = x)) ∧
        (tidy = true → (s.info k = none ∨ s'.info k = none) → y = 0 ∨ y = x) := fun h1 h2 =>
    ⟨x, addsUp_same ha h1 h2, fun _ _ _ => rfl, fun _ _ => .inr rfl⟩
  have exact_ : AddsUp s' k x →
      ∃ y, AddsUp s' k y ∧ (tidy = true → (s.info k ≠ none → s'.info k ≠ none → y = x)) ∧
        (tidy = true → (s.info k = none ∨ s'.info k = none) → y = 0 ∨ y = x) := fun h =>
    ⟨x, h, fun _ _ _ => rfl, fun _ _ => .inr rfl⟩
  cases h with
  | info q d d' hi h1 h2 h3 h4 =>
    refine same (fun _ => rfl) ?_
    rw [supply_setInfo]
    split
    · rename_i e; subst e; rw [supply_some hi, ← h3]; rfl
    · rfl
  | make q d hi h1 h2 h3 =>
    refine same (fun _ => rfl) ?_
    rw [supply_setInfo]
    split
    · rename_i e; subst e; unfold St.supply; rw [hi]; exact h3
    · rfl
  | unmake q d hi h0 h1 h2 =>
    by_cases e : k = q
    · subst e
      refine ⟨0, addsUp_zero (fun a => ?_) ?_, fun _ _ h => ?_, fun _ _ => .inl rfl⟩
      · have h3 := (hc k).le a
        rw [accountsOf_some hi, h1] at h3
        cases hx : s.acct k a with
        | none => exact has_none (s := s.setInfo k none) hx
        | some y => rw [there_some hx] at h3; omega
      · rw [supply_setInfo, if_pos rfl]; rfl
      · rw [setInfo_info, if_pos rfl] at h; exact absurd rfl h
    · refine same (fun _ => rfl) ?_
      rw [supply_setInfo, if_neg e]
  | move q src dst n m d a hne hi ha' hl hg =>
    by_cases e : k = q
    · subst e
      refine exact_ ?_
      obtain ⟨t, g1, g2⟩ := ha
      refine ⟨t, ?_, by rw [supply_take, supply_give]; exact g2⟩
      refine g1.shift src dst hne (fun z hz1 hz2 => ?_) ?_
      · rw [moved_has hne hi ha' hl, if_neg (fun e => hz1 e.2), if_neg (fun e => hz2 e.2)]
      · rw [moved_has hne hi ha' hl, moved_has hne hi ha' hl, if_pos ⟨rfl, rfl⟩, if_neg (fun e => hne e.2.symm),
          if_pos ⟨rfl, rfl⟩, has_some ha']
        have := hl.le
        omega
    · refine same (fun b => ?_) (by rw [supply_take, supply_give])
      rw [moved_has hne hi ha' hl, if_neg (fun x => e x.1), if_neg (fun x => e x.1)]
  | mint q who n d hi hg =>
    by_cases e : k = q
    · subst e
      refine exact_ ?_
      obtain ⟨t, g1, g2⟩ := ha
      refine ⟨t + n, ?_, ?_⟩
      · rw [setSupply_has]
        refine g1.change who (fun y hy => ?_) ?_
        · rw [give_has hi, if_neg (fun e => hy e.2)]; rfl
        · rw [give_has hi, if_pos ⟨rfl, rfl⟩]; omega
      · rw [supply_setSupply _ _ _ _ _ (give_info hi), if_pos rfl, supply_give]; omega
    · refine same (fun b => ?_) ?_
      · rw [setSupply_has, give_has hi, if_neg (fun x => e x.1)]; rfl
      · rw [supply_setSupply _ _ _ _ _ (give_info hi), if_neg e, supply_give]
  | burn q who m d a hi ha' hm hg =>
    obtain ⟨c, hti⟩ : ∃ c, (take s q who m).info q = some { d with accounts := c } := by
      rw [take_info hi ha']
      split
      · exact ⟨_, rfl⟩
      · exact ⟨d.accounts, hi⟩
    by_cases e : k = q
    · subst e
      obtain ⟨t, g1, g2⟩ := ha
      have hle := g1.le who
      rw [has_some ha'] at hle
      -- what is left on the account
      obtain ⟨r, hr⟩ : ∃ r, r = (take s k who m).has k who := ⟨_, rfl⟩
      have hr2 : r ≤ a.balance - m ∧ (¬ (Goes d a m ∧ m ≠ a.balance) → r = a.balance - m) := by
        rw [hr, take_has hi ha', if_pos ⟨rfl, rfl⟩]
        split
        · rename_i hgo
          refine ⟨Nat.zero_le _, fun h => ?_⟩
          by_cases h2 : m = a.balance
          · omega
          · exact absurd ⟨hgo, h2⟩ h
        · exact ⟨Nat.le_refl _, fun _ => rfl⟩
      refine ⟨x + (a.balance - m - r), ⟨t - a.balance + r, ?_, ?_⟩, ?_, ?_⟩
      · rw [setSupply_has]
        refine g1.change who (fun y hy => ?_) ?_
        · rw [take_has hi ha', if_neg (fun e => hy e.2)]
        · rw [← hr, has_some ha']; omega
      · rw [supply_setSupply _ _ _ _ _ hti, if_pos rfl, supply_take]; omega
      · intro ht _ _
        have hfed := hf ht d who a hi ha'
        rw [hr2.2]
        · omega
        · rintro ⟨hgo, h2⟩
          have h3 := hfed hgo.2
          unfold Goes at hgo
          rcases hg with hg | hg | hg <;> omega
      · intro _ hno
        rcases hno with hno | hno
        · rw [hi] at hno; cases hno
        · unfold St.setSupply at hno
          rw [setInfo_info, if_pos rfl, hti] at hno; cases hno
    · refine same (fun b => ?_) ?_
      · rw [setSupply_has, take_has hi ha', if_neg (fun x => e x.1)]
      · rw [supply_setSupply _ _ _ _ _ hti, if_neg e, supply_take]
  | hand q who a h ha' =>
    refine same (fun b => ?_) rfl
    unfold St.has
    rw [setAcct_acct]
    split
    · rename_i e; obtain ⟨rfl, rfl⟩ := e; rw [ha']; rfl
    · rfl
  | touch q who by_ n d hi ha' =>
    refine same (fun b => ?_) ?_
    · unfold St.has
      rw [setInfo_acct, setAcct_acct, reserve_acct]
      split
      · rename_i e; obtain ⟨rfl, rfl⟩ := e; rw [ha']; rfl
      · rfl
    · rw [supply_setInfo]
      split
      · rename_i e; subst e; rw [supply_some hi]; rfl
      · rfl
  | shut q who d a hi ha' ht =>
    have e0 := payBack_eq s who a.reason
    have hi' : (payBack s who a.reason).info q = some d := by rw [e0.1]; exact hi
    have hsup : ∀ p, (drop (payBack s who a.reason) q who).supply p = s.supply p := fun p => by
      rw [supply_drop]; unfold St.supply; rw [e0.1]
    by_cases e : k = q
    · subst e
      obtain ⟨t, g1, g2⟩ := ha
      have hle := g1.le who
      rw [has_some ha'] at hle
      refine ⟨x + a.balance, ⟨t - a.balance, ?_, ?_⟩, ?_, ?_⟩
      · refine g1.change who (fun y hy => ?_) ?_
        · rw [drop_has hi', if_neg (fun e => hy e.2), has_of_acct e0.2.1]
        · rw [drop_has hi', if_pos ⟨rfl, rfl⟩, has_some ha']; omega
      · rw [hsup]; omega
      · intro h _ _; rw [ht h]; rfl
      · intro h hno
        rw [ht h]; exact .inr rfl
    · refine same (fun b => ?_) (hsup k)
      rw [drop_has hi', if_neg (fun x => e x.1), has_of_acct e0.2.1]
  | approve q o g n dep d hi =>
    refine same (fun _ => rfl) ?_
    rw [supply_setInfo]
    split
    · rename_i e; subst e; rw [supply_some hi]; rfl
    · rfl
  | unapprove q o g d p hi hp =>
    refine same (fun _ => rfl) ?_
    rw [supply_setInfo]
    split
    · rename_i e; subst e; rw [supply_some hi]; rfl
    · rfl
  | lessen q o g p n hp => exact same (fun _ => rfl) rfl
  | ice q who f => exact same (fun _ => rfl) rfl

/-- Without untidy changes accounts of an asset keep the minimum. -/
theorem act_fedAt (q : Key) (s s' : St) (h : Act true s s') (hc : CountedA s) (hf : FedAt s q) : FedAt s' q := by
  have give_fed : ∀ {k who n d}, s.info k = some d → (s.acct k who = none → d.min ≤ n) → FedAt (give s k who n) q := by
    intro k who n d hi hg d' b y hi' hy hp
    by_cases e : q = k
    · subst e
      rw [give_info hi] at hi'
      cases hi'
      rw [give_acct hi] at hy
      split at hy
      · rename_i e2
        cases hy
        cases hx : s.acct q who with
        | some z =>
          rw [hx] at hp
          have := hf d who z hi hx hp
          dsimp only at this ⊢
          omega
        | none => exact hg hx
      · exact hf d b y hi hy hp
    · rw [give_info_other e] at hi'
      rw [give_acct hi, if_neg (fun x => e x.1)] at hy
      exact hf d' b y hi' hy hp
  have take_fed : ∀ {s : St} {k who n d a}, FedAt s q → s.info k = some d → s.acct k who = some a → FedAt (take s k who n) q := by
    intro s k who n d a hf hi ha d' b y hi' hy hp
    rw [take_acct hi ha] at hy
    by_cases e : q = k
    · subst e
      have hm : d'.min = d.min := by
        rw [take_info hi ha] at hi'
        split at hi'
        · cases hi'; rfl
        · rw [hi] at hi'; cases hi'; rfl
      rw [hm]
      split at hy
      · split at hy
        · cases hy
        · rename_i hg
          cases hy
          unfold Goes at hg
          dsimp only at hp ⊢
          by_contra hlt
          exact hg ⟨by omega, hp⟩
      · exact hf d b y hi hy hp
    · rw [if_neg (fun x => e x.1)] at hy
      rw [take_info hi ha, if_neg (fun x => e x.1)] at hi'
      exact hf d' b y hi' hy hp
  have supply_fed : ∀ {s : St} {k f}, FedAt s q → FedAt (s.setSupply k f) q := by
    intro s k f hf d b y hi hy hp
    unfold St.setSupply at hi
    rw [setInfo_info] at hi
    split at hi
    · rename_i e
      subst e
      cases hx : s.info q with
      | none => rw [hx] at hi; cases hi
      | some d0 =>
        rw [hx] at hi; cases hi
        exact hf d0 b y hx hy hp
    · exact hf d b y hi hy hp
  -- details change, but not the minimum
  have info_fed : ∀ {s : St} {k d d'}, FedAt s q → s.info k = some d → d'.min = d.min → FedAt (s.setInfo k (some d')) q := by
    intro s k d d' hf hi hm d'' b y hi' hy hp
    rw [setInfo_info] at hi'
    split at hi'
    · rename_i e; subst e; cases hi'; rw [hm]; exact hf d b y hi hy hp
    · exact hf d'' b y hi' hy hp
  cases h with
  | info k d d' hi h1 h2 h3 h4 =>
    intro d'' b y hi' hy hp
    rw [setInfo_info] at hi'
    split at hi'
    · rename_i e; subst e; cases hi'
      rcases h4 rfl with h4 | h4
      · exact le_trans h4 (hf d b y hi hy hp)
      · have h3 := (hc q).le b
        rw [accountsOf_some hi, h4, there_some (s := s) hy] at h3
        omega
    · exact hf d'' b y hi' hy hp
  | make k d hi h1 h2 h3 =>
    intro d'' b y hi' hy hp
    rw [setInfo_info] at hi'
    split at hi'
    · rename_i e; subst e
      have h3 := (hc q).le b
      rw [there_some (s := s) hy] at h3
      unfold accountsOf at h3
      rw [hi] at h3
      cases h3
    · exact hf d'' b y hi' hy hp
  | unmake k d hi h0 h1 h2 =>
    intro d'' b y hi' hy hp
    rw [setInfo_info] at hi'
    split at hi'
    · cases hi'
    · exact hf d'' b y hi' hy hp
  | move k src dst n m d a hne hi ha hl hg =>
    exact take_fed (give_fed hi hg) (give_info hi) (give_acct_src hne hi ha)
  | mint k who n d hi hg => exact supply_fed (give_fed hi hg)
  | burn k who m d a hi ha hm hg => exact supply_fed (take_fed hf hi ha)
  | hand k who a h ha =>
    intro d b y hi hy hp
    rw [setAcct_acct] at hy
    split at hy
    · rename_i e; obtain ⟨rfl, rfl⟩ := e; cases hy; exact hf d b a hi ha hp
    · exact hf d b y hi hy hp
  | touch k who by_ n d hi ha =>
    refine info_fed (s := (s.reserve by_ n).setAcct k who _) ?_ hi rfl
    intro d' b y hi' hy hp
    rw [setAcct_acct] at hy
    split at hy
    · cases hy
      dsimp only at hp
      split at hp <;> cases hp
    · exact hf d' b y hi' hy hp
  | shut k who d a hi ha ht =>
    have e := payBack_eq s who a.reason
    have hi' : (payBack s who a.reason).info k = some d := by rw [e.1]; exact hi
    intro d' b y hq hy hp
    rw [drop_acct hi'] at hy
    split at hy
    · cases hy
    · rw [e.2.1] at hy
      rw [drop_info hi'] at hq
      split at hq
      · rename_i e1; subst e1; cases hq; exact hf d b y hi hy hp
      · rw [e.1] at hq; exact hf d' b y hq hy hp
  | approve k o g n dep d hi => exact info_fed (s := (s.reserve o _).setAppr k o g _) hf hi rfl
  | unapprove k o g d p hi hp => exact info_fed (s := (s.unreserve o _).setAppr k o g _) hf hi rfl
  | lessen k o g p n hp => exact hf
  | ice k who f => exact hf

/-- Without untidy changes accounts keep the minimum. -/
theorem act_fed (s s' : St) (h : Act true s s') (hc : CountedA s) (hf : Fed s) : Fed s' :=
  fun q => act_fedAt q s s' h hc (hf q)

end Verif.Runtime.Units
