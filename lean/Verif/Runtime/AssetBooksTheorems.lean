import Verif.Runtime.AssetBooksInvariants

/-!
# The books of the assets pallet: theorems (C202, C203, C204, C205)
-/

namespace Verif.Runtime.Units

open Verif Verif.Accounts

/-! ## Delegates: specification -/

/-- What a step gives `g` leave to take of `a`'s units of asset `k`. Specification only, no code behind it (outside /repo). -/
def gives (k : Key) (a g : AccountId) : Step → Nat
  | .call (.signed x) (.approveTransfer q y n) => if x = a ∧ q = k ∧ y = g then n else 0
  | _ => 0

/-- What `g` asks for, of `a`'s units of asset `k`, in a step. Specification only, no code behind it (outside /repo). -/
def asks (k : Key) (a g : AccountId) : Step → Nat
  | .call (.signed x) (.transferApproved q y _ n) => if x = g ∧ q = k ∧ y = a then n else 0
  | _ => 0

/-- Whether a step is one where `g` takes of `a`'s units of asset `k`. Specification only, no code behind it (outside
/repo). -/
def draws (k : Key) (a g : AccountId) : Step → Bool
  | .call (.signed x) (.transferApproved q y _ _) => decide (x = g ∧ q = k ∧ y = a)
  | _ => false

/-- What is asked for leaves nothing, or at least the minimum. Specification only, no code behind it (outside /repo). -/
def Clean (k : Key) (a g : AccountId) (s : St) (x : Step) : Prop :=
  draws k a g x = true → ∀ d, s.info k = some d → s.has k a = asks k a g x ∨ asks k a g x + d.min ≤ s.has k a

/-- What is reached by steps, and how many units of `a` were taken by `g` in them. Specification only, no code behind it
(outside /repo). -/
inductive Drawn (clean : Bool) (k : Key) (a g : AccountId) (z : St) : List Step → St → Nat → Prop
  | refl : Drawn clean k a g z [] z 0
  | step {l : List Step} {s s' : St} {t : Nat} (env : Env) (x : Step) (h : Drawn clean k a g z l s t)
      (hs : step env s x = some s') (hc : clean = true → Clean k a g s x) :
      Drawn clean k a g z (x :: l) s' (t + if draws k a g x then s.has k a - s'.has k a else 0)

/-- The leave `g` has over `a`'s units of asset `k`. Specification only, no code behind it (outside /repo). -/
def leave (s : St) (k : Key) (a g : AccountId) : Nat := ((s.appr k a g).map (·.amount)).getD 0

/-! ## Delegates: lemmas -/

theorem leave_same {s s' : St} (h : s'.appr = s.appr) (k : Key) (a g : AccountId) : leave s' k a g = leave s k a g := by
  unfold leave; rw [h]

theorem unapprove_leave {s s' : St} {q : Key} {o x : AccountId} (h : unapprove s q o x = some s') (k : Key)
    (a g : AccountId) : leave s' k a g ≤ leave s k a g := by
  obtain ⟨d, p, hi, hp, rfl⟩ := unapprove_facts h
  unfold leave
  rw [setInfo_appr, setAppr_appr]
  split
  · exact Nat.zero_le _
  · exact Nat.le_refl _

theorem mint_appr {env : Env} {s s' : St} {k : Key} {by_ : Option AccountId} {who : AccountId} {n : Nat}
    (h : mint env s k by_ who n = some s') : s'.appr = s.appr := by
  rcases mint_facts h with rfl | ⟨d, hi, _, _, _, _, _, rfl⟩
  · rfl
  · exact give_appr _ _ _ _

theorem burn_appr {s s' : St} {k : Key} {by_ : Option AccountId} {who : AccountId} {n : Nat} {best : Bool}
    (h : burn s k by_ who n best = some s') : s'.appr = s.appr := by
  rcases burn_facts h with rfl | ⟨d, a, m, hi, ha, hn, hb, hm, rfl⟩
  · rfl
  · exact take_appr _ _ _ _

theorem setHand_appr {s s' : St} {k : Key} {who : AccountId} {h : Hand} (e : setHand s k who h = some s') :
    s'.appr = s.appr := by
  obtain ⟨a, ha, rfl⟩ := setHand_facts e; rfl

theorem touch_appr {env : Env} {s s' : St} {k : Key} {who by_ : AccountId} (h : touch env s k who by_ = some s') :
    s'.appr = s.appr := by
  obtain ⟨d, _, ha, _, rfl⟩ := touch_facts h; rfl

theorem refund_appr {s s' : St} {k : Key} {who : AccountId} {burning : Bool} (h : refund s k who burning = some s') :
    s'.appr = s.appr := by
  obtain ⟨d, a, hi, ha, _, _, ⟨_, rfl⟩ | ⟨n, _, rfl⟩⟩ := refund_facts h <;> exact drop_appr _ _ _

theorem refundOther_appr {s s' : St} {k : Key} {who by_ : AccountId} (h : refundOther s k who by_ = some s') :
    s'.appr = s.appr := by
  obtain ⟨d, a, lender, n, hi, ha, _, _, hz, rfl⟩ := refundOther_facts h; exact drop_appr _ _ _

theorem destroyAccounts_appr (k : Key) (l : List AccountId) : ∀ s : St, (l.foldl (destroyAccount k) s).appr = s.appr := by
  induction l with
  | nil => intro s; rfl
  | cons x t ih =>
    intro s
    rw [List.foldl_cons, ih]
    rcases destroyAccount_facts k s x with ⟨_, e⟩ | ⟨a, ha, e⟩
    · rw [e]
    · rw [e, drop_appr, (payBack_eq s x a.reason).2.2.1]

theorem destroyApprovals_leave (q : Key) (l : List (AccountId × AccountId)) (k : Key) (a g : AccountId) : ∀ s : St,
    leave (l.foldl (destroyApproval q) s) k a g ≤ leave s k a g := by
  induction l with
  | nil => intro s; exact Nat.le_refl _
  | cons x t ih =>
    intro s
    rw [List.foldl_cons]
    refine le_trans (ih _) ?_
    unfold destroyApproval
    cases h : unapprove s q x.1 x.2 with
    | none => exact Nat.le_refl _
    | some s' => exact unapprove_leave h k a g

/-- What is left of a leave after a step. -/
theorem step_leave {env : Env} {s s' : St} {x : Step} (h : step env s x = some s') (k : Key) (a g : AccountId) :
    asks k a g x + leave s' k a g ≤ leave s k a g + gives k a g x := by
  have le : ∀ {n m : Nat}, leave s' k a g ≤ leave s k a g → 0 + leave s' k a g ≤ leave s k a g + n := by
    intro n m e; omega
  have same : ∀ {n : Nat}, s'.appr = s.appr → 0 + leave s' k a g ≤ leave s k a g + n := by
    intro n e; rw [leave_same e]; omega
  cases x with
  | other y =>
    show 0 + _ ≤ _ + 0
    cases y with
    | make q o z n =>
      have h : byRoot s (.forceCreate q o z n) = some s' := h
      simp only [byRoot] at h
      split at h
      · cases h
      · cases h; exact same rfl
    | mintInto q who n => exact same (mint_appr h)
    | burnFrom q who n best => exact same (burn_appr h)
    | transfer q src dst n keep => exact same (move_appr h)
    | setFrozen q who f => cases h; exact same rfl
  | call o c =>
    cases o with
    | root =>
      replace h : byRoot s c = some s' := h
      show 0 + _ ≤ _ + 0
      cases c <;> simp only [byRoot] at h
      all_goals first | (cases h; done) | skip
      case forceCreate => (repeat' split at h) <;> first | (cases h; done) | (cases h; exact same rfl)
      case startDestroy => (repeat' split at h) <;> first | (cases h; done) | (cases h; exact same rfl)
      case forceAssetStatus => (repeat' split at h) <;> first | (cases h; done) | (cases h; exact same rfl)
      case forceCancelApproval q o x =>
        (repeat' split at h) <;> first | (cases h; done) | exact le (m := 0) (unapprove_leave h k a g)
    | signed by_ =>
      replace h : bySigner env s by_ c = some s' := h
      cases c <;> simp only [bySigner] at h
      all_goals first | (cases h; done) | skip
      case transferApproved q y dst n =>
        obtain ⟨d, p, s1, hi, hp, _, hn, hm, _, _, hx⟩ := transferApproved_facts h
        have e1 := move_appr hm
        show (if by_ = g ∧ q = k ∧ y = a then n else 0) + _ ≤ _ + 0
        have hs' : s'.appr k a g = if k = q ∧ a = y ∧ g = by_ then
            (if p.amount = n then none else some { p with amount := p.amount - n }) else s.appr k a g := by
          rcases hx with ⟨hz, hx⟩ | ⟨hz, rfl⟩
          · obtain ⟨d', p', _, _, rfl⟩ := unapprove_facts hx
            rw [setInfo_appr, setAppr_appr, if_pos hz]
            show (if k = q ∧ a = y ∧ g = by_ then none else s1.appr k a g) = _
            rw [e1]
          · rw [setAppr_appr, if_neg (show ¬ p.amount = n by omega), e1]
        unfold leave
        rw [hs']
        by_cases e : k = q ∧ a = y ∧ g = by_
        · rw [if_pos e, if_pos ⟨e.2.2.symm, e.1.symm, e.2.1.symm⟩]
          obtain ⟨rfl, rfl, rfl⟩ := e
          rw [hp]
          split
          · rename_i hz
            show n + 0 ≤ p.amount + 0
            omega
          · show n + (p.amount - n) ≤ p.amount + 0
            omega
        · rw [if_neg e, if_neg (fun z => e ⟨z.2.1.symm, z.2.2.symm, z.1.symm⟩)]
          omega
      case approveTransfer q x n =>
        obtain ⟨d, _, _, rfl⟩ := approve_facts h
        show 0 + _ ≤ _ + (if by_ = a ∧ q = k ∧ x = g then n else 0)
        unfold leave
        rw [setInfo_appr, setAppr_appr]
        by_cases e : k = q ∧ a = by_ ∧ g = x
        · rw [if_pos e, if_pos ⟨e.2.1.symm, e.1.symm, e.2.2.symm⟩]
          obtain ⟨rfl, rfl, rfl⟩ := e
          have h1 : Nat.min (((s.appr k a g).getD ⟨0, 0⟩).amount + n) maxUnits ≤ ((s.appr k a g).getD ⟨0, 0⟩).amount + n :=
            Nat.min_le_left _ _
          have h2 : ((s.appr k a g).getD ⟨0, 0⟩).amount = ((s.appr k a g).map (·.amount)).getD 0 := by
            cases s.appr k a g <;> rfl
          show 0 + Nat.min _ maxUnits ≤ _
          omega
        · rw [if_neg e]
          show 0 + leave s k a g ≤ leave s k a g + _
          omega
      all_goals show 0 + _ ≤ _ + 0
      case destroyAccounts q l =>
        (repeat' split at h) <;> first | (cases h; done) | (cases h; exact same (destroyAccounts_appr _ _ _))
      case destroyApprovals q l =>
        (repeat' split at h) <;> first | (cases h; done) | (cases h; exact le (m := 0) (destroyApprovals_leave _ _ _ _ _ _))
      case mint => exact same (mint_appr h)
      case burn => exact same (burn_appr h)
      case transfer => exact same (move_appr h)
      case transferKeepAlive => exact same (move_appr h)
      case forceTransfer =>
        (repeat' split at h) <;> first | (cases h; done) | exact same (move_appr h) | (cases h; exact same rfl)
      case freeze => (repeat' split at h) <;> first | (cases h; done) | exact same (setHand_appr h)
      case thaw => (repeat' split at h) <;> first | (cases h; done) | exact same (setHand_appr h)
      case block => (repeat' split at h) <;> first | (cases h; done) | exact same (setHand_appr h)
      case cancelApproval =>
        (repeat' split at h) <;> first | (cases h; done) | exact le (m := 0) (unapprove_leave h k a g)
      case forceCancelApproval =>
        (repeat' split at h) <;> first | (cases h; done) | exact le (m := 0) (unapprove_leave h k a g)
      case touch => exact same (touch_appr h)
      case touchOther => (repeat' split at h) <;> first | (cases h; done) | exact same (touch_appr h)
      case refund => exact same (refund_appr h)
      case refundOther => exact same (refundOther_appr h)
      all_goals (repeat' split at h) <;> first | (cases h; done) | (cases h; exact same rfl)
    | none => cases h
    | community _ => cases h
    | custom _ => cases h
    | other _ => cases h

theorem Drawn.reach {clean : Bool} {k : Key} {a g : AccountId} {z s : St} {l : List Step} {t : Nat}
    (h : Drawn clean k a g z l s t) : Reach z l s := by
  induction h with
  | refl => exact .refl
  | step env x _ hs _ ih => exact .step env x ih hs

/-- What a delegate takes when the rest is clean. -/
theorem clean_loss {env : Env} {s s' : St} {x : Step} (h : step env s x = some s') (k : Key) (a g : AccountId)
    (hc : Clean k a g s x) (hd : draws k a g x = true) : s.has k a - s'.has k a ≤ asks k a g x := by
  by_cases hlt : s'.has k a < s.has k a
  · replace hc := hc hd
    obtain ⟨by_, q, y, dst, n, rfl, hq⟩ : ∃ by_ q y dst n, x = .call (.signed by_) (.transferApproved q y dst n) ∧
        (by_ = g ∧ q = k ∧ y = a) := by
      cases x with
      | other y => cases hd
      | call o c =>
        cases o <;> first | (cases hd; done) | skip
        cases c <;> first | exact ⟨_, _, _, _, _, rfl, of_decide_eq_true hd⟩ | (cases hd; done)
    obtain ⟨rfl, rfl, rfl⟩ := hq
    have e : asks q y by_ (.call (.signed by_) (.transferApproved q y dst n)) = n := if_pos ⟨rfl, rfl, rfl⟩
    rw [e] at hc ⊢
    have ht := C200_taken env s s' (.signed by_) (.transferApproved q y dst n) h q y hlt
    generalize s.has q y - s'.has q y = m at ht
    cases ht with
    | delegated _ _ _ p hp hn ho hs =>
      obtain ⟨d, hi, hl, _⟩ := hs
      have := hc d hi
      obtain ⟨h1, h2 | h2⟩ := hl <;> omega
  · omega

/-! ## Theorems -/

/-- **C202**: what a delegate asks for, of the units of somebody, and what it may still ask for, are together never more than
that holder gave it leave for. -/
theorem C202_asked (l : List Step) (s : St) (h : Reach genesis l s) (k : Key) (a g : AccountId) :
    (l.map (asks k a g)).sum + leave s k a g ≤ (l.map (gives k a g)).sum := by
  induction h with
  | refl => exact Nat.le_refl _
  | step env x _ hs ih =>
    have := step_leave hs k a g
    simp only [List.map_cons, List.sum_cons]
    omega

/-- **C202, full claim**: a delegate never takes more units of a holder than the holder gave it leave for.
**Proved part**: as long as what it asks for leaves nothing on the account, or at least the minimum. -/
theorem C202_delegate_partial (l : List Step) (s : St) (k : Key) (a g : AccountId) (t : Nat)
    (h : Drawn true k a g genesis l s t) : t + leave s k a g ≤ (l.map (gives k a g)).sum := by
  have key : t ≤ (l.map (asks k a g)).sum := by
    induction h with
    | refl => exact Nat.le_refl _
    | step env x _ hs hc ih =>
      simp only [List.map_cons, List.sum_cons]
      split
      · rename_i hd
        have := clean_loss hs k a g (hc rfl) hd
        omega
      · omega
  have := C202_asked l s h.reach k a g
  omega

/-- **C203**: whatever is called, in whatever order, the units accounts have of an asset never add up to more than its
supply. -/
theorem C203_within_supply (l : List Step) (s : St) (h : Reach genesis l s) (k : Key) :
    ∃ t, SumsTo (s.has k) t ∧ t ≤ s.supply k := by
  have key : ∃ x, AddsUp s k x := by
    have := h.keep (P := fun s => CountedA s ∧ ∃ x, AddsUp s k x) (fun s s' ha hp => by
      obtain ⟨hc, x, hx⟩ := hp
      obtain ⟨y, hy, _⟩ := act_addsUp s s' ha hc k x hx (fun e => nomatch e)
      exact ⟨act_countedA s s' ha hc, y, hy⟩)
      ⟨fun q => (genesis_counted q).1, 0, addsUp_zero (fun _ => rfl) rfl⟩
    exact this.2
  obtain ⟨x, t, h1, h2⟩ := key
  exact ⟨t, h1, by omega⟩

/-- **C203, full claim**: the units accounts have of an asset add up to its supply.
**Proved part**: as long as no account is given up with units on it, none is destroyed with its asset, and root forces no
other minimum. -/
theorem C203_supply_partial (l : List Step) (s : St) (h : Reach genesis l s) (ht : ∀ x ∈ l, Tidy x) (k : Key) :
    SumsTo (s.has k) (s.supply k) := by
  have := h.keepTidy (P := fun s => CountedA s ∧ Fed s ∧ AddsUp s k 0) (fun s s' ha hp => by
    obtain ⟨hc, hf, hx⟩ := hp
    obtain ⟨y, hy, e1, e2⟩ := act_addsUp s s' ha hc k 0 hx (fun _ => hf k)
    refine ⟨act_countedA s s' ha hc, act_fed s s' ha hc hf, ?_⟩
    have : y = 0 := by
      by_cases h1 : s.info k = none
      · exact (e2 rfl (.inl h1)).elim id id
      · by_cases h2 : s'.info k = none
        · exact (e2 rfl (.inr h2)).elim id id
        · exact e1 rfl h1 h2
    rw [← this]; exact hy) ht
    ⟨fun q => (genesis_counted q).1, (fun _ _ _ _ hi => nomatch hi), addsUp_zero (fun _ => rfl) rfl⟩
  obtain ⟨_, _, t, h1, h2⟩ := this
  have : t = s.supply k := by omega
  rw [← this]; exact h1

/-- **C204**: what accounts have reserved for the assets pallet is, at any time, what they left for accounts they or others
have, and for approvals they gave; so all of it comes back with them. -/
theorem C204_deposits (l : List Step) (s : St) (h : Reach genesis l s) (who : AccountId) :
    SumsTo (leftFor s who) (s.reserved who) :=
  h.keep (P := Deposited) act_deposited (fun _ => SumsTo.none.same fun x => by rcases x with ⟨k, a⟩ | ⟨k, o, g⟩ <;> rfl) who

/-- **C204**: in particular, an account that left nothing for any account or approval has nothing reserved. -/
theorem C204_nothing_left (l : List Step) (s : St) (h : Reach genesis l s) (who : AccountId)
    (hn : ∀ x, leftFor s who x = 0) : s.reserved who = 0 := by
  obtain ⟨K, _, h2⟩ := C204_deposits l s h who
  rw [h2]
  exact Finset.sum_eq_zero fun x _ => hn x

/-- **C204**: who opens an account leaves twenty cents and sixteen thousandths of a cent, whoever it is for; nobody else has
more or less reserved. -/
theorem C204_price (env : Env) (hc : env.cents < 2 ^ 100) (s s' : St) (o : RtOrigin) (c : Call) (k : Key) (who : AccountId)
    (h : call env s o c = some s') (ht : (c = .touch k ∧ o = .signed who) ∨ c = .touchOther k who) :
    ∃ by_, o = .signed by_ ∧ s.acct k who = none ∧ s'.has k who = 0 ∧ s'.acct k who ≠ none ∧
      s'.reserved by_ = s.reserved by_ + (20 * env.cents + 16 * (env.cents / 1000)) ∧
      ∀ a, a ≠ by_ → s'.reserved a = s.reserved a := by
  have price : env.accountDeposit = 20 * env.cents + 16 * (env.cents / 1000) := by
    unfold Env.accountDeposit deposit relayDeposit
    generalize hm : env.cents / 1000 = m
    have : m ≤ env.cents := by omega
    rw [Nat.mod_eq_of_lt (by norm_num at hc ⊢; omega)]
    omega
  have main : ∀ by_, touch env s k who by_ = some s' → s.acct k who = none ∧ s'.has k who = 0 ∧ s'.acct k who ≠ none ∧
      s'.reserved by_ = s.reserved by_ + (20 * env.cents + 16 * (env.cents / 1000)) ∧
      ∀ a, a ≠ by_ → s'.reserved a = s.reserved a := by
    intro by_ h
    unfold touch at h
    split at h
    · rename_i ha
      split at h
      · cases h
        refine ⟨ha, ?_, ?_, ?_, ?_⟩
        · simp [St.has, St.setInfo, St.setAcct]
        · simp [St.setInfo, St.setAcct]
        · simp [St.setInfo, St.setAcct, St.reserve, price]
        · intro a hne; simp [St.setInfo, St.setAcct, St.reserve, hne]
      · cases h
    · cases h
  rcases ht with ⟨rfl, rfl⟩ | rfl
  · exact ⟨who, rfl, main who h⟩
  · cases o with
    | signed b =>
      refine ⟨b, rfl, main b ?_⟩
      replace h : bySigner env s b (.touchOther k who) = some s' := h
      unfold bySigner at h
      dsimp only at h
      split at h
      · split at h
        · exact h
        · cases h
      · cases h
    | root => cases h
    | _ => cases h

/-- **C204**: who approves a delegate has a tenth of a cent reserved for it, once, however often it is approved for more. -/
theorem C204_approval_price (env : Env) (s s' : St) (who g : AccountId) (k : Key) (n : Nat)
    (h : call env s (.signed who) (.approveTransfer k g n) = some s')
    (hp : ∀ p, s.appr k who g = some p → p.deposit = env.cents / 10) :
    (∃ p, s'.appr k who g = some p ∧ p.deposit = env.cents / 10) ∧
    s'.reserved who = s.reserved who + (if s.appr k who g = none then env.cents / 10 else 0) ∧
    ∀ a, a ≠ who → s'.reserved a = s.reserved a := by
  replace h : approve env s k who g n = some s' := h
  have e : env.approvalDeposit = env.cents / 10 := rfl
  unfold approve at h
  split at h
  · split at h
    · cases h
    · dsimp only at h
      split at h
      · cases h
      · cases h
        cases ha : s.appr k who g with
        | none =>
          refine ⟨⟨_, by simp [St.setInfo, St.setAppr, ha]; rfl, by simp [e]⟩, ?_, ?_⟩
          · simp [St.setInfo, St.setAppr, St.reserve, ha, e]
          · intro a hne; simp [St.setInfo, St.setAppr, St.reserve, hne]
        | some p =>
          have hd := hp p ha
          refine ⟨⟨_, by simp [St.setInfo, St.setAppr, ha]; rfl, by simp [e, hd]⟩, ?_, ?_⟩
          · simp [St.setInfo, St.setAppr, St.reserve, e, hd, ha]
          · intro a hne; simp [St.setInfo, St.setAppr, St.reserve, hne]
  · cases h

/-- **C205**: an asset that is not there has no accounts, no units and no approvals: so one that was destroyed left nothing,
and one that is created starts with nothing. -/
theorem C205_gone (l : List Step) (s : St) (h : Reach genesis l s) (k : Key) (hk : s.info k = none) :
    (∀ a, s.acct k a = none ∧ s.has k a = 0) ∧ ∀ o g, s.appr k o g = none := by
  have hc := reach_counted h k
  have e1 : accountsOf s k = 0 := by unfold accountsOf; rw [hk]; rfl
  have e2 : approvalsOf s k = 0 := by unfold approvalsOf; rw [hk]; rfl
  have ha : ∀ a, s.acct k a = none := fun a => by
    have h1 := hc.1.le a
    rw [e1] at h1
    cases hx : s.acct k a with
    | none => rfl
    | some y => rw [there_some hx] at h1; omega
  refine ⟨fun a => ⟨ha a, has_none (ha a)⟩, fun o g => ?_⟩
  have h1 := hc.2.le (o, g)
  rw [e2] at h1
  cases hx : s.appr k o g with
  | none => rfl
  | some p =>
    unfold granted at h1
    rw [hx] at h1
    simp at h1

/-- **C205**: the record of an asset counts its accounts and its approvals, so that destruction is finished when the last of
them is gone and not before. -/
theorem C205_counted (l : List Step) (s : St) (h : Reach genesis l s) (k : Key) (d : Info) (hd : s.info k = some d) :
    (d.accounts = 0 ↔ ∀ a, s.acct k a = none) ∧ (d.approvals = 0 ↔ ∀ o g, s.appr k o g = none) := by
  have hc := reach_counted h k
  rw [accountsOf_some hd, approvalsOf_some hd] at hc
  refine ⟨⟨fun e a => ?_, fun e => ?_⟩, ⟨fun e o g => ?_, fun e => ?_⟩⟩
  · have h1 := hc.1.le a
    cases hx : s.acct k a with
    | none => rfl
    | some y => rw [there_some hx] at h1; omega
  · obtain ⟨K, _, h2⟩ := hc.1
    rw [h2]
    exact Finset.sum_eq_zero fun a _ => there_none (e a)
  · have h1 := hc.2.le (o, g)
    cases hx : s.appr k o g with
    | none => rfl
    | some p =>
      unfold granted at h1
      rw [hx] at h1
      simp at h1; omega
  · obtain ⟨K, _, h2⟩ := hc.2
    rw [h2]
    exact Finset.sum_eq_zero fun x _ => by unfold granted; rw [e]; rfl

/-- **C205**: and when its owner, or root, destroys it, anybody can bring it to its end: once it is being destroyed, each
account and approval can be removed by whoever asks, and then the asset. -/
theorem C205_finishes (env : Env) (s : St) (k : Key) (d : Info) (who : AccountId) (hd : s.info k = some d)
    (hs : d.status = .destroying) (h1 : d.accounts = 0) (h2 : d.approvals = 0) :
    ∃ s', call env s (.signed who) (.finishDestroy k) = some s' ∧ s'.info k = none := by
  refine ⟨s.setInfo k none, ?_, ?_⟩
  · show bySigner env s who (.finishDestroy k) = _
    simp only [bySigner]
    rw [hd]
    dsimp only
    rw [if_pos ⟨hs, h1, h2⟩]
  · rw [setInfo_info, if_pos rfl]

/-! ## Refutations, and examples -/

/-- Example: bob, with 100 units of alice's asset, whose minimum is 10, gives carol leave over 95, and carol takes them (outside
/repo). -/
def Demo.delegated : List Step :=
  [.call .root (.forceCreate 0 Demo.alice false 10), .call (.signed Demo.alice) (.mint 0 Demo.bob 100),
    .call (.signed Demo.bob) (.approveTransfer 0 Demo.carol 95)]

/-- **C202 fails** in full: with leave for 95 a delegate takes 100, as the 5 that would stay are below the minimum. -/
theorem C202_delegate_fails :
    ∃ (l : List Step) (s : St) (k : Key) (a g : AccountId) (t : Nat), Drawn false k a g genesis l s t ∧
      t = 100 ∧ (l.map (gives k a g)).sum = 95 := by
  obtain ⟨s1, h1⟩ : ∃ s1, step Demo.env genesis (.call .root (.forceCreate 0 Demo.alice false 10)) = some s1 := ⟨_, rfl⟩
  have e1 : s1 = (Demo.run genesis (Demo.delegated.take 1)).getD genesis := by
    show s1 = ((step Demo.env genesis _).bind _).getD genesis
    rw [h1]; rfl
  obtain ⟨s2, h2⟩ : ∃ s2, step Demo.env s1 (.call (.signed Demo.alice) (.mint 0 Demo.bob 100)) = some s2 := by
    rw [e1]; exact ⟨_, rfl⟩
  obtain ⟨s3, h3⟩ : ∃ s3, step Demo.env s2 (.call (.signed Demo.bob) (.approveTransfer 0 Demo.carol 95)) = some s3 := by
    have e2 : s2 = (Demo.run s1 [.call (.signed Demo.alice) (.mint 0 Demo.bob 100)]).getD genesis := by
      show s2 = ((step Demo.env s1 _).bind _).getD genesis
      rw [h2]; rfl
    rw [e2, e1]; exact ⟨_, rfl⟩
  have e3 : s3 = (Demo.run genesis Demo.delegated).getD genesis := by
    show s3 = ((step Demo.env genesis _).bind _).getD genesis
    rw [h1]
    show s3 = ((step Demo.env s1 _).bind _).getD genesis
    rw [h2]
    show s3 = ((step Demo.env s2 _).bind _).getD genesis
    rw [h3]; rfl
  obtain ⟨s4, h4⟩ : ∃ s4, step Demo.env s3 (.call (.signed Demo.carol) (.transferApproved 0 Demo.bob Demo.carol 95)) = some s4 := by
    rw [e3]; exact ⟨_, rfl⟩
  have e4 : s4.has 0 Demo.bob = 0 := by
    have : some s4 = step Demo.env ((Demo.run genesis Demo.delegated).getD genesis)
        (.call (.signed Demo.carol) (.transferApproved 0 Demo.bob Demo.carol 95)) := by rw [← e3, h4]
    have h : (some s4).map (fun s => s.has 0 Demo.bob) = some 0 := by rw [this]; decide +kernel
    exact Option.some.inj h
  have e5 : s3.has 0 Demo.bob = 100 := by rw [e3]; decide +kernel
  have d1 := Drawn.step (clean := false) (k := 0) (a := Demo.bob) (g := Demo.carol) Demo.env _ (.refl (z := genesis)) h1
    (fun e => nomatch e)
  have d2 := Drawn.step Demo.env _ d1 h2 (fun e => nomatch e)
  have d3 := Drawn.step Demo.env _ d2 h3 (fun e => nomatch e)
  have d4 := Drawn.step Demo.env _ d3 h4 (fun e => nomatch e)
  refine ⟨_, _, _, _, _, _, d4, ?_, by decide +kernel⟩
  rw [e4, e5]
  rfl

/-- Example: alice's asset, with units of bob, who gave carol leave over some of them and then gave the account up (outside
/repo). -/
def Demo.givenUp : List Step :=
  [.call .root (.forceCreate 0 Demo.alice false 10), .call (.signed Demo.alice) (.mint 0 Demo.bob 100),
    .call (.signed Demo.bob) (.refund 0 true)]

/-- **C203 fails** in full: after bob gave up their account with 100 units on it, nobody has any, and the supply on record is
still 100. -/
theorem C203_supply_fails :
    ∃ (l : List Step) (s : St) (k : Key), Reach genesis l s ∧ s.supply k = 100 ∧ ¬ SumsTo (s.has k) (s.supply k) := by
  obtain ⟨s, hs⟩ : ∃ s, Demo.run genesis Demo.givenUp = some s := ⟨_, rfl⟩
  obtain ⟨l, hl⟩ := Demo.reach hs .refl
  have e : s = (Demo.run genesis Demo.givenUp).getD genesis := by rw [hs]; rfl
  have h1 : s.supply 0 = 100 := by rw [e]; decide +kernel
  have h2 : s.info 0 = some ⟨Demo.alice, Demo.alice, Demo.alice, Demo.alice, 100, 10, false, 0, 0, .live⟩ := by
    rw [e]; decide +kernel
  have h3 := ((C205_counted l s hl 0 _ h2).1).1 rfl
  refine ⟨l, s, 0, hl, h1, ?_⟩
  rintro ⟨K, _, h4⟩
  rw [h1, Finset.sum_eq_zero fun a _ => has_none (h3 a)] at h4
  cases h4

/-- A history with an approval, its use and its end, accounts opened and closed, and the asset destroyed: the deposits are
back, the asset is gone. -/
example :
    let l : List Step :=
      [.call .root (.forceCreate 0 Demo.alice false 10), .call (.signed Demo.alice) (.mint 0 Demo.bob 100),
        .call (.signed Demo.carol) (.touch 0), .call (.signed Demo.bob) (.approveTransfer 0 Demo.carol 50),
        .call (.signed Demo.carol) (.transferApproved 0 Demo.bob Demo.carol 20)]
    let m : List Step := l ++ [.call .root (.startDestroy 0), .call (.signed Demo.bob) (.destroyAccounts 0 [Demo.bob, Demo.carol]),
      .call (.signed Demo.bob) (.destroyApprovals 0 [(Demo.bob, Demo.carol)]), .call (.signed Demo.bob) (.finishDestroy 0)]
    (Demo.run genesis l).map (fun s => (s.reserved Demo.bob, s.has 0 Demo.bob, s.has 0 Demo.carol, s.supply 0)) =
        some (Demo.env.approvalDeposit, 80, 20, 100) ∧
      (Demo.run genesis l).map (fun s => s.reserved Demo.carol) = some Demo.env.accountDeposit ∧
      (Demo.run genesis m).map (fun s => (s.reserved Demo.bob, s.reserved Demo.carol, s.info 0)) = some (0, 0, none) := by
  decide +kernel

end Verif.Runtime.Units
