import Verif.Runtime.AssetPowersTheorems

/-!
# Who is given units of an asset, and at whose expense: theorems (C208, C209)
-/

namespace Verif.Runtime.Units

open Verif Verif.Accounts

/-! ## Specification -/

/-- `a` can be given `m` units of asset `k`: the asset is live, the account is not blocked, what it has afterwards fits into
a balance, and if it is new this is at least the minimum. Specification only, no code behind it (outside /repo). -/
def Receives (s : St) (k : Key) (a : AccountId) (m : Nat) : Prop :=
  ∃ d, s.info k = some d ∧ d.status = .live ∧ (∀ x, s.acct k a = some x → x.status ≠ .blocked ∧ x.balance + m ≤ maxUnits) ∧
    (s.acct k a = none → d.min ≤ m)

/-- The ways `a` comes to more units of asset `k`, `m` of them, by a call that leads from `s` to `s'`. Specification only, no
code behind it (outside /repo). -/
inductive Given (s s' : St) (k : Key) (a : AccountId) (m : Nat) : RtOrigin → Call → Prop
  /-- The issuer makes them. -/
  | minted (d : Info) (hi : s.info k = some d) : Given s s' k a m (.signed d.issuer) (.mint k a m)
  /-- Another holder sends them. -/
  | sent (src : AccountId) (n : Nat) (hn : n ≤ m) (hs : s'.has k src + m = s.has k src) :
      Given s s' k a m (.signed src) (.transfer k a n)
  /-- Another holder sends them and keeps the minimum. -/
  | kept (src : AccountId) (n : Nat) (hn : n ≤ m) (hs : s'.has k src + m = s.has k src) :
      Given s s' k a m (.signed src) (.transferKeepAlive k a n)
  /-- The admin of the asset takes them from another. -/
  | forced (d : Info) (src : AccountId) (n : Nat) (hi : s.info k = some d) (hn : n ≤ m)
      (hs : s'.has k src + m = s.has k src) : Given s s' k a m (.signed d.admin) (.forceTransfer k src a n)
  /-- A delegate of another sends them. -/
  | delegated (src g : AccountId) (n : Nat) (hn : n ≤ m) (hs : s'.has k src + m = s.has k src) :
      Given s s' k a m (.signed g) (.transferApproved k src a n)

/-! ## Lemmas -/

theorem canGet_facts {env : Env} {s : St} {k : Key} {who : AccountId} {n : Nat} {d : Info} (hi : s.info k = some d)
    (h1 : d.status = .live) (h : canGet env s k who n = true) : Receives s k who n := by
  refine ⟨d, hi, h1, ?_, ?_⟩ <;> unfold canGet at h <;> rw [hi] at h <;> dsimp only at h
  · intro x hx
    rw [hx] at h
    simp only [Bool.and_eq_true, decide_eq_true_eq] at h
    exact h.2
  · intro hx
    rw [hx] at h
    simp only [Bool.and_eq_true, decide_eq_true_eq] at h
    exact h.2.1

/-- What an account gains by a move. -/
theorem move_gain {env : Env} {s s' : St} {k k' : Key} {src dst b : AccountId} {n : Nat} {keep : Bool}
    (h : move env s k src dst n keep = some s') (hlt : s.has k' b < s'.has k' b) :
    k' = k ∧ b = dst ∧ n ≠ 0 ∧ Receives s k b (s'.has k b - s.has k b) ∧ n ≤ s'.has k b - s.has k b ∧
      s'.has k src + (s'.has k b - s.has k b) = s.has k src := by
  rcases move_facts h with rfl | ⟨d, a, m, hne, hn, hi, ha, h1, h2, hl, hk, hf, hg, rfl⟩
  · omega
  · have hb := hl.le
    have hh := has_some ha
    rw [moved_has hne hi ha hl] at hlt
    split at hlt
    · rename_i e; obtain ⟨rfl, rfl⟩ := e; omega
    · rename_i hs
      split at hlt
      · rename_i e
        obtain ⟨rfl, rfl⟩ := e
        have e3 : (take (give s k' b m) k' src m).has k' b - s.has k' b = m := by
          rw [moved_has hne hi ha hl, if_neg hs, if_pos ⟨rfl, rfl⟩]; omega
        rw [e3]
        refine ⟨rfl, rfl, hn, canGet_facts hi h1 hg, ?_, ?_⟩
        · obtain ⟨g1, g2 | g2⟩ := hl <;> omega
        · rw [moved_has hne hi ha hl, if_pos ⟨rfl, rfl⟩]; omega
      · omega

theorem mint_gain {env : Env} {s s' : St} {k k' : Key} {by_ : Option AccountId} {who b : AccountId} {n : Nat}
    (h : mint env s k by_ who n = some s') (hlt : s.has k' b < s'.has k' b) :
    k' = k ∧ b = who ∧ s'.has k b - s.has k b = n ∧ Receives s k b n ∧
      ∃ d, s.info k = some d ∧ ∀ x, by_ = some x → x = d.issuer := by
  rcases mint_facts h with rfl | ⟨d, hi, _, h1, h2, _, hg, rfl⟩
  · omega
  · rw [setSupply_has, give_has hi] at hlt
    split at hlt
    · rename_i e
      obtain ⟨rfl, rfl⟩ := e
      refine ⟨rfl, rfl, ?_, canGet_facts hi h1 hg, d, hi, h2⟩
      rw [setSupply_has, give_has hi, if_pos ⟨rfl, rfl⟩]; omega
    · omega

theorem burn_has {s s' : St} {k : Key} {by_ : Option AccountId} {who : AccountId} {n : Nat} {best : Bool}
    (h : burn s k by_ who n best = some s') (k' : Key) (b : AccountId) : s'.has k' b ≤ s.has k' b := by
  rcases burn_facts h with rfl | ⟨d, a, m, hi, ha, _, _, _, rfl⟩
  · exact Nat.le_refl _
  · rw [setSupply_has, take_has hi ha]
    split
    · rename_i e; obtain ⟨rfl, rfl⟩ := e; rw [has_some ha]; split <;> omega
    · exact Nat.le_refl _

/-! ## C208 -/

/-- **C208**: when an account has more units of an asset after a call than before, then the issuer made them for it, or another
holder lost just as many: who sent them, or from whom the admin or a delegate sent them. The account was not blocked, what it has
fits into a balance, and a new one has at least the minimum. -/
theorem C208_given (env : Env) (s s' : St) (o : RtOrigin) (c : Call) (h : call env s o c = some s') (k : Key)
    (a : AccountId) (hlt : s.has k a < s'.has k a) :
    Given s s' k a (s'.has k a - s.has k a) o c ∧ Receives s k a (s'.has k a - s.has k a) := by
  have no : s'.has = s.has → False := fun e => by rw [e] at hlt; omega
  cases o with
  | root => exact (no (has_of_acct (byRoot_acct (show byRoot s c = some s' from h)).1)).elim
  | signed by_ =>
    replace h : bySigner env s by_ c = some s' := h
    cases c <;> simp only [bySigner] at h
    case mint q who n =>
      obtain ⟨rfl, rfl, e, g1, d, hi, g2⟩ := mint_gain h hlt
      obtain rfl := g2 by_ rfl
      rw [e]
      exact ⟨.minted d hi, g1⟩
    case burn q who n => have := burn_has h k a; omega
    case transfer q dst n =>
      obtain ⟨rfl, rfl, _, g1, g2, g3⟩ := move_gain h hlt
      exact ⟨.sent by_ n g2 g3, g1⟩
    case transferKeepAlive q dst n =>
      obtain ⟨rfl, rfl, _, g1, g2, g3⟩ := move_gain h hlt
      exact ⟨.kept by_ n g2 g3, g1⟩
    case forceTransfer q src dst n =>
      split at h
      · rename_i d hi
        split at h
        · rename_i hc
          obtain ⟨rfl, rfl, hn, g1, g2, g3⟩ := move_gain h hlt
          obtain rfl := hc.resolve_left hn
          exact ⟨.forced d src n hi g2 g3, g1⟩
        · cases h
      · split at h
        · cases h; omega
        · cases h
    case transferApproved q x dst n =>
      obtain ⟨d, p, s1, hi, hp, _, hn, hm, e1, _, _⟩ := transferApproved_facts h
      have e2 := has_of_acct e1
      rw [e2] at hlt
      obtain ⟨rfl, rfl, _, g1, g2, g3⟩ := move_gain hm hlt
      rw [← e2] at g1 g2 g3
      exact ⟨.delegated x by_ n g2 g3, g1⟩
    case destroyAccounts q l =>
      split at h
      · rename_i d hi
        split at h
        · cases h
          rw [destroyAccounts_has q l s d hi k a] at hlt
          split at hlt <;> omega
        · cases h
      · cases h
    case destroyApprovals q l =>
      split at h
      · split at h
        · cases h; exact (no (has_of_acct (destroyApprovals_acct q l s).1)).elim
        · cases h
      · cases h
    case refund q burning =>
      rw [refund_has h] at hlt
      split at hlt <;> omega
    case refundOther q who => exact (no (refundOther_has h)).elim
    case approveTransfer q g n =>
      obtain ⟨d, _, _, rfl⟩ := approve_facts h
      exact (no (has_of_acct rfl)).elim
    case touch q => exact (no (touch_has h)).elim
    all_goals
      (repeat' split at h) <;> first
        | (cases h; done)
        | exact (no (setHand_has h).1).elim
        | exact (no (has_of_acct (unapprove_acct h).1)).elim
        | exact (no (touch_has h)).elim
        | (cases h; exact (no (has_of_acct rfl)).elim)
  | none => cases h
  | community _ => cases h
  | custom _ => cases h
  | other _ => cases h

/-- **C208**: other pallets cannot give units to a blocked account either. -/
theorem C208_given_others (env : Env) (s s' : St) (x : Other) (h : other env s x = some s') (k : Key) (a : AccountId)
    (hlt : s.has k a < s'.has k a) : Receives s k a (s'.has k a - s.has k a) := by
  cases x with
  | make q o z n => rw [has_of_acct (byRoot_acct (show byRoot s (.forceCreate q o z n) = some s' from h)).1] at hlt; omega
  | mintInto q who n =>
    obtain ⟨rfl, rfl, e, g1, _⟩ := mint_gain h hlt
    rw [e]; exact g1
  | burnFrom q who n best => have := burn_has h k a; omega
  | transfer q src dst n keep =>
    obtain ⟨rfl, rfl, _, g1, _⟩ := move_gain h hlt
    exact g1
  | setFrozen q who f => cases h; exact absurd hlt (Nat.lt_irrefl _)

/-- **C208**: so a blocked account gets nothing, whatever happens. -/
theorem C208_blocked (env : Env) (s s' : St) (x : Step) (h : step env s x = some s') (k : Key) (a : AccountId) (y : Acct)
    (hy : s.acct k a = some y) (hb : y.status = .blocked) : s'.has k a ≤ s.has k a := by
  by_contra hlt
  have hr : Receives s k a (s'.has k a - s.has k a) := by
    cases x with
    | call o c => exact (C208_given env s s' o c h k a (by omega)).2
    | other x => exact C208_given_others env s s' x h k a (by omega)
  obtain ⟨_, _, _, g, _⟩ := hr
  exact (g y hy).1 hb

/-- **C208**: in every history the supply, and what each account has, fit into a balance. -/
theorem C208_fits (l : List Step) (s : St) (h : Reach genesis l s) (k : Key) :
    s.supply k ≤ maxUnits ∧ ∀ a, s.has k a ≤ maxUnits := by
  have key : s.supply k ≤ maxUnits := by
    have minted : ∀ {env : Env} {s s' : St} {q by_ who n}, mint env s q by_ who n = some s' → s.supply k ≤ maxUnits →
        s'.supply k ≤ maxUnits := by
      intro env s s' q by_ who n h ih
      rcases mint_facts h with rfl | ⟨d, hi, _, _, _, hm, _, rfl⟩
      · exact ih
      · rw [supply_setSupply _ _ _ _ _ (give_info hi)]
        split
        · rw [supply_give, supply_some hi]; omega
        · rw [supply_give]; exact ih
    induction h with
    | refl => exact Nat.zero_le _
    | @step l s s' env x _ hs ih =>
      by_cases hlt : s.supply k < s'.supply k
      · cases x with
        | call o c =>
          obtain ⟨d, who, n, _, _, rfl, rfl, _⟩ := C206_minted env s s' o c hs k hlt
          exact minted hs ih
        | other x =>
          cases x with
          | make q o z n =>
            exfalso
            simp only [step, other, byRoot] at hs
            split at hs
            · cases hs
            · rename_i hc
              cases hs
              rw [supply_setInfo] at hlt
              split at hlt
              · exact absurd hlt (Nat.not_lt_zero _)
              · omega
          | mintInto q who n => exact minted hs ih
          | burnFrom q who n best =>
            exfalso
            rcases burn_facts hs with rfl | ⟨d, a, m, hi, ha, _, _, _, rfl⟩
            · omega
            · have := supply_take s q k who m
              unfold St.setSupply at hlt
              rw [supply_setInfo] at hlt
              split at hlt
              · rename_i e
                subst e
                unfold St.supply at this hlt
                cases e : (take s k who m).info k with
                | none => rw [e] at hlt; exact absurd hlt (Nat.not_lt_zero _)
                | some d' =>
                  rw [e] at this hlt
                  simp only [Option.map_some, Option.getD_some] at this hlt
                  omega
              · omega
          | transfer q src dst n keep => rw [supply_move hs] at hlt; omega
          | setFrozen q who f => cases hs; exact absurd hlt (Nat.lt_irrefl _)
      · omega
  refine ⟨key, fun a => ?_⟩
  obtain ⟨t, h1, h2⟩ := C203_within_supply l s h k
  have := h1.le a
  omega

/-- Root does not set another minimum. Specification only, no code behind it (outside /repo). -/
def Unforced : Step → Prop
  | .call _ (.forceAssetStatus _ _ _ _ _ _ _ _) => False
  | _ => True

theorem fed_drop {s : St} (hf : Fed s) (k : Key) (who : AccountId) : Fed (drop s k who) := by
  intro q d b y hi hy hp
  cases hk : s.info k with
  | none => unfold drop at hi hy; rw [hk] at hi hy; exact hf q d b y hi hy hp
  | some d0 =>
    rw [drop_info hk] at hi
    rw [drop_acct hk] at hy
    split at hy
    · cases hy
    · split at hi
      · rename_i e; subst e; cases hi; exact hf q d0 b y hk hy hp
      · exact hf q d b y hi hy hp

theorem fed_same {s s' : St} (h1 : s'.info = s.info) (h2 : s'.acct = s.acct) (hf : Fed s) : Fed s' := by
  intro q d b y hi hy hp
  rw [h1] at hi; rw [h2] at hy
  exact hf q d b y hi hy hp

theorem fed_destroy (k : Key) (l : List AccountId) : ∀ s : St, Fed s → Fed (l.foldl (destroyAccount k) s) := by
  induction l with
  | nil => exact fun s h => h
  | cons x l ih =>
    intro s h
    refine ih _ ?_
    rcases destroyAccount_facts k s x with ⟨_, e⟩ | ⟨a, _, e⟩
    · rw [e]; exact h
    · rw [e]
      have := payBack_eq s x a.reason
      exact fed_drop (fed_same this.1 this.2.1 h) k x

/-- **C208**: in every history in which root sets no other minimum, an account nobody left a deposit for has at least the
minimum: there is no dust. -/
theorem C208_minimum (l : List Step) (s : St) (h : Reach genesis l s) (hl : ∀ x ∈ l, Unforced x) (k : Key) (d : Info)
    (a : AccountId) (x : Acct) (hd : s.info k = some d) (hx : s.acct k a = some x) (hr : x.reason.pinned = false) :
    d.min ≤ x.balance := by
  have key : CountedA s ∧ Fed s := by
    clear hd hx
    induction h with
    | refl => exact ⟨fun k => (genesis_counted k).1, fun k d a x hi => nomatch hi⟩
    | @step l s s' env x h hs ih =>
      obtain ⟨hc, hf⟩ := ih fun y hy => hl y (List.mem_cons_of_mem _ hy)
      have hx := hl x List.mem_cons_self
      refine ⟨(step_acts false hs fun e => nomatch e).keep act_countedA hc, ?_⟩
      by_cases ht : Tidy x
      · exact ((step_acts true hs fun _ => ht).keep (P := fun s => CountedA s ∧ Fed s)
          (fun a b h1 h2 => ⟨act_countedA a b h1 h2.1, act_fed a b h1 h2.1 h2.2⟩) ⟨hc, hf⟩).2
      · unfold Tidy at ht
        split at ht
        · rename_i o k
          cases o with
          | signed by_ =>
            obtain ⟨d, a, hi, ha, _, _, ⟨_, rfl⟩ | ⟨n, _, rfl⟩⟩ := refund_facts (show refund s k by_ true = some s' from hs)
            · exact fed_drop hf _ _
            · exact fed_drop (fed_same (s' := s.unreserve by_ n) rfl rfl hf) _ _
          | _ => cases hs
        · rename_i o k l
          cases o with
          | signed by_ =>
            simp only [step, call, bySigner] at hs
            split at hs
            · split at hs
              · cases hs; exact fed_destroy k l s hf
              · cases hs
            · cases hs
          | _ => cases hs
        · exact hx.elim
        · exact (ht trivial).elim
  exact key.2 k d a x hd hx hr

/-- **C208**: a holder whose account is free, with nothing frozen on it, can send all they have to somebody who can be given
it, and then nothing is left. -/
theorem C208_all (env : Env) (s : St) (a dst : AccountId) (k : Key) (d : Info) (x : Acct) (hne : a ≠ dst)
    (hd : s.info k = some d) (hx : s.acct k a = some x) (h1 : d.status = .live) (h2 : x.status = .liquid)
    (hf : s.ice k a = none) (hs : x.balance ≤ d.supply) (hg : canGet env s k dst x.balance = true) :
    ∃ s', call env s (.signed a) (.transfer k dst x.balance) = some s' ∧ s'.has k a = 0 ∧
      s'.has k dst = s.has k dst + s.has k a := by
  have hh := has_some hx
  by_cases hz : x.balance = 0
  · refine ⟨s, ?_, by omega, by omega⟩
    show move env s k a dst x.balance false = some s
    unfold move
    rw [if_pos hz]
  have hr : reducible s k a false = some x.balance := by
    unfold reducible
    rw [hd, hx, hf]
    dsimp only
    rw [if_neg (by rw [h1, h2]; simp)]
    simp only [Bool.false_eq_true, if_false, Option.some.injEq]
    exact Nat.min_eq_left hs
  have hb : debit s k a x.balance false false = some x.balance := by
    unfold debit
    rw [hd, hx, hr]
    have e : Nat.min x.balance x.balance = x.balance := Nat.min_self _
    dsimp only
    rw [e, if_neg (by omega), if_neg hz]
    split
    · simp
    · rfl
  have hl : Leaving d.min x.balance x.balance x.balance := by
    refine ⟨Nat.le_refl _, ?_⟩
    by_cases hm : d.min ≤ x.balance - x.balance
    · exact .inl ⟨hm, rfl⟩
    · exact .inr ⟨by omega, rfl⟩
  refine ⟨take (give s k dst x.balance) k a x.balance, ?_, ?_, ?_⟩
  · show move env s k a dst x.balance false = _
    unfold move
    rw [if_neg hz, hb]
    dsimp only
    rw [if_pos hg, if_neg hne]
  · rw [moved_has hne hd hx hl, if_pos ⟨rfl, rfl⟩, Nat.sub_self]
  · rw [moved_has hne hd hx hl, if_neg (fun e => hne e.2.symm), if_pos ⟨rfl, rfl⟩, hh]

/-! ## C209 -/

theorem move_reserved {env : Env} {s s' : St} {k : Key} {src dst : AccountId} {n : Nat} {keep : Bool}
    (h : move env s k src dst n keep = some s') : s'.reserved = s.reserved := by
  rcases move_facts h with rfl | ⟨d, a, m, _, _, _, _, _, _, _, _, _, _, rfl⟩
  · rfl
  · exact moved_reserved _ _ _ _ _

theorem unapprove_reserved {s s' : St} {k : Key} {o g : AccountId} (h : unapprove s k o g = some s') (w : AccountId) :
    s'.reserved w ≤ s.reserved w := by
  obtain ⟨d, p, _, _, rfl⟩ := unapprove_facts h
  show (if w = o then s.reserved w - p.deposit else s.reserved w) ≤ _
  split <;> omega

theorem unreserve_reserved (s : St) (who : AccountId) (n : Nat) (w : AccountId) :
    (s.unreserve who n).reserved w ≤ s.reserved w := by
  show (if w = who then s.reserved w - n else s.reserved w) ≤ _
  split <;> omega

theorem destroyAccounts_reserved (k : Key) (l : List AccountId) (w : AccountId) : ∀ s : St,
    (l.foldl (destroyAccount k) s).reserved w ≤ s.reserved w := by
  induction l with
  | nil => exact fun s => Nat.le_refl _
  | cons x l ih =>
    intro s
    refine Nat.le_trans (ih _) ?_
    rcases destroyAccount_facts k s x with ⟨_, e⟩ | ⟨a, _, e⟩
    · rw [e]
    · rw [e, drop_reserved]
      cases a.reason with
      | held n => exact unreserve_reserved s x n w
      | lent b n => exact unreserve_reserved s b n w
      | _ => exact Nat.le_refl _

theorem destroyApprovals_reserved (k : Key) (l : List (AccountId × AccountId)) (w : AccountId) : ∀ s : St,
    (l.foldl (destroyApproval k) s).reserved w ≤ s.reserved w := by
  induction l with
  | nil => exact fun s => Nat.le_refl _
  | cons x l ih =>
    intro s
    refine Nat.le_trans (ih _) ?_
    unfold destroyApproval
    cases e : unapprove s k x.1 x.2 with
    | none => exact Nat.le_refl _
    | some s' => exact unapprove_reserved e w

/-- **C209**: when more of an account's money is reserved after a call on assets than before, the account itself made the call:
to approve a delegate, or to open an account of an asset that is live, its own, or as admin or freezer that of another; and no
more is reserved than the deposit for it. -/
theorem C209_reserved (env : Env) (s s' : St) (o : RtOrigin) (c : Call) (h : call env s o c = some s') (who : AccountId)
    (hlt : s.reserved who < s'.reserved who) :
    o = .signed who ∧ ∃ k d, s.info k = some d ∧ d.status = .live ∧
      ((∃ g n, c = .approveTransfer k g n ∧ s'.reserved who ≤ s.reserved who + env.approvalDeposit) ∨
        ((c = .touch k ∨ ∃ a, c = .touchOther k a ∧ (who = d.admin ∨ who = d.freezer)) ∧
          s'.reserved who = s.reserved who + env.accountDeposit)) := by
  have no : s'.reserved who ≤ s.reserved who → False := fun e => by omega
  have touched : ∀ {q a b}, touch env s q a b = some s' → b = who ∧ ∃ d, s.info q = some d ∧ d.status = .live ∧
      s'.reserved who = s.reserved who + env.accountDeposit := by
    intro q a b h
    obtain ⟨d, hi, _, hl, rfl⟩ := touch_facts h
    have e : ∀ w, (((s.reserve b env.accountDeposit).setAcct q a
        (some ⟨0, .liquid, if b = a then .held env.accountDeposit else .lent b env.accountDeposit⟩)).setInfo q
        (some { d with accounts := d.accounts + 1 })).reserved w =
        if w = b then s.reserved w + env.accountDeposit else s.reserved w := fun _ => rfl
    rw [e] at hlt ⊢
    split at hlt
    · rename_i hw; subst hw; rw [if_pos rfl]; exact ⟨rfl, d, hi, hl, rfl⟩
    · omega
  cases o with
  | root =>
    replace h : byRoot s c = some s' := h
    cases c <;> simp only [byRoot] at h
    all_goals
      (repeat' split at h) <;> first
        | (cases h; done)
        | exact (no (unapprove_reserved h who)).elim
        | (cases h; exact (no (Nat.le_refl _)).elim)
  | signed by_ =>
    replace h : bySigner env s by_ c = some s' := h
    cases c <;> simp only [bySigner] at h
    case mint q x n =>
      rcases mint_facts h with rfl | ⟨d, hi, _, _, _, _, _, rfl⟩
      · omega
      · exact (no (Nat.le_of_eq (congrFun (give_reserved s q x n) who))).elim
    case burn q x n =>
      rcases burn_facts h with rfl | ⟨d, a, m, hi, ha, _, _, _, rfl⟩
      · omega
      · exact (no (Nat.le_of_eq (congrFun (take_reserved s q x m) who))).elim
    case transferApproved q x dst n =>
      obtain ⟨d, p, s1, hi, hp, _, hn, hm, _, _, ⟨_, g⟩ | ⟨_, rfl⟩⟩ := transferApproved_facts h
      · have := unapprove_reserved g who
        rw [move_reserved hm] at this
        omega
      · exact (no (Nat.le_of_eq (congrFun (move_reserved hm) who))).elim
    case destroyAccounts q l =>
      split at h
      · split at h
        · cases h; exact (no (destroyAccounts_reserved q l who s)).elim
        · cases h
      · cases h
    case destroyApprovals q l =>
      split at h
      · split at h
        · cases h; exact (no (destroyApprovals_reserved q l who s)).elim
        · cases h
      · cases h
    case refund q burning =>
      obtain ⟨d, a, hi, ha, _, _, ⟨_, rfl⟩ | ⟨n, _, rfl⟩⟩ := refund_facts h
      · exact (no (Nat.le_of_eq (congrFun (drop_reserved _ _ _) who))).elim
      · exact (no (by rw [drop_reserved]; exact unreserve_reserved s by_ n who)).elim
    case refundOther q x =>
      obtain ⟨d, a, lender, n, hi, ha, _, _, _, rfl⟩ := refundOther_facts h
      exact (no (by rw [drop_reserved]; exact unreserve_reserved s lender n who)).elim
    case approveTransfer q g n =>
      obtain ⟨d, hi, hl, rfl⟩ := approve_facts h
      have e : ∀ (m : Nat) (v : Option Leave) (i : Option Info) w, (((s.reserve by_ m).setAppr q by_ g v).setInfo q i).reserved w =
          if w = by_ then s.reserved w + m else s.reserved w := fun _ _ _ _ => rfl
      rw [e] at hlt ⊢
      split at hlt
      · rename_i hw
        subst hw
        rw [if_pos rfl]
        exact ⟨rfl, q, d, hi, hl, .inl ⟨g, n, rfl, by omega⟩⟩
      · omega
    case touch q =>
      obtain ⟨rfl, d, g1, g2, g3⟩ := touched h
      exact ⟨rfl, q, d, g1, g2, .inr ⟨.inl rfl, g3⟩⟩
    case touchOther q x =>
      split at h
      · rename_i d hi
        split at h
        · rename_i hc
          obtain ⟨rfl, d', g1, g2, g3⟩ := touched h
          rw [hi] at g1; cases g1
          exact ⟨rfl, q, d, hi, g2, .inr ⟨.inr ⟨x, rfl, hc⟩, g3⟩⟩
        · cases h
      · cases h
    case transfer q dst n => exact (no (Nat.le_of_eq (congrFun (move_reserved h) who))).elim
    case transferKeepAlive q dst n => exact (no (Nat.le_of_eq (congrFun (move_reserved h) who))).elim
    all_goals
      (repeat' split at h) <;> first
        | (cases h; done)
        | exact (no (Nat.le_of_eq (congrFun (move_reserved h) who))).elim
        | (obtain ⟨a, ha, rfl⟩ := setHand_facts h; exact (no (Nat.le_refl _)).elim)
        | exact (no (unapprove_reserved h who)).elim
        | (cases h; exact (no (Nat.le_refl _)).elim)
  | none => cases h
  | community _ => cases h
  | custom _ => cases h
  | other _ => cases h

/-- An account somebody left a deposit for, and that is still there. Specification only, no code behind it (outside /repo). -/
def Lasts (s s' : St) (k : Key) (a : AccountId) : Prop :=
  ∀ x, s.acct k a = some x → x.reason.pinned = true → s'.acct k a ≠ none

theorem Lasts.of_acct {s s' : St} (h : s'.acct = s.acct) (k : Key) (a : AccountId) : Lasts s s' k a := fun x hx _ => by
  rw [h, hx]; exact Option.some_ne_none _

theorem lasts_take {s s1 : St} {q : Key} {who : AccountId} {n : Nat} {d : Info} {y : Acct} (hi : s.info q = some d)
    (hy : s.acct q who = some y) (h1 : ∀ k a, (k ≠ q ∨ a ≠ who) → s.acct k a ≠ none → s1.acct k a ≠ none)
    (h2 : ¬ Goes d y n → s1.acct q who ≠ none) (k : Key) (a : AccountId) : Lasts s s1 k a := fun x hx hp => by
  by_cases e : k = q ∧ a = who
  · obtain ⟨rfl, rfl⟩ := e
    rw [hx] at hy; cases hy
    exact h2 fun g => by have := g.2; rw [hp] at this; cases this
  · exact h1 k a (by by_cases e1 : k = q; · exact .inr fun e2 => e ⟨e1, e2⟩
                     · exact .inl e1) (by rw [hx]; exact Option.some_ne_none _)

theorem lasts_move {env : Env} {s s' : St} {q : Key} {src dst : AccountId} {n : Nat} {keep : Bool}
    (h : move env s q src dst n keep = some s') (k : Key) (a : AccountId) : Lasts s s' k a := by
  rcases move_facts h with rfl | ⟨d, y, m, hne, _, hi, hy, _, _, _, _, _, _, rfl⟩
  · exact .of_acct rfl k a
  · refine lasts_take (n := m) hi hy (fun k a he hx => ?_) (fun hg => ?_) k a
    · rw [moved_acct hne hi hy, if_neg (fun e => he.elim (· e.1) (· e.2))]
      split
      · exact Option.some_ne_none _
      · exact hx
    · rw [moved_acct hne hi hy, if_pos ⟨rfl, rfl⟩, if_neg hg]; exact Option.some_ne_none _

theorem lasts_mint {env : Env} {s s' : St} {q : Key} {by_ : Option AccountId} {who : AccountId} {n : Nat}
    (h : mint env s q by_ who n = some s') (k : Key) (a : AccountId) : Lasts s s' k a := by
  rcases mint_facts h with rfl | ⟨d, hi, _, _, _, _, _, rfl⟩
  · exact .of_acct rfl k a
  · intro x hx _
    show (give s q who n).acct k a ≠ none
    rw [give_acct hi]
    split
    · exact Option.some_ne_none _
    · rw [hx]; exact Option.some_ne_none _

theorem lasts_burn {s s' : St} {q : Key} {by_ : Option AccountId} {who : AccountId} {n : Nat} {best : Bool}
    (h : burn s q by_ who n best = some s') (k : Key) (a : AccountId) : Lasts s s' k a := by
  rcases burn_facts h with rfl | ⟨d, y, m, hi, hy, _, _, _, rfl⟩
  · exact .of_acct rfl k a
  · refine lasts_take (n := m) hi hy (fun k a he hx => ?_) (fun hg => ?_) k a
    · show (take s q who m).acct k a ≠ none
      rw [take_acct hi hy, if_neg (fun e => he.elim (· e.1) (· e.2))]; exact hx
    · show (take s q who m).acct q who ≠ none
      rw [take_acct hi hy, if_pos ⟨rfl, rfl⟩, if_neg hg]; exact Option.some_ne_none _

theorem lasts_touch {env : Env} {s s' : St} {q : Key} {who by_ : AccountId} (h : touch env s q who by_ = some s') (k : Key)
    (a : AccountId) : Lasts s s' k a := by
  obtain ⟨d, _, ha, _, rfl⟩ := touch_facts h
  intro x hx _
  rw [setInfo_acct, setAcct_acct]
  split
  · exact Option.some_ne_none _
  · show s.acct k a ≠ none
    rw [hx]; exact Option.some_ne_none _

theorem lasts_hand {s s' : St} {q : Key} {who : AccountId} {v : Hand} (h : setHand s q who v = some s') (k : Key)
    (a : AccountId) : Lasts s s' k a := by
  obtain ⟨z, hz, rfl⟩ := setHand_facts h
  intro x hx _
  rw [setAcct_acct]
  split
  · exact Option.some_ne_none _
  · rw [hx]; exact Option.some_ne_none _

/-- **C209**: an account somebody left a deposit for goes only if its holder gives it up, having left the deposit, if who lent the
deposit or the asset's admin gives it up while it is empty, or if the asset is being destroyed; in the first two cases the
deposit is free again for who left it. -/
theorem C209_closed (env : Env) (s s' : St) (o : RtOrigin) (c : Call) (h : call env s o c = some s') (k : Key) (a : AccountId)
    (x : Acct) (hx : s.acct k a = some x) (hp : x.reason.pinned = true) (hn : s'.acct k a = none) :
    ∃ d, s.info k = some d ∧
      ((∃ n b, x.reason = .held n ∧ o = .signed a ∧ c = .refund k b ∧ (x.balance = 0 ∨ b = true) ∧
          s'.reserved a = s.reserved a - n) ∨
        (∃ lender n by_, x.reason = .lent lender n ∧ o = .signed by_ ∧ c = .refundOther k a ∧ (by_ = lender ∨ by_ = d.admin) ∧
          x.balance = 0 ∧ s'.reserved lender = s.reserved lender - n) ∨
        (∃ by_ l, o = .signed by_ ∧ c = .destroyAccounts k l ∧ a ∈ l ∧ d.status = .destroying)) := by
  have no : Lasts s s' k a → False := fun e => e x hx hp hn
  have same : s'.acct = s.acct → False := fun e => no (.of_acct e k a)
  have back : ∀ w n, (s.unreserve w n).reserved w = s.reserved w - n := fun w n => if_pos rfl
  cases o with
  | root => exact (same (byRoot_acct (show byRoot s c = some s' from h)).1).elim
  | signed by_ =>
    replace h : bySigner env s by_ c = some s' := h
    cases c <;> simp only [bySigner] at h
    case refund q b =>
      obtain ⟨d, y, hi, hy, _, hz, hr⟩ := refund_facts h
      have e : q = k ∧ by_ = a := by
        by_contra hne
        have hne : ¬ (k = q ∧ a = by_) := fun e => hne ⟨e.1.symm, e.2.symm⟩
        rcases hr with ⟨_, rfl⟩ | ⟨n, _, rfl⟩
        · rw [drop_acct hi, if_neg hne, hx] at hn; cases hn
        · rw [drop_acct (s := s.unreserve by_ n) hi, if_neg hne] at hn
          exact absurd (hx.symm.trans hn) (Option.some_ne_none _)
      obtain ⟨rfl, rfl⟩ := e
      rw [hx] at hy; cases hy
      rcases hr with ⟨hr, rfl⟩ | ⟨n, hr, rfl⟩
      · rw [hr] at hp; cases hp
      · exact ⟨d, hi, .inl ⟨n, b, hr, rfl, rfl, hz, by rw [drop_reserved, back]⟩⟩
    case refundOther q who =>
      obtain ⟨d, y, lender, n, hi, hy, hr, hb, hz, rfl⟩ := refundOther_facts h
      have e : q = k ∧ who = a := by
        by_contra hne
        have hne : ¬ (k = q ∧ a = who) := fun e => hne ⟨e.1.symm, e.2.symm⟩
        rw [drop_acct (s := s.unreserve lender n) hi, if_neg hne] at hn
        exact absurd (hx.symm.trans hn) (Option.some_ne_none _)
      obtain ⟨rfl, rfl⟩ := e
      rw [hx] at hy; cases hy
      exact ⟨d, hi, .inr (.inl ⟨lender, n, by_, hr, rfl, rfl, hb, hz, by rw [drop_reserved, back]⟩)⟩
    case destroyAccounts q l =>
      split at h
      · rename_i d hi
        split at h
        · rename_i hc
          cases h
          have key : ∀ (l : List AccountId) (s : St), (∃ d, s.info q = some d) → s.acct k a = some x →
              (l.foldl (destroyAccount q) s).acct k a = none → q = k ∧ a ∈ l := by
            intro l
            induction l with
            | nil => intro s _ h1 h2; exact absurd (h1.symm.trans h2) (Option.some_ne_none _)
            | cons y l ih =>
              intro s ⟨d, hd⟩ h1 h2
              by_cases e : k = q ∧ a = y
              · exact ⟨e.1.symm, e.2 ▸ List.mem_cons_self⟩
              · obtain ⟨c, hc⟩ := destroyAccount_info q s y d hd
                have := ih (destroyAccount q s y) ⟨_, hc⟩ (by
                  rcases destroyAccount_facts q s y with ⟨_, e1⟩ | ⟨z, _, e1⟩
                  · rw [e1]; exact h1
                  · have e2 := payBack_eq s y z.reason
                    rw [e1, drop_acct (d := d) (by rw [e2.1]; exact hd), if_neg e, e2.2.1]; exact h1) h2
                exact ⟨this.1, List.mem_cons_of_mem _ this.2⟩
          obtain ⟨rfl, hm⟩ := key l s ⟨d, hi⟩ hx hn
          exact ⟨d, hi, .inr (.inr ⟨by_, l, rfl, rfl, hm, hc.1⟩)⟩
        · cases h
      · cases h
    case destroyApprovals q l =>
      (repeat' split at h) <;> first | (cases h; done) | (cases h; exact (same (destroyApprovals_acct _ _ _).1).elim)
    case mint => exact (no (lasts_mint h k a)).elim
    case burn => exact (no (lasts_burn h k a)).elim
    case transfer => exact (no (lasts_move h k a)).elim
    case transferKeepAlive => exact (no (lasts_move h k a)).elim
    case transferApproved q y dst n =>
      obtain ⟨d, p, s1, hi, hp', _, _, hm, e1, _, _⟩ := transferApproved_facts h
      refine (no fun z hz hq => ?_).elim
      rw [e1]; exact lasts_move hm k a z hz hq
    case approveTransfer q g n => obtain ⟨d, _, _, rfl⟩ := approve_facts h; exact (same rfl).elim
    case touch => exact (no (lasts_touch h k a)).elim
    all_goals
      (repeat' split at h) <;> first
        | (cases h; done)
        | exact (no (lasts_move h k a)).elim
        | exact (no (lasts_hand h k a)).elim
        | exact (no (lasts_touch h k a)).elim
        | exact (same (unapprove_acct h).1).elim
        | (cases h; exact (same rfl).elim)
  | none => cases h
  | community _ => cases h
  | custom _ => cases h
  | other _ => cases h

/-- **C202**: and it becomes more only if the holder approves the delegate for more, while the asset is live, and by no more
than this. -/
theorem C202_leave_more (env : Env) (s s' : St) (x : Step) (h : step env s x = some s') (k : Key) (a g : AccountId)
    (hlt : leave s k a g < leave s' k a g) :
    ∃ d n, s.info k = some d ∧ d.status = .live ∧ x = .call (.signed a) (.approveTransfer k g n) ∧
      leave s' k a g ≤ leave s k a g + n := by
  have hs := step_leave h k a g
  have hg : gives k a g x ≠ 0 := by omega
  unfold gives at hg
  split at hg
  · rename_i o q y n
    split at hg
    · rename_i e
      obtain ⟨rfl, rfl, rfl⟩ := e
      obtain ⟨d, hi, hl, _⟩ := approve_facts (show approve env s q o y n = some s' from h)
      refine ⟨d, n, hi, hl, rfl, ?_⟩
      have : gives q o y (.call (.signed o) (.approveTransfer q y n)) = n := by simp [gives]
      omega
    · exact absurd rfl hg
  · exact absurd rfl hg

/-! ## Examples -/

/-- An asset of `alice`, a hundred units for `bob`, and an account of `carol` that `alice` opened. -/
def Demo.opened : List Step :=
  [.call .root (.forceCreate 0 Demo.alice false 10), .call (.signed Demo.alice) (.mint 0 Demo.bob 100),
    .call (.signed Demo.alice) (.touchOther 0 Demo.carol)]

/-- `bob` can send all, and `carol` can be given less than the minimum since there is a deposit; when `carol` is blocked nothing
can be sent to them; the deposit is `alice`'s, who gets it back when the account is empty. -/
example :
    Demo.after (Demo.opened ++ [.call (.signed Demo.bob) (.transfer 0 Demo.carol 100)]) 0 Demo.bob = some 0 ∧
    Demo.after (Demo.opened ++ [.call (.signed Demo.bob) (.transfer 0 Demo.carol 3)]) 0 Demo.carol = some 3 ∧
    Demo.after (Demo.opened ++ [.call (.signed Demo.alice) (.block 0 Demo.carol),
      .call (.signed Demo.bob) (.transfer 0 Demo.carol 3)]) 0 Demo.carol = none ∧
    Demo.after (Demo.opened ++ [.call (.signed Demo.bob) (.transfer 0 [4] 3)]) 0 [4] = none ∧
    (Demo.run genesis Demo.opened).map (·.reserved Demo.alice) = some Demo.env.accountDeposit ∧
    (Demo.run genesis Demo.opened).map (·.reserved Demo.carol) = some 0 ∧
    (Demo.run genesis (Demo.opened ++ [.call (.signed Demo.bob) (.refundOther 0 Demo.carol)])).isNone = true ∧
    (Demo.run genesis (Demo.opened ++ [.call (.signed Demo.alice) (.refundOther 0 Demo.carol)])).map
      (fun s => (s.reserved Demo.alice, (s.acct 0 Demo.carol).isNone)) = some (0, true) := by decide +kernel

/-- The theorem on minima is about such histories. -/
example : ∃ l s d x, Reach genesis l s ∧ (∀ y ∈ l, Unforced y) ∧ s.info 0 = some d ∧ s.acct 0 Demo.bob = some x ∧
    x.reason.pinned = false ∧ d.min = 10 ∧ x.balance = 100 := by
  obtain ⟨s1, h1⟩ : ∃ s1, step Demo.env genesis (.call .root (.forceCreate 0 Demo.alice false 10)) = some s1 := ⟨_, rfl⟩
  have e1 : s1 = (Demo.run genesis (Demo.opened.take 1)).getD genesis := by
    show s1 = ((step Demo.env genesis _).bind _).getD genesis
    rw [h1]; rfl
  obtain ⟨s2, h2⟩ : ∃ s2, step Demo.env s1 (.call (.signed Demo.alice) (.mint 0 Demo.bob 100)) = some s2 := by
    rw [e1]; exact ⟨_, rfl⟩
  refine ⟨[.call (.signed Demo.alice) (.mint 0 Demo.bob 100), .call .root (.forceCreate 0 Demo.alice false 10)], s2, ?_⟩
  cases (Option.some.inj h1)
  cases (Option.some.inj h2)
  refine ⟨_, _, .step Demo.env _ (.step Demo.env _ .refl h1) h2, ?_, rfl, rfl, rfl, rfl, rfl⟩
  intro y hy
  rcases List.mem_cons.mp hy with rfl | hy
  · trivial
  · rcases List.mem_cons.mp hy with rfl | hy
    · trivial
    · cases hy

end Verif.Runtime.Units
