import Verif.Runtime.AssetRolesTheorems

/-!
# What who runs an asset may do: theorems (C202, C206)
-/

namespace Verif.Runtime.Units

open Verif Verif.Accounts

/-! ## Supply: lemmas -/

theorem supply_of_info {s s' : St} (h : s'.info = s.info) (q : Key) : s'.supply q = s.supply q := by
  unfold St.supply; rw [h]

theorem supply_setInfo_same {s : St} {k : Key} {d d' : Info} (hi : s.info k = some d) (h : d'.supply = d.supply) (q : Key) :
    (s.setInfo k (some d')).supply q = s.supply q := by
  rw [supply_setInfo]
  split
  · rename_i e; subst e; rw [supply_some hi]; exact h
  · rfl

theorem supply_move {env : Env} {s s' : St} {k : Key} {src dst : AccountId} {n : Nat} {keep : Bool}
    (h : move env s k src dst n keep = some s') (q : Key) : s'.supply q = s.supply q := by
  rcases move_facts h with rfl | ⟨d, a, m, _, _, _, _, _, _, _, _, _, _, rfl⟩
  · rfl
  · rw [supply_take, supply_give]

theorem supply_unapprove {s s' : St} {k : Key} {o g : AccountId} (h : unapprove s k o g = some s') (q : Key) :
    s'.supply q = s.supply q := by
  obtain ⟨d, p, hi, hp, rfl⟩ := unapprove_facts h
  exact supply_setInfo_same (s := (s.unreserve o p.deposit).setAppr k o g none) hi (by rfl) q

theorem supply_setHand {s s' : St} {k : Key} {who : AccountId} {h : Hand} (e : setHand s k who h = some s') (q : Key) :
    s'.supply q = s.supply q := by
  obtain ⟨a, ha, rfl⟩ := setHand_facts e; rfl

theorem supply_touch {env : Env} {s s' : St} {k : Key} {who by_ : AccountId} (h : touch env s k who by_ = some s')
    (q : Key) : s'.supply q = s.supply q := by
  obtain ⟨d, hi, ha, _, rfl⟩ := touch_facts h
  exact supply_setInfo_same (s := (s.reserve by_ _).setAcct k who _) hi (by rfl) q

theorem supply_refund {s s' : St} {k : Key} {who : AccountId} {burning : Bool} (h : refund s k who burning = some s')
    (q : Key) : s'.supply q = s.supply q := by
  obtain ⟨d, a, hi, ha, _, _, ⟨_, rfl⟩ | ⟨n, _, rfl⟩⟩ := refund_facts h
  · exact supply_drop _ _ _ _
  · exact supply_drop (s.unreserve who n) k q who

theorem supply_refundOther {s s' : St} {k : Key} {who by_ : AccountId} (h : refundOther s k who by_ = some s') (q : Key) :
    s'.supply q = s.supply q := by
  obtain ⟨d, a, lender, n, hi, ha, _, _, hz, rfl⟩ := refundOther_facts h
  exact supply_drop (s.unreserve lender n) k q who

theorem supply_approve {env : Env} {s s' : St} {k : Key} {o g : AccountId} {n : Nat}
    (h : approve env s k o g n = some s') (q : Key) : s'.supply q = s.supply q := by
  obtain ⟨d, hi, _, rfl⟩ := approve_facts h
  exact supply_setInfo_same (s := (s.reserve o _).setAppr k o g _) hi (by rfl) q

theorem supply_destroyAccounts (k : Key) (l : List AccountId) (q : Key) : ∀ s : St,
    (l.foldl (destroyAccount k) s).supply q = s.supply q := by
  induction l with
  | nil => intro s; rfl
  | cons x t ih =>
    intro s
    rw [List.foldl_cons, ih]
    rcases destroyAccount_facts k s x with ⟨_, e⟩ | ⟨a, ha, e⟩
    · rw [e]
    · rw [e, supply_drop, supply_of_info (payBack_eq s x a.reason).1]

theorem supply_destroyApprovals (k : Key) (l : List (AccountId × AccountId)) (q : Key) : ∀ s : St,
    (l.foldl (destroyApproval k) s).supply q = s.supply q := by
  induction l with
  | nil => intro s; rfl
  | cons x t ih =>
    intro s
    rw [List.foldl_cons, ih]
    unfold destroyApproval
    cases h : unapprove s k x.1 x.2 with
    | none => rfl
    | some s' => exact supply_unapprove h q

theorem supply_transferApproved {env : Env} {s s' : St} {k : Key} {o g dst : AccountId} {n : Nat}
    (h : transferApproved env s k o g dst n = some s') (q : Key) : s'.supply q = s.supply q := by
  obtain ⟨d, p, s1, hi, hp, _, hn, hm, _, _, hx | hx⟩ := transferApproved_facts h
  · rw [supply_unapprove hx.2, supply_move hm]
  · rw [hx.2]; exact supply_move hm q

/-! ## Hands on accounts: lemmas -/

/-- Whether an account may be used, if it is there. Specification only, no code behind it (outside /repo). -/
def hand (s : St) (k : Key) (a : AccountId) : Option Hand := (s.acct k a).map (·.status)

/-- Accounts at most come. Specification only, no code behind it (outside /repo). -/
def Comes (s s' : St) : Prop := ∀ k a, hand s k a = none ∨ hand s' k a = hand s k a

/-- Accounts at most go. Specification only, no code behind it (outside /repo). -/
def GoesAway (s s' : St) : Prop := ∀ k a, hand s' k a = none ∨ hand s' k a = hand s k a

/-- Nothing changes for accounts that stay. Specification only, no code behind it (outside /repo). -/
def HandsOff (s s' : St) : Prop := ∀ k a, hand s k a = none ∨ hand s' k a = none ∨ hand s' k a = hand s k a

theorem HandsOff.of_acct {s s' : St} (h : s'.acct = s.acct) : HandsOff s s' := fun k a => .inr (.inr (by unfold hand; rw [h]))

theorem GoesAway.of_acct {s s' : St} (h : s'.acct = s.acct) : GoesAway s s' := fun k a => .inr (by unfold hand; rw [h])

theorem GoesAway.trans {a b c : St} (h1 : GoesAway a b) (h2 : GoesAway b c) : GoesAway a c := fun k x => by
  rcases h2 k x with e | e
  · exact .inl e
  · rw [e]; exact h1 k x

theorem Comes.off {a b c : St} (h1 : Comes a b) (h2 : GoesAway b c) : HandsOff a c := fun k x => by
  rcases h1 k x with e | e
  · exact .inl e
  · rcases h2 k x with g | g
    · exact .inr (.inl g)
    · exact .inr (.inr (g.trans e))

theorem GoesAway.off {a b : St} (h : GoesAway a b) : HandsOff a b := fun k x => .inr (h k x)

theorem comes_give (s : St) (k : Key) (who : AccountId) (n : Nat) : Comes s (give s k who n) := fun q a => by
  by_cases e : q = k ∧ a = who
  · obtain ⟨rfl, rfl⟩ := e
    cases hx : s.acct q a with
    | none => exact .inl (by unfold hand; rw [hx]; rfl)
    | some x =>
      refine .inr ?_
      have : give s q a n = s.setAcct q a (some { x with balance := x.balance + n }) := by
        unfold give; rw [hx]
      unfold hand
      rw [this, setAcct_acct, if_pos ⟨rfl, rfl⟩, hx]; rfl
  · refine .inr ?_
    unfold hand give
    split
    · rw [setAcct_acct, if_neg e]
    · rw [setInfo_acct, setAcct_acct, if_neg e]
    · rfl

theorem away_drop (s : St) (k : Key) (who : AccountId) : GoesAway s (drop s k who) := fun q a => by
  cases hi : s.info k with
  | none => exact .inr (by unfold drop; rw [hi])
  | some d =>
    unfold hand
    rw [drop_acct hi]
    split
    · exact .inl rfl
    · exact .inr rfl

theorem away_take (s : St) (k : Key) (who : AccountId) (n : Nat) : GoesAway s (take s k who n) := fun q a => by
  unfold take
  split
  · rename_i d x hi hx
    split
    · exact away_drop s k who q a
    · refine .inr ?_
      unfold hand
      rw [setAcct_acct]
      split
      · rename_i e; obtain ⟨rfl, rfl⟩ := e; rw [hx]; rfl
      · rfl
  · exact .inr rfl

theorem off_move {env : Env} {s s' : St} {k : Key} {src dst : AccountId} {n : Nat} {keep : Bool}
    (h : move env s k src dst n keep = some s') : HandsOff s s' := by
  rcases move_facts h with rfl | ⟨d, a, m, _, _, _, _, _, _, _, _, _, _, rfl⟩
  · exact .of_acct rfl
  · exact (comes_give s k dst m).off (away_take _ k src m)

theorem off_mint {env : Env} {s s' : St} {k : Key} {by_ : Option AccountId} {who : AccountId} {n : Nat}
    (h : mint env s k by_ who n = some s') : HandsOff s s' := by
  rcases mint_facts h with rfl | ⟨d, hi, _, _, _, _, _, rfl⟩
  · exact .of_acct rfl
  · exact (comes_give s k who n).off (.of_acct rfl)

theorem off_burn {s s' : St} {k : Key} {by_ : Option AccountId} {who : AccountId} {n : Nat} {best : Bool}
    (h : burn s k by_ who n best = some s') : HandsOff s s' := by
  rcases burn_facts h with rfl | ⟨d, a, m, hi, ha, hn, hb, hm, rfl⟩
  · exact .of_acct rfl
  · exact ((away_take s k who m).trans (.of_acct rfl)).off

theorem off_touch {env : Env} {s s' : St} {k : Key} {who by_ : AccountId} (h : touch env s k who by_ = some s') :
    HandsOff s s' := by
  obtain ⟨d, hi, ha, _, rfl⟩ := touch_facts h
  intro q a
  by_cases e : q = k ∧ a = who
  · obtain ⟨rfl, rfl⟩ := e
    exact .inl (by unfold hand; rw [ha]; rfl)
  · refine .inr (.inr ?_)
    unfold hand
    rw [setInfo_acct, setAcct_acct, if_neg e]; rfl

theorem off_refund {s s' : St} {k : Key} {who : AccountId} {burning : Bool} (h : refund s k who burning = some s') :
    HandsOff s s' := by
  obtain ⟨d, a, hi, ha, _, _, ⟨_, rfl⟩ | ⟨n, _, rfl⟩⟩ := refund_facts h
  · exact (away_drop _ _ _).off
  · exact (away_drop (s.unreserve who n) k who).off

theorem off_refundOther {s s' : St} {k : Key} {who by_ : AccountId} (h : refundOther s k who by_ = some s') :
    HandsOff s s' := by
  obtain ⟨d, a, lender, n, hi, ha, _, _, hz, rfl⟩ := refundOther_facts h
  exact (away_drop (s.unreserve lender n) k who).off

theorem off_approve {env : Env} {s s' : St} {k : Key} {o g : AccountId} {n : Nat}
    (h : approve env s k o g n = some s') : HandsOff s s' := by
  obtain ⟨d, hi, _, rfl⟩ := approve_facts h
  exact .of_acct rfl

theorem off_transferApproved {env : Env} {s s' : St} {k : Key} {o g dst : AccountId} {n : Nat}
    (h : transferApproved env s k o g dst n = some s') : HandsOff s s' := by
  obtain ⟨d, p, s1, hi, hp, _, hn, hm, e, _, _⟩ := transferApproved_facts h
  intro q a
  have := off_move hm q a
  unfold hand at *
  rw [e]; exact this

theorem away_destroyAccounts (k : Key) (l : List AccountId) : ∀ s : St, GoesAway s (l.foldl (destroyAccount k) s) := by
  induction l with
  | nil => intro s; exact .of_acct rfl
  | cons x t ih =>
    intro s
    refine GoesAway.trans ?_ (ih _)
    rcases destroyAccount_facts k s x with ⟨_, e⟩ | ⟨a, ha, e⟩
    · rw [e]; exact .of_acct rfl
    · rw [e]; exact GoesAway.trans (.of_acct (payBack_eq s x a.reason).2.1) (away_drop _ _ _)

/-! ## Theorems -/

/-- **C206**: a call raises the supply of an asset only if its issuer mints that much, while the asset is live, and the account
named gets it. -/
theorem C206_minted (env : Env) (s s' : St) (o : RtOrigin) (c : Call) (h : call env s o c = some s') (k : Key)
    (hlt : s.supply k < s'.supply k) : ∃ d who n, s.info k = some d ∧ d.status = .live ∧ o = .signed d.issuer ∧
      c = .mint k who n ∧ s'.supply k = s.supply k + n ∧ s'.has k who = s.has k who + n := by
  have no : s'.supply k = s.supply k → False := fun e => by omega
  have one : ∀ {q : Key} {d0 d1 : Info}, s.info q = some d0 → d1.supply = d0.supply → s' = s.setInfo q (some d1) → False :=
    fun hi e e' => no (by rw [e']; exact supply_setInfo_same hi e k)
  cases o with
  | root =>
    replace h : byRoot s c = some s' := h
    cases c <;> simp only [byRoot] at h
    all_goals first | (cases h; done) | skip
    case forceCreate q x b n =>
      split at h
      · cases h
      · rename_i hc
        rw [not_or, not_not] at hc
        cases h
        refine (no ?_).elim
        rw [supply_setInfo]
        split
        · rename_i e; subst e; unfold St.supply; rw [hc.1]; rfl
        · rfl
    case forceCancelApproval =>
      (repeat' split at h) <;> first | (cases h; done) | exact (no (supply_unapprove h k)).elim
    case startDestroy q =>
      split at h
      · rename_i d0 hi; exact (one hi (by rfl) (Option.some.inj h).symm).elim
      · cases h
    case forceAssetStatus q x i a f n b z =>
      split at h
      · rename_i d0 hi
        split at h
        · cases h
        · exact (one hi (by rfl) (Option.some.inj h).symm).elim
      · cases h
  | signed by_ =>
    replace h : bySigner env s by_ c = some s' := h
    cases c <;> simp only [bySigner] at h
    all_goals first | (cases h; done) | skip
    case finishDestroy q =>
      split at h
      · split at h
        · cases h
          rw [supply_setInfo] at hlt
          split at hlt
          · exact absurd hlt (Nat.not_lt_zero _)
          · omega
        · cases h
      · cases h
    case destroyAccounts q l =>
      (repeat' split at h) <;> first | (cases h; done) | (cases h; exact (no (supply_destroyAccounts _ _ k _)).elim)
    case destroyApprovals q l =>
      (repeat' split at h) <;> first | (cases h; done) | (cases h; exact (no (supply_destroyApprovals _ _ k _)).elim)
    case mint q who n =>
      rcases mint_facts h with rfl | ⟨d, hi, _, hl, hb, _, _, rfl⟩
      · omega
      · have hg : (give s q who n).info q = some _ := give_info hi
        have hs : ((give s q who n).setSupply q (· + n)).supply k = if k = q then (give s q who n).supply q + n else
            (give s q who n).supply k := by
          rw [supply_setSupply _ _ _ _ _ hg]
        rw [hs] at hlt
        by_cases e : k = q
        · subst e
          refine ⟨d, who, n, hi, hl, by rw [hb by_ rfl], rfl, ?_, ?_⟩
          · rw [hs, if_pos rfl, supply_give]
          · rw [show ((give s k who n).setSupply k (· + n)).has k who = (give s k who n).has k who from rfl, give_has hi,
              if_pos ⟨rfl, rfl⟩]
        · rw [if_neg e, supply_give] at hlt; omega
    case burn q who n =>
      rcases burn_facts h with rfl | ⟨d, a, m, hi, ha, hn, hb, hm, rfl⟩
      · omega
      · obtain ⟨d', hg⟩ : ∃ d', (take s q who m).info q = some d' := by
          rw [take_info hi ha]
          split
          · exact ⟨_, rfl⟩
          · exact ⟨d, hi⟩
        rw [supply_setSupply _ _ _ _ _ hg] at hlt
        split at hlt
        · rename_i e; subst e; rw [supply_take] at hlt; omega
        · rw [supply_take] at hlt; omega
    case transfer => exact (no (supply_move h k)).elim
    case transferKeepAlive => exact (no (supply_move h k)).elim
    case forceTransfer =>
      (repeat' split at h) <;> first | (cases h; done) | exact (no (supply_move h k)).elim | (cases h; exact (no rfl).elim)
    case freeze => (repeat' split at h) <;> first | (cases h; done) | exact (no (supply_setHand h k)).elim
    case thaw => (repeat' split at h) <;> first | (cases h; done) | exact (no (supply_setHand h k)).elim
    case block => (repeat' split at h) <;> first | (cases h; done) | exact (no (supply_setHand h k)).elim
    case approveTransfer => exact (no (supply_approve h k)).elim
    case transferApproved => exact (no (supply_transferApproved h k)).elim
    case cancelApproval => (repeat' split at h) <;> first | (cases h; done) | exact (no (supply_unapprove h k)).elim
    case forceCancelApproval => (repeat' split at h) <;> first | (cases h; done) | exact (no (supply_unapprove h k)).elim
    case touch => exact (no (supply_touch h k)).elim
    case touchOther => (repeat' split at h) <;> first | (cases h; done) | exact (no (supply_touch h k)).elim
    case refund => exact (no (supply_refund h k)).elim
    case refundOther => exact (no (supply_refundOther h k)).elim
    all_goals
      split at h
      · rename_i d0 hi
        split at h
        · exact (one hi (by rfl) (Option.some.inj h).symm).elim
        · cases h
      · cases h
  | none => cases h
  | community _ => cases h
  | custom _ => cases h
  | other _ => cases h

/-- **C206**: a call lowers the supply of an asset only if its admin burns units of somebody, or at the end of its
destruction. -/
theorem C206_burned (env : Env) (s s' : St) (o : RtOrigin) (c : Call) (h : call env s o c = some s') (k : Key)
    (hlt : s'.supply k < s.supply k) :
    (∃ d who n, s.info k = some d ∧ o = .signed d.admin ∧ c = .burn k who n ∧
      s'.supply k = s.supply k - (s.has k who - s'.has k who)) ∨ c = .finishDestroy k := by
  have no : s'.supply k = s.supply k → False := fun e => by omega
  have one : ∀ {q : Key} {d0 d1 : Info}, s.info q = some d0 → d1.supply = d0.supply → s' = s.setInfo q (some d1) → False :=
    fun hi e e' => no (by rw [e']; exact supply_setInfo_same hi e k)
  cases o with
  | root =>
    replace h : byRoot s c = some s' := h
    cases c <;> simp only [byRoot] at h
    all_goals first | (cases h; done) | skip
    case forceCreate q x b n =>
      split at h
      · cases h
      · rename_i hc
        rw [not_or, not_not] at hc
        cases h
        refine (no ?_).elim
        rw [supply_setInfo]
        split
        · rename_i e; subst e; unfold St.supply; rw [hc.1]; rfl
        · rfl
    case forceCancelApproval =>
      (repeat' split at h) <;> first | (cases h; done) | exact (no (supply_unapprove h k)).elim
    case startDestroy q =>
      split at h
      · rename_i d0 hi; exact (one hi (by rfl) (Option.some.inj h).symm).elim
      · cases h
    case forceAssetStatus q x i a f n b z =>
      split at h
      · rename_i d0 hi
        split at h
        · cases h
        · exact (one hi (by rfl) (Option.some.inj h).symm).elim
      · cases h
  | signed by_ =>
    replace h : bySigner env s by_ c = some s' := h
    cases c <;> simp only [bySigner] at h
    all_goals first | (cases h; done) | skip
    case finishDestroy q =>
      split at h
      · split at h
        · cases h
          rw [supply_setInfo] at hlt
          split at hlt
          · rename_i e; subst e; exact .inr rfl
          · omega
        · cases h
      · cases h
    case destroyAccounts q l =>
      (repeat' split at h) <;> first | (cases h; done) | (cases h; exact (no (supply_destroyAccounts _ _ k _)).elim)
    case destroyApprovals q l =>
      (repeat' split at h) <;> first | (cases h; done) | (cases h; exact (no (supply_destroyApprovals _ _ k _)).elim)
    case mint q who n =>
      rcases mint_facts h with rfl | ⟨d, hi, _, hl, hb, _, _, rfl⟩
      · omega
      · have hg : (give s q who n).info q = some _ := give_info hi
        rw [supply_setSupply _ _ _ _ _ hg] at hlt
        split at hlt
        · rename_i e; subst e; rw [supply_give] at hlt; omega
        · rw [supply_give] at hlt; omega
    case burn q who n =>
      rcases burn_facts h with rfl | ⟨d, a, m, hi, ha, hn, hb, hm, rfl⟩
      · omega
      · obtain ⟨d', hg⟩ : ∃ d', (take s q who m).info q = some d' := by
          rw [take_info hi ha]
          split
          · exact ⟨_, rfl⟩
          · exact ⟨d, hi⟩
        rw [supply_setSupply _ _ _ _ _ hg] at hlt
        by_cases e : k = q
        · subst e
          refine .inl ⟨d, who, n, hi, by rw [hb by_ rfl], rfl, ?_⟩
          obtain ⟨r, hr⟩ : ∃ r, r = (take s k who m).has k who := ⟨_, rfl⟩
          have hloss : s.has k who - r = m := by
            rw [if_pos rfl, supply_take] at hlt
            obtain ⟨d1, a1, hi1, ha1, _, _, h1, _, _, h2⟩ := debit_facts hm
            rw [hi] at hi1; cases hi1
            rw [ha] at ha1; cases ha1
            rw [hr, take_has hi ha, if_pos ⟨rfl, rfl⟩, has_some ha]
            split
            · rename_i hg
              have := hg.1
              rcases h2 with h2 | h2 | h2 <;> omega
            · omega
          rw [supply_setSupply _ _ _ _ _ hg, if_pos rfl, supply_take,
            show ((take s k who m).setSupply k (· - m)).has k who = r from hr.symm, hloss]
        · rw [if_neg e, supply_take] at hlt; omega
    case transfer => exact (no (supply_move h k)).elim
    case transferKeepAlive => exact (no (supply_move h k)).elim
    case forceTransfer =>
      (repeat' split at h) <;> first | (cases h; done) | exact (no (supply_move h k)).elim | (cases h; exact (no rfl).elim)
    case freeze => (repeat' split at h) <;> first | (cases h; done) | exact (no (supply_setHand h k)).elim
    case thaw => (repeat' split at h) <;> first | (cases h; done) | exact (no (supply_setHand h k)).elim
    case block => (repeat' split at h) <;> first | (cases h; done) | exact (no (supply_setHand h k)).elim
    case approveTransfer => exact (no (supply_approve h k)).elim
    case transferApproved => exact (no (supply_transferApproved h k)).elim
    case cancelApproval => (repeat' split at h) <;> first | (cases h; done) | exact (no (supply_unapprove h k)).elim
    case forceCancelApproval => (repeat' split at h) <;> first | (cases h; done) | exact (no (supply_unapprove h k)).elim
    case touch => exact (no (supply_touch h k)).elim
    case touchOther => (repeat' split at h) <;> first | (cases h; done) | exact (no (supply_touch h k)).elim
    case refund => exact (no (supply_refund h k)).elim
    case refundOther => exact (no (supply_refundOther h k)).elim
    all_goals
      split at h
      · rename_i d0 hi
        split at h
        · exact (one hi (by rfl) (Option.some.inj h).symm).elim
        · cases h
      · cases h
  | none => cases h
  | community _ => cases h
  | custom _ => cases h
  | other _ => cases h

/-- **C206**: an account comes to be frozen, blocked or free again, while it stays, only by a call that names it: of the
asset's freezer to freeze or block, of its admin to thaw; not while the asset is being destroyed. -/
theorem C206_hands (env : Env) (s s' : St) (o : RtOrigin) (c : Call) (h : call env s o c = some s') (k : Key)
    (a : AccountId) (x y : Acct) (hx : s.acct k a = some x) (hy : s'.acct k a = some y) (hne : y.status ≠ x.status) :
    ∃ d, s.info k = some d ∧ d.status ≠ .destroying ∧
      ((o = .signed d.freezer ∧ c = .freeze k a ∧ y = { x with status := .frozen }) ∨
        (o = .signed d.freezer ∧ c = .block k a ∧ y = { x with status := .blocked }) ∨
        (o = .signed d.admin ∧ c = .thaw k a ∧ y = { x with status := .liquid })) := by
  have no : HandsOff s s' → False := fun e => by
    have := e k a
    unfold hand at this
    rw [hx, hy] at this
    rcases this with e | e | e
    · cases e
    · cases e
    · exact hne (Option.some.inj e)
  have set : ∀ {q : Key} {who : AccountId} {v : Hand}, setHand s q who v = some s' →
      q = k ∧ who = a ∧ y = { x with status := v } := by
    intro q who v e
    obtain ⟨z, hz, rfl⟩ := setHand_facts e
    rw [setAcct_acct] at hy
    split at hy
    · rename_i e
      obtain ⟨rfl, rfl⟩ := e
      rw [hx] at hz; cases hz
      exact ⟨rfl, rfl, (Option.some.inj hy).symm⟩
    · rw [hx] at hy; cases hy; exact absurd rfl hne
  cases o with
  | root => exact (no (.of_acct (byRoot_acct (show byRoot s c = some s' from h)).1)).elim
  | signed by_ =>
    replace h : bySigner env s by_ c = some s' := h
    cases c <;> simp only [bySigner] at h
    all_goals first | (cases h; done) | skip
    case freeze =>
      split at h
      · rename_i d hi
        split at h
        · rename_i hc
          obtain ⟨rfl, rfl, e⟩ := set h
          exact ⟨d, hi, hc.1, .inl ⟨by rw [hc.2], rfl, e⟩⟩
        · cases h
      · cases h
    case block =>
      split at h
      · rename_i d hi
        split at h
        · rename_i hc
          obtain ⟨rfl, rfl, e⟩ := set h
          exact ⟨d, hi, hc.1, .inr (.inl ⟨by rw [hc.2], rfl, e⟩)⟩
        · cases h
      · cases h
    case thaw =>
      split at h
      · rename_i d hi
        split at h
        · rename_i hc
          obtain ⟨rfl, rfl, e⟩ := set h
          exact ⟨d, hi, hc.1, .inr (.inr ⟨by rw [hc.2], rfl, e⟩)⟩
        · cases h
      · cases h
    case destroyAccounts q l =>
      (repeat' split at h) <;> first | (cases h; done) | (cases h; exact (no (away_destroyAccounts _ _ _).off).elim)
    case destroyApprovals q l =>
      (repeat' split at h) <;>
        first | (cases h; done) | (cases h; exact (no (.of_acct (destroyApprovals_acct _ _ _).1)).elim)
    case mint => exact (no (off_mint h)).elim
    case burn => exact (no (off_burn h)).elim
    case transfer => exact (no (off_move h)).elim
    case transferKeepAlive => exact (no (off_move h)).elim
    case forceTransfer =>
      (repeat' split at h) <;>
        first | (cases h; done) | exact (no (off_move h)).elim | (cases h; exact (no (.of_acct rfl)).elim)
    case approveTransfer => exact (no (off_approve h)).elim
    case transferApproved => exact (no (off_transferApproved h)).elim
    case cancelApproval =>
      (repeat' split at h) <;> first | (cases h; done) | exact (no (.of_acct (unapprove_acct h).1)).elim
    case forceCancelApproval =>
      (repeat' split at h) <;> first | (cases h; done) | exact (no (.of_acct (unapprove_acct h).1)).elim
    case touch => exact (no (off_touch h)).elim
    case touchOther => (repeat' split at h) <;> first | (cases h; done) | exact (no (off_touch h)).elim
    case refund => exact (no (off_refund h)).elim
    case refundOther => exact (no (off_refundOther h)).elim
    all_goals
      (repeat' split at h) <;> first | (cases h; done) | (cases h; exact (no (.of_acct rfl)).elim)
  | none => cases h
  | community _ => cases h
  | custom _ => cases h
  | other _ => cases h

/-- **C202**: the leave a delegate has becomes less only if the holder cancels it, the delegate uses that much of it, the
asset's admin or root cancels it, or the asset is being destroyed. (A leave is a `u128`.) -/
theorem C202_leave_less (env : Env) (s s' : St) (o : RtOrigin) (c : Call) (h : call env s o c = some s') (k : Key)
    (a g : AccountId) (hfit : leave s k a g ≤ maxUnits) (hlt : leave s' k a g < leave s k a g) :
    ∃ d, s.info k = some d ∧
      ((o = .signed a ∧ c = .cancelApproval k g ∧ leave s' k a g = 0) ∨
        (o = .signed g ∧ ∃ dst n, c = .transferApproved k a dst n ∧ leave s k a g = leave s' k a g + n) ∨
        ((o = .signed d.admin ∨ o = .root) ∧ c = .forceCancelApproval k a g ∧ leave s' k a g = 0) ∨
        (d.status = .destroying ∧ ∃ l, c = .destroyApprovals k l)) := by
  have no : s'.appr = s.appr → False := fun e => by rw [leave_same e] at hlt; omega
  have un : ∀ {q : Key} {x y : AccountId} {s1 s2 : St}, unapprove s1 q x y = some s2 →
      leave s2 k a g = if k = q ∧ a = x ∧ g = y then 0 else leave s1 k a g := by
    intro q x y s1 s2 e
    obtain ⟨d, p, hi, hp, rfl⟩ := unapprove_facts e
    unfold leave
    rw [setInfo_appr, setAppr_appr]
    split <;> rfl
  have gone : ∀ {q : Key} {x y : AccountId}, unapprove s q x y = some s' →
      q = k ∧ x = a ∧ y = g ∧ leave s' k a g = 0 := by
    intro q x y e
    have := un e
    split at this
    · rename_i e; obtain ⟨rfl, rfl, rfl⟩ := e; exact ⟨rfl, rfl, rfl, this⟩
    · omega
  cases o with
  | root =>
    replace h : byRoot s c = some s' := h
    cases c <;> simp only [byRoot] at h
    all_goals first | (cases h; done) | skip
    case forceCancelApproval q x y =>
      split at h
      · rename_i d hi
        split at h
        · obtain ⟨rfl, rfl, rfl, e⟩ := gone h
          exact ⟨d, hi, .inr (.inr (.inl ⟨.inr rfl, rfl, e⟩))⟩
        · cases h
      · cases h
    all_goals
      (repeat' split at h) <;> first | (cases h; done) | (cases h; exact (no rfl).elim)
  | signed by_ =>
    replace h : bySigner env s by_ c = some s' := h
    cases c <;> simp only [bySigner] at h
    all_goals first | (cases h; done) | skip
    case cancelApproval =>
      split at h
      · rename_i d hi
        split at h
        · obtain ⟨rfl, rfl, rfl, e⟩ := gone h
          exact ⟨d, hi, .inl ⟨rfl, rfl, e⟩⟩
        · cases h
      · cases h
    case forceCancelApproval =>
      split at h
      · rename_i d hi
        split at h
        · rename_i hc
          obtain ⟨rfl, rfl, rfl, e⟩ := gone h
          exact ⟨d, hi, .inr (.inr (.inl ⟨.inl (by rw [hc.2]), rfl, e⟩))⟩
        · cases h
      · cases h
    case transferApproved q x dst n =>
      obtain ⟨d, p, s1, hi, hp, _, hn, hm, _, _, hx⟩ := transferApproved_facts h
      have e1 : leave s1 k a g = leave s k a g := leave_same (move_appr hm) k a g
      have e2 : k = q ∧ a = x ∧ g = by_ → leave s k a g = p.amount := by
        rintro ⟨rfl, rfl, rfl⟩; unfold leave; rw [hp]; rfl
      by_cases e : k = q ∧ a = x ∧ g = by_
      · have e3 := e2 e
        have e4 : leave s' k a g = p.amount - n := by
          rcases hx with ⟨hx, hu⟩ | ⟨hx, rfl⟩
          · rw [un hu, if_pos e]; omega
          · unfold leave; rw [setAppr_appr, if_pos e]; rfl
        obtain ⟨rfl, rfl, rfl⟩ := e
        exact ⟨d, hi, .inr (.inl ⟨rfl, dst, n, rfl, by omega⟩)⟩
      · exfalso
        rcases hx with ⟨hx, hu⟩ | ⟨hx, rfl⟩
        · have := un hu; rw [if_neg e] at this; omega
        · unfold leave at hlt e1; rw [setAppr_appr, if_neg e] at hlt; omega
    case approveTransfer q y n =>
      exfalso
      obtain ⟨d, hi, _, rfl⟩ := approve_facts h
      unfold leave at hlt
      rw [setInfo_appr, setAppr_appr] at hlt
      split at hlt
      · rename_i e
        obtain ⟨rfl, rfl, rfl⟩ := e
        unfold leave at hfit
        cases hp : s.appr k a g with
        | none => rw [hp] at hlt; exact absurd hlt (Nat.not_lt_zero _)
        | some p =>
          rw [hp] at hlt hfit
          have hlt : Nat.min (p.amount + n) maxUnits < p.amount := hlt
          have hfit : p.amount ≤ maxUnits := hfit
          exact absurd (Nat.le_min.2 ⟨Nat.le_add_right _ _, hfit⟩) (Nat.not_le.2 hlt)
      · exact absurd hlt (Nat.lt_irrefl _)
    case destroyApprovals q l =>
      split at h
      · rename_i d hi
        split at h
        · rename_i hc
          cases h
          by_cases e : q = k
          · subst e; exact ⟨d, hi, .inr (.inr (.inr ⟨hc.1, l, rfl⟩))⟩
          · exfalso
            have : ∀ (l : List (AccountId × AccountId)) (s : St),
                leave (l.foldl (destroyApproval q) s) k a g = leave s k a g := by
              intro l
              induction l with
              | nil => intro s; rfl
              | cons x t ih =>
                intro s
                rw [List.foldl_cons, ih]
                unfold destroyApproval
                cases hu : unapprove s q x.1 x.2 with
                | none => rfl
                | some s1 =>
                  show leave s1 k a g = _
                  rw [un hu, if_neg fun g => e g.1.symm]
            rw [this] at hlt; omega
        · cases h
      · cases h
    case destroyAccounts q l =>
      (repeat' split at h) <;> first | (cases h; done) | (cases h; exact (no (destroyAccounts_appr _ _ _)).elim)
    case mint => exact (no (mint_appr h)).elim
    case burn => exact (no (burn_appr h)).elim
    case transfer => exact (no (move_appr h)).elim
    case transferKeepAlive => exact (no (move_appr h)).elim
    case forceTransfer =>
      (repeat' split at h) <;> first | (cases h; done) | exact (no (move_appr h)).elim | (cases h; exact (no rfl).elim)
    case freeze => (repeat' split at h) <;> first | (cases h; done) | exact (no (setHand_appr h)).elim
    case thaw => (repeat' split at h) <;> first | (cases h; done) | exact (no (setHand_appr h)).elim
    case block => (repeat' split at h) <;> first | (cases h; done) | exact (no (setHand_appr h)).elim
    case touch => exact (no (touch_appr h)).elim
    case touchOther => (repeat' split at h) <;> first | (cases h; done) | exact (no (touch_appr h)).elim
    case refund => exact (no (refund_appr h)).elim
    case refundOther => exact (no (refundOther_appr h)).elim
    all_goals
      (repeat' split at h) <;> first | (cases h; done) | (cases h; exact (no rfl).elim)
  | none => cases h
  | community _ => cases h
  | custom _ => cases h
  | other _ => cases h

/-- The issuer mints, the admin burns and thaws, the freezer freezes, and nobody else does. -/
example :
    let l : List Step := [.call .root (.forceCreate 0 Demo.alice false 10),
      .call (.signed Demo.alice) (.setTeam 0 Demo.alice Demo.bob Demo.carol), .call (.signed Demo.alice) (.mint 0 Demo.carol 50)]
    (Demo.run genesis l).map (·.supply 0) = some 50 ∧
      (Demo.run genesis (l ++ [.call (.signed Demo.bob) (.burn 0 Demo.carol 20)])).map (·.supply 0) = some 30 ∧
      (Demo.run genesis (l ++ [.call (.signed Demo.bob) (.mint 0 Demo.bob 50)])).isNone = true ∧
      (Demo.run genesis (l ++ [.call (.signed Demo.carol) (.freeze 0 Demo.carol)])).map (hand · 0 Demo.carol) =
        some (some .frozen) ∧
      (Demo.run genesis (l ++ [.call (.signed Demo.alice) (.freeze 0 Demo.carol)])).isNone = true := by
  decide +kernel

end Verif.Runtime.Units
