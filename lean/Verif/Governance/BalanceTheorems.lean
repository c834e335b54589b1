import Verif.Governance.PowerTheorems
import Verif.Runtime.Balances

/-!
# C189, C190: whose hand moves native funds, and what the issuance on record is
-/

namespace Verif.Governance

open Verif Verif.Accounts Verif.Communities

open _root_.Verif.Runtime.Native (Acct)

/-- The balances pallet as a part of the runtime; what other pallets do to balances by themselves is any change that leaves
nobody with less. `calls` says which calls of other pallets are calls of it. Part of the transition system around the code
(outside /repo). -/
def balanceRest (calls : Nat → Option Runtime.Native.Call) : Rest Runtime.Native.St where
  acts x o n x' := ∃ fixed c, calls n = some c ∧ Runtime.Native.dispatch fixed x o c = some x'
  runs x x' := ∀ a, (x.acc a).total ≤ (x'.acc a).total

/-- The issuance on record is the sum of all balances. Specification only, no code behind it (outside /repo). -/
def Balanced (s : Runtime.Native.St) : Prop :=
  ∃ K : Finset AccountId, (∀ a, a ∉ K → (s.acc a).total = 0) ∧ s.issuance = ∑ a ∈ K, (s.acc a).total

/-! ## Helper lemmas -/

theorem put_acc (s : Runtime.Native.St) (who b : AccountId) (a : Acct) :
    (Runtime.Native.put s who a).acc b =
      if b = who then (if a.free < s.ed ∧ a.reserved = 0 then ⟨0, 0, 0⟩ else a) else s.acc b := by
  unfold Runtime.Native.put
  split <;> rfl

theorem put_ed (s : Runtime.Native.St) (who : AccountId) (a : Acct) : (Runtime.Native.put s who a).ed = s.ed := by
  unfold Runtime.Native.put
  split <;> rfl

theorem reducible_le (fixed : AccountId → Bool) (s : Runtime.Native.St) (who : AccountId) (keep : Bool) :
    Runtime.Native.reducible fixed s who keep ≤ (s.acc who).free := Nat.sub_le _ _

/-- What a transfer does to the accounts. -/
theorem transfer_facts {fixed : AccountId → Bool} {s s' : Runtime.Native.St} {src dst : AccountId} {n : Nat} {keep : Bool}
    (h : Runtime.Native.transfer fixed s src dst n keep = some s') :
    s' = s ∨ (src ≠ dst ∧ n ≠ 0 ∧ n ≤ Runtime.Native.reducible fixed s src keep ∧ s.ed ≤ (s.acc dst).free + n ∧
      s' = Runtime.Native.put (Runtime.Native.put s src { s.acc src with free := (s.acc src).free - n }) dst
        { s.acc dst with free := (s.acc dst).free + n }) := by
  unfold Runtime.Native.transfer at h
  split at h
  · cases h; exact .inl rfl
  · rename_i hn
    split at h
    · rename_i hc
      split at h
      · cases h; exact .inl rfl
      · rename_i hne
        refine .inr ⟨hne, hn, hc.1, hc.2.1, ?_⟩
        cases h
        dsimp only
        have e : (Runtime.Native.put s src { s.acc src with free := (s.acc src).free - n }).acc dst = s.acc dst := by
          rw [put_acc, if_neg (fun e => hne e.symm)]
        rw [e]
    · cases h

theorem total_put (s : Runtime.Native.St) (who : AccountId) (a : Acct) (b : AccountId) (hb : b ≠ who) :
    ((Runtime.Native.put s who a).acc b).total = (s.acc b).total := by
  rw [put_acc, if_neg hb]

theorem transfer_total {fixed : AccountId → Bool} {s s' : Runtime.Native.St} {src dst : AccountId} {n : Nat} {keep : Bool}
    (h : Runtime.Native.transfer fixed s src dst n keep = some s') (b : AccountId) (hb : b ≠ src) :
    (s.acc b).total ≤ (s'.acc b).total := by
  rcases transfer_facts h with rfl | ⟨hne, _, _, hd, rfl⟩
  · exact le_refl _
  · by_cases e : b = dst
    · subst e
      rw [put_acc, if_pos rfl, if_neg]
      · simp only [Acct.total]; omega
      · rw [put_ed]; dsimp only; omega
    · rw [total_put _ _ _ _ e, total_put _ _ _ _ hb]

theorem balanced_put {s : Runtime.Native.St} {who : AccountId} {a : Acct}
    (h : Balanced { s with acc := fun b => if b = who then a else s.acc b }) : Balanced (Runtime.Native.put s who a) := by
  unfold Runtime.Native.put
  split
  · rename_i hc
    obtain ⟨K, h1, h2⟩ := h
    refine ⟨K, fun b hb => ?_, ?_⟩
    · have := h1 b hb
      dsimp only at this ⊢
      split
      · rfl
      · rename_i hbw; rw [if_neg hbw] at this; exact this
    · dsimp only at h2 ⊢
      by_cases hw : who ∈ K
      · rw [← Finset.add_sum_erase _ _ hw] at h2
        rw [← Finset.add_sum_erase _ _ hw]
        rw [if_pos rfl] at h2 ⊢
        have e : ∑ x ∈ K.erase who, (if x = who then a else s.acc x).total =
            ∑ x ∈ K.erase who, (if x = who then (⟨0, 0, 0⟩ : Acct) else s.acc x).total :=
          Finset.sum_congr rfl fun x hx => by rw [if_neg (Finset.ne_of_mem_erase hx), if_neg (Finset.ne_of_mem_erase hx)]
        rw [e] at h2
        simp only [Acct.total] at h2 ⊢
        omega
      · have h3 := h1 who hw
        dsimp only at h3
        rw [if_pos rfl] at h3
        have h4 : a.free = 0 := by simp only [Acct.total] at h3; omega
        have e : ∑ x ∈ K, (if x = who then a else s.acc x).total =
            ∑ x ∈ K, (if x = who then (⟨0, 0, 0⟩ : Acct) else s.acc x).total :=
          Finset.sum_congr rfl fun x hx => by
            have : x ≠ who := fun e => hw (e ▸ hx)
            rw [if_neg this, if_neg this]
        rw [h4, Nat.sub_zero, h2, e]
  · exact h

/-- Changing one account and the issuance by the same. -/
theorem balanced_change {s : Runtime.Native.St} (h : Balanced s) (who : AccountId) (a : Acct) (i : Nat)
    (hi : i + (s.acc who).total = s.issuance + a.total) :
    Balanced { s with acc := fun b => if b = who then a else s.acc b, issuance := i } := by
  obtain ⟨K, h1, h2⟩ := h
  refine ⟨insert who K, fun b hb => ?_, ?_⟩
  · rw [Finset.mem_insert, not_or] at hb
    dsimp only
    rw [if_neg hb.1]; exact h1 b hb.2
  · dsimp only
    have hk : s.issuance = ∑ b ∈ insert who K, (s.acc b).total := by
      by_cases hw : who ∈ K
      · rw [Finset.insert_eq_of_mem hw]; exact h2
      · rw [Finset.sum_insert hw, h1 who hw, Nat.zero_add]; exact h2
    have hm : who ∈ insert who K := Finset.mem_insert_self _ _
    rw [← Finset.add_sum_erase _ _ hm] at hk
    rw [← Finset.add_sum_erase _ _ hm, if_pos rfl]
    have e : ∑ x ∈ (insert who K).erase who, (if x = who then a else s.acc x).total =
        ∑ x ∈ (insert who K).erase who, (s.acc x).total :=
      Finset.sum_congr rfl fun x hx => by rw [if_neg (Finset.ne_of_mem_erase hx)]
    rw [e]
    omega

theorem total_le {s : Runtime.Native.St} (h : Balanced s) (who : AccountId) : (s.acc who).total ≤ s.issuance := by
  obtain ⟨K, h1, h2⟩ := h
  by_cases hw : who ∈ K
  · rw [h2]; exact Finset.single_le_sum (f := fun a => (s.acc a).total) (fun _ _ => Nat.zero_le _) hw
  · rw [h1 who hw]; exact Nat.zero_le _

theorem transfer_balanced {fixed : AccountId → Bool} {s s' : Runtime.Native.St} {src dst : AccountId} {n : Nat}
    {keep : Bool} (h : Runtime.Native.transfer fixed s src dst n keep = some s') (hb : Balanced s) : Balanced s' := by
  rcases transfer_facts h with rfl | ⟨hne, _, hr, _, rfl⟩
  · exact hb
  · have hle := le_trans hr (reducible_le fixed s src keep)
    have ht := total_le hb src
    -- as if the amount left the issuance with the source and came back with the destination
    have h1 := balanced_change hb src { s.acc src with free := (s.acc src).free - n } (s.issuance - n)
      (by simp only [Acct.total] at ht ⊢; omega)
    have h2 : Balanced (Runtime.Native.put { s with issuance := s.issuance - n } src
        { s.acc src with free := (s.acc src).free - n }) := balanced_put h1
    obtain ⟨s2, e2⟩ : ∃ s2, s2 = Runtime.Native.put { s with issuance := s.issuance - n } src
        { s.acc src with free := (s.acc src).free - n } := ⟨_, rfl⟩
    rw [← e2] at h2
    have hd : s2.acc dst = s.acc dst := by rw [e2, put_acc, if_neg (fun e => hne e.symm)]
    have h3 := balanced_change h2 dst { s.acc dst with free := (s.acc dst).free + n } (s2.issuance + n)
      (by rw [hd]; simp only [Acct.total]; omega)
    have e3 : ({ s2 with issuance := s2.issuance + n } : Runtime.Native.St) =
        Runtime.Native.put s src { s.acc src with free := (s.acc src).free - n } := by
      rw [e2]
      unfold Runtime.Native.put
      dsimp only
      split
      · rename_i hc
        have : (s.issuance - n - ((s.acc src).free - n)) + n = s.issuance - ((s.acc src).free - n) := by
          simp only [Acct.total] at ht; omega
        simp only [this]
      · have : s.issuance - n + n = s.issuance := by simp only [Acct.total] at ht; omega
        simp only [this]
    refine balanced_put ?_
    rw [← e3]
    exact h3

/-! ## C189 -/

/-- C189: a call of the balances pallet leaves an account with less only if it was made by the account itself or by root. -/
theorem C189_own_hand (fixed : AccountId → Bool) (s s' : Runtime.Native.St) (o : Origin) (c : Runtime.Native.Call)
    (h : Runtime.Native.dispatch fixed s o c = some s') (a : AccountId) (hlt : (s'.acc a).total < (s.acc a).total) :
    o = .root ∨ o = .signed a := by
  cases o with
  | root => exact .inl rfl
  | signed who =>
    right
    by_contra hne
    have hne : a ≠ who := fun e => hne (by rw [e])
    have h : Runtime.Native.byAccount fixed s who c = some s' := h
    cases c with
    | transferAllowDeath dst n => exact absurd (transfer_total h a hne) (not_le.2 hlt)
    | transferKeepAlive dst n => exact absurd (transfer_total h a hne) (not_le.2 hlt)
    | transferAll dst keep => exact absurd (transfer_total h a hne) (not_le.2 hlt)
    | burn n keep =>
      simp only [Runtime.Native.byAccount] at h
      split at h
      · cases h; rw [total_put _ _ _ _ hne] at hlt; exact absurd hlt (lt_irrefl _)
      · cases h
    | upgradeAccounts => cases h; exact absurd hlt (lt_irrefl _)
    | _ => cases h
  | _ => cases h

/-- C189: so if an account had an amount at the beginning and has less now, while other pallets took nothing from anybody,
then there is a step of the history in which it came to have less than that, by a call of the balances pallet made by the
account itself, or made as root by the scheduler after a decision of the collective. -/
theorem C189_by_decision (calls : Nat → Option Runtime.Native.Call) (z s : GSt × Runtime.Native.St) (hz : GGenesis z.1)
    (h : RReach (balanceRest calls) z s) (a : AccountId) (n : Nat) (h0 : n ≤ (z.2.acc a).total)
    (h1 : (s.2.acc a).total < n) :
    ∃ s1 s2 o k, RReach (balanceRest calls) z s1 ∧ RStep (balanceRest calls) (some (o, k)) s1 s2 ∧
      RReach (balanceRest calls) s2 s ∧ n ≤ (s1.2.acc a).total ∧ (s2.2.acc a).total < n ∧
      (o = .signed a ∨ (o = .root ∧ RootDecided s1.1 ∧
        ∃ t ∈ s1.1.agenda, t.origin = .root ∧ t.when ≤ s1.1.now ∧ inner s1.1 .root t.call = some (.root, k))) := by
  obtain ⟨s1, s2, o, k, g1, g2, g3, g4, g5, _, g6⟩ :=
    C186_only_by_decision (balanceRest calls) (fun x => (x.acc a).total < n) (fun o => o = .signed a)
      (fun x o m x' ⟨fixed, c, _, hd⟩ p q => C189_own_hand fixed x x' o c hd a (lt_of_lt_of_le q (not_lt.1 p)))
      (fun x x' hr p q => p (lt_of_le_of_lt (hr a) q)) z s hz (not_lt.2 h0) h h1
  exact ⟨s1, s2, o, k, g1, g2, g3, not_lt.1 g4, g5, g6⟩

/-- C189: a transfer takes exactly the amount from the account that makes it and gives exactly the amount to the other; what
the first is left with is lost if it is below the existential deposit and nothing is reserved. Reserves and all other
accounts stay as they are. -/
theorem C189_transfer (fixed : AccountId → Bool) (s s' : Runtime.Native.St) (src dst : AccountId) (n : Nat)
    (hne : src ≠ dst) (hn : n ≠ 0) (keep : Bool)
    (h : Runtime.Native.dispatch fixed s (.signed src)
      (if keep then .transferKeepAlive dst n else .transferAllowDeath dst n) = some s') :
    (s'.acc dst).free = (s.acc dst).free + n ∧ (s'.acc dst).reserved = (s.acc dst).reserved ∧
    n ≤ (s.acc src).free - ((s.acc src).frozen - (s.acc src).reserved) ∧
    (s'.acc src).reserved = (s.acc src).reserved ∧
    ((s'.acc src).free = (s.acc src).free - n ∨
      (keep = false ∧ (s'.acc src).free = 0 ∧ (s.acc src).reserved = 0 ∧ (s.acc src).free - n < s.ed)) ∧
    (∀ b, b ≠ src → b ≠ dst → s'.acc b = s.acc b) := by
  have h : Runtime.Native.transfer fixed s src dst n keep = some s' := by cases keep <;> exact h
  unfold Runtime.Native.transfer at h
  rw [if_neg hn] at h
  split at h
  · rename_i hc
    obtain ⟨hr, hd, _⟩ := hc
    simp only at h
    cases h
    have e1 : (Runtime.Native.put s src { s.acc src with free := (s.acc src).free - n }).acc dst = s.acc dst := by
      rw [put_acc, if_neg (fun e => hne e.symm)]
    rw [e1]
    have e2 : (Runtime.Native.put (Runtime.Native.put s src { s.acc src with free := (s.acc src).free - n }) dst
        { s.acc dst with free := (s.acc dst).free + n }).acc dst = { s.acc dst with free := (s.acc dst).free + n } := by
      rw [put_acc, if_pos rfl, if_neg]
      rw [put_ed]; dsimp only; omega
    have e3 : (Runtime.Native.put (Runtime.Native.put s src { s.acc src with free := (s.acc src).free - n }) dst
        { s.acc dst with free := (s.acc dst).free + n }).acc src =
        if (s.acc src).free - n < s.ed ∧ (s.acc src).reserved = 0 then ⟨0, 0, 0⟩
        else { s.acc src with free := (s.acc src).free - n } := by
      rw [put_acc, if_neg hne, put_acc, if_pos rfl]
    have hred : Runtime.Native.reducible fixed s src keep ≤ (s.acc src).free - ((s.acc src).frozen - (s.acc src).reserved) := by
      unfold Runtime.Native.reducible
      dsimp only
      split <;> omega
    rw [e2, e3]
    refine ⟨rfl, rfl, by omega, ?_, ?_, fun b hb1 hb2 => ?_⟩
    · split
      · rename_i hc; exact hc.2.symm
      · rfl
    · split
      · rename_i hc
        cases keep with
        | false => exact .inr ⟨rfl, rfl, hc.2, hc.1⟩
        | true =>
          exfalso
          unfold Runtime.Native.reducible at hr
          simp only [true_or, if_true] at hr
          omega
      · exact .inl rfl
    · rw [put_acc, if_neg hb2, put_acc, if_neg hb1]
  · cases h

/-! ## C190 -/

/-- C190: no call of the balances pallet, by whomever, upsets the issuance on record, but root's
`force_adjust_total_issuance`. -/
theorem C190_calls (fixed : AccountId → Bool) (s s' : Runtime.Native.St) (o : Origin) (c : Runtime.Native.Call)
    (h : Runtime.Native.dispatch fixed s o c = some s') (hb : Balanced s)
    (hc : ∀ up d, ¬ (o = .root ∧ c = .forceAdjustIssuance up d)) : Balanced s' := by
  cases o with
  | signed who =>
    have h : Runtime.Native.byAccount fixed s who c = some s' := h
    cases c with
    | transferAllowDeath dst n => exact transfer_balanced h hb
    | transferKeepAlive dst n => exact transfer_balanced h hb
    | transferAll dst keep => exact transfer_balanced h hb
    | burn n keep =>
      simp only [Runtime.Native.byAccount] at h
      split at h
      · rename_i hn
        cases h
        have hle := le_trans hn (reducible_le fixed s who keep)
        have ht := total_le hb who
        exact balanced_put (balanced_change hb who _ (s.issuance - n) (by simp only [Acct.total] at ht ⊢; omega))
      · cases h
    | upgradeAccounts => cases h; exact hb
    | _ => cases h
  | root =>
    have h : Runtime.Native.byRoot fixed s c = some s' := h
    cases c with
    | forceTransfer src dst n => exact transfer_balanced h hb
    | forceUnreserve who n =>
      cases h
      dsimp only
      refine balanced_put (balanced_change hb who _ s.issuance ?_)
      simp only [Acct.total]; omega
    | forceSetBalance who free =>
      cases h
      have ht := total_le hb who
      exact balanced_change hb who _ _ (by simp only [Acct.total] at ht ⊢; omega)
    | forceAdjustIssuance up d => exact absurd ⟨rfl, rfl⟩ (hc up d)
    | _ => cases h
  | _ => cases h

/-- C190: no call but root's raises the issuance, and an account's own calls only lower it by what the account loses. -/
theorem C190_no_new (fixed : AccountId → Bool) (s s' : Runtime.Native.St) (o : Origin) (ho : o ≠ .root)
    (c : Runtime.Native.Call) (h : Runtime.Native.dispatch fixed s o c = some s') : s'.issuance ≤ s.issuance := by
  have tr : ∀ src dst n keep, Runtime.Native.transfer fixed s src dst n keep = some s' → s'.issuance ≤ s.issuance := by
    intro src dst n keep ht
    have pi : ∀ (s : Runtime.Native.St) w a, (Runtime.Native.put s w a).issuance ≤ s.issuance := by
      intro s w a
      unfold Runtime.Native.put
      split
      · exact Nat.sub_le _ _
      · exact le_refl _
    rcases transfer_facts ht with rfl | ⟨_, _, _, _, rfl⟩
    · exact le_refl _
    · exact le_trans (pi _ _ _) (pi _ _ _)
  cases o with
  | signed who =>
    have h : Runtime.Native.byAccount fixed s who c = some s' := h
    cases c with
    | transferAllowDeath dst n => exact tr _ _ _ _ h
    | transferKeepAlive dst n => exact tr _ _ _ _ h
    | transferAll dst keep => exact tr _ _ _ _ h
    | burn n keep =>
      simp only [Runtime.Native.byAccount] at h
      split at h
      · cases h
        unfold Runtime.Native.put
        split <;> (dsimp only; omega)
      · cases h
    | upgradeAccounts => cases h; exact le_refl _
    | _ => cases h
  | root => exact absurd rfl ho
  | _ => cases h

/-- C190: so, while other pallets keep it, the issuance on record is the sum of all balances, until the collective has
decided to run a call as root that says otherwise. -/
theorem C190_by_decision (calls : Nat → Option Runtime.Native.Call) (runs : Runtime.Native.St → Runtime.Native.St → Prop)
    (hruns : ∀ x x', runs x x' → Balanced x → Balanced x') (z s : GSt × Runtime.Native.St) (hz : GGenesis z.1)
    (h : RReach { balanceRest calls with runs := runs } z s) (h0 : Balanced z.2) (h1 : ¬ Balanced s.2) :
    ∃ s1 s2 k up d, RReach { balanceRest calls with runs := runs } z s1 ∧
      RStep { balanceRest calls with runs := runs } (some (.root, k)) s1 s2 ∧
      calls k = some (.forceAdjustIssuance up d) ∧ RootDecided s1.1 := by
  have key : ∀ x o n x', (balanceRest calls).acts x o n x' → ¬ ¬ Balanced x → ¬ Balanced x' →
      o = .root ∧ ∃ up d, calls n = some (.forceAdjustIssuance up d) := by
    rintro x o n x' ⟨fixed, c, hc, hd⟩ p q
    by_contra hne
    exact q (C190_calls fixed x x' o c hd (not_not.1 p) fun up d ⟨e1, e2⟩ => hne ⟨e1, up, d, by rw [hc, e2]⟩)
  obtain ⟨s1, s2, o, k, g1, g2, g3, g4, g5, g6, g7⟩ :=
    C186_only_by_decision { balanceRest calls with runs := runs } (fun x => ¬ Balanced x) (fun _ => False)
      (fun x o m x' hd p q => .inl (key x o m x' hd p q).1)
      (fun x x' hr p q => q (hruns x x' hr (not_not.1 p))) z s hz (not_not.2 h0) h h1
  rcases g7 with g7 | ⟨rfl, g7, _⟩
  · cases g7
  · obtain ⟨_, up, d, hc⟩ := key _ _ _ _ g6 g4 g5
    exact ⟨s1, s2, k, up, d, g1, g2, hc, g7⟩

/-! ## Non-vacuity -/

/-- Two accounts. Example for non-vacuity (outside /repo). -/
def Demo.purse : Runtime.Native.St :=
  ⟨fun a => if a = [1] then ⟨1000, 200, 0⟩ else if a = [2] then ⟨500, 0, 100⟩ else ⟨0, 0, 0⟩, 1700, 10⟩

theorem Demo.purse_balanced : Balanced Demo.purse := by
  refine ⟨{[1], [2]}, fun a ha => ?_, by decide⟩
  simp only [Finset.mem_insert, Finset.mem_singleton, not_or] at ha
  simp only [Demo.purse, if_neg ha.1, if_neg ha.2]
  rfl

/-- Call 3 takes 300 from account `[1]` by force. Example for non-vacuity (outside /repo). -/
def Demo.forceCalls : Nat → Option Runtime.Native.Call
  | 3 => some (.forceTransfer [1] [2] 300)
  | 4 => some (.transferAllowDeath [2] 300)
  | _ => none

/-- The collective decides to take 300 from an account. -/
example : ∃ s : GSt × Runtime.Native.St, GGenesis Demo.gstart ∧
    RReach (balanceRest Demo.forceCalls) (Demo.gstart, Demo.purse) s ∧ 1200 ≤ (Demo.purse.acc [1]).total ∧
    (s.2.acc [1]).total < 1200 ∧ (s.2.acc [2]).total = 800 := by
  obtain ⟨x', e, h1, h2⟩ : ∃ x', Runtime.Native.dispatch (fun _ => false) Demo.purse .root (.forceTransfer [1] [2] 300) =
    some x' ∧ (x'.acc [1]).total = 900 ∧ (x'.acc [2]).total = 800 := ⟨_, rfl, rfl, rfl⟩
  obtain ⟨_, s1, _, _, r⟩ := Demo.decided_run (R := balanceRest Demo.forceCalls) (x := Demo.purse) (x' := x')
    ⟨_, _, rfl, e⟩
  exact ⟨_, Demo.gstart_genesis, r, by decide, by rw [h1]; decide, h2⟩

/-- All but five of 500 are sent away; the five are lost, and the issuance falls by them. -/
example : ∃ s', Runtime.Native.dispatch (fun _ => false) { Demo.purse with acc := fun a => if a = [1] then ⟨1000, 200, 0⟩ else
      if a = [2] then ⟨500, 0, 0⟩ else ⟨0, 0, 0⟩ } (.signed [2]) (.transferAllowDeath [1] 495) = some s' ∧
    (s'.acc [1]).free = 1495 ∧ (s'.acc [2]).total = 0 ∧ s'.issuance = 1695 := ⟨_, rfl, rfl, rfl, rfl⟩

end Verif.Governance
