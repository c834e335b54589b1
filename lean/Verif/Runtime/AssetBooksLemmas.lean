import Verif.Runtime.AssetPalletTheorems
import Mathlib.Algebra.BigOperators.Group.Finset.Basic
import Mathlib.Algebra.BigOperators.Group.Finset.Piecewise
import Mathlib.Algebra.Order.BigOperators.Group.Finset

/-!
# The books of the assets pallet: lemmas
-/

namespace Verif.Runtime.Units

open Verif Verif.Accounts

/-! ## Finite sums -/

/-- The values of a function, zero but at finitely many places, add up to a number. Specification only, no code behind it
(outside /repo). -/
def SumsTo {ι : Type} [DecidableEq ι] (f : ι → Nat) (t : Nat) : Prop :=
  ∃ K : Finset ι, (∀ x, x ∉ K → f x = 0) ∧ t = ∑ x ∈ K, f x

theorem SumsTo.change {ι : Type} [DecidableEq ι] {f g : ι → Nat} {t u : Nat} (h : SumsTo f t) (x : ι)
    (hs : ∀ y, y ≠ x → g y = f y) (hi : u + f x = t + g x) : SumsTo g u := by
  obtain ⟨K, h1, h2⟩ := h
  refine ⟨insert x K, fun y hy => ?_, ?_⟩
  · rw [Finset.mem_insert, not_or] at hy
    rw [hs y hy.1]; exact h1 y hy.2
  · have hk : t = ∑ y ∈ insert x K, f y := by
      by_cases hx : x ∈ K
      · rw [Finset.insert_eq_of_mem hx]; exact h2
      · rw [Finset.sum_insert hx, h1 x hx, Nat.zero_add]; exact h2
    have hm : x ∈ insert x K := Finset.mem_insert_self _ _
    rw [← Finset.add_sum_erase _ _ hm] at hk ⊢
    have : ∑ y ∈ (insert x K).erase x, g y = ∑ y ∈ (insert x K).erase x, f y :=
      Finset.sum_congr rfl fun y hy => hs y (Finset.ne_of_mem_erase hy)
    rw [this]
    omega

theorem SumsTo.same {ι : Type} [DecidableEq ι] {f g : ι → Nat} {t : Nat} (h : SumsTo f t) (hs : ∀ y, g y = f y) :
    SumsTo g t := by
  have : g = f := funext hs
  rw [this]; exact h

theorem SumsTo.le {ι : Type} [DecidableEq ι] {f : ι → Nat} {t : Nat} (h : SumsTo f t) (x : ι) : f x ≤ t := by
  obtain ⟨K, h1, h2⟩ := h
  by_cases hx : x ∈ K
  · rw [h2]; exact Finset.single_le_sum (f := f) (fun _ _ => Nat.zero_le _) hx
  · rw [h1 x hx]; exact Nat.zero_le _

theorem SumsTo.none {ι : Type} [DecidableEq ι] : SumsTo (fun _ : ι => 0) 0 := ⟨∅, fun _ _ => rfl, by simp⟩

/-- Two places apart at once. -/
theorem SumsTo.shift {ι : Type} [DecidableEq ι] {f g : ι → Nat} {t : Nat} (h : SumsTo f t) (x y : ι) (hne : x ≠ y)
    (hs : ∀ z, z ≠ x → z ≠ y → g z = f z) (hi : g x + g y = f x + f y) : SumsTo g t := by
  have hx := h.le x
  have h1 : SumsTo (fun z => if z = x then g x else f z) (t - f x + g x) :=
    h.change x (fun z hz => if_neg hz) (by rw [if_pos rfl]; omega)
  refine h1.change y (fun z hz => ?_) ?_
  · by_cases hzx : z = x
    · rw [if_pos hzx, hzx]
    · rw [if_neg hzx]; exact hs z hzx hz
  · have e : (if y = x then g x else f y) = f y := if_neg fun e => hne e.symm
    show t + (if y = x then g x else f y) = _
    rw [e]; omega

/-! ## What steps are made of -/

/-- The primitive changes steps are made of; `tidy` ones lose no units. Specification only, no code behind it (outside
/repo). -/
inductive Act (tidy : Bool) (s : St) : St → Prop
  /-- Roles, status, minimum. -/
  | info (k : Key) (d d' : Info) (hi : s.info k = some d) (h1 : d'.accounts = d.accounts) (h2 : d'.approvals = d.approvals)
      (h3 : d'.supply = d.supply) (h4 : tidy = true → d'.min ≤ d.min ∨ d.accounts = 0) : Act tidy s (s.setInfo k (some d'))
  | make (k : Key) (d : Info) (hi : s.info k = none) (h1 : d.accounts = 0) (h2 : d.approvals = 0) (h3 : d.supply = 0) :
      Act tidy s (s.setInfo k (some d))
  | unmake (k : Key) (d : Info) (hi : s.info k = some d) (h0 : d.status = .destroying) (h1 : d.accounts = 0)
      (h2 : d.approvals = 0) : Act tidy s (s.setInfo k none)
  | move (k : Key) (src dst : AccountId) (n m : Nat) (d : Info) (a : Acct) (hne : src ≠ dst) (hi : s.info k = some d)
      (ha : s.acct k src = some a) (hl : Leaving d.min a.balance n m) (hg : s.acct k dst = none → d.min ≤ m) :
      Act tidy s (take (give s k dst m) k src m)
  | mint (k : Key) (who : AccountId) (n : Nat) (d : Info) (hi : s.info k = some d) (hg : s.acct k who = none → d.min ≤ n) :
      Act tidy s ((give s k who n).setSupply k (· + n))
  | burn (k : Key) (who : AccountId) (m : Nat) (d : Info) (a : Acct) (hi : s.info k = some d) (ha : s.acct k who = some a)
      (hm : m ≤ a.balance) (hg : m = 0 ∨ d.min ≤ a.balance - m ∨ m = a.balance) :
      Act tidy s ((take s k who m).setSupply k (· - m))
  | hand (k : Key) (who : AccountId) (a : Acct) (h : Hand) (ha : s.acct k who = some a) :
      Act tidy s (s.setAcct k who (some { a with status := h }))
  | touch (k : Key) (who by_ : AccountId) (n : Nat) (d : Info) (hi : s.info k = some d) (ha : s.acct k who = none) :
      Act tidy s (((s.reserve by_ n).setAcct k who
        (some ⟨0, .liquid, if by_ = who then .held n else .lent by_ n⟩)).setInfo k
        (some { d with accounts := d.accounts + 1 }))
  | shut (k : Key) (who : AccountId) (d : Info) (a : Acct) (hi : s.info k = some d) (ha : s.acct k who = some a)
      (ht : tidy = true → a.balance = 0) : Act tidy s (drop (payBack s who a.reason) k who)
  | approve (k : Key) (o g : AccountId) (n dep : Nat) (d : Info) (hi : s.info k = some d) :
      Act tidy s (((s.reserve o (dep - ((s.appr k o g).getD ⟨0, 0⟩).deposit)).setAppr k o g
          (some ⟨n, Nat.max ((s.appr k o g).getD ⟨0, 0⟩).deposit dep⟩)).setInfo k
          (some { d with approvals := d.approvals + (if s.appr k o g = Option.none then 1 else 0) }))
  | unapprove (k : Key) (o g : AccountId) (d : Info) (p : Leave) (hi : s.info k = some d) (hp : s.appr k o g = some p) :
      Act tidy s (((s.unreserve o p.deposit).setAppr k o g none).setInfo k
        (some { d with approvals := d.approvals - 1 }))
  | lessen (k : Key) (o g : AccountId) (p : Leave) (n : Nat) (hp : s.appr k o g = some p) :
      Act tidy s (s.setAppr k o g (some { p with amount := n }))
  | ice (k : Key) (who : AccountId) (f : Option Nat) : Act tidy s (s.setIce k who f)

/-- Several of them. Specification only, no code behind it (outside /repo). -/
inductive Acts (tidy : Bool) (s : St) : St → Prop
  | refl : Acts tidy s s
  | more {s1 s2 : St} (h : Acts tidy s s1) (ha : Act tidy s1 s2) : Acts tidy s s2

theorem Acts.one {tidy : Bool} {s s' : St} (h : Act tidy s s') : Acts tidy s s' := .more .refl h

/-- What all changes keep, steps keep. -/
theorem Acts.keep {tidy : Bool} {P : St → Prop} (hP : ∀ s s', Act tidy s s' → P s → P s') {s s' : St} (h : Acts tidy s s')
    (h0 : P s) : P s' := by
  induction h with
  | refl => exact h0
  | more _ ha ih => exact hP _ _ ha ih

/-- Steps after which no units have gone astray: no account is given up with units on it or destroyed, and root sets no other
minimum. Specification only, no code behind it (outside /repo). -/
def Tidy : Step → Prop
  | .call _ (.refund _ true) => False
  | .call _ (.destroyAccounts _ _) => False
  | .call _ (.forceAssetStatus _ _ _ _ _ _ _ _) => False
  | _ => True

theorem canGet_min {env : Env} {s : St} {k : Key} {who : AccountId} {n : Nat} {d : Info} (hi : s.info k = some d)
    (h : canGet env s k who n = true) (hn : s.acct k who = none) : d.min ≤ n := by
  unfold canGet at h
  rw [hi] at h
  dsimp only at h
  rw [hn] at h
  simp only [Bool.and_eq_true, decide_eq_true_eq] at h
  exact h.2.1

theorem move_acts (tidy : Bool) {env : Env} {s s' : St} {k : Key} {src dst : AccountId} {n : Nat} {keep : Bool}
    (h : move env s k src dst n keep = some s') : Acts tidy s s' := by
  rcases move_facts h with rfl | ⟨d, a, m, hne, _, hi, ha, _, _, hl, _, _, hg, rfl⟩
  · exact .refl
  · exact .one (.move k src dst n m d a hne hi ha hl fun e => canGet_min hi hg e)

theorem mint_acts (tidy : Bool) {env : Env} {s s' : St} {k : Key} {by_ : Option AccountId} {who : AccountId} {n : Nat}
    (h : mint env s k by_ who n = some s') : Acts tidy s s' := by
  rcases mint_facts h with rfl | ⟨d, hi, _, _, _, _, hg, rfl⟩
  · exact .refl
  · exact .one (.mint k who n d hi fun e => canGet_min hi hg e)

theorem burn_acts (tidy : Bool) {s s' : St} {k : Key} {by_ : Option AccountId} {who : AccountId} {n : Nat} {best : Bool}
    (h : burn s k by_ who n best = some s') : Acts tidy s s' := by
  rcases burn_facts h with rfl | ⟨d, a, m, hi, ha, _, _, hm, rfl⟩
  · exact .refl
  · obtain ⟨d', a', hi', ha', h1, h2, h3, h4, h5, h6⟩ := debit_facts hm
    rw [hi] at hi'; cases hi'
    rw [ha] at ha'; cases ha'
    refine .one (.burn k who m d a hi ha h3 ?_)
    rcases h6 with h6 | h6 | h6
    · exact .inl h6
    · exact .inr (.inl h6.2)
    · exact .inr (.inr h6.1)

theorem unapprove_acts (tidy : Bool) {s s' : St} {k : Key} {o g : AccountId} (h : unapprove s k o g = some s') :
    Acts tidy s s' := by
  obtain ⟨d, p, hi, hp, rfl⟩ := unapprove_facts h
  exact .one (.unapprove k o g d p hi hp)

theorem Acts.trans {tidy : Bool} {a b c : St} (h1 : Acts tidy a b) (h2 : Acts tidy b c) : Acts tidy a c := by
  induction h2 with
  | refl => exact h1
  | more _ ha ih => exact .more ih ha

theorem destroyAccounts_acts (k : Key) (l : List AccountId) : ∀ (s : St) (d : Info), s.info k = some d →
    Acts false s (l.foldl (destroyAccount k) s) := by
  induction l with
  | nil => intro s d _; exact .refl
  | cons x t ih =>
    intro s d hi
    obtain ⟨c, hc⟩ := destroyAccount_info k s x d hi
    refine Acts.trans ?_ (ih _ _ hc)
    rcases destroyAccount_facts k s x with ⟨_, e⟩ | ⟨a, ha, e⟩
    · rw [e]; exact .refl
    · rw [e]; exact .one (.shut k x d a hi ha fun e => nomatch e)

theorem destroyApprovals_acts (tidy : Bool) (k : Key) (l : List (AccountId × AccountId)) : ∀ s : St,
    Acts tidy s (l.foldl (destroyApproval k) s) := by
  induction l with
  | nil => intro s; exact .refl
  | cons x t ih =>
    intro s
    refine Acts.trans ?_ (ih _)
    unfold destroyApproval
    cases h : unapprove s k x.1 x.2 with
    | none => exact .refl
    | some s' => exact unapprove_acts tidy h

theorem touch_acts (tidy : Bool) {env : Env} {s s' : St} {k : Key} {who by_ : AccountId}
    (h : touch env s k who by_ = some s') : Acts tidy s s' := by
  obtain ⟨d, hi, ha, _, rfl⟩ := touch_facts h
  exact .one (.touch k who by_ _ d hi ha)

theorem setHand_acts (tidy : Bool) {s s' : St} {k : Key} {who : AccountId} {h : Hand} (e : setHand s k who h = some s') :
    Acts tidy s s' := by
  obtain ⟨a, ha, rfl⟩ := setHand_facts e
  exact .one (.hand k who a h ha)

theorem byRoot_acts (tidy : Bool) {s s' : St} {c : Call} (h : byRoot s c = some s')
    (ht : tidy = true → Tidy (.call .root c)) : Acts tidy s s' := by
  cases c <;> simp only [byRoot] at h
  all_goals first | (cases h; done) | skip
  case forceCreate k o f n =>
    split at h
    · cases h
    · rename_i hc
      rw [not_or, not_not] at hc
      cases h; exact .one (.make k _ hc.1 rfl rfl rfl)
  case startDestroy k =>
    split at h
    · rename_i d hi; cases h; exact .one (.info k d _ hi rfl rfl rfl fun _ => .inl (Nat.le_refl _))
    · cases h
  case forceAssetStatus k o i a f n b z =>
    split at h
    · rename_i d hi
      split at h
      · cases h
      · cases h
        cases tidy with
        | true => exact (ht rfl).elim
        | false => exact .one (.info k d _ hi rfl rfl rfl fun e => nomatch e)
    · cases h
  case forceCancelApproval k o g =>
    split at h
    · split at h
      · exact unapprove_acts tidy h
      · cases h
    · cases h

theorem bySigner_acts (tidy : Bool) {env : Env} {s s' : St} {by_ : AccountId} {c : Call}
    (h : bySigner env s by_ c = some s') (ht : tidy = true → Tidy (.call (.signed by_) c)) : Acts tidy s s' := by
  cases c <;> simp only [bySigner] at h
  all_goals first | (cases h; done) | skip
  case startDestroy q =>
    split at h
    · rename_i d hi
      split at h
      · cases h; exact .one (.info q d _ hi rfl rfl rfl fun _ => .inl (Nat.le_refl _))
      · cases h
    · cases h
  case destroyAccounts q l =>
    split at h
    · rename_i d hi
      split at h
      · cases h
        cases tidy with
        | true => exact (ht rfl).elim
        | false => exact destroyAccounts_acts q l s d hi
      · cases h
    · cases h
  case destroyApprovals q l =>
    split at h
    · split at h
      · cases h; exact destroyApprovals_acts tidy q l s
      · cases h
    · cases h
  case finishDestroy q =>
    split at h
    · rename_i d hi
      split at h
      · rename_i hc; cases h; exact .one (.unmake q d hi hc.1 hc.2.1 hc.2.2)
      · cases h
    · cases h
  case mint q who n => exact mint_acts tidy h
  case burn q who n => exact burn_acts tidy h
  case transfer q dst n => exact move_acts tidy h
  case transferKeepAlive q dst n => exact move_acts tidy h
  case forceTransfer q src dst n =>
    split at h
    · split at h
      · exact move_acts tidy h
      · cases h
    · split at h
      · cases h; exact .refl
      · cases h
  case freeze q who =>
    split at h
    · split at h
      · exact setHand_acts tidy h
      · cases h
    · cases h
  case thaw q who =>
    split at h
    · split at h
      · exact setHand_acts tidy h
      · cases h
    · cases h
  case block q who =>
    split at h
    · split at h
      · exact setHand_acts tidy h
      · cases h
    · cases h
  case freezeAsset q =>
    split at h
    · rename_i d hi
      split at h
      · cases h; exact .one (.info q d _ hi rfl rfl rfl fun _ => .inl (Nat.le_refl _))
      · cases h
    · cases h
  case thawAsset q =>
    split at h
    · rename_i d hi
      split at h
      · cases h; exact .one (.info q d _ hi rfl rfl rfl fun _ => .inl (Nat.le_refl _))
      · cases h
    · cases h
  case transferOwnership q x =>
    split at h
    · rename_i d hi
      split at h
      · cases h; exact .one (.info q d _ hi rfl rfl rfl fun _ => .inl (Nat.le_refl _))
      · cases h
    · cases h
  case setTeam q x y z =>
    split at h
    · rename_i d hi
      split at h
      · cases h; exact .one (.info q d _ hi rfl rfl rfl fun _ => .inl (Nat.le_refl _))
      · cases h
    · cases h
  case setMinBalance q x =>
    split at h
    · rename_i d hi
      split at h
      · rename_i hc
        cases h
        refine .one (.info q d _ hi rfl rfl rfl fun _ => ?_)
        rcases hc.2 with hm | hm
        · exact .inl (Nat.le_of_lt hm.1)
        · exact .inr hm
      · cases h
    · cases h
  case approveTransfer q g n =>
    obtain ⟨d, hi, _, rfl⟩ := approve_facts h
    exact .one (.approve q by_ g _ _ d hi)
  case cancelApproval q g =>
    split at h
    · split at h
      · exact unapprove_acts tidy h
      · cases h
    · cases h
  case forceCancelApproval q x g =>
    split at h
    · split at h
      · exact unapprove_acts tidy h
      · cases h
    · cases h
  case transferApproved q x dst n =>
    obtain ⟨d, p, s1, hi, hp, _, hn, hm, _, _, hx | hx⟩ := transferApproved_facts h
    · exact Acts.trans (move_acts tidy hm) (unapprove_acts tidy hx.2)
    · rw [hx.2]
      exact .more (move_acts tidy hm) (.lessen q x by_ p _ (by rw [move_appr hm]; exact hp))
  case touch q => exact touch_acts tidy h
  case touchOther q who =>
    split at h
    · split at h
      · exact touch_acts tidy h
      · cases h
    · cases h
  case refund q burning =>
    obtain ⟨d, a, hi, ha, _, hz, hr⟩ := refund_facts h
    have hb : tidy = true → a.balance = 0 := by
      intro e
      rcases hz with hz | rfl
      · exact hz
      · exact (ht e).elim
    rcases hr with ⟨hr, rfl⟩ | ⟨n, hr, rfl⟩
    · have := Act.shut (tidy := tidy) q by_ d a hi ha hb
      rw [hr] at this
      exact .one this
    · have := Act.shut (tidy := tidy) q by_ d a hi ha hb
      rw [hr] at this
      exact .one this
  case refundOther q who =>
    obtain ⟨d, a, lender, n, hi, ha, hr, _, hz, rfl⟩ := refundOther_facts h
    have := Act.shut (tidy := tidy) q who d a hi ha (fun _ => hz)
    rw [hr] at this
    exact .one this

theorem step_acts (tidy : Bool) {env : Env} {s s' : St} {x : Step} (h : step env s x = some s')
    (ht : tidy = true → Tidy x) : Acts tidy s s' := by
  cases x with
  | call o c =>
    cases o with
    | root => exact byRoot_acts tidy (show byRoot s c = some s' from h) ht
    | signed a => exact bySigner_acts tidy (show bySigner env s a c = some s' from h) ht
    | none => cases h
    | community _ => cases h
    | custom _ => cases h
    | other _ => cases h
  | other y =>
    cases y with
    | make q o z n =>
      exact byRoot_acts tidy (show byRoot s (.forceCreate q o z n) = some s' from h) fun _ => trivial
    | mintInto q who n => exact mint_acts tidy h
    | burnFrom q who n best => exact burn_acts tidy h
    | transfer q src dst n keep => exact move_acts tidy h
    | setFrozen q who f => cases h; exact .one (.ice q who f)

/-- What all changes keep holds in all that is reached. -/
theorem Reach.keep {P : St → Prop} (hP : ∀ s s', Act false s s' → P s → P s') {z s : St} {l : List Step}
    (h : Reach z l s) (h0 : P z) : P s := by
  induction h with
  | refl => exact h0
  | step env x _ hs ih => exact Acts.keep hP (step_acts false hs fun e => nomatch e) ih

theorem Reach.keepTidy {P : St → Prop} (hP : ∀ s s', Act true s s' → P s → P s') {z s : St} {l : List Step}
    (h : Reach z l s) (ht : ∀ x ∈ l, Tidy x) (h0 : P z) : P s := by
  induction h with
  | refl => exact h0
  | step env x _ hs ih =>
    exact Acts.keep hP (step_acts true hs fun _ => ht x List.mem_cons_self)
      (ih fun y hy => ht y (List.mem_cons_of_mem _ hy))

end Verif.Runtime.Units
