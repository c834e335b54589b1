import Verif.Runtime.AssetBooksTheorems

/-!
# Who runs an asset, and how it ends: theorems (C205, C206)
-/

namespace Verif.Runtime.Units

open Verif Verif.Accounts

/-! ## Specification -/

/-- What is said about an asset apart from its counters. Specification only, no code behind it (outside /repo). -/
structure Charter where
  owner : AccountId
  issuer : AccountId
  admin : AccountId
  freezer : AccountId
  min : Nat
  sufficient : Bool
  status : Status
  deriving DecidableEq

/-- The charter of an asset. Specification only, no code behind it (outside /repo). -/
def charter (d : Info) : Charter := ⟨d.owner, d.issuer, d.admin, d.freezer, d.min, d.sufficient, d.status⟩

/-- The ways a charter changes by a call, from `p` to `q`. Specification only, no code behind it (outside /repo). -/
inductive Amended (k : Key) (p : Charter) : Charter → RtOrigin → Call → Prop
  /-- The owner hands a live asset on. -/
  | handedOn (x : AccountId) (hl : p.status = .live) :
      Amended k p { p with owner := x } (.signed p.owner) (.transferOwnership k x)
  /-- The owner of a live asset names issuer, admin and freezer. -/
  | team (i a f : AccountId) (hl : p.status = .live) :
      Amended k p { p with issuer := i, admin := a, freezer := f } (.signed p.owner) (.setTeam k i a f)
  /-- The owner sets the minimum: lower, or while there are no accounts. -/
  | minimum (n : Nat) : Amended k p { p with min := n } (.signed p.owner) (.setMinBalance k n)
  /-- The owner starts to destroy it. -/
  | doomed : Amended k p { p with status := .destroying } (.signed p.owner) (.startDestroy k)
  /-- The freezer freezes it, while it is live. -/
  | frozen (hl : p.status = .live) : Amended k p { p with status := .frozen } (.signed p.freezer) (.freezeAsset k)
  /-- The admin thaws it. -/
  | thawed (hl : p.status = .frozen) : Amended k p { p with status := .live } (.signed p.admin) (.thawAsset k)
  /-- Root starts to destroy it. -/
  | doomedByRoot : Amended k p { p with status := .destroying } .root (.startDestroy k)
  /-- Root writes it anew, but not once it is being destroyed. -/
  | rewritten (o i a f : AccountId) (n : Nat) (b z : Bool) (hl : p.status ≠ .destroying) :
      Amended k p ⟨o, i, a, f, n, b, if z then .frozen else .live⟩ .root (.forceAssetStatus k o i a f n b z)

/-! ## Lemmas -/

/-- Charter and supply of an asset are those of before. Specification only, no code behind it (outside /repo). -/
def Stable (s s' : St) : Prop :=
  ∀ k, (s'.info k).map charter = (s.info k).map charter

theorem Stable.rfl' {s s' : St} (h : s'.info = s.info) : Stable s s' := fun k => by rw [h]

theorem Stable.trans {a b c : St} (h1 : Stable a b) (h2 : Stable b c) : Stable a c := fun k => (h2 k).trans (h1 k)

theorem stable_setInfo {s : St} {k : Key} {d d' : Info} (hi : s.info k = some d) (h : charter d' = charter d) :
    Stable s (s.setInfo k (some d')) := fun q => by
  rw [setInfo_info]
  split
  · rename_i e; subst e; rw [hi]; exact congrArg some h
  · rfl

theorem stable_give (s : St) (k : Key) (who : AccountId) (n : Nat) : Stable s (give s k who n) := by
  unfold give
  split
  · exact .rfl' rfl
  · rename_i d hi ha; exact stable_setInfo (s := s.setAcct k who _) hi rfl
  · exact .rfl' rfl

theorem stable_drop (s : St) (k : Key) (who : AccountId) : Stable s (drop s k who) := by
  unfold drop
  split
  · rename_i d hi; exact stable_setInfo (s := s.setAcct k who none) hi rfl
  · exact .rfl' rfl

theorem stable_take (s : St) (k : Key) (who : AccountId) (n : Nat) : Stable s (take s k who n) := by
  unfold take
  split
  · split
    · exact stable_drop s k who
    · exact .rfl' rfl
  · exact .rfl' rfl

theorem stable_setSupply (s : St) (k : Key) (f : Nat → Nat) : Stable s (s.setSupply k f) := fun q => by
  unfold St.setSupply
  rw [setInfo_info]
  split
  · rename_i e; subst e; cases s.info q <;> rfl
  · rfl

theorem stable_move {env : Env} {s s' : St} {k : Key} {src dst : AccountId} {n : Nat} {keep : Bool}
    (h : move env s k src dst n keep = some s') : Stable s s' := by
  rcases move_facts h with rfl | ⟨d, a, m, _, _, _, _, _, _, _, _, _, _, rfl⟩
  · exact .rfl' rfl
  · exact (stable_give s k dst m).trans (stable_take _ k src m)

theorem stable_mint {env : Env} {s s' : St} {k : Key} {by_ : Option AccountId} {who : AccountId} {n : Nat}
    (h : mint env s k by_ who n = some s') : Stable s s' := by
  rcases mint_facts h with rfl | ⟨d, hi, _, _, _, _, _, rfl⟩
  · exact .rfl' rfl
  · exact (stable_give s k who n).trans (stable_setSupply _ k _)

theorem stable_burn {s s' : St} {k : Key} {by_ : Option AccountId} {who : AccountId} {n : Nat} {best : Bool}
    (h : burn s k by_ who n best = some s') : Stable s s' := by
  rcases burn_facts h with rfl | ⟨d, a, m, hi, ha, hn, hb, hm, rfl⟩
  · exact .rfl' rfl
  · exact (stable_take s k who m).trans (stable_setSupply _ k _)

theorem stable_unapprove {s s' : St} {k : Key} {o g : AccountId} (h : unapprove s k o g = some s') : Stable s s' := by
  obtain ⟨d, p, hi, hp, rfl⟩ := unapprove_facts h
  exact stable_setInfo (s := (s.unreserve o p.deposit).setAppr k o g none) hi rfl

theorem stable_setHand {s s' : St} {k : Key} {who : AccountId} {h : Hand} (e : setHand s k who h = some s') :
    Stable s s' := by
  obtain ⟨a, ha, rfl⟩ := setHand_facts e; exact .rfl' rfl

theorem stable_touch {env : Env} {s s' : St} {k : Key} {who by_ : AccountId} (h : touch env s k who by_ = some s') :
    Stable s s' := by
  obtain ⟨d, hi, ha, _, rfl⟩ := touch_facts h
  exact stable_setInfo (s := (s.reserve by_ _).setAcct k who _) hi rfl

theorem stable_refund {s s' : St} {k : Key} {who : AccountId} {burning : Bool} (h : refund s k who burning = some s') :
    Stable s s' := by
  obtain ⟨d, a, hi, ha, _, _, ⟨_, rfl⟩ | ⟨n, _, rfl⟩⟩ := refund_facts h
  · exact stable_drop _ _ _
  · exact stable_drop (s.unreserve who n) k who

theorem stable_refundOther {s s' : St} {k : Key} {who by_ : AccountId} (h : refundOther s k who by_ = some s') :
    Stable s s' := by
  obtain ⟨d, a, lender, n, hi, ha, _, _, hz, rfl⟩ := refundOther_facts h
  exact stable_drop (s.unreserve lender n) k who

theorem stable_approve {env : Env} {s s' : St} {k : Key} {o g : AccountId} {n : Nat}
    (h : approve env s k o g n = some s') : Stable s s' := by
  obtain ⟨d, hi, _, rfl⟩ := approve_facts h
  exact stable_setInfo (s := (s.reserve o _).setAppr k o g _) hi rfl

theorem stable_destroyAccounts (k : Key) (l : List AccountId) : ∀ s : St, Stable s (l.foldl (destroyAccount k) s) := by
  induction l with
  | nil => intro s; exact .rfl' rfl
  | cons x t ih =>
    intro s
    refine Stable.trans ?_ (ih _)
    rcases destroyAccount_facts k s x with ⟨_, e⟩ | ⟨a, ha, e⟩
    · rw [e]; exact .rfl' rfl
    · rw [e]; exact Stable.trans (.rfl' (payBack_eq s x a.reason).1) (stable_drop _ _ _)

theorem stable_destroyApprovals (k : Key) (l : List (AccountId × AccountId)) : ∀ s : St,
    Stable s (l.foldl (destroyApproval k) s) := by
  induction l with
  | nil => intro s; exact .rfl' rfl
  | cons x t ih =>
    intro s
    refine Stable.trans ?_ (ih _)
    unfold destroyApproval
    cases h : unapprove s k x.1 x.2 with
    | none => exact .rfl' rfl
    | some s' => exact stable_unapprove h

theorem stable_transferApproved {env : Env} {s s' : St} {k : Key} {o g dst : AccountId} {n : Nat}
    (h : transferApproved env s k o g dst n = some s') : Stable s s' := by
  obtain ⟨d, p, s1, hi, hp, _, hn, hm, _, _, hx | hx⟩ := transferApproved_facts h
  · exact (stable_move hm).trans (stable_unapprove hx.2)
  · rw [hx.2]; exact (stable_move hm).trans (.rfl' rfl)

/-! ## Theorems -/

/-- **C206**: who owns, issues, administers and freezes an asset, its minimum, whether it keeps accounts alive, and whether it
is live, frozen or being destroyed, changes by a call only so: the owner hands it on, names the others, lowers the minimum or
starts to destroy it; the freezer freezes it, the admin thaws it; or root does. And what is being destroyed stays so. -/
theorem C206_amended (env : Env) (s s' : St) (o : RtOrigin) (c : Call) (h : call env s o c = some s') (k : Key) (d d' : Info)
    (hd : s.info k = some d) (hd' : s'.info k = some d') (hne : charter d' ≠ charter d) :
    Amended k (charter d) (charter d') o c := by
  have no : Stable s s' → False := fun e => by
    have := e k
    rw [hd, hd'] at this
    exact hne (Option.some.inj this)
  -- writing the details of one asset
  have one : ∀ {q : Key} {d0 d1 : Info} {P : Prop}, s.info q = some d0 → s' = s.setInfo q (some d1) →
      (q = k → d0 = d → d1 = d' → P) → P := by
    intro q d0 d1 P hi e hP
    subst e
    rw [setInfo_info] at hd'
    split at hd'
    · rename_i e
      subst e
      rw [hd] at hi
      exact hP rfl (Option.some.inj hi).symm (Option.some.inj hd')
    · rw [hd] at hd'; exact absurd (by rw [Option.some.inj hd']) hne
  cases o with
  | root =>
    replace h : byRoot s c = some s' := h
    cases c <;> simp only [byRoot] at h
    all_goals first | (cases h; done) | skip
    case forceCreate q x b n =>
      split at h
      · cases h
      · rename_i hc
        rw [not_or, not_not] at hc
        cases h
        rw [setInfo_info] at hd'
        split at hd'
        · rename_i e; subst e; rw [hd] at hc; cases hc.1
        · rw [hd] at hd'; exact absurd (by rw [Option.some.inj hd']) hne
    case startDestroy q =>
      split at h
      · rename_i d0 hi
        refine one hi (Option.some.inj h).symm ?_
        rintro rfl rfl rfl
        exact .doomedByRoot
      · cases h
    case forceAssetStatus q x i a f n b z =>
      split at h
      · rename_i d0 hi
        split at h
        · cases h
        · rename_i hs
          refine one hi (Option.some.inj h).symm ?_
          rintro rfl rfl rfl
          exact .rewritten x i a f n b z hs
      · cases h
    case forceCancelApproval =>
      (repeat' split at h) <;> first | (cases h; done) | exact (no (stable_unapprove h)).elim
  | signed by_ =>
    replace h : bySigner env s by_ c = some s' := h
    cases c <;> simp only [bySigner] at h
    all_goals first | (cases h; done) | skip
    case transferOwnership q x =>
      split at h
      · rename_i d0 hi
        split at h
        · rename_i hc
          refine one hi (Option.some.inj h).symm ?_
          rintro rfl rfl rfl
          rw [hc.2]
          exact .handedOn (p := charter d0) x hc.1
        · cases h
      · cases h
    case setTeam q i a f =>
      split at h
      · rename_i d0 hi
        split at h
        · rename_i hc
          refine one hi (Option.some.inj h).symm ?_
          rintro rfl rfl rfl
          rw [hc.2]
          exact .team (p := charter d0) i a f hc.1
        · cases h
      · cases h
    case setMinBalance q n =>
      split at h
      · rename_i d0 hi
        split at h
        · rename_i hc
          refine one hi (Option.some.inj h).symm ?_
          rintro rfl rfl rfl
          rw [hc.1]
          exact .minimum (p := charter d0) n
        · cases h
      · cases h
    case startDestroy q =>
      split at h
      · rename_i d0 hi
        split at h
        · rename_i hc
          refine one hi (Option.some.inj h).symm ?_
          rintro rfl rfl rfl
          rw [hc]
          exact .doomed (p := charter d0)
        · cases h
      · cases h
    case freezeAsset q =>
      split at h
      · rename_i d0 hi
        split at h
        · rename_i hc
          refine one hi (Option.some.inj h).symm ?_
          rintro rfl rfl rfl
          rw [hc.2]
          exact .frozen (p := charter d0) hc.1
        · cases h
      · cases h
    case thawAsset q =>
      split at h
      · rename_i d0 hi
        split at h
        · rename_i hc
          refine one hi (Option.some.inj h).symm ?_
          rintro rfl rfl rfl
          rw [hc.2]
          exact .thawed (p := charter d0) hc.1
        · cases h
      · cases h
    case finishDestroy q =>
      split at h
      · split at h
        · cases h
          rw [setInfo_info] at hd'
          split at hd'
          · cases hd'
          · rw [hd] at hd'; exact absurd (by rw [Option.some.inj hd']) hne
        · cases h
      · cases h
    case destroyAccounts q l =>
      (repeat' split at h) <;> first | (cases h; done) | (cases h; exact (no (stable_destroyAccounts _ _ _)).elim)
    case destroyApprovals q l =>
      (repeat' split at h) <;> first | (cases h; done) | (cases h; exact (no (stable_destroyApprovals _ _ _)).elim)
    case mint => exact (no (stable_mint h)).elim
    case burn => exact (no (stable_burn h)).elim
    case transfer => exact (no (stable_move h)).elim
    case transferKeepAlive => exact (no (stable_move h)).elim
    case forceTransfer =>
      (repeat' split at h) <;> first | (cases h; done) | exact (no (stable_move h)).elim | (cases h; exact (no (.rfl' rfl)).elim)
    case freeze => (repeat' split at h) <;> first | (cases h; done) | exact (no (stable_setHand h)).elim
    case thaw => (repeat' split at h) <;> first | (cases h; done) | exact (no (stable_setHand h)).elim
    case block => (repeat' split at h) <;> first | (cases h; done) | exact (no (stable_setHand h)).elim
    case approveTransfer => exact (no (stable_approve h)).elim
    case transferApproved => exact (no (stable_transferApproved h)).elim
    case cancelApproval => (repeat' split at h) <;> first | (cases h; done) | exact (no (stable_unapprove h)).elim
    case forceCancelApproval => (repeat' split at h) <;> first | (cases h; done) | exact (no (stable_unapprove h)).elim
    case touch => exact (no (stable_touch h)).elim
    case touchOther => (repeat' split at h) <;> first | (cases h; done) | exact (no (stable_touch h)).elim
    case refund => exact (no (stable_refund h)).elim
    case refundOther => exact (no (stable_refundOther h)).elim
  | none => cases h
  | community _ => cases h
  | custom _ => cases h
  | other _ => cases h

/-- **C206**: an asset comes to be only when root makes it, with no units, and one goes only at the end of its destruction,
with no accounts and no approvals. -/
theorem C206_comes_and_goes (env : Env) (s s' : St) (o : RtOrigin) (c : Call) (h : call env s o c = some s') (k : Key) :
    (s.info k = none → ∀ d, s'.info k = some d → o = .root ∧ d.supply = 0 ∧ d.accounts = 0 ∧
      ∃ b n, 0 < n ∧ c = .forceCreate k d.owner b n) ∧
    (∀ d, s.info k = some d → s'.info k = none → c = .finishDestroy k ∧ d.status = .destroying ∧ d.accounts = 0 ∧
      d.approvals = 0) := by
  have no : ∀ {P Q : Prop}, Stable s s' → (s.info k = none → ∀ d, s'.info k = some d → P) ∧
      (∀ d, s.info k = some d → s'.info k = none → Q) := by
    intro P Q e
    have e := e k
    refine ⟨fun h1 d h2 => ?_, fun d h1 h2 => ?_⟩
    · rw [h1, h2] at e; cases e
    · rw [h1, h2] at e; cases e
  have one : ∀ {q : Key} {d0 d1 : Info} {P Q : Prop}, s.info q = some d0 → s' = s.setInfo q (some d1) →
      (s.info k = none → ∀ d, s'.info k = some d → P) ∧ (∀ d, s.info k = some d → s'.info k = none → Q) := by
    intro q d0 d1 P Q hi e
    subst e
    refine ⟨fun h1 d h2 => ?_, fun d h1 h2 => ?_⟩
    · rw [setInfo_info] at h2
      split at h2
      · rename_i e; subst e; rw [hi] at h1; cases h1
      · rw [h1] at h2; cases h2
    · rw [setInfo_info] at h2
      split at h2
      · cases h2
      · rw [h1] at h2; cases h2
  have still : Stable s s' → (s.info k = none → ∀ d, s'.info k = some d → o = .root ∧ d.supply = 0 ∧ d.accounts = 0 ∧
      ∃ b n, 0 < n ∧ c = .forceCreate k d.owner b n) ∧
    (∀ d, s.info k = some d → s'.info k = none → c = .finishDestroy k ∧ d.status = .destroying ∧ d.accounts = 0 ∧
      d.approvals = 0) := fun e =>
    ⟨fun h1 d h2 => ((no (P := False) (Q := False) e).1 h1 d h2).elim,
      fun d h1 h2 => ((no (P := False) (Q := False) e).2 d h1 h2).elim⟩
  have wrote : ∀ {q : Key} {d0 d1 : Info}, s.info q = some d0 → s' = s.setInfo q (some d1) →
      (s.info k = none → ∀ d, s'.info k = some d → o = .root ∧ d.supply = 0 ∧ d.accounts = 0 ∧
      ∃ b n, 0 < n ∧ c = .forceCreate k d.owner b n) ∧
    (∀ d, s.info k = some d → s'.info k = none → c = .finishDestroy k ∧ d.status = .destroying ∧ d.accounts = 0 ∧
      d.approvals = 0) := fun hi e =>
    ⟨fun h1 d h2 => ((one (P := False) (Q := False) hi e).1 h1 d h2).elim,
      fun d h1 h2 => ((one (P := False) (Q := False) hi e).2 d h1 h2).elim⟩
  cases o with
  | root =>
    replace h : byRoot s c = some s' := h
    cases c <;> simp only [byRoot] at h
    all_goals first | (cases h; done) | skip
    case forceCreate q x b n =>
      split at h
      · cases h
      · rename_i hc
        rw [not_or, not_not] at hc
        cases h
        refine ⟨fun h1 d h2 => ?_, fun d h1 h2 => ?_⟩
        · rw [setInfo_info] at h2
          split at h2
          · rename_i e; subst e; cases h2; exact ⟨rfl, rfl, rfl, b, n, Nat.pos_of_ne_zero hc.2, rfl⟩
          · rw [h1] at h2; cases h2
        · rw [setInfo_info] at h2
          split at h2
          · cases h2
          · rw [h1] at h2; cases h2
    case startDestroy q =>
      split at h
      · rename_i d0 hi; exact wrote hi (Option.some.inj h).symm
      · cases h
    case forceAssetStatus q x i a f n b z =>
      split at h
      · rename_i d0 hi
        split at h
        · cases h
        · exact wrote hi (Option.some.inj h).symm
      · cases h
    case forceCancelApproval =>
      (repeat' split at h) <;> first | (cases h; done) | exact still (stable_unapprove h)
  | signed by_ =>
    replace h : bySigner env s by_ c = some s' := h
    cases c <;> simp only [bySigner] at h
    all_goals first | (cases h; done) | skip
    case finishDestroy q =>
      split at h
      · rename_i d0 hi
        split at h
        · rename_i hc
          cases h
          refine ⟨fun h1 d h2 => ?_, fun d h1 h2 => ?_⟩
          · rw [setInfo_info] at h2
            split at h2
            · cases h2
            · rw [h1] at h2; cases h2
          · rw [setInfo_info] at h2
            split at h2
            · rename_i e
              subst e
              rw [hi] at h1; cases h1
              exact ⟨rfl, hc⟩
            · rw [h1] at h2; cases h2
        · cases h
      · cases h
    case destroyAccounts q l =>
      (repeat' split at h) <;> first | (cases h; done) | (cases h; exact still (stable_destroyAccounts _ _ _))
    case destroyApprovals q l =>
      (repeat' split at h) <;> first | (cases h; done) | (cases h; exact still (stable_destroyApprovals _ _ _))
    case mint => exact still (stable_mint h)
    case burn => exact still (stable_burn h)
    case transfer => exact still (stable_move h)
    case transferKeepAlive => exact still (stable_move h)
    case forceTransfer =>
      (repeat' split at h) <;> first | (cases h; done) | exact still (stable_move h) | (cases h; exact still (.rfl' rfl))
    case freeze => (repeat' split at h) <;> first | (cases h; done) | exact still (stable_setHand h)
    case thaw => (repeat' split at h) <;> first | (cases h; done) | exact still (stable_setHand h)
    case block => (repeat' split at h) <;> first | (cases h; done) | exact still (stable_setHand h)
    case approveTransfer => exact still (stable_approve h)
    case transferApproved => exact still (stable_transferApproved h)
    case cancelApproval => (repeat' split at h) <;> first | (cases h; done) | exact still (stable_unapprove h)
    case forceCancelApproval => (repeat' split at h) <;> first | (cases h; done) | exact still (stable_unapprove h)
    case touch => exact still (stable_touch h)
    case touchOther => (repeat' split at h) <;> first | (cases h; done) | exact still (stable_touch h)
    case refund => exact still (stable_refund h)
    case refundOther => exact still (stable_refundOther h)
    all_goals
      split at h
      · rename_i d0 hi
        split at h
        · exact wrote hi (Option.some.inj h).symm
        · cases h
      · cases h
  | none => cases h
  | community _ => cases h
  | custom _ => cases h
  | other _ => cases h

/-- **C205**: once an asset is being destroyed, whoever wants can bring that to its end, with calls nobody can refuse. -/
theorem C205_ends (env : Env) (l : List Step) (s : St) (h : Reach genesis l s) (k : Key) (d : Info) (who : AccountId)
    (hd : s.info k = some d) (hs : d.status = .destroying) :
    ∃ m s', (∀ x ∈ m, ∃ c, x = Step.call (.signed who) c) ∧ Reach s m s' ∧ s'.info k = none := by
  -- so many calls are still to come
  suffices key : ∀ n l s d, Reach genesis l s → s.info k = some d → d.status = .destroying →
      d.accounts + d.approvals = n → ∃ m s', (∀ x ∈ m, ∃ c, x = Step.call (.signed who) c) ∧ Reach s m s' ∧
        s'.info k = none from key _ l s d h hd hs rfl
  have cons : ∀ {s s1 s' : St} {x : Step} {m : List Step}, step env s x = some s1 → Reach s1 m s' → Reach s (m ++ [x]) s' := by
    intro s s1 s' x m hx hr
    induction hr with
    | refl => exact .step env x .refl hx
    | step e y _ hy ih => exact .step e y ih hy
  intro n
  induction n with
  | zero =>
    intro l s d h hd hs hn
    obtain ⟨s', h1, h2⟩ := C205_finishes env s k d who hd hs (by omega) (by omega)
    exact ⟨[.call (.signed who) (.finishDestroy k)], s', fun x hx => ⟨_, List.mem_singleton.1 hx⟩, .step env _ .refl h1, h2⟩
  | succ n ih =>
    intro l s d h hd hs hn
    have hc := C205_counted l s h k d hd
    by_cases ha : d.accounts = 0
    · have hp : ¬ ∀ o g, s.appr k o g = none := fun e => by have := hc.2.2 e; omega
      obtain ⟨o, hp⟩ := not_forall.1 hp
      obtain ⟨g, hp⟩ := not_forall.1 hp
      obtain ⟨p, hp⟩ := Option.ne_none_iff_exists'.1 hp
      obtain ⟨s1, e1⟩ : ∃ s1, s1 = ((s.unreserve o p.deposit).setAppr k o g none).setInfo k
          (some { d with approvals := d.approvals - 1 }) := ⟨_, rfl⟩
      have hx : step env s (.call (.signed who) (.destroyApprovals k [(o, g)])) = some s1 := by
        show bySigner env s who (.destroyApprovals k [(o, g)]) = some s1
        simp only [bySigner]
        rw [hd]
        dsimp only
        rw [if_pos ⟨hs, by simp⟩, List.foldl_cons, List.foldl_nil]
        unfold destroyApproval unapprove
        dsimp only
        rw [hd, hp, e1]; rfl
      obtain ⟨m, s', g1, g2, g3⟩ := ih (_ :: l) s1 { d with approvals := d.approvals - 1 } (.step env _ h hx)
        (by rw [e1, setInfo_info, if_pos rfl]) hs (by dsimp only; omega)
      refine ⟨m ++ [_], s', fun x hx => ?_, cons hx g2, g3⟩
      rcases List.mem_append.1 hx with hx | hx
      · exact g1 x hx
      · exact ⟨_, List.mem_singleton.1 hx⟩
    · have hp : ¬ ∀ a, s.acct k a = none := fun e => ha (hc.1.2 e)
      obtain ⟨a, hp⟩ := not_forall.1 hp
      obtain ⟨y, hp⟩ := Option.ne_none_iff_exists'.1 hp
      obtain ⟨s1, e1⟩ : ∃ s1, s1 = drop (payBack s a y.reason) k a := ⟨_, rfl⟩
      have hx : step env s (.call (.signed who) (.destroyAccounts k [a])) = some s1 := by
        show bySigner env s who (.destroyAccounts k [a]) = some s1
        simp only [bySigner]
        rw [hd]
        dsimp only
        rw [if_pos ⟨hs, by simp⟩, List.foldl_cons, List.foldl_nil]
        unfold destroyAccount
        rw [hp, e1]
      obtain ⟨m, s', g1, g2, g3⟩ := ih (_ :: l) s1 { d with accounts := d.accounts - 1 } (.step env _ h hx)
        (by rw [e1, drop_info (d := d) (by rw [(payBack_eq s a y.reason).1]; exact hd), if_pos rfl]) hs
        (by dsimp only; omega)
      refine ⟨m ++ [_], s', fun x hx => ?_, cons hx g2, g3⟩
      rcases List.mem_append.1 hx with hx | hx
      · exact g1 x hx
      · exact ⟨_, List.mem_singleton.1 hx⟩

/-- The owner freezes and thaws nothing unless they are also freezer and admin; nobody but the owner hands the asset on. -/
example :
    let l : List Step := [.call .root (.forceCreate 0 Demo.alice false 10),
      .call (.signed Demo.alice) (.setTeam 0 Demo.alice Demo.bob Demo.carol)]
    (Demo.run genesis (l ++ [.call (.signed Demo.carol) (.freezeAsset 0)])).map (fun s => (s.info 0).map (·.status)) =
        some (some .frozen) ∧
      (Demo.run genesis (l ++ [.call (.signed Demo.alice) (.freezeAsset 0)])).isNone = true ∧
      (Demo.run genesis (l ++ [.call (.signed Demo.bob) (.transferOwnership 0 Demo.bob)])).isNone = true ∧
      (Demo.run genesis (l ++ [.call (.signed Demo.alice) (.transferOwnership 0 Demo.bob)])).map
        (fun s => (s.info 0).map (·.owner)) = some (some Demo.bob) := by
  decide +kernel

end Verif.Runtime.Units
