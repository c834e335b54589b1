import Verif.Xcm.ExecutorSteps

/-!
# C105: value in messages, C106: whose accounts a message spends from, C107: messages that stop the chain, C108: trapped
assets
-/

namespace Verif.Xcm

open Verif Verif.Runtime Verif.Accounts

/-! ## Specification -/

/-- A location is another one or lies inside it. -/
def Inside (outer l : Location) : Prop := l.parents = outer.parents ∧ outer.interior <+: l.interior

instance (outer l : Location) : Decidable (Inside outer l) := by unfold Inside; infer_instance

/-- The account belongs to a location or to something inside it. -/
def Owns (outer : Location) (a : AccountId) : Prop := ∃ l, Inside outer l ∧ locationToAccount l = some a

/-- What exists of a currency: all balances and all trapped assets. -/
def Chain.kept (c : Chain) (k : Cur) : Nat := c.ledger.supply k + trapped c.traps k.location

theorem inside_refl (l : Location) : Inside l l := ⟨rfl, List.prefix_refl _⟩

/-! ## What a message can change -/

/-- What stays true while a message of `s` runs, started from `c`. -/
structure Keeps (s : Location) (c : Chain) (m : Mach) : Prop where
  sender : m.sender = s
  origin : ∀ o, m.origin = some o → Inside s o
  received : ∃ new, m.chain.received = c.received ++ new ∧ ∀ e ∈ new, Inside s e.1 ∧ isReserve e.2.1 e.1 = true
  traps : (m.chain.traps.filter fun t => !decide (Inside s t.1)) = c.traps.filter fun t => !decide (Inside s t.1)
  balances : ∀ a, ¬ Owns s a → ∀ k, c.ledger.get k a ≤ m.chain.ledger.get k a

theorem eachAsset_rel {f : Acc → Cur → Nat → Option Acc} (R : Acc → Acc → Prop) (refl : ∀ a, R a a)
    (trans : ∀ a b c, R a b → R b c → R a c) (hf : ∀ a c n a', f a c n = some a' → R a a') (as : List XAsset) :
    ∀ a a', eachAsset f a as = .ok a' → R a a' := by
  induction as with
  | nil => intro a a' h; simp only [eachAsset, Tri.ok.injEq] at h; subst h; exact refl _
  | cons e as ih =>
    intro a a' h
    obtain ⟨l, n⟩ := e
    simp only [eachAsset] at h
    split at h
    · cases h
    · cases h
    · split at h
      · cases h
      · rename_i a1 h1
        exact trans _ _ _ (hf _ _ _ _ h1) (ih _ _ h)

theorem withdraws_get {o : Location} {as : List XAsset} {a a' : Acc} (h : eachAsset (withdrawFrom o) a as = .ok a')
    (b : AccountId) (hb : locationToAccount o ≠ some b) (k : Cur) : a.1.get k b ≤ a'.1.get k b := by
  refine eachAsset_rel (fun x y => x.1.get k b ≤ y.1.get k b) (fun _ => le_rfl) (fun _ _ _ => le_trans) ?_ as a a' h
  intro x c n y hxy
  unfold withdrawFrom at hxy
  split at hxy
  · cases hxy
  · rename_i acct hacct
    cases hw : x.1.withdraw c acct n with
    | none => rw [hw] at hxy; cases hxy
    | some r =>
      rw [hw] at hxy
      cases hxy
      obtain ⟨L, dust⟩ := r
      exact (withdraw_get hw k b (by rintro rfl; exact hb hacct)).ge

theorem deposits_get {o : Location} {as : List XAsset} {a a' : Acc} (h : depositAll o a as = .ok a')
    (b : AccountId) (k : Cur) : a.1.get k b ≤ a'.1.get k b := by
  unfold depositAll at h
  split at h
  · cases h
  refine eachAsset_rel (fun x y => x.1.get k b ≤ y.1.get k b) (fun _ => le_rfl) (fun _ _ _ => le_trans) ?_ as a a' h
  intro x c n y hxy
  unfold depositTo at hxy
  split at hxy
  · cases hxy
  · rename_i acct hacct
    cases hw : x.1.deposit c acct n with
    | none => rw [hw] at hxy; cases hxy
    | some L => rw [hw] at hxy; cases hxy; exact deposit_get hw k b

theorem checkOuts_get {as : List XAsset} {a a' : Acc} (h : eachAsset checkOut a as = .ok a')
    (b : AccountId) (k : Cur) : a.1.get k b ≤ a'.1.get k b := by
  refine eachAsset_rel (fun x y => x.1.get k b ≤ y.1.get k b) (fun _ => le_rfl) (fun _ _ _ => le_trans) ?_ as a a' h
  intro x c n y hxy
  unfold checkOut at hxy
  split at hxy
  · cases hxy; exact le_rfl
  · cases hw : x.1.deposit c checkAccount n with
    | none => rw [hw] at hxy; cases hxy
    | some L => rw [hw] at hxy; cases hxy; exact deposit_get hw k b

theorem transfers_get {luck : Luck} {o d : Location} {as : List XAsset} {a a' : Acc}
    (h : eachAsset (transferTo luck o d) a as = .ok a')
    (b : AccountId) (hb : locationToAccount o ≠ some b) (k : Cur) : a.1.get k b ≤ a'.1.get k b := by
  refine eachAsset_rel (fun x y => x.1.get k b ≤ y.1.get k b) (fun _ => le_rfl) (fun _ _ _ => le_trans) ?_ as a a' h
  intro x c n y hxy
  unfold transferTo at hxy
  split at hxy
  · rename_i s d hs _
    cases hw : x.1.transfer c s d n (luck.dustToDest c) with
    | none => rw [hw] at hxy; cases hxy
    | some r =>
      rw [hw] at hxy
      cases hxy
      obtain ⟨L, dust⟩ := r
      exact transfer_get hw k b (by rintro rfl; exact hb hs)
  · cases hxy

theorem claim_filter {o : Location} {as : List XAsset} {p : Location → Bool} (hp : p o = false) :
    ∀ {ts us : List (Location × Hold)}, claim o as ts = some us → (us.filter fun t => p t.1) = ts.filter fun t => p t.1 := by
  intro ts
  induction ts with
  | nil => intro us h; cases h
  | cons t ts ih =>
    intro us h
    unfold claim at h
    split at h
    · rename_i hc
      cases h
      rw [List.filter_cons, hc.1, hp]
      simp
    · cases hc : claim o as ts with
      | none => rw [hc] at h; cases h
      | some vs =>
        rw [hc] at h
        cases h
        rw [List.filter_cons, List.filter_cons, ih hc]

theorem effect_keeps {s : Location} {c : Chain} {m m' : Mach} {luck : Luck} {i : VInstr} (K : Keeps s c m)
    (h : m.effect luck i = .ok m') : Keeps s c m' := by
  obtain ⟨k1, k2, k3, k4, k5⟩ := K
  have setAcc : ∀ (h2 : Hold) (a : Acc), (∀ b, ¬ Owns s b → ∀ k, m.acc.1.get k b ≤ a.1.get k b) →
      Keeps s c (Mach.setAcc { m with holding := h2 } a) := fun h2 a hg =>
    ⟨k1, k2, k3, k4, fun b hb k => le_trans (k5 b hb k) (hg b hb k)⟩
  have sub : ∀ (x : Mach) (as : List XAsset), Keeps s c x → Keeps s c (x.subsume as) := by
    intro x as K
    obtain ⟨h1, h2, _, _, _, _, h7, h8, h9, _⟩ := subsume_spec as x
    exact ⟨by rw [h1]; exact K.sender, by rw [h2]; exact K.origin, by rw [h9]; exact K.received,
      by rw [h8]; exact K.traps, by rw [h7]; exact K.balances⟩
  have notOwn : ∀ o, m.origin = some o → ∀ b, ¬ Owns s b → locationToAccount o ≠ some b :=
    fun o ho b hb h => hb ⟨o, k2 o ho, h⟩
  cases i with
  | withdrawAsset as =>
    simp only [Mach.effect] at h
    split at h
    · cases h
    · rename_i o ho
      split at h
      · rename_i a ha
        cases h
        exact sub _ _ (setAcc m.holding a fun b hb k => withdraws_get ha b (notOwn o ho b hb) k)
      · cases h
      · cases h
  | reserveAssetDeposited as =>
    simp only [Mach.effect] at h
    split at h
    · cases h
    · rename_i o ho
      split at h
      · rename_i hr
        cases h
        refine sub _ _ ⟨k1, k2, ?_, k4, k5⟩
        obtain ⟨new, e1, e2⟩ := k3
        refine ⟨new ++ as.map fun e => (o, e), by dsimp only; rw [e1, List.append_assoc], ?_⟩
        intro e he
        rcases List.mem_append.mp he with he | he
        · exact e2 e he
        · obtain ⟨x, hx, rfl⟩ := List.mem_map.mp he
          exact ⟨k2 o ho, List.all_eq_true.mp hr x hx⟩
      · cases h
  | receiveTeleportedAsset as =>
    simp only [Mach.effect] at h
    split at h
    · cases h; exact ⟨k1, k2, k3, k4, k5⟩
    · cases h
  | transferAsset as d =>
    simp only [Mach.effect] at h
    split at h
    · cases h
    · rename_i o ho
      split at h
      · rename_i a ha
        cases h
        exact setAcc m.holding a fun b hb k => transfers_get ha b (notOwn o ho b hb) k
      · cases h
      · cases h
  | transferReserveAsset as d =>
    simp only [Mach.effect] at h
    split at h
    · cases h
    · rename_i o ho
      split at h
      · rename_i a ha
        cases h
        exact setAcc m.holding a fun b hb k => transfers_get ha b (notOwn o ho b hb) k
      · cases h
      · cases h
  | transact kind w =>
    simp only [Mach.effect] at h
    split at h
    · cases h
    · split at h
      · cases h; exact ⟨k1, k2, k3, k4, k5⟩
      · cases h
  | clearOrigin => cases h; exact ⟨k1, by simp, k3, k4, k5⟩
  | descendOrigin who =>
    simp only [Mach.effect] at h
    split at h
    · cases h
    · rename_i o ho
      split at h
      · cases h
      · rename_i o' ho'
        cases h
        refine ⟨k1, ?_, k3, k4, k5⟩
        intro x hx
        dsimp only at hx
        cases hx
        obtain ⟨i1, i2⟩ := k2 o ho
        unfold Location.append at ho'
        split at ho'
        · cases ho'
          exact ⟨i1, i2.trans (List.prefix_append _ _)⟩
        · cases ho'
  | depositAsset f d =>
    simp only [Mach.effect] at h
    split at h
    · rename_i a ha
      cases h
      exact setAcc _ a fun b _ k => deposits_get ha b k
    · cases h
    · cases h
  | depositReserveAsset f d =>
    simp only [Mach.effect] at h
    split at h
    · rename_i a ha
      cases h
      exact setAcc _ a fun b _ k => deposits_get ha b k
    · cases h
    · cases h
  | initiateReserveWithdraw f d =>
    simp only [Mach.effect, Tri.ok.injEq] at h
    subst h
    exact sub _ _ ⟨k1, k2, k3, k4, k5⟩
  | initiateTeleport f d =>
    simp only [Mach.effect] at h
    split at h
    · rename_i a ha
      cases h
      exact setAcc _ a fun b _ k => checkOuts_get ha b k
    · cases h
    · cases h
  | buyExecution fees limit =>
    simp only [Mach.effect] at h
    split at h
    · cases h; exact ⟨k1, k2, k3, k4, k5⟩
    · split at h
      · cases h
      · split at h
        · cases h; exact ⟨k1, k2, k3, k4, k5⟩
        · cases h
  | refundSurplus =>
    simp only [Mach.effect, Tri.ok.injEq] at h
    subst h
    exact sub _ _ ⟨k1, k2, k3, k4, k5⟩
  | setErrorHandler xcm => cases h; exact ⟨k1, k2, k3, k4, k5⟩
  | setAppendix xcm => cases h; exact ⟨k1, k2, k3, k4, k5⟩
  | claimAsset as =>
    simp only [Mach.effect] at h
    split at h
    · cases h
    · rename_i o ho
      split at h
      · cases h
      · rename_i ts hts
        cases h
        refine sub _ _ ⟨k1, k2, k3, ?_, k5⟩
        dsimp only
        rw [claim_filter (p := fun l => !decide (Inside s l)) (by simp [k2 o ho]) hts]
        exact k4
  | burnAsset as =>
    simp only [Mach.effect, Tri.ok.injEq] at h
    subst h
    exact ⟨k1, k2, k3, k4, k5⟩
  | plain i => cases h; exact ⟨k1, k2, k3, k4, k5⟩

theorem payTreasury_get (as : List XAsset) : ∀ (a : Acc) (b : AccountId) (k : Cur), a.1.get k b ≤ (payTreasury as a).1.get k b := by
  induction as with
  | nil => intro a b k; exact le_rfl
  | cons e as ih =>
    intro a b k
    obtain ⟨l, n⟩ := e
    unfold payTreasury
    split
    · split
      · rename_i L hL
        exact le_trans (deposit_get hL k b) (ih (L, a.2) b k)
      · exact ih (a.1, put a.2 l n) b k
    · exact ih (a.1, put a.2 l n) b k

/-- What a whole message can change. -/
structure Changed (s : Location) (c c' : Chain) : Prop where
  received : ∃ new, c'.received = c.received ++ new ∧ ∀ e ∈ new, Inside s e.1 ∧ isReserve e.2.1 e.1 = true
  traps : (c'.traps.filter fun t => !decide (Inside s t.1)) = c.traps.filter fun t => !decide (Inside s t.1)
  balances : ∀ a, ¬ Owns s a → ∀ k, c.ledger.get k a ≤ c'.ledger.get k a

theorem execute_changed {c c' : Chain} {s : Location} {msg : List VInstr} {lucks : List Luck} {w : Refund}
    (h : execute c s msg lucks w = some c') : Changed s c c' := by
  unfold execute at h
  cases hr : (Mach.start c s msg).run lucks with
  | none => rw [hr] at h; cases h
  | some m =>
    rw [hr] at h
    cases h
    have K : Keeps s c m := run_invariant (Keeps s c) (fun x _ _ _ K => ⟨K.1, K.2, K.3, K.4, K.5⟩)
      (fun _ _ _ _ K h => effect_keeps K h) lucks _ _
      ⟨rfl, fun o ho => by cases ho; exact inside_refl _, ⟨[], by simp [Mach.start], by simp⟩, rfl, fun _ _ _ => le_rfl⟩ hr
    have K1 : Keeps s c (m.refund w) := by
      obtain ⟨h1, h2, _, _, _, _, h7, h8, h9, _⟩ := refund_spec m w
      exact ⟨by rw [h1]; exact K.sender, by rw [h2]; exact K.origin, by rw [h9]; exact K.received,
        by rw [h8]; exact K.traps, by rw [h7]; exact K.balances⟩
    unfold Mach.finish
    dsimp only
    revert K1
    generalize m.refund w = m1
    intro K1
    have hb : ∀ a, ¬ Owns s a → ∀ k, c.ledger.get k a ≤ (payTreasury (contents m1.paid) m1.acc).1.get k a :=
      fun a ha k => le_trans (K1.balances a ha k) (payTreasury_get _ m1.acc a k)
    split
    · exact ⟨K1.received, K1.traps, hb⟩
    · refine ⟨K1.received, ?_, hb⟩
      dsimp only
      have hin : Inside s (m1.origin.getD m1.sender) := by
        cases ho : m1.origin with
        | none => rw [Option.getD_none, K1.sender]; exact inside_refl _
        | some o => exact K1.origin o ho
      rw [List.filter_append, K1.traps]
      simp [hin]

/-! ## C105 -/

theorem deliver_value : ∀ (ds : List Delivery) {c c' : Chain}, AOk c.ledger.bal → deliverAll c ds = some c' → ∀ k,
    AOk c'.ledger.bal ∧
    chainValue c' k + inflow c k.location = chainValue c k + inflow c' k.location := by
  intro ds
  induction ds with
  | nil => intro c c' ok h k; cases h; exact ⟨ok, rfl⟩
  | cons d ds ih =>
    intro c c' ok h k
    unfold deliverAll at h
    split at h
    · cases h
    · rename_i c1 h1
      obtain ⟨ok1, v1⟩ := execute_value ok h1 k
      obtain ⟨ok2, v2⟩ := ih ok1 h k
      exact ⟨ok2, by omega⟩

/-- C105: over any messages, failing anywhere, what exists of a currency and what was destroyed or sent away is what was there
before, what was accepted as deposited on a reserve, and what traders gave back without having been paid it. Nothing else
creates assets and nothing gets lost. -/
theorem C105_conservation (c c' : Chain) (ds : List Delivery) (ok : AOk c.ledger.bal) (h : deliverAll c ds = some c')
    (k : Cur) :
    c'.kept k + amt c'.gone k.location + receivedOf c.received k.location + amt c.minted k.location =
      c.kept k + amt c.gone k.location + receivedOf c'.received k.location + amt c'.minted k.location := by
  have := (deliver_value ds ok h k).2
  unfold chainValue inflow at this
  unfold Chain.kept
  omega

/-- The traders give back no more than they were paid. -/
def Delivery.fair (d : Delivery) : Prop := d.refund.bonus = 0 ∧ ∀ x ∈ d.lucks, x.refund.bonus = 0

theorem run_minted {l : Location} : ∀ (lucks : List Luck) (m m' : Mach), (l ≠ ⟨1, []⟩ ∨ ∀ x ∈ lucks, x.refund.bonus = 0) →
    m.run lucks = some m' → amt m'.chain.minted l = amt m.chain.minted l := by
  intro lucks
  induction lucks with
  | nil => intro m m' _ h; cases h; rfl
  | cons x xs ih =>
    intro m m' hb h
    unfold Mach.run at h
    split at h
    · cases h
    · rename_i m1 h1
      rw [ih m1 m' (hb.imp id fun hx y hy => hx y (List.mem_cons_of_mem _ hy)) h]
      unfold Mach.step at h1
      split at h1
      · cases h1; rfl
      · rename_i i rest hc
        split at h1
        · cases h1; rw [(mfailed_spec m).2.2.2.2]
        · split at h1
          · rename_i m2 h2
            cases h1
            by_cases hi : i = .refundSurplus
            · subst hi
              simp only [Mach.effect, Tri.ok.injEq] at h2
              subst h2
              rw [(refund_spec _ _).2.2.2.2.2.2.2.2.2, amt_put]
              dsimp only
              rcases hb with hl | hx
              · rw [if_neg fun e => hl e.symm]; rfl
              · rw [hx x List.mem_cons_self]; simp
            · rw [effect_minted hi h2]
          · cases h1; rw [(mfailed_spec m).2.2.2.2]
          · cases h1

theorem deliver_minted {l : Location} : ∀ (ds : List Delivery) (c c' : Chain),
    (l ≠ ⟨1, []⟩ ∨ ∀ d ∈ ds, d.fair) → deliverAll c ds = some c' → amt c'.minted l = amt c.minted l := by
  intro ds
  induction ds with
  | nil => intro c c' _ h; cases h; rfl
  | cons d ds ih =>
    intro c c' hb h
    unfold deliverAll at h
    split at h
    · cases h
    · rename_i c1 h1
      rw [ih c1 c' (hb.imp id fun hx y hy => hx y (List.mem_cons_of_mem _ hy)) h]
      unfold execute at h1
      obtain ⟨m, hm, e⟩ := Option.map_eq_some_iff.mp h1
      have hr := run_minted (l := l) d.lucks _ m (hb.imp id fun hx => (hx d List.mem_cons_self).2) hm
      have hf : (m.finish d.refund).minted = (m.refund d.refund).chain.minted := by
        unfold Mach.finish; dsimp only; split <;> rfl
      rw [← e, hf, (refund_spec _ _).2.2.2.2.2.2.2.2.2, amt_put, hr]
      rcases hb with hl | hx
      · rw [if_neg fun e => hl e.symm]; rfl
      · rw [(hx d List.mem_cons_self).1]; simp [Mach.start]

/-- C105: only of the relay chain's token do traders give back what they were not paid. -/
theorem C105_only_native_minted (c c' : Chain) (ds : List Delivery) (h : deliverAll c ds = some c') (l : Location)
    (hl : l ≠ ⟨1, []⟩) : amt c'.minted l = amt c.minted l := deliver_minted ds c c' (Or.inl hl) h

/-- C105: and only from an origin inside the sender that is trusted as a reserve of the asset. -/
theorem C105_who_creates (c c' : Chain) (ds : List Delivery) (h : deliverAll c ds = some c') :
    ∃ new, c'.received = c.received ++ new ∧
      ∀ e ∈ new, (∃ d ∈ ds, Inside d.sender e.1) ∧ isReserve e.2.1 e.1 = true := by
  induction ds generalizing c with
  | nil => cases h; exact ⟨[], by simp, by simp⟩
  | cons d ds ih =>
    unfold deliverAll at h
    split at h
    · cases h
    · rename_i c1 h1
      obtain ⟨n1, e1, p1⟩ := (execute_changed h1).received
      obtain ⟨n2, e2, p2⟩ := ih c1 h
      refine ⟨n1 ++ n2, by rw [e2, e1, List.append_assoc], ?_⟩
      intro e he
      rcases List.mem_append.mp he with he | he
      · exact ⟨⟨d, List.mem_cons_self, (p1 e he).1⟩, (p1 e he).2⟩
      · obtain ⟨⟨x, hx, hi⟩, hr⟩ := p2 e he
        exact ⟨⟨x, List.mem_cons_of_mem _ hx, hi⟩, hr⟩

theorem gone_mono {m m' : Mach} {luck : Luck} {i : VInstr} (h : m.effect luck i = .ok m') (l : Location) :
    amt m.chain.gone l ≤ amt m'.chain.gone l := by
  have sub : ∀ (as : List XAsset) (x : Mach), amt x.chain.gone l ≤ amt (x.subsume as).chain.gone l := by
    intro as
    induction as with
    | nil => intro x; exact le_rfl
    | cons e as ih =>
      intro x
      obtain ⟨k, n⟩ := e
      unfold Mach.subsume
      refine le_trans ?_ (ih _)
      dsimp only
      rw [amt_put]
      omega
  have puts : ∀ (as : List XAsset) (g : Hold), amt g l ≤ amt (putAll g as) l := by
    intro as g; rw [amt_putAll]; omega
  have each : ∀ (f : Acc → Cur → Nat → Option Acc), (∀ a c n a', f a c n = some a' → amt a.2 l ≤ amt a'.2 l) →
      ∀ as a a', eachAsset f a as = .ok a' → amt a.2 l ≤ amt a'.2 l := fun f hf as a a' h =>
    eachAsset_rel (fun x y => amt x.2 l ≤ amt y.2 l) (fun _ => le_rfl) (fun _ _ _ => le_trans) hf as a a' h
  have fw : ∀ o a c n a', withdrawFrom o a c n = some a' → amt a.2 l ≤ amt a'.2 l := by
    intro o a c n a' h
    unfold withdrawFrom at h
    split at h
    · cases h
    · rename_i acct _
      cases hw : a.1.withdraw c acct n with
      | none => rw [hw] at h; cases h
      | some r => rw [hw] at h; cases h; dsimp only; rw [amt_put]; omega
  have ft : ∀ o d a c n a', transferTo luck o d a c n = some a' → amt a.2 l ≤ amt a'.2 l := by
    intro o d a c n a' h
    unfold transferTo at h
    split at h
    · rename_i s d _ _
      cases hw : a.1.transfer c s d n (luck.dustToDest c) with
      | none => rw [hw] at h; cases h
      | some r => rw [hw] at h; cases h; dsimp only; rw [amt_put]; omega
    · cases h
  have fd : ∀ o a c n a', depositTo o a c n = some a' → amt a.2 l ≤ amt a'.2 l := by
    intro o a c n a' h
    unfold depositTo at h
    split at h
    · cases h
    · rename_i acct _
      cases hw : a.1.deposit c acct n with
      | none => rw [hw] at h; cases h
      | some r => rw [hw] at h; cases h; exact le_rfl
  have fc : ∀ a c n a', checkOut a c n = some a' → amt a.2 l ≤ amt a'.2 l := by
    intro a c n a' h
    unfold checkOut at h
    split at h
    · cases h; dsimp only; rw [amt_put]; omega
    · cases hw : a.1.deposit c checkAccount n with
      | none => rw [hw] at h; cases h
      | some r => rw [hw] at h; cases h; exact le_rfl
  have da : ∀ o as a a', depositAll o a as = .ok a' → amt a.2 l ≤ amt a'.2 l := by
    intro o as a a' h
    unfold depositAll at h
    split at h
    · cases h
    · exact each _ (fd o) as a a' h
  cases i <;> simp only [Mach.effect] at h
  case withdrawAsset as =>
    split at h
    · cases h
    · split at h
      · rename_i a ha
        cases h
        exact le_trans (each _ (fw _) as m.acc a ha) (sub as (m.setAcc a))
      · cases h
      · cases h
  case reserveAssetDeposited as =>
    split at h
    · cases h
    · split at h
      · cases h
        refine le_trans ?_ (sub as _)
        exact le_rfl
      · cases h
  case receiveTeleportedAsset as =>
    split at h
    · cases h; exact le_rfl
    · cases h
  case transferAsset as d =>
    split at h
    · cases h
    · split at h
      · rename_i a ha
        cases h
        exact each _ (ft _ _) as m.acc a ha
      · cases h
      · cases h
  case transferReserveAsset as d =>
    split at h
    · cases h
    · split at h
      · rename_i a ha
        cases h
        exact each _ (ft _ _) as m.acc a ha
      · cases h
      · cases h
  case transact =>
    split at h
    · cases h
    · split at h
      · cases h; exact le_rfl
      · cases h
  case clearOrigin => cases h; exact le_rfl
  case descendOrigin =>
    split at h
    · cases h
    · split at h
      · cases h
      · cases h; exact le_rfl
  case depositAsset f d =>
    split at h
    · rename_i a ha
      cases h
      exact da _ _ m.acc a ha
    · cases h
    · cases h
  case depositReserveAsset f d =>
    split at h
    · rename_i a ha
      cases h
      exact da _ _ m.acc a ha
    · cases h
    · cases h
  case initiateReserveWithdraw f d =>
    cases h
    refine le_trans ?_ (sub _ _)
    exact puts _ _
  case initiateTeleport f d =>
    split at h
    · rename_i a ha
      cases h
      exact each _ fc _ m.acc a ha
    · cases h
    · cases h
  case buyExecution fees limit =>
    split at h
    · cases h; exact le_rfl
    · split at h
      · cases h
      · split at h
        · cases h; exact le_rfl
        · cases h
  case refundSurplus =>
    cases h
    unfold Mach.refund
    refine le_trans ?_ (sub _ _)
    exact le_rfl
  case setErrorHandler => cases h; exact le_rfl
  case setAppendix => cases h; exact le_rfl
  case claimAsset as =>
    split at h
    · cases h
    · split at h
      · cases h
      · cases h
        refine le_trans ?_ (sub as _)
        exact le_rfl
  case burnAsset as => cases h; exact puts _ _
  case plain => cases h; exact le_rfl

theorem execute_gone {c c' : Chain} {s : Location} {msg : List VInstr} {lucks : List Luck} {w : Refund}
    (h : execute c s msg lucks w = some c') (l : Location) : amt c.gone l ≤ amt c'.gone l := by
  unfold execute at h
  cases hr : (Mach.start c s msg).run lucks with
  | none => rw [hr] at h; cases h
  | some m =>
    rw [hr] at h
    cases h
    have h1 : amt c.gone l ≤ amt m.chain.gone l := run_invariant (fun x => amt c.gone l ≤ amt x.chain.gone l)
      (fun x _ _ _ h => h) (fun _ _ _ _ h h' => le_trans h (gone_mono h' l)) lucks _ _ le_rfl hr
    have h2 : amt m.chain.gone l ≤ amt (m.refund w).chain.gone l :=
      gone_mono (luck := ⟨false, fun _ => false, fun _ => false, 0, w, fun _ => false⟩) (i := .refundSurplus) rfl l
    have h3 : ∀ (as : List XAsset) (a : Acc), amt a.2 l ≤ amt (payTreasury as a).2 l := by
      intro as
      induction as with
      | nil => intro a; exact le_rfl
      | cons e as ih =>
        intro a
        obtain ⟨k, n⟩ := e
        have : amt a.2 l ≤ amt (put a.2 k n) l := by rw [amt_put]; omega
        unfold payTreasury
        split
        · split
          · rename_i L _
            exact ih (L, a.2)
          · exact le_trans this (ih (a.1, put a.2 k n))
        · exact le_trans this (ih (a.1, put a.2 k n))
    unfold Mach.finish
    dsimp only
    have h4 := h3 (contents (m.refund w).paid) (m.refund w).acc
    split <;> exact le_trans h1 (le_trans h2 h4)

theorem no_creation {c c' : Chain} {ds : List Delivery} (ok : AOk c.ledger.bal)
    (h : deliverAll c ds = some c') {k : Cur} (hb : amt c'.minted k.location = amt c.minted k.location)
    (hr : ∀ d ∈ ds, ∀ o, Inside d.sender o → isReserve k.location o = false) : c'.kept k ≤ c.kept k := by
  have h1 := C105_conservation c c' ds ok h k
  rw [hb] at h1
  obtain ⟨new, e, p⟩ := C105_who_creates c c' ds h
  have h2 : receivedOf new k.location = 0 := by
    clear e h1
    induction new with
    | nil => rfl
    | cons x xs ih =>
      simp only [receivedOf]
      rw [ih fun e he => p e (List.mem_cons_of_mem _ he)]
      obtain ⟨⟨d, hd, hi⟩, hx⟩ := p x List.mem_cons_self
      rw [if_neg]
      intro hl
      rw [hl] at hx
      rw [hr d hd _ hi] at hx
      cases hx
  rw [e, receivedOf_append, h2] at h1
  have h3 : amt c.gone k.location ≤ amt c'.gone k.location := by
    clear e p h1 h2 hr ok hb
    induction ds generalizing c with
    | nil => cases h; exact le_rfl
    | cons d ds ih =>
      unfold deliverAll at h
      split at h
      · cases h
      · rename_i c1 h1
        exact le_trans (execute_gone h1 _) (ih h)
  omega

/-- C105 (partial: assets for which no sender is trusted as a reserve, and not the relay chain's token unless the traders
are fair): of such a currency there is never more than before. -/
theorem C105_no_creation_partial (c c' : Chain) (ds : List Delivery) (ok : AOk c.ledger.bal)
    (h : deliverAll c ds = some c') (k : Cur) (hb : k.location ≠ ⟨1, []⟩ ∨ ∀ d ∈ ds, d.fair)
    (hr : ∀ d ∈ ds, ∀ o, Inside d.sender o → isReserve k.location o = false) : c'.kept k ≤ c.kept k :=
  no_creation ok h (deliver_minted ds c c' hb h) hr

theorem no_native {c c' : Chain} {ds : List Delivery} (ok : AOk c.ledger.bal) (h : deliverAll c ds = some c')
    (hb : amt c'.minted ⟨1, []⟩ = amt c.minted ⟨1, []⟩) (hs : ∀ d ∈ ds, d.sender ≠ ⟨1, []⟩) :
    c'.kept .native ≤ c.kept .native := by
  refine no_creation ok h hb ?_
  intro d hd o ho
  rw [Bool.eq_false_iff]
  intro hr
  rcases (C70_accepted_iff _ _).mp hr with h | ⟨_, h⟩ | ⟨_, h, _⟩
  · apply hs d hd
    obtain ⟨h1, h2⟩ := ho
    rw [← h] at h1 h2
    dsimp only [Cur.location] at h1 h2
    rw [List.prefix_nil] at h2
    cases hd : d.sender with
    | mk p i => rw [hd] at h1 h2; dsimp only at h1 h2; rw [← h1, h2]
  · simp [Cur.location] at h
  · simp [Cur.location] at h

/-- C105 (partial: as long as the traders are fair): the native token in particular can only be created by the relay chain
itself. -/
theorem C105_native_partial (c c' : Chain) (ds : List Delivery) (ok : AOk c.ledger.bal) (h : deliverAll c ds = some c')
    (hb : ∀ d ∈ ds, d.fair) (hs : ∀ d ∈ ds, d.sender ≠ ⟨1, []⟩) : c'.kept .native ≤ c.kept .native :=
  no_native ok h (deliver_minted ds c c' (Or.inr hb) h) hs

/-- C105: assets issued on Kreivo itself are never created by another chain. -/
theorem C105_local_assets (c c' : Chain) (ds : List Delivery) (ok : AOk c.ledger.bal) (h : deliverAll c ds = some c')
    (i : UInt32) (hs : ∀ d ∈ ds, d.sender.parents ≠ 0) : c'.kept (.asset (.here i)) ≤ c.kept (.asset (.here i)) := by
  refine C105_no_creation_partial c c' ds ok h _ (Or.inl (by simp [Cur.location, convertBack])) ?_
  intro d hd o ho
  rw [Bool.eq_false_iff]
  intro hr
  rcases (C70_accepted_iff _ _).mp hr with h | ⟨h, _⟩ | ⟨_, h, _⟩
  · apply hs d hd
    rw [← ho.1, ← h]
    rfl
  · simp [Cur.location, convertBack] at h
  · simp [Cur.location, convertBack] at h

/-! The counterexample: parachain 2000 mints Asset Hub's asset 1984 (Tether) for itself. -/

/-- Tether on Asset Hub. -/
def tether : Location := ⟨1, [.parachain 1000, .palletInstance 50, .generalIndex 1984]⟩
/-- The same as a currency of Kreivo. -/
def tetherCur : Cur := .asset (.sibling ⟨1000, 50, 1984⟩)
/-- A chain where Tether exists and nobody owns anything. -/
def emptyChain : Chain := ⟨⟨[], fun _ => some 1⟩, [], [], [], []⟩
/-- A million Tether out of nothing. -/
def mintingMessage : List VInstr :=
  [.reserveAssetDeposited [(tether, 1000000)], .buyExecution (tether, 1000000) .unlimited,
   .depositAsset .all ⟨1, [.parachain 2000]⟩]
/-- The same after the barrier has set the limit to the weight of the message. -/
def mintingRuns : List VInstr :=
  [.reserveAssetDeposited [(tether, 1000000)], .buyExecution (tether, 1000000) (.limited ⟨1004004000, 0⟩),
   .depositAsset .all ⟨1, [.parachain 2000]⟩]
/-- Nothing fails, the trader charges a hundred. -/
def fineLuck : Luck := ⟨false, fun _ => false, fun _ => true, 100, ⟨[], 0⟩, fun _ => true⟩

/-- C105 is false of the code: parachain 2000, which has nothing to do with Tether, sends a message that passes the barrier,
and afterwards a million Tether exist and nearly all of them are its own. -/
theorem C105_sibling_mints_fails (self : UInt32) :
    admit (fun _ => false) self ⟨1, [.parachain 2000]⟩ (mintingMessage.map VInstr.shape) ⟨0, 0⟩ =
        some (mintingRuns.map VInstr.shape) ∧
      ∃ c', execute emptyChain ⟨1, [.parachain 2000]⟩ mintingRuns [fineLuck, fineLuck, fineLuck] ⟨[], 0⟩ = some c' ∧
        emptyChain.ledger.supply tetherCur = 0 ∧ c'.ledger.supply tetherCur = 1000000 ∧
        c'.ledger.get tetherCur (siblingAccount 2000) = 999900 := by
  constructor
  · have hw : messageWeight (mintingMessage.map VInstr.shape) = some ⟨1004004000, 0⟩ := by
      simp only [mintingMessage, List.map_cons, List.map_nil, VInstr.shape, VFilter.shape, messageWeight, weighFrom_eq,
        weighAll, weighOne]
      decide +kernel
    have h0 : Weight.covers ⟨0, 0⟩ ⟨1004004000, 0⟩ = false := by decide +kernel
    unfold admit
    rw [hw]
    simp only [barrier, h0, mintingMessage, mintingRuns, List.map_cons, List.map_nil, VInstr.shape, VFilter.shape]
    rfl
  · have hx : (execute emptyChain ⟨1, [.parachain 2000]⟩ mintingRuns [fineLuck, fineLuck, fineLuck] ⟨[], 0⟩).any
        (fun c' => decide (emptyChain.ledger.supply tetherCur = 0 ∧ c'.ledger.supply tetherCur = 1000000 ∧
          c'.ledger.get tetherCur (siblingAccount 2000) = 999900)) = true := by decide +kernel
    obtain ⟨c', h1, h2⟩ := (Option.any_eq_true _ _).mp hx
    exact ⟨c', h1, of_decide_eq_true h2⟩

end Verif.Xcm
