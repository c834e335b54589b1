import Verif.Xcm.ExecutorLemmas
import Verif.Xcm.BarrierTheorems
import Verif.Xcm.ReservesTheorems

/-! # What each step of the executor preserves -/

namespace Verif.Xcm

open Verif Verif.Runtime Verif.Accounts

/-! ## Value -/

/-- Amount of an asset in all traps. -/
def trapped : List (Location × Hold) → Location → Nat
  | [], _ => 0
  | t :: ts, l => amt t.2 l + trapped ts l

/-- Amount of an asset accepted as deposited on a reserve. -/
def receivedOf : List (Location × XAsset) → Location → Nat
  | [], _ => 0
  | e :: es, l => (if e.2.1 = l then e.2.2 else 0) + receivedOf es l

theorem trapped_append (ts us : List (Location × Hold)) (l : Location) :
    trapped (ts ++ us) l = trapped ts l + trapped us l := by
  induction ts with
  | nil => simp [trapped]
  | cons t ts ih => simp only [List.cons_append, trapped, ih]; omega

theorem receivedOf_append (es fs : List (Location × XAsset)) (l : Location) :
    receivedOf (es ++ fs) l = receivedOf es l + receivedOf fs l := by
  induction es with
  | nil => simp [receivedOf]
  | cons e es ih => simp only [List.cons_append, receivedOf, ih]; omega

theorem receivedOf_map (o : Location) (as : List XAsset) (l : Location) :
    receivedOf (as.map fun e => (o, e)) l = sumAt as l := by
  induction as with
  | nil => rfl
  | cons a as ih => obtain ⟨m, n⟩ := a; simp only [List.map_cons, receivedOf, sumAt, ih]

/-- Balances and destroyed amounts. -/
def accValue (a : Acc) (k : Cur) : Nat := a.1.supply k + amt a.2 k.location

/-- Everything of a currency on the chain, in traps, destroyed and sent away. -/
def chainValue (c : Chain) (k : Cur) : Nat :=
  c.ledger.supply k + trapped c.traps k.location + amt c.gone k.location

/-- The same with the registers of a message under way. -/
def machValue (m : Mach) (k : Cur) : Nat :=
  chainValue m.chain k + amt m.holding k.location + amt m.paid k.location

theorem loc_ite (c k : Cur) (n : Nat) : (if c.location = k.location then n else 0) = if c = k then n else 0 := by
  by_cases h : c = k
  · subst h; simp
  · rw [if_neg h, if_neg fun hl => h (location_inj hl)]

theorem withdrawFrom_value {o : Location} {a a' : Acc} (ok : AOk a.1.bal) {c : Cur} {n : Nat}
    (h : withdrawFrom o a c n = some a') (k : Cur) :
    AOk a'.1.bal ∧ accValue a' k + (if c = k then n else 0) = accValue a k := by
  unfold withdrawFrom at h
  split at h
  · cases h
  · rename_i acct _
    cases hw : a.1.withdraw c acct n with
    | none => rw [hw] at h; cases h
    | some r =>
      rw [hw] at h
      cases h
      obtain ⟨L', dust⟩ := r
      obtain ⟨ok', s⟩ := withdraw_supply ok hw k
      refine ⟨ok', ?_⟩
      unfold accValue
      dsimp only
      rw [amt_put, loc_ite]
      split <;> simp_all <;> omega

theorem depositTo_value {o : Location} {a a' : Acc} (ok : AOk a.1.bal) {c : Cur} {n : Nat}
    (h : depositTo o a c n = some a') (k : Cur) :
    AOk a'.1.bal ∧ accValue a' k = accValue a k + if c = k then n else 0 := by
  unfold depositTo at h
  split at h
  · cases h
  · rename_i acct _
    cases hw : a.1.deposit c acct n with
    | none => rw [hw] at h; cases h
    | some L' =>
      rw [hw] at h
      cases h
      obtain ⟨ok', s⟩ := deposit_supply ok hw k
      refine ⟨ok', ?_⟩
      unfold accValue
      dsimp only
      omega

theorem transferTo_value {luck : Luck} {o d : Location} {a a' : Acc} (ok : AOk a.1.bal) {c : Cur} {n : Nat}
    (h : transferTo luck o d a c n = some a') (k : Cur) :
    AOk a'.1.bal ∧ accValue a' k = accValue a k := by
  unfold transferTo at h
  split at h
  · rename_i s d _ _
    cases hw : a.1.transfer c s d n (luck.dustToDest c) with
    | none => rw [hw] at h; cases h
    | some r =>
      rw [hw] at h
      cases h
      obtain ⟨L', dust⟩ := r
      obtain ⟨ok', s⟩ := transfer_supply ok hw k
      refine ⟨ok', ?_⟩
      unfold accValue
      dsimp only
      rw [amt_put, loc_ite]
      split <;> simp_all <;> omega
  · cases h

theorem checkOut_value {a a' : Acc} (ok : AOk a.1.bal) {c : Cur} {n : Nat}
    (h : checkOut a c n = some a') (k : Cur) :
    AOk a'.1.bal ∧ accValue a' k = accValue a k + if c = k then n else 0 := by
  unfold checkOut at h
  split at h
  · cases h
    refine ⟨ok, ?_⟩
    unfold accValue
    dsimp only
    rw [amt_put, loc_ite]
    omega
  · cases hw : a.1.deposit c checkAccount n with
    | none => rw [hw] at h; cases h
    | some L' =>
      rw [hw] at h
      cases h
      obtain ⟨ok', s⟩ := deposit_supply ok hw k
      refine ⟨ok', ?_⟩
      unfold accValue
      dsimp only
      omega

/-- Assets handled one by one that each add (`δ = 1`), remove (`δ = -1`) or move (`δ = 0`) their amount. -/
theorem eachAsset_value {f : Acc → Cur → Nat → Option Acc} (δ : Int)
    (hf : ∀ (a a' : Acc) (c : Cur) (n : Nat), AOk a.1.bal → f a c n = some a' → ∀ k, AOk a'.1.bal ∧
      (accValue a' k : Int) = accValue a k + δ * ((if c = k then n else 0 : Nat) : Int)) (as : List XAsset) :
    ∀ (a a' : Acc), AOk a.1.bal → eachAsset f a as = .ok a' → ∀ k, AOk a'.1.bal ∧
      (accValue a' k : Int) = accValue a k + δ * (sumAt as k.location : Int) := by
  induction as with
  | nil =>
    intro a a' ok h k
    simp only [eachAsset, Tri.ok.injEq] at h
    subst h
    exact ⟨ok, by simp [sumAt]⟩
  | cons e as ih =>
    intro a a' ok h k
    obtain ⟨l, n⟩ := e
    simp only [eachAsset] at h
    split at h
    · cases h
    · cases h
    · rename_i c hc
      split at h
      · cases h
      · rename_i a1 h1
        obtain ⟨ok1, v1⟩ := hf _ _ _ _ ok h1 k
        obtain ⟨ok2, v2⟩ := ih _ _ ok1 h k
        refine ⟨ok2, ?_⟩
        rw [v2, v1, match_location hc]
        simp only [sumAt]
        rw [loc_ite]
        push_cast
        ring

theorem withdraws_value {o : Location} {as : List XAsset} {a a' : Acc} (ok : AOk a.1.bal)
    (h : eachAsset (withdrawFrom o) a as = .ok a') (k : Cur) :
    AOk a'.1.bal ∧ accValue a' k + sumAt as k.location = accValue a k := by
  obtain ⟨ok', v⟩ := eachAsset_value (-1) (fun a a' c n ok h k => by
    obtain ⟨ok', s⟩ := withdrawFrom_value ok h k
    exact ⟨ok', by omega⟩) as a a' ok h k
  exact ⟨ok', by omega⟩

theorem deposits_value {o : Location} {as : List XAsset} {a a' : Acc} (ok : AOk a.1.bal)
    (h : depositAll o a as = .ok a') (k : Cur) :
    AOk a'.1.bal ∧ accValue a' k = accValue a k + sumAt as k.location := by
  unfold depositAll at h
  split at h
  · cases h
  obtain ⟨ok', v⟩ := eachAsset_value 1 (fun a a' c n ok h k => by
    obtain ⟨ok', s⟩ := depositTo_value ok h k
    exact ⟨ok', by omega⟩) as a a' ok h k
  exact ⟨ok', by omega⟩

theorem transfers_value {luck : Luck} {o d : Location} {as : List XAsset} {a a' : Acc} (ok : AOk a.1.bal)
    (h : eachAsset (transferTo luck o d) a as = .ok a') (k : Cur) :
    AOk a'.1.bal ∧ accValue a' k = accValue a k := by
  obtain ⟨ok', v⟩ := eachAsset_value 0 (fun a a' c n ok h k => by
    obtain ⟨ok', s⟩ := transferTo_value ok h k
    exact ⟨ok', by omega⟩) as a a' ok h k
  exact ⟨ok', by omega⟩

theorem checkOuts_value {as : List XAsset} {a a' : Acc} (ok : AOk a.1.bal)
    (h : eachAsset checkOut a as = .ok a') (k : Cur) :
    AOk a'.1.bal ∧ accValue a' k = accValue a k + sumAt as k.location := by
  obtain ⟨ok', v⟩ := eachAsset_value 1 (fun a a' c n ok h k => by
    obtain ⟨ok', s⟩ := checkOut_value ok h k
    exact ⟨ok', by omega⟩) as a a' ok h k
  exact ⟨ok', by omega⟩

/-- What putting assets into holding changes. -/
theorem subsume_spec (as : List XAsset) : ∀ m : Mach,
    (m.subsume as).sender = m.sender ∧ (m.subsume as).origin = m.origin ∧ (m.subsume as).paid = m.paid ∧
    (m.subsume as).code = m.code ∧ (m.subsume as).handler = m.handler ∧ (m.subsume as).appendix = m.appendix ∧
    (m.subsume as).chain.ledger = m.chain.ledger ∧ (m.subsume as).chain.traps = m.chain.traps ∧
    (m.subsume as).chain.received = m.chain.received ∧
    ∀ k, amt (m.subsume as).holding k + amt (m.subsume as).chain.gone k =
      amt m.holding k + amt m.chain.gone k + sumAt as k := by
  induction as with
  | nil => intro m; simp [Mach.subsume, sumAt]
  | cons e as ih =>
    intro m
    obtain ⟨l, n⟩ := e
    have := ih { m with holding := put m.holding l (Nat.min n (amountMax - amt m.holding l)),
                        chain := { m.chain with gone := put m.chain.gone l (n - Nat.min n (amountMax - amt m.holding l)) } }
    obtain ⟨h1, h2, h3, h4, h5, h6, h7, h8, h9, h10⟩ := this
    simp only [Mach.subsume]
    refine ⟨h1, h2, h3, h4, h5, h6, h7, h8, h9, fun k => ?_⟩
    rw [h10 k]
    dsimp only
    rw [amt_put, amt_put]
    simp only [sumAt]
    have : Nat.min n (amountMax - amt m.holding l) ≤ n := Nat.min_le_left _ _
    generalize Nat.min n (amountMax - amt m.holding l) = r at *
    split <;> omega

theorem subsume_value (as : List XAsset) (m : Mach) (k : Cur) :
    machValue (m.subsume as) k = machValue m k + sumAt as k.location := by
  obtain ⟨_, _, h3, _, _, _, h7, h8, _, h10⟩ := subsume_spec as m
  have := h10 k.location
  unfold machValue chainValue
  rw [h3, h7, h8]
  omega

theorem claim_trapped {o : Location} {as : List XAsset} : ∀ {ts us : List (Location × Hold)}, claim o as ts = some us →
    ∀ l, trapped us l + sumAt as l = trapped ts l := by
  intro ts
  induction ts with
  | nil => intro us h; cases h
  | cons t ts ih =>
    intro us h l
    unfold claim at h
    split at h
    · rename_i hc
      cases h
      have := (sameAssets_iff _ _).mp hc.2 l
      simp only [trapped]
      omega
    · cases hc : claim o as ts with
      | none => rw [hc] at h; cases h
      | some vs =>
        rw [hc] at h
        cases h
        have := ih hc l
        simp only [trapped]
        omega

/-- What came in of an asset: accepted as deposited on a reserve, or given back by a trader without having been paid. -/
def inflow (c : Chain) (l : Location) : Nat := receivedOf c.received l + amt c.minted l

theorem subsume_minted (as : List XAsset) : ∀ m : Mach, (m.subsume as).chain.minted = m.chain.minted := by
  induction as with
  | nil => intro m; rfl
  | cons e as ih => intro m; obtain ⟨l, n⟩ := e; simp only [Mach.subsume]; rw [ih]

/-- What a refund changes. -/
theorem refund_spec (m : Mach) (w : Refund) :
    (m.refund w).sender = m.sender ∧ (m.refund w).origin = m.origin ∧ (m.refund w).paid = (takeList m.paid w.assets).2 ∧
    (m.refund w).code = m.code ∧ (m.refund w).handler = m.handler ∧ (m.refund w).appendix = m.appendix ∧
    (m.refund w).chain.ledger = m.chain.ledger ∧ (m.refund w).chain.traps = m.chain.traps ∧
    (m.refund w).chain.received = m.chain.received ∧
    (m.refund w).chain.minted = put m.chain.minted ⟨1, []⟩ w.bonus := by
  unfold Mach.refund
  obtain ⟨h1, h2, h3, h4, h5, h6, h7, h8, h9, _⟩ := subsume_spec ((⟨1, []⟩, w.bonus) :: (takeList m.paid w.assets).1)
    { m with paid := (takeList m.paid w.assets).2,
             chain := { m.chain with minted := put m.chain.minted ⟨1, []⟩ w.bonus } }
  exact ⟨h1, h2, h3, h4, h5, h6, h7, h8, h9, subsume_minted _ _⟩

theorem refund_value (m : Mach) (w : Refund) (k : Cur) :
    machValue (m.refund w) k + inflow m.chain k.location = machValue m k + inflow (m.refund w).chain k.location := by
  have hs := refund_spec m w
  unfold inflow
  rw [hs.2.2.2.2.2.2.2.2.1, hs.2.2.2.2.2.2.2.2.2, amt_put]
  unfold Mach.refund
  rw [subsume_value]
  have := takeList_spec w.assets m.paid k.location
  simp only [sumAt]
  unfold machValue chainValue
  dsimp only
  omega

theorem setAcc_value (m : Mach) (a : Acc) (k : Cur) :
    machValue (m.setAcc a) k + accValue m.acc k = machValue m k + accValue a k := by
  unfold machValue chainValue accValue Mach.setAcc Mach.acc
  dsimp only
  omega

/-- Only a refund gives back what was not paid. -/
theorem effect_minted {m m' : Mach} {luck : Luck} {i : VInstr} (hi : i ≠ .refundSurplus) (h : m.effect luck i = .ok m') :
    m'.chain.minted = m.chain.minted := by
  cases i with
  | refundSurplus => exact absurd rfl hi
  | _ =>
    simp only [Mach.effect] at h
    repeat' split at h
    all_goals first
      | (cases h; done)
      | (cases h; rfl)
      | (cases h; exact subsume_minted _ _)

/-- Every instruction but a refund conserves value, except for what it accepts as deposited on a reserve. -/
theorem effect_value_core {m m' : Mach} {luck : Luck} {i : VInstr} (hi : i ≠ .refundSurplus) (ok : AOk m.chain.ledger.bal)
    (h : m.effect luck i = .ok m') (k : Cur) :
    AOk m'.chain.ledger.bal ∧
    machValue m' k + receivedOf m.chain.received k.location = machValue m k + receivedOf m'.chain.received k.location := by
  cases i with
  | withdrawAsset as =>
    simp only [Mach.effect] at h
    split at h
    · cases h
    · split at h
      · rename_i a ha
        cases h
        obtain ⟨_, _, _, _, _, _, h7, _, h9, _⟩ := subsume_spec as (m.setAcc a)
        obtain ⟨ok', v⟩ := withdraws_value (a := m.acc) ok ha k
        have h1 := setAcc_value m a k
        refine ⟨by rw [h7]; exact ok', ?_⟩
        rw [h9, subsume_value]
        show _ + receivedOf m.chain.received _ = _ + receivedOf m.chain.received _
        omega
      · cases h
      · cases h
  | reserveAssetDeposited as =>
    simp only [Mach.effect] at h
    split at h
    · cases h
    · rename_i o _
      split at h
      · cases h
        obtain ⟨_, _, _, _, _, _, h7, _, h9, _⟩ := subsume_spec as
          { m with chain := { m.chain with received := m.chain.received ++ as.map fun e => (o, e) } }
        refine ⟨by rw [h7]; exact ok, ?_⟩
        rw [h9, subsume_value]
        dsimp only
        rw [receivedOf_append, receivedOf_map]
        unfold machValue chainValue
        dsimp only
        omega
      · cases h
  | receiveTeleportedAsset as =>
    simp only [Mach.effect] at h
    split at h
    · cases h; exact ⟨ok, rfl⟩
    · cases h
  | transferAsset as d =>
    simp only [Mach.effect] at h
    split at h
    · cases h
    · split at h
      · rename_i a ha
        cases h
        obtain ⟨ok', v⟩ := transfers_value (a := m.acc) ok ha k
        have h1 := setAcc_value m a k
        refine ⟨ok', ?_⟩
        show _ + receivedOf m.chain.received _ = _ + receivedOf m.chain.received _
        omega
      · cases h
      · cases h
  | transferReserveAsset as d =>
    simp only [Mach.effect] at h
    split at h
    · cases h
    · split at h
      · rename_i a ha
        cases h
        obtain ⟨ok', v⟩ := transfers_value (a := m.acc) ok ha k
        have h1 := setAcc_value m a k
        refine ⟨ok', ?_⟩
        show _ + receivedOf m.chain.received _ = _ + receivedOf m.chain.received _
        omega
      · cases h
      · cases h
  | transact kind w =>
    simp only [Mach.effect] at h
    split at h
    · cases h
    · split at h
      · cases h; exact ⟨ok, rfl⟩
      · cases h
  | clearOrigin => cases h; exact ⟨ok, rfl⟩
  | descendOrigin who =>
    simp only [Mach.effect] at h
    split at h
    · cases h
    · split at h
      · cases h
      · cases h; exact ⟨ok, rfl⟩
  | depositAsset f d =>
    simp only [Mach.effect] at h
    split at h
    · rename_i a ha
      cases h
      obtain ⟨ok', v⟩ := deposits_value (a := m.acc) ok ha k
      have h1 := setAcc_value { m with holding := (takeList m.holding (f.wanted m.holding luck.pick)).2 } a k
      have h2 := takeList_spec (f.wanted m.holding luck.pick) m.holding k.location
      refine ⟨ok', ?_⟩
      show _ + receivedOf m.chain.received _ = _ + receivedOf m.chain.received _
      have h3 : accValue (Mach.acc { m with holding := (takeList m.holding (f.wanted m.holding luck.pick)).2 }) k =
        accValue m.acc k := rfl
      have h4 : machValue { m with holding := (takeList m.holding (f.wanted m.holding luck.pick)).2 } k + amt m.holding k.location =
        machValue m k + amt (takeList m.holding (f.wanted m.holding luck.pick)).2 k.location := by
        unfold machValue; dsimp only; omega
      omega
    · cases h
    · cases h
  | depositReserveAsset f d =>
    simp only [Mach.effect] at h
    split at h
    · rename_i a ha
      cases h
      obtain ⟨ok', v⟩ := deposits_value (a := m.acc) ok ha k
      have h1 := setAcc_value { m with holding := (takeList m.holding (f.wanted m.holding luck.pick)).2 } a k
      have h2 := takeList_spec (f.wanted m.holding luck.pick) m.holding k.location
      refine ⟨ok', ?_⟩
      show _ + receivedOf m.chain.received _ = _ + receivedOf m.chain.received _
      have h3 : accValue (Mach.acc { m with holding := (takeList m.holding (f.wanted m.holding luck.pick)).2 }) k =
        accValue m.acc k := rfl
      have h4 : machValue { m with holding := (takeList m.holding (f.wanted m.holding luck.pick)).2 } k + amt m.holding k.location =
        machValue m k + amt (takeList m.holding (f.wanted m.holding luck.pick)).2 k.location := by
        unfold machValue; dsimp only; omega
      omega
    · cases h
    · cases h
  | initiateReserveWithdraw f d =>
    simp only [Mach.effect, Tri.ok.injEq] at h
    subst h
    have h2 := takeList_spec (f.wanted m.holding luck.pick) m.holding k.location
    generalize takeList m.holding (f.wanted m.holding luck.pick) = r at *
    have h3 := sumAt_filter (fun e => luck.reanchors e.1) r.1 k.location
    obtain ⟨_, _, _, _, _, _, h7, _, h9, _⟩ := subsume_spec (r.1.filter fun e => !luck.reanchors e.1)
      { m with holding := r.2,
               chain := { m.chain with gone := putAll m.chain.gone (r.1.filter fun e => luck.reanchors e.1) } }
    refine ⟨by rw [h7]; exact ok, ?_⟩
    rw [h9, subsume_value]
    dsimp only
    unfold machValue chainValue
    dsimp only
    rw [amt_putAll]
    omega
  | initiateTeleport f d =>
    simp only [Mach.effect] at h
    split at h
    · rename_i a ha
      cases h
      obtain ⟨ok', v⟩ := checkOuts_value (a := m.acc) ok ha k
      have h1 := setAcc_value { m with holding := (takeList m.holding (f.wanted m.holding luck.pick)).2 } a k
      have h2 := takeList_spec (f.wanted m.holding luck.pick) m.holding k.location
      refine ⟨ok', ?_⟩
      show _ + receivedOf m.chain.received _ = _ + receivedOf m.chain.received _
      have h3 : accValue (Mach.acc { m with holding := (takeList m.holding (f.wanted m.holding luck.pick)).2 }) k =
        accValue m.acc k := rfl
      have h4 : machValue { m with holding := (takeList m.holding (f.wanted m.holding luck.pick)).2 } k + amt m.holding k.location =
        machValue m k + amt (takeList m.holding (f.wanted m.holding luck.pick)).2 k.location := by
        unfold machValue; dsimp only; omega
      omega
    · cases h
    · cases h
  | buyExecution fees limit =>
    simp only [Mach.effect] at h
    split at h
    · cases h; exact ⟨ok, rfl⟩
    · split at h
      · cases h
      · split at h
        · cases h
          refine ⟨ok, ?_⟩
          have h2 := takeList_spec [(fees.1, Nat.min luck.charge fees.2)] m.holding k.location
          unfold machValue
          dsimp only
          rw [amt_putAll]
          omega
        · cases h
  | refundSurplus => exact absurd rfl hi
  | setErrorHandler xcm => cases h; exact ⟨ok, rfl⟩
  | setAppendix xcm => cases h; exact ⟨ok, rfl⟩
  | claimAsset as =>
    simp only [Mach.effect] at h
    split at h
    · cases h
    · split at h
      · cases h
      · rename_i ts hts
        cases h
        have h1 := claim_trapped hts k.location
        obtain ⟨_, _, _, _, _, _, h7, _, h9, _⟩ := subsume_spec as { m with chain := { m.chain with traps := ts } }
        refine ⟨by rw [h7]; exact ok, ?_⟩
        rw [h9, subsume_value]
        unfold machValue chainValue
        dsimp only
        omega
  | burnAsset as =>
    simp only [Mach.effect, Tri.ok.injEq] at h
    subst h
    refine ⟨ok, ?_⟩
    have h2 := takeList_spec as m.holding k.location
    unfold machValue chainValue
    dsimp only
    rw [amt_putAll]
    omega
  | plain i => cases h; exact ⟨ok, rfl⟩

/-- Every instruction conserves value, except for what comes in. -/
theorem effect_value {m m' : Mach} {luck : Luck} {i : VInstr} (ok : AOk m.chain.ledger.bal)
    (h : m.effect luck i = .ok m') (k : Cur) :
    AOk m'.chain.ledger.bal ∧
    machValue m' k + inflow m.chain k.location = machValue m k + inflow m'.chain k.location := by
  by_cases hi : i = .refundSurplus
  · subst hi
    simp only [Mach.effect, Tri.ok.injEq] at h
    subst h
    exact ⟨by rw [(refund_spec m luck.refund).2.2.2.2.2.2.1]; exact ok, refund_value m luck.refund k⟩
  · obtain ⟨ok', v⟩ := effect_value_core hi ok h k
    refine ⟨ok', ?_⟩
    unfold inflow
    rw [effect_minted hi h]
    omega

theorem mfailed_spec (m : Mach) : m.failed.sender = m.sender ∧ m.failed.origin = m.origin ∧ m.failed.holding = m.holding ∧
    m.failed.paid = m.paid ∧ m.failed.chain = m.chain := by
  unfold Mach.failed
  split <;> exact ⟨rfl, rfl, rfl, rfl, rfl⟩

/-- A property of the registers and the chain that holds initially and is kept by every instruction, and does not depend on
the code, holds throughout. -/
theorem run_invariant (P : Mach → Prop)
    (hcode : ∀ (m : Mach) (c h a : List VInstr), P m → P { m with code := c, handler := h, appendix := a })
    (heff : ∀ (m m' : Mach) (luck : Luck) (i : VInstr), P m → m.effect luck i = .ok m' → P m') :
    ∀ (lucks : List Luck) (m m' : Mach), P m → m.run lucks = some m' → P m' := by
  have hfail : ∀ m : Mach, P m → P m.failed := by
    intro m hm
    unfold Mach.failed
    split
    · exact hcode m _ _ _ hm
    · exact hcode m _ _ m.appendix hm
  intro lucks
  induction lucks with
  | nil => intro m m' hm h; cases h; exact hm
  | cons x xs ih =>
    intro m m' hm h
    unfold Mach.run at h
    split at h
    · cases h
    · rename_i m1 h1
      refine ih _ _ ?_ h
      unfold Mach.step at h1
      split at h1
      · cases h1; exact hcode m _ _ _ hm
      · rename_i i rest hc
        split at h1
        · cases h1; exact hfail m hm
        · split at h1
          · rename_i m2 h2
            cases h1
            exact heff _ _ _ _ (hcode m rest m.handler m.appendix hm) h2
          · cases h1; exact hfail m hm
          · cases h1

theorem run_value {m m' : Mach} {lucks : List Luck} (ok : AOk m.chain.ledger.bal) (h : m.run lucks = some m') (k : Cur) :
    AOk m'.chain.ledger.bal ∧
    machValue m' k + inflow m.chain k.location = machValue m k + inflow m'.chain k.location := by
  refine run_invariant (fun x => AOk x.chain.ledger.bal ∧
    machValue x k + inflow m.chain k.location = machValue m k + inflow x.chain k.location)
    (fun _ _ _ _ h => h) ?_ lucks m m' ⟨ok, rfl⟩ h
  intro x y luck i hx hy
  obtain ⟨ok', v⟩ := effect_value hx.1 hy k
  exact ⟨ok', by omega⟩

theorem payTreasury_value (as : List XAsset) : ∀ (a : Acc), AOk a.1.bal → ∀ k,
    AOk (payTreasury as a).1.bal ∧ accValue (payTreasury as a) k = accValue a k + sumAt as k.location := by
  induction as with
  | nil => intro a ok k; exact ⟨ok, rfl⟩
  | cons e as ih =>
    intro a ok k
    obtain ⟨l, n⟩ := e
    have lost : AOk (payTreasury as (a.1, put a.2 l n)).1.bal ∧
        accValue (payTreasury as (a.1, put a.2 l n)) k = accValue a k + sumAt ((l, n) :: as) k.location := by
      obtain ⟨ok', v⟩ := ih (a.1, put a.2 l n) ok k
      refine ⟨ok', ?_⟩
      rw [v]
      unfold accValue
      dsimp only
      rw [amt_put]
      simp only [sumAt]
      omega
    unfold payTreasury
    split
    · rename_i c hc
      split
      · rename_i L hL
        obtain ⟨ok1, s1⟩ := deposit_supply ok hL k
        obtain ⟨ok', v⟩ := ih (L, a.2) ok1 k
        refine ⟨ok', ?_⟩
        rw [v]
        simp only [sumAt]
        rw [match_location hc, loc_ite]
        unfold accValue
        dsimp only
        omega
      · exact lost
    · exact lost

theorem trapped_single (o : Location) (h : Hold) (l : Location) : trapped [(o, h)] l = amt h l := by
  simp [trapped]

theorem empty_amt {h : Hold} (he : (h.all fun e => amt h e.1 == 0) = true) (l : Location) : amt h l = 0 := by
  by_contra hl
  obtain ⟨e, hm, rfl⟩ := List.mem_map.mp (amt_pos_mem (h := h) (l := l) (by omega))
  rw [List.all_eq_true] at he
  exact hl (by simpa using he e hm)

theorem finish_value {m : Mach} (ok : AOk m.chain.ledger.bal) (w : Refund) (k : Cur) :
    AOk (m.finish w).ledger.bal ∧
    chainValue (m.finish w) k + inflow m.chain k.location = machValue m k + inflow (m.finish w) k.location := by
  have hr := refund_value m w k
  have h7' := (refund_spec m w).2.2.2.2.2.2.1
  unfold Mach.finish
  generalize m.refund w = m1 at *
  obtain ⟨ok2, v2⟩ := payTreasury_value (contents m1.paid) m1.acc (by unfold Mach.acc; rw [h7']; exact ok) k
  rw [contents_sum] at v2
  have va : accValue m1.acc k = m1.chain.ledger.supply k + amt m1.chain.gone k.location := rfl
  rw [va] at v2
  dsimp only
  split
  · rename_i he
    refine ⟨ok2, ?_⟩
    have h0 := empty_amt he k.location
    unfold inflow at *
    unfold machValue at hr ⊢
    unfold chainValue at *
    dsimp only
    unfold accValue at v2
    omega
  · refine ⟨ok2, ?_⟩
    unfold inflow at *
    unfold machValue at hr ⊢
    unfold chainValue at *
    dsimp only
    rw [trapped_append, trapped_single]
    unfold accValue at v2
    omega

theorem execute_value {c c' : Chain} {sender : Location} {msg : List VInstr} {lucks : List Luck} {w : Refund}
    (ok : AOk c.ledger.bal) (h : execute c sender msg lucks w = some c') (k : Cur) :
    AOk c'.ledger.bal ∧
    chainValue c' k + inflow c k.location = chainValue c k + inflow c' k.location := by
  unfold execute at h
  cases hr : (Mach.start c sender msg).run lucks with
  | none => rw [hr] at h; cases h
  | some m =>
    rw [hr] at h
    cases h
    obtain ⟨ok1, v1⟩ := run_value (m := Mach.start c sender msg) ok hr k
    obtain ⟨ok2, v2⟩ := finish_value ok1 w k
    refine ⟨ok2, ?_⟩
    have : machValue (Mach.start c sender msg) k = chainValue c k := by unfold machValue Mach.start; simp
    rw [this] at v1
    have hc : inflow (Mach.start c sender msg).chain k.location = inflow c k.location := rfl
    dsimp only
    omega

end Verif.Xcm
