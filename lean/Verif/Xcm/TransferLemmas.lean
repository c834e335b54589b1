import Verif.Xcm.TransferSpec
import Verif.Xcm.ExecutorSafety

/-! # Lemmas about calls of pallet_xcm -/

namespace Verif.Xcm

open Verif Verif.Runtime Verif.Accounts

/-! ## Holding -/

theorem takeList_left (w : List XAsset) : ∀ (h : Hold) (k : Location),
    amt (takeList h w).2 k = amt h k - sumAt w k := by
  induction w with
  | nil => intro h k; simp [takeList, sumAt]
  | cons a w ih =>
    intro h k
    obtain ⟨l, n⟩ := a
    simp only [takeList, sumAt]
    rw [ih, amt_aset]
    have hmin : Nat.min n (amt h l) = min n (amt h l) := rfl
    by_cases hk : k = l
    · subst hk
      rw [if_pos rfl, if_pos rfl, hmin]
      omega
    · rw [if_neg hk, if_neg fun h => hk h.symm]
      omega

theorem subsume_le (as : List XAsset) : ∀ (m : Mach) (k : Location),
    amt (m.subsume as).holding k ≤ amt m.holding k + sumAt as k := by
  induction as with
  | nil => intro m k; simp [Mach.subsume, sumAt]
  | cons a as ih =>
    intro m k
    obtain ⟨l, n⟩ := a
    unfold Mach.subsume
    refine le_trans (ih _ k) ?_
    simp only [amt_put, sumAt]
    have hmin : Nat.min n (amountMax - amt m.holding l) ≤ n := Nat.min_le_left _ _
    split <;> omega

/-! ## What a transfer does to balances -/

theorem Moved.refl (s : AccountId) (d : Option AccountId) (L : XLedger) : Moved s d (fun _ => 0) (fun _ => 0) L L :=
  ⟨rfl, fun _ => ⟨0, rfl, .inl rfl, fun _ _ _ => rfl, fun _ _ => ⟨le_rfl, le_rfl⟩⟩⟩

theorem Moved.trans {s : AccountId} {d : Option AccountId} {n1 n2 p1 p2 : Cur → Nat} {L L1 L2 : XLedger}
    (h1 : Moved s d n1 p1 L L1) (h2 : Moved s d n2 p2 L1 L2) :
    Moved s d (fun k => n1 k + n2 k) (fun k => p1 k + p2 k) L L2 := by
  refine ⟨h2.1.trans h1.1, fun k => ?_⟩
  beta_reduce
  obtain ⟨r1, a1, b1, c1, e1⟩ := h1.2 k
  obtain ⟨r2, a2, b2, c2, e2⟩ := h2.2 k
  refine ⟨r1 + r2, by omega, ?_, fun b hb hd => (c2 b hb hd).trans (c1 b hb hd), fun b hb => ?_⟩
  · rcases b1 with b1 | ⟨b1, least, hl, hr⟩
    · rcases b2 with b2 | ⟨b2, least, hl, hr⟩
      · left; omega
      · right
        rw [h1.1] at hl
        exact ⟨b2, least, hl, by omega⟩
    · right
      exact ⟨by omega, least, hl, by omega⟩
  · have := e1 b hb
    have := e2 b hb
    constructor <;> omega

theorem Moved.congr {s : AccountId} {d : Option AccountId} {n n' p p' : Cur → Nat} {L L' : XLedger}
    (h : Moved s d n p L L') (hn : ∀ k, n k = n' k) (hp : ∀ k, p k = p' k) : Moved s d n' p' L L' := by
  have e1 : n = n' := funext hn
  have e2 : p = p' := funext hp
  subst e1; subst e2
  exact h

theorem withdraw_exact {L L' : XLedger} {c : Cur} {a : AccountId} {n dust : Nat} (h : L.withdraw c a n = some (L', dust)) :
    ∃ least b, L.minBal c = some least ∧ L' = L.set c a b ∧ L.get c a = b + n + dust ∧
      (dust = 0 ∨ (b = 0 ∧ dust < least)) := by
  unfold XLedger.withdraw at h
  split at h
  · cases h
  · rename_i least hl
    split at h
    · cases h
    · split at h
      · cases h
        exact ⟨least, 0, hl, rfl, by omega, .inr ⟨rfl, by assumption⟩⟩
      · cases h
        exact ⟨least, _, hl, rfl, by omega, .inl rfl⟩

theorem deposit_exact {L L' : XLedger} {c : Cur} {a : AccountId} {n : Nat} (h : L.deposit c a n = some L') :
    L'.minBal = L.minBal ∧ ∀ k b, L'.get k b = L.get k b + if k = c ∧ b = a then n else 0 := by
  rcases deposit_spec h with ⟨rfl, rfl⟩ | rfl
  · exact ⟨rfl, fun k b => by simp⟩
  · refine ⟨rfl, fun k b => ?_⟩
    rw [get_set]
    split
    · rename_i hk
      rw [hk.1, hk.2]
    · omega

theorem withdraw_moved {L L' : XLedger} {c : Cur} {s : AccountId} {d : Option AccountId} (hd : d ≠ some s) {n dust : Nat}
    (h : L.withdraw c s n = some (L', dust)) : Moved s d (fun k => if c = k then n else 0) (fun _ => 0) L L' := by
  obtain ⟨least, b, hl, rfl, hb, hdust⟩ := withdraw_exact h
  refine ⟨rfl, fun k => ?_⟩
  beta_reduce
  by_cases hk : c = k
  · subst hk
    refine ⟨dust, ?_, ?_, fun x hx _ => ?_, fun x hx => ?_⟩
    · rw [get_set, if_pos ⟨rfl, rfl⟩, if_pos rfl]; omega
    · rw [get_set, if_pos ⟨rfl, rfl⟩]
      rcases hdust with h | ⟨h1, h2⟩
      · exact .inl h
      · exact .inr ⟨h1, least, hl, h2⟩
    · rw [get_set, if_neg fun h => hx h.2]
    · have : x ≠ s := fun e => hd (e ▸ hx)
      rw [get_set, if_neg fun h => this h.2]
      constructor <;> omega
  · have hk' : ¬ k = c := fun h => hk h.symm
    refine ⟨0, ?_, .inl rfl, fun x _ _ => ?_, fun x _ => ?_⟩
    · rw [get_set, if_neg fun h => hk' h.1, if_neg hk]; rfl
    · rw [get_set, if_neg fun h => hk' h.1]
    · rw [get_set, if_neg fun h => hk' h.1]
      constructor <;> omega

theorem transfer_moved {L L' : XLedger} {c : Cur} {s d : AccountId} (hd : d ≠ s) {n dust : Nat} {t : Bool}
    (h : L.transfer c s d n t = some (L', dust)) :
    Moved s (some d) (fun k => if c = k then n else 0) (fun k => if c = k then n else 0) L L' := by
  unfold XLedger.transfer at h
  rw [if_neg fun e => hd e.symm] at h
  split at h
  · cases h
  rename_i L1 du hw
  obtain ⟨least, b, hl, rfl, hb, hdust⟩ := withdraw_exact hw
  have key : ∀ (x : Nat), (x = n ∨ x = n + du) → ∀ L2, (L.set c s b).deposit c d x = some L2 →
      Moved s (some d) (fun k => if c = k then n else 0) (fun k => if c = k then n else 0) L L2 := by
    intro x hx L2 h2
    obtain ⟨hm, hg⟩ := deposit_exact h2
    refine ⟨hm, fun k => ?_⟩
    beta_reduce
    by_cases hk : c = k
    · subst hk
      refine ⟨du, ?_, ?_, fun y hy hyd => ?_, fun y hy => ?_⟩
      · rw [hg, get_set, if_pos ⟨rfl, rfl⟩, if_neg fun h => hd h.2.symm, if_pos rfl]; omega
      · rw [hg, get_set, if_pos ⟨rfl, rfl⟩, if_neg fun h => hd h.2.symm]
        rcases hdust with h | ⟨h1, h2⟩
        · exact .inl h
        · exact .inr ⟨by omega, least, hl, h2⟩
      · rw [hg, get_set, if_neg fun h => hy h.2, if_neg fun h => hyd (by rw [h.2])]; rfl
      · cases hy
        simp only [hg, get_set, hd, and_false, and_self, if_true, if_false]
        omega
    · have hk' : ¬ k = c := fun h => hk h.symm
      refine ⟨0, ?_, .inl rfl, fun y _ _ => ?_, fun y _ => ?_⟩
      · simp only [hg, get_set, hk, hk', false_and, if_false]; rfl
      · rw [hg, get_set, if_neg fun h => hk' h.1, if_neg fun h => hk' h.1]; rfl
      · simp only [hg, get_set, hk, hk', false_and, if_false]
        constructor <;> omega
  cases t with
  | true =>
    simp only [if_true, Option.map_eq_some_iff] at h
    obtain ⟨L2, h2, e⟩ := h
    cases e
    exact key _ (.inr rfl) _ h2
  | false =>
    simp only [Bool.false_eq_true, if_false, Option.map_eq_some_iff] at h
    obtain ⟨L2, h2, e⟩ := h
    cases e
    exact key _ (.inl rfl) _ h2

theorem sumAt_cons_cur {l : Location} {c : Cur} (h : matchAsset l = .cur c) (n : Nat) (rest : List XAsset) (k : Cur) :
    sumAt ((l, n) :: rest) k.location = (if c = k then n else 0) + sumAt rest k.location := by
  rw [match_location h]
  simp only [sumAt, loc_ite]

theorem withdraws_moved {who : Location} {s : AccountId} {d : Option AccountId} (hs : locationToAccount who = some s)
    (hd : d ≠ some s) (as : List XAsset) : ∀ {a a' : Acc}, eachAsset (withdrawFrom who) a as = .ok a' →
      Moved s d (fun k => sumAt as k.location) (fun _ => 0) a.1 a'.1 := by
  induction as with
  | nil =>
    intro a a' h
    cases h
    exact (Moved.refl s d _)
  | cons e as ih =>
    intro a a' h
    obtain ⟨l, n⟩ := e
    simp only [eachAsset] at h
    split at h
    · cases h
    · cases h
    · rename_i c hc
      split at h
      · cases h
      · rename_i a1 h1
        unfold withdrawFrom at h1
        rw [hs] at h1
        simp only [Option.map_eq_some_iff] at h1
        obtain ⟨⟨L1, du⟩, hw, e⟩ := h1
        cases e
        exact ((withdraw_moved hd hw).trans (ih h)).congr (fun k => (sumAt_cons_cur hc n as k).symm) fun _ => rfl

theorem transfers_moved {who dst : Location} {s d : AccountId} {luck : Luck} (hs : locationToAccount who = some s)
    (hd : locationToAccount dst = some d) (hne : d ≠ s) (as : List XAsset) :
    ∀ {a a' : Acc}, eachAsset (transferTo luck who dst) a as = .ok a' →
      Moved s (some d) (fun k => sumAt as k.location) (fun k => sumAt as k.location) a.1 a'.1 := by
  induction as with
  | nil =>
    intro a a' h
    cases h
    exact (Moved.refl s _ _)
  | cons e as ih =>
    intro a a' h
    obtain ⟨l, n⟩ := e
    simp only [eachAsset] at h
    split at h
    · cases h
    · cases h
    · rename_i c hc
      split at h
      · cases h
      · rename_i a1 h1
        unfold transferTo at h1
        rw [hs, hd] at h1
        simp only [Option.map_eq_some_iff] at h1
        obtain ⟨⟨L1, du⟩, hw, e⟩ := h1
        cases e
        exact ((transfer_moved hne hw).trans (ih h)).congr (fun k => (sumAt_cons_cur hc n as k).symm)
          fun k => (sumAt_cons_cur hc n as k).symm

/-- A transfer to a location without an account, or from one, happens only if there is nothing to move. -/
theorem transfers_none {who dst : Location} {luck : Luck} (h0 : locationToAccount who = none ∨ locationToAccount dst = none)
    {as : List XAsset} {a a' : Acc} (h : eachAsset (transferTo luck who dst) a as = .ok a') : as = [] ∧ a' = a := by
  cases as with
  | nil => cases h; exact ⟨rfl, rfl⟩
  | cons e as =>
    exfalso
    obtain ⟨l, n⟩ := e
    simp only [eachAsset] at h
    split at h
    · cases h
    · cases h
    · have : ∀ c, transferTo luck who dst a c n = none := by
        intro c
        unfold transferTo
        split
        · rename_i hs hd
          rcases h0 with h0 | h0
          · rw [hs] at h0; cases h0
          · rw [hd] at h0; cases h0
        · rfl
      rw [this] at h
      cases h

/-! ## One leg -/

/-- Nothing held. Specification only, no code behind it (outside /repo). -/
def Idle (who : Location) (m : Mach) : Prop := m.origin = some who ∧ (∀ l, amt m.holding l = 0) ∧ m.paid = []

theorem SameRecords.trans {a b c : Chain} (h1 : SameRecords a b) (h2 : SameRecords b c) : SameRecords a c :=
  ⟨h2.1.trans h1.1, h2.2.1.trans h1.2.1, fun l => (h2.2.2 l).trans (h1.2.2 l)⟩

/-- What is put on the account of the destination by a leg. Specification only, no code behind it (outside /repo). -/
def TransferType.deposits : TransferType → Bool
  | .localReserve => true
  | _ => false

theorem complete_append (ctx : List Junction) (dust : Cur → Bool) (xs : List VInstr) : ∀ (ys : List VInstr) (m : Mach),
    complete ctx dust m (xs ++ ys) =
      match complete ctx dust m xs with
      | .ok m' => complete ctx dust m' ys
      | .err => .err
      | .panic => .panic := by
  induction xs with
  | nil => intro ys m; rfl
  | cons x xs ih =>
    intro ys m
    simp only [List.cons_append, complete]
    cases m.effect (fate ctx dust x) x with
    | ok m' => exact ih ys m'
    | err => rfl
    | panic => rfl

theorem withdrawn {who : Location} {luck : Luck} {m m1 : Mach} {as : List XAsset} (hi : Idle who m)
    (h : m.effect luck (.withdrawAsset as) = .ok m1) :
    ∃ a, eachAsset (withdrawFrom who) m.acc as = .ok a ∧ m1 = (m.setAcc a).subsume as := by
  simp only [Mach.effect, hi.1] at h
  split at h
  · rename_i a ha
    cases h
    exact ⟨a, ha, rfl⟩
  · cases h
  · cases h

theorem leg_done {ctx : List Junction} {dust : Cur → Bool} {who dest : Location} {s : AccountId} {t : TransferType}
    {as : List XAsset} {m m' : Mach} (ht : t ≠ .teleport) (hs : locationToAccount who = some s)
    (hd : locationToAccount dest ≠ some s)
    (hr : ∀ r, t = .remoteReserve r → ∀ l, 0 < sumAt as l → (reanchor ctx r l).isSome)
    (hi : Idle who m)
    (h : complete ctx dust m (legCode dest t as) = .ok m') :
    Idle who m' ∧ SameRecords m.chain m'.chain ∧
      Moved s (locationToAccount dest) (fun k => sumAt as k.location)
        (fun k => if t.deposits then sumAt as k.location else 0) m.chain.ledger m'.chain.ledger := by
  cases t with
  | teleport => exact absurd rfl ht
  | localReserve =>
    simp only [legCode, complete] at h
    split at h
    · rename_i m1 h1
      cases h
      simp only [Mach.effect, hi.1] at h1
      split at h1
      · rename_i a ha
        cases h1
        refine ⟨⟨hi.1, hi.2.1, hi.2.2⟩, ⟨rfl, rfl, fun _ => rfl⟩, ?_⟩
        cases hdst : locationToAccount dest with
        | none =>
          obtain ⟨rfl, rfl⟩ := transfers_none (.inr hdst) ha
          refine (Moved.refl s none m.chain.ledger).congr (fun _ => rfl) fun _ => ?_
          split <;> rfl
        | some d =>
          have hne : d ≠ s := fun e => hd (by rw [hdst, e])
          exact (transfers_moved hs hdst hne as ha).congr (fun _ => rfl) fun _ => rfl
      · cases h1
      · cases h1
    · cases h
    · cases h
  | destinationReserve =>
    simp only [legCode, complete] at h
    split at h
    · rename_i m1 h1
      obtain ⟨a, ha, rfl⟩ := withdrawn hi h1
      simp only [Mach.effect] at h
      cases h
      obtain ⟨e1, e2, e3, e4, e5, e6, e7, e8, e9, e10⟩ := subsume_spec as (m.setAcc a)
      refine ⟨⟨by rw [show _ = _ from e2]; exact hi.1, fun l => ?_, by rw [show _ = _ from e3]; exact hi.2.2⟩, ⟨e8, e9, ?_⟩, ?_⟩
      · rw [takeList_left]
        have h1 := subsume_le as (m.setAcc a) l
        have h2 : amt (m.setAcc a).holding l = 0 := hi.2.1 l
        omega
      · exact fun l => congrArg (amt · l) (subsume_minted as (m.setAcc a))
      · have := withdraws_moved hs hd as ha
        dsimp only
        rw [e7]
        exact this
    · cases h
    · cases h
  | remoteReserve r =>
    simp only [legCode, complete] at h
    split at h
    · rename_i m1 h1
      obtain ⟨a, ha, rfl⟩ := withdrawn hi h1
      simp only [Mach.effect, fate] at h
      cases h
      obtain ⟨e1, e2, e3, e4, e5, e6, e7, e8, e9, e10⟩ := subsume_spec as (m.setAcc a)
      generalize hm2 : (m.setAcc a).subsume as = m2 at *
      have hall : VFilter.wanted (.counted as.length) m2.holding (fun _ => true) = VFilter.all.wanted m2.holding fun _ => true := by
        simp [VFilter.wanted]
      rw [hall]
      have hnone : ((takeList m2.holding (VFilter.all.wanted m2.holding fun _ => true)).1.filter
          fun e => !(reanchor ctx r e.1).isSome) = [] := by
        rw [List.filter_eq_nil_iff]
        intro e he
        have hp := (takeList_pos _ _ e he).2
        have h1 := subsume_le as (m.setAcc a) e.1
        have h2 : amt (m.setAcc a).holding e.1 = 0 := hi.2.1 e.1
        rw [hm2] at h1
        have h3 := hr r rfl e.1 (by omega)
        simp [h3]
      rw [hnone]
      simp only [Mach.subsume]
      refine ⟨⟨by rw [show _ = _ from e2]; exact hi.1, fun l => takeAll_rest _ _ l, by rw [show _ = _ from e3]; exact hi.2.2⟩, ⟨e8, e9, ?_⟩, ?_⟩
      · have := subsume_minted as (m.setAcc a)
        rw [hm2] at this
        exact fun l => congrArg (amt · l) this
      · have := withdraws_moved hs hd as ha
        rw [e7]
        exact this
    · cases h
    · cases h

theorem finish_idle {who : Location} {m : Mach} (hi : Idle who m) :
    (m.finish ⟨[], 0⟩).ledger = m.chain.ledger ∧ SameRecords m.chain (m.finish ⟨[], 0⟩) := by
  obtain ⟨e1, e2, e3, e4, e5, e6, e7, e8, e9, e10⟩ := refund_spec m ⟨[], 0⟩
  have hp : (m.refund ⟨[], 0⟩).paid = [] := by rw [e3, hi.2.2]; rfl
  have hh : ∀ l, amt (m.refund ⟨[], 0⟩).holding l = 0 := by
    intro l
    have := subsume_le ((⟨1, []⟩, 0) :: (takeList m.paid []).1)
      { m with paid := (takeList m.paid []).2, chain := { m.chain with minted := put m.chain.minted ⟨1, []⟩ 0 } } l
    have h0 : sumAt ((⟨1, []⟩, 0) :: (takeList m.paid []).1) l = 0 := by simp [takeList, sumAt]
    have h1 : amt m.holding l = 0 := hi.2.1 l
    dsimp only at this
    rw [h0, h1] at this
    exact Nat.le_zero.mp this
  unfold Mach.finish
  dsimp only
  rw [if_pos (by rw [List.all_eq_true]; intro e _; rw [hh]; rfl), hp]
  refine ⟨e7, e8, e9, fun l => ?_⟩
  show amt (m.refund ⟨[], 0⟩).chain.minted l = _
  rw [e10, amt_put]
  simp

end Verif.Xcm
