import Verif.Xcm.ExecutorTheorems

/-!
# C106: whose accounts a message spends from, C107: messages that stop the chain, C108: trapped assets
-/

namespace Verif.Xcm

open Verif Verif.Runtime Verif.Accounts

/-! ## C106 -/

/-- C106: whatever messages do and wherever they fail, an account that belongs to none of the senders, nor to anything inside
them, never loses anything. -/
theorem C106_only_own_accounts (c c' : Chain) (ds : List Delivery) (h : deliverAll c ds = some c') (a : AccountId)
    (ha : ∀ d ∈ ds, ¬ Owns d.sender a) (k : Cur) : c.ledger.get k a ≤ c'.ledger.get k a := by
  induction ds generalizing c with
  | nil => cases h; exact le_rfl
  | cons d ds ih =>
    unfold deliverAll at h
    split at h
    · cases h
    · rename_i c1 h1
      exact le_trans ((execute_changed h1).balances a (ha d List.mem_cons_self) k)
        (ih c1 h fun x hx => ha x (List.mem_cons_of_mem _ hx))

theorem inside_cons {p : UInt8} {j : Junction} {t : List Junction} {l : Location} (h : Inside ⟨p, j :: t⟩ l) :
    l.parents = p ∧ ∃ u, l.interior = j :: u ∧ t <+: u := by
  obtain ⟨h1, h2⟩ := h
  refine ⟨h1, ?_⟩
  dsimp only at h2
  obtain ⟨u, hu⟩ := h2
  exact ⟨t ++ u, hu.symm, List.prefix_append _ _⟩

/-- C106: a parachain owns exactly its own account. -/
theorem C106_parachain (p : UInt32) (a : AccountId) : Owns ⟨1, [.parachain p]⟩ a ↔ a = siblingAccount p := by
  constructor
  · rintro ⟨l, hl, h⟩
    obtain ⟨h1, u, h2, _⟩ := inside_cons hl
    obtain ⟨lp, li⟩ := l
    dsimp only at h1 h2
    subst h1 h2
    rw [C71_who_has_an_account] at h
    rcases h with ⟨h, _⟩ | ⟨id, h, rfl⟩ | ⟨_, _, h, _⟩ | ⟨_, h, _⟩ | ⟨_, h, _⟩ <;> simp at h
    rw [h.1]
  · rintro rfl
    refine ⟨⟨1, [.parachain p]⟩, inside_refl _, ?_⟩
    rw [C71_who_has_an_account]
    exact .inr (.inl ⟨p, rfl, rfl⟩)

/-- C106: what is inside a parachain owns nothing. -/
theorem C106_inside_parachain (p : UInt32) (j : Junction) (more : List Junction) (a : AccountId) :
    ¬ Owns ⟨1, .parachain p :: j :: more⟩ a := by
  rintro ⟨l, hl, h⟩
  obtain ⟨h1, u, h2, h3⟩ := inside_cons hl
  obtain ⟨v, rfl⟩ := h3
  obtain ⟨lp, li⟩ := l
  dsimp only at h1 h2
  subst h1 h2
  rw [C71_who_has_an_account] at h
  rcases h with ⟨h, _⟩ | ⟨id, h, rfl⟩ | ⟨_, _, h, _⟩ | ⟨_, h, _⟩ | ⟨_, h, _⟩ <;> simp at h

/-- C106: an account of the relay chain owns at most the account with the same bytes. -/
theorem C106_relay_account (n : Option NetworkId) (b a : AccountId) (h : Owns ⟨1, [.accountId32 n b]⟩ a) : a = b := by
  obtain ⟨l, hl, h⟩ := h
  obtain ⟨h1, u, h2, _⟩ := inside_cons hl
  obtain ⟨lp, li⟩ := l
  dsimp only at h1 h2
  subst h1 h2
  rw [C71_who_has_an_account] at h
  rcases h with ⟨h, _⟩ | ⟨id, h, rfl⟩ | ⟨_, _, h, _⟩ | ⟨_, h, _⟩ | ⟨_, h, _⟩ <;> simp at h
  exact h.1.2.symm

/-- C106: a local account owns at most itself. -/
theorem C106_local_account (n : Option NetworkId) (b a : AccountId) (h : Owns ⟨0, [.accountId32 n b]⟩ a) : a = b := by
  obtain ⟨l, hl, h⟩ := h
  obtain ⟨h1, u, h2, _⟩ := inside_cons hl
  obtain ⟨lp, li⟩ := l
  dsimp only at h1 h2
  subst h1 h2
  rw [C71_who_has_an_account] at h
  rcases h with ⟨h, _⟩ | ⟨id, h, rfl⟩ | ⟨_, _, h, _⟩ | ⟨_, h, _⟩ | ⟨_, h, _⟩ <;> simp at h
  exact h.1.2.symm

/-- C106: the relay chain, on the other hand, owns every account of Kreivo, as it can speak for all of its own. -/
theorem C106_relay_owns_all (a : AccountId) : Owns ⟨1, []⟩ a := by
  refine ⟨⟨1, [.accountId32 none a]⟩, ⟨rfl, List.nil_prefix⟩, ?_⟩
  rw [C71_who_has_an_account]
  exact .inr (.inr (.inr (.inl ⟨none, rfl, .inl rfl⟩)))

/-- C106: so messages of parachains, and of anything inside them, never touch the account of anybody else. -/
theorem C106_parachains_only_own (c c' : Chain) (ds : List Delivery) (h : deliverAll c ds = some c') (a : AccountId)
    (hs : ∀ d ∈ ds, ∃ p more, d.sender = ⟨1, .parachain p :: more⟩ ∧ a ≠ siblingAccount p) (k : Cur) :
    c.ledger.get k a ≤ c'.ledger.get k a := by
  refine C106_only_own_accounts c c' ds h a ?_ k
  intro d hd
  obtain ⟨p, more, e, hp⟩ := hs d hd
  rw [e]
  cases more with
  | nil => rw [C106_parachain]; exact hp
  | cons j more => exact C106_inside_parachain p j more a

/-- A parachain with funds, and somebody else with funds. Example for non-vacuity (outside /repo). -/
def fundedChain : Chain :=
  ⟨⟨[((.native, siblingAccount 2000), 500), ((.native, treasuryAccount), 700)], fun _ => some 10⟩, [], [], [], []⟩
/-- It pays a fee and sends the rest to the treasury. Example for non-vacuity (outside /repo). -/
def payingMessage : List VInstr :=
  [.withdrawAsset [(⟨1, []⟩, 300)], .buyExecution (⟨1, []⟩, 300) (.limited ⟨1, 1⟩),
   .depositAsset .all ⟨1, [.accountId32 none treasuryAccount]⟩]

example : (execute fundedChain ⟨1, [.parachain 2000]⟩ payingMessage [fineLuck, fineLuck, fineLuck] ⟨[(⟨1, []⟩, 40)], 0⟩).any
    (fun c => decide (c.ledger.get .native (siblingAccount 2000) = 200 ∧ c.ledger.get .native treasuryAccount = 960 ∧
      trapped c.traps ⟨1, []⟩ = 40 ∧ c.kept .native = 1200)) = true := by decide +kernel
/-- Nothing is withdrawn from others: what the sender does not have fails. -/
example : (execute fundedChain ⟨1, [.parachain 3000]⟩ payingMessage [fineLuck, fineLuck, fineLuck] ⟨[], 0⟩).any
    (fun c => decide (c.ledger.get .native (siblingAccount 2000) = 500 ∧ c.ledger.get .native treasuryAccount = 700)) =
      true := by decide +kernel

/-! ## C107 -/

mutual
/-- An instruction that neither withdraws nor transfers an asset whose id stops the chain (nor carries one that does).
Specification only, no code behind it (outside /repo). -/
def VInstr.harmless : VInstr → Bool
  | .withdrawAsset as => as.all fun e => !panics e.1
  | .transferAsset as _ => as.all fun e => !panics e.1
  | .transferReserveAsset as _ => as.all fun e => !panics e.1
  | .setErrorHandler xcm => harmlessAll xcm
  | .setAppendix xcm => harmlessAll xcm
  | _ => true
/-- All of them are harmless. Specification only, no code behind it (outside /repo). -/
def harmlessAll : List VInstr → Bool
  | [] => true
  | i :: rest => i.harmless && harmlessAll rest
end

theorem harmlessAll_iff (xcm : List VInstr) : harmlessAll xcm = true ↔ ∀ i ∈ xcm, i.harmless = true := by
  induction xcm with
  | nil => simp [harmlessAll]
  | cons i r ih => rw [harmlessAll]; simp [ih]

/-- No amount of an asset whose id stops the chain. Specification only, no code behind it (outside /repo). -/
def SafeHold (h : Hold) : Prop := ∀ l, panics l = true → amt h l = 0

/-- Which ids stop the chain: those of local assets with an index beyond 32 bits. -/
theorem panics_iff (l : Location) : panics l = true ↔
    ∃ i : BitVec 128, 2 ^ 32 ≤ i.toNat ∧ l = ⟨0, [.palletInstance 13, .generalIndex i]⟩ := by
  unfold panics matchAsset
  constructor
  · intro h
    split at h
    · rename_i hm
      split at hm
      · cases hm
      · split at hm
        · cases hm
        · cases hm
        · rename_i hc
          obtain ⟨i, hi, hl⟩ := (C69_panics_iff_partial l).mp hc
          exact ⟨i, hi, hl⟩
    · cases h
  · rintro ⟨i, hi, rfl⟩
    have hc : convert ⟨0, [.palletInstance 13, .generalIndex i]⟩ = .panic :=
      (C69_panics_iff_partial _).mpr ⟨i, hi, rfl⟩
    rw [if_neg (by simp), hc]

theorem panics_local {l : Location} (h : panics l = true) : l.parents = 0 := by
  obtain ⟨i, _, rfl⟩ := (panics_iff l).mp h
  rfl

theorem eachAsset_no_panic {f : Acc → Cur → Nat → Option Acc} (as : List XAsset) (h : ∀ e ∈ as, panics e.1 = false) :
    ∀ a, eachAsset f a as ≠ .panic := by
  induction as with
  | nil => intro a; simp [eachAsset]
  | cons e as ih =>
    intro a hp
    obtain ⟨l, n⟩ := e
    simp only [eachAsset] at hp
    split at hp
    · rename_i hm
      have := h (l, n) List.mem_cons_self
      unfold panics at this
      rw [hm] at this
      cases this
    · cases hp
    · split at hp
      · cases hp
      · exact ih (fun e he => h e (List.mem_cons_of_mem _ he)) _ hp

theorem taken_safe {h : Hold} (hs : SafeHold h) (w : List XAsset) : ∀ e ∈ (takeList h w).1, panics e.1 = false := by
  intro e he
  rw [Bool.eq_false_iff]
  intro hp
  have := (takeList_pos w h e he).2
  rw [hs e.1 hp] at this
  omega

theorem sumAt_safe {as : List XAsset} (h : ∀ e ∈ as, panics e.1 = false) (l : Location) (hl : panics l = true) :
    sumAt as l = 0 := by
  by_contra hn
  obtain ⟨e, he, rfl⟩ := List.mem_map.mp (sumAt_pos_mem (as := as) (l := l) (by omega))
  rw [h e he] at hl
  cases hl

theorem subsume_safe (as : List XAsset) (h : ∀ l, panics l = true → sumAt as l = 0) : ∀ m : Mach, SafeHold m.holding →
    SafeHold (m.subsume as).holding := by
  intro m hm l hl
  have key : ∀ (as : List XAsset) (m : Mach), amt (m.subsume as).holding l ≤ amt m.holding l + sumAt as l := by
    intro as
    induction as with
    | nil => intro m; simp [Mach.subsume, sumAt]
    | cons e as ih =>
      intro m
      obtain ⟨k, n⟩ := e
      unfold Mach.subsume
      refine le_trans (ih _) ?_
      dsimp only
      rw [amt_put]
      simp only [sumAt]
      have : Nat.min n (amountMax - amt m.holding k) ≤ n := Nat.min_le_left _ _
      generalize Nat.min n (amountMax - amt m.holding k) = r at *
      split <;> omega
  have := key as m
  rw [h l hl, hm l hl] at this
  omega

/-- What keeps the chain from stopping while messages of other chains run. Specification only, no code behind it (outside
/repo). -/
structure Calm (m : Mach) : Prop where
  origin : ∀ o, m.origin = some o → o.parents ≠ 0
  holding : SafeHold m.holding
  paid : SafeHold m.paid
  traps : ∀ t ∈ m.chain.traps, SafeHold t.2
  code : ∀ i ∈ m.code, i.harmless = true
  handler : ∀ i ∈ m.handler, i.harmless = true
  appendix : ∀ i ∈ m.appendix, i.harmless = true

theorem claim_sub {o : Location} {as : List XAsset} : ∀ {ts us : List (Location × Hold)}, claim o as ts = some us →
    (∀ t ∈ us, t ∈ ts) ∧ ∃ t ∈ ts, t.1 = o ∧ ∀ l, amt t.2 l = sumAt as l := by
  intro ts
  induction ts with
  | nil => intro us h; cases h
  | cons t ts ih =>
    intro us h
    unfold claim at h
    split at h
    · rename_i hc
      cases h
      exact ⟨fun x hx => List.mem_cons_of_mem _ hx, t, List.mem_cons_self, hc.1, (sameAssets_iff _ _).mp hc.2⟩
    · cases hc : claim o as ts with
      | none => rw [hc] at h; cases h
      | some vs =>
        rw [hc] at h
        cases h
        obtain ⟨h1, x, hx, h2⟩ := ih hc
        refine ⟨?_, x, List.mem_cons_of_mem _ hx, h2⟩
        intro y hy
        rcases List.mem_cons.mp hy with rfl | hy
        · exact List.mem_cons_self
        · exact List.mem_cons_of_mem _ (h1 y hy)

theorem effect_calm {m : Mach} {luck : Luck} {i : VInstr} (K : Calm m) (hi : i.harmless = true) :
    m.effect luck i ≠ .panic ∧ ∀ m', m.effect luck i = .ok m' → Calm m' := by
  obtain ⟨k1, k2, k3, k4, k5, k6, k7⟩ := K
  have sub : ∀ (x : Mach) (as : List XAsset), Calm x → (∀ l, panics l = true → sumAt as l = 0) → Calm (x.subsume as) := by
    intro x as K h
    have h0 := subsume_safe as h x K.holding
    obtain ⟨h1, h2, h3, h4, h5, h6, h7, h8, h9, _⟩ := subsume_spec as x
    exact ⟨by rw [h2]; exact K.origin, h0, by rw [h3]; exact K.paid, by rw [h8]; exact K.traps, by rw [h4]; exact K.code,
      by rw [h5]; exact K.handler, by rw [h6]; exact K.appendix⟩
  have rest : ∀ w, SafeHold (takeList m.holding w).2 := by
    intro w l hl
    have := takeList_le w m.holding l
    rw [k2 l hl] at this
    omega
  have nop : ∀ (f : Acc → Cur → Nat → Option Acc) (as : List XAsset), (as.all fun e => !panics e.1) = true →
      eachAsset f m.acc as ≠ .panic := fun f as h =>
    eachAsset_no_panic as (fun e he => by simpa using List.all_eq_true.mp h e he) _
  have da : ∀ d w, depositAll d m.acc (takeList m.holding w).1 ≠ .panic := by
    intro d w hp
    unfold depositAll at hp
    split at hp
    · rename_i ha
      rw [List.any_eq_true] at ha
      obtain ⟨e, he, hpe⟩ := ha
      rw [taken_safe k2 w e he] at hpe
      cases hpe
    · exact eachAsset_no_panic _ (taken_safe k2 w) _ hp
  cases i <;> simp only [Mach.effect]
  case withdrawAsset as =>
    simp only [VInstr.harmless] at hi
    cases ho : m.origin with
    | none => simp
    | some o =>
      dsimp only
      have h1 := nop (withdrawFrom o) as hi
      cases ha : eachAsset (withdrawFrom o) m.acc as with
      | panic => exact absurd ha h1
      | err => simp
      | ok a =>
        refine ⟨by simp, ?_⟩
        intro m' h
        cases h
        exact sub _ _ ⟨k1, k2, k3, k4, k5, k6, k7⟩ fun l hl =>
          sumAt_safe (fun e he => by simpa using List.all_eq_true.mp hi e he) l hl
  case reserveAssetDeposited as =>
    cases ho : m.origin with
    | none => simp
    | some o =>
      dsimp only
      split
      · rename_i hr
        refine ⟨by simp, ?_⟩
        intro m' h
        cases h
        refine sub _ _ ⟨by dsimp only; rw [ho] at k1; exact k1, k2, k3, k4, k5, k6, k7⟩ fun l hl => sumAt_safe (fun e he => ?_) l hl
        rw [Bool.eq_false_iff]
        intro hp
        have h0 := panics_local hp
        have h1 := k1 o ho
        rcases (C70_accepted_iff _ _).mp (List.all_eq_true.mp hr e he) with h | ⟨h, _⟩ | ⟨_, h, _⟩
        · rw [h] at h0; exact h1 h0
        · rw [h0] at h; cases h
        · rw [h0] at h; cases h
      · simp
  case receiveTeleportedAsset as =>
    split
    · exact ⟨by simp, fun m' h => by cases h; exact ⟨k1, k2, k3, k4, k5, k6, k7⟩⟩
    · simp
  case transferAsset as d =>
    simp only [VInstr.harmless] at hi
    cases ho : m.origin with
    | none => simp
    | some o =>
      dsimp only
      have h1 := nop (transferTo luck o d) as hi
      cases ha : eachAsset (transferTo luck o d) m.acc as with
      | panic => exact absurd ha h1
      | err => simp
      | ok a => exact ⟨by simp, fun m' h => by cases h; exact ⟨k1, k2, k3, k4, k5, k6, k7⟩⟩
  case transferReserveAsset as d =>
    simp only [VInstr.harmless] at hi
    cases ho : m.origin with
    | none => simp
    | some o =>
      dsimp only
      have h1 := nop (transferTo luck o d) as hi
      cases ha : eachAsset (transferTo luck o d) m.acc as with
      | panic => exact absurd ha h1
      | err => simp
      | ok a => exact ⟨by simp, fun m' h => by cases h; exact ⟨k1, k2, k3, k4, k5, k6, k7⟩⟩
  case transact k w =>
    split
    · simp
    · split
      · exact ⟨by simp, fun m' h => by cases h; exact ⟨k1, k2, k3, k4, k5, k6, k7⟩⟩
      · simp
  case clearOrigin => exact ⟨by simp, fun m' h => by cases h; exact ⟨by simp, k2, k3, k4, k5, k6, k7⟩⟩
  case descendOrigin who =>
    cases ho : m.origin with
    | none => simp
    | some o =>
      dsimp only
      cases hl : o.append who with
      | none => simp
      | some o' =>
        refine ⟨by simp, fun m' h => ?_⟩
        cases h
        refine ⟨?_, k2, k3, k4, k5, k6, k7⟩
        intro x hx
        cases hx
        unfold Location.append at hl
        split at hl
        · cases hl; exact k1 o ho
        · cases hl
  case depositAsset f d =>
    have h1 := da d (f.wanted m.holding luck.pick)
    cases ha : depositAll d m.acc (takeList m.holding (f.wanted m.holding luck.pick)).1 with
    | panic => exact absurd ha h1
    | err => simp
    | ok a => exact ⟨by simp, fun m' h => by cases h; exact ⟨k1, rest _, k3, k4, k5, k6, k7⟩⟩
  case depositReserveAsset f d =>
    have h1 := da d (f.wanted m.holding luck.pick)
    cases ha : depositAll d m.acc (takeList m.holding (f.wanted m.holding luck.pick)).1 with
    | panic => exact absurd ha h1
    | err => simp
    | ok a => exact ⟨by simp, fun m' h => by cases h; exact ⟨k1, rest _, k3, k4, k5, k6, k7⟩⟩
  case initiateReserveWithdraw f d =>
    refine ⟨by simp, fun m' h => ?_⟩
    cases h
    refine sub _ _ ⟨k1, rest _, k3, k4, k5, k6, k7⟩ fun l hl => sumAt_safe (fun e he => ?_) l hl
    exact taken_safe k2 _ e (List.mem_filter.mp he).1
  case initiateTeleport f d =>
    have h1 := eachAsset_no_panic (f := checkOut) _ (taken_safe k2 (f.wanted m.holding luck.pick)) m.acc
    cases ha : eachAsset checkOut m.acc (takeList m.holding (f.wanted m.holding luck.pick)).1 with
    | panic => exact absurd ha h1
    | err => simp
    | ok a => exact ⟨by simp, fun m' h => by cases h; exact ⟨k1, rest _, k3, k4, k5, k6, k7⟩⟩
  case buyExecution fees limit =>
    cases limit with
    | unlimited => exact ⟨by simp, fun m' h => by cases h; exact ⟨k1, k2, k3, k4, k5, k6, k7⟩⟩
    | limited w =>
      dsimp only
      split
      · simp
      · split
        · refine ⟨by simp, fun m' h => ?_⟩
          cases h
          refine ⟨k1, rest _, ?_, k4, k5, k6, k7⟩
          intro l hl
          dsimp only
          rw [amt_putAll, k3 l hl, sumAt_safe (taken_safe k2 _) l hl]
        · simp
  case refundSurplus =>
    refine ⟨by simp, fun m' h => ?_⟩
    cases h
    refine sub _ _ ⟨k1, k2, ?_, k4, k5, k6, k7⟩ ?_
    rotate_left
    · intro l hl
      have hr : (⟨1, []⟩ : Location) ≠ l := by
        rintro rfl
        simp [panics, matchAsset] at hl
      rw [sumAt, if_neg hr, sumAt_safe (taken_safe k3 _) l hl]
    intro l hl
    have := takeList_le luck.refund.assets m.paid l
    rw [k3 l hl] at this
    dsimp only
    omega
  case setErrorHandler xcm =>
    refine ⟨by simp, fun m' h => ?_⟩
    cases h
    rw [VInstr.harmless] at hi
    refine ⟨k1, k2, k3, k4, k5, ?_, k7⟩
    exact (harmlessAll_iff xcm).mp hi
  case setAppendix xcm =>
    refine ⟨by simp, fun m' h => ?_⟩
    cases h
    rw [VInstr.harmless] at hi
    refine ⟨k1, k2, k3, k4, k5, k6, ?_⟩
    exact (harmlessAll_iff xcm).mp hi
  case claimAsset as =>
    cases ho : m.origin with
    | none => simp
    | some o =>
      dsimp only
      cases hc : claim o as m.chain.traps with
      | none => simp
      | some ts =>
        refine ⟨by simp, fun m' h => ?_⟩
        cases h
        obtain ⟨h1, t, ht, _, h2⟩ := claim_sub hc
        refine sub _ _ ⟨by dsimp only; rw [ho] at k1; exact k1, k2, k3, fun t ht => k4 t (h1 t ht), k5, k6, k7⟩ fun l hl => ?_
        rw [← h2 l]
        exact k4 t ht l hl
  case burnAsset as => exact ⟨by simp, fun m' h => by cases h; exact ⟨k1, rest _, k3, k4, k5, k6, k7⟩⟩
  case plain i => exact ⟨by simp, fun m' h => by cases h; exact ⟨k1, k2, k3, k4, k5, k6, k7⟩⟩

theorem failed_calm {m : Mach} (K : Calm m) : Calm m.failed := by
  obtain ⟨k1, k2, k3, k4, k5, k6, k7⟩ := K
  unfold Mach.failed
  split
  · exact ⟨k1, k2, k3, k4, k7, by simp, by simp⟩
  · exact ⟨k1, k2, k3, k4, k6, by simp, k7⟩

theorem run_calm : ∀ (lucks : List Luck) (m : Mach), Calm m → ∃ m', m.run lucks = some m' ∧ Calm m' := by
  intro lucks
  induction lucks with
  | nil => intro m K; exact ⟨m, rfl, K⟩
  | cons x xs ih =>
    intro m K
    have step : ∃ m1, m.step x = some m1 ∧ Calm m1 := by
      obtain ⟨k1, k2, k3, k4, k5, k6, k7⟩ := K
      unfold Mach.step
      split
      · exact ⟨_, rfl, ⟨k1, k2, k3, k4, k7, by simp, by simp⟩⟩
      · rename_i i rest hc
        have K : Calm m := ⟨k1, k2, k3, k4, k5, k6, k7⟩
        rw [hc] at k5
        split
        · exact ⟨_, rfl, failed_calm K⟩
        · have := effect_calm (m := { m with code := rest }) (luck := x) (i := i)
            ⟨k1, k2, k3, k4, fun j hj => k5 j (List.mem_cons_of_mem _ hj), k6, k7⟩ (k5 i List.mem_cons_self)
          cases he : Mach.effect { m with code := rest } x i with
          | panic => exact absurd he this.1
          | err => exact ⟨_, rfl, failed_calm K⟩
          | ok m' => exact ⟨_, rfl, this.2 m' he⟩
    obtain ⟨m1, h1, K1⟩ := step
    obtain ⟨m', h', K'⟩ := ih m1 K1
    refine ⟨m', ?_, K'⟩
    unfold Mach.run
    rw [h1]
    exact h'

/-- C107 (partial: messages that do not withdraw or transfer a local asset with an index beyond 32 bits): no messages of other
chains, whatever they contain otherwise, stop the chain. -/
theorem C107_never_stops_partial (ds : List Delivery) : ∀ (c : Chain), (∀ t ∈ c.traps, SafeHold t.2) →
    (∀ d ∈ ds, d.sender.parents ≠ 0 ∧ ∀ i ∈ d.msg, i.harmless = true) → ∃ c', deliverAll c ds = some c' := by
  induction ds with
  | nil => intro c _ _; exact ⟨c, rfl⟩
  | cons d ds ih =>
    intro c ht hd
    obtain ⟨h1, h2⟩ := hd d List.mem_cons_self
    obtain ⟨m, hm, K⟩ := run_calm d.lucks (Mach.start c d.sender d.msg)
      ⟨fun o ho => by cases ho; exact h1, fun _ _ => rfl, fun _ _ => rfl, ht, h2, by simp [Mach.start], by simp [Mach.start]⟩
    have K1 : Calm (m.refund d.refund) :=
      (effect_calm (luck := ⟨false, fun _ => false, fun _ => false, 0, d.refund, fun _ => false⟩) (i := .refundSurplus) K
        (by simp [VInstr.harmless])).2 _ rfl
    have hf : ∀ t ∈ (m.finish d.refund).traps, SafeHold t.2 := by
      unfold Mach.finish
      dsimp only
      split
      · exact K1.traps
      · intro t ht
        rcases List.mem_append.mp ht with ht | ht
        · exact K1.traps t ht
        · rw [List.mem_singleton.mp ht]; exact K1.holding
    obtain ⟨c', hc'⟩ := ih (m.finish d.refund) hf fun x hx => hd x (List.mem_cons_of_mem _ hx)
    refine ⟨c', ?_⟩
    unfold deliverAll execute
    rw [hm]
    exact hc'

/-- Exactly the local assets with an index beyond 32 bits stop the chain. -/
theorem C107_which_ids (l : Location) : panics l = true ↔
    ∃ i : BitVec 128, 2 ^ 32 ≤ i.toNat ∧ l = ⟨0, [.palletInstance 13, .generalIndex i]⟩ := panics_iff l

/-- Withdraw an asset of Kreivo's own that cannot exist. Example for non-vacuity (outside /repo). -/
def stoppingMessage : List VInstr :=
  [.withdrawAsset [(⟨0, [.palletInstance 13, .generalIndex (BitVec.ofNat 128 (2 ^ 32))]⟩, 1)],
   .buyExecution (⟨1, []⟩, 1) .unlimited]
/-- The same after the barrier has set the limit to the weight of the message. Example for non-vacuity (outside /repo). -/
def stoppingRuns : List VInstr :=
  [.withdrawAsset [(⟨0, [.palletInstance 13, .generalIndex (BitVec.ofNat 128 (2 ^ 32))]⟩, 1)],
   .buyExecution (⟨1, []⟩, 1) (.limited ⟨155607000, 3593⟩)]

/-- C107 is false of the code: any parachain can send this message. It passes the barrier, the sender needs no funds, and
whatever the state of Kreivo, executing it panics: the block it is in cannot be made. -/
theorem C107_any_parachain_stops_the_chain_fails (self p : UInt32) :
    admit (fun _ => false) self ⟨1, [.parachain p]⟩ (stoppingMessage.map VInstr.shape) ⟨0, 0⟩ =
        some (stoppingRuns.map VInstr.shape) ∧
      ∀ (c : Chain) (luck : Luck) (more : List Luck) (refund : Refund), luck.fails = false →
        execute c ⟨1, [.parachain p]⟩ stoppingRuns (luck :: more) refund = none := by
  constructor
  · have hw : messageWeight (stoppingMessage.map VInstr.shape) = some ⟨155607000, 3593⟩ := by
      simp only [stoppingMessage, List.map_cons, List.map_nil, VInstr.shape, messageWeight, weighFrom_eq, weighAll, weighOne]
      decide +kernel
    have h0 : Weight.covers ⟨0, 0⟩ ⟨155607000, 3593⟩ = false := by decide +kernel
    unfold admit
    rw [hw]
    simp only [barrier, h0, stoppingMessage, stoppingRuns, List.map_cons, List.map_nil, VInstr.shape]
    rfl
  · intro c luck more refund hl
    have hm : matchAsset ⟨0, [.palletInstance 13, .generalIndex (BitVec.ofNat 128 (2 ^ 32))]⟩ = .panic := rfl
    simp only [execute, Mach.start, stoppingRuns, Mach.run, Mach.step, hl, Mach.effect, eachAsset, hm]
    simp

example : ∀ i ∈ payingMessage, i.harmless = true := by
  simp only [payingMessage, VInstr.harmless, List.forall_mem_cons]
  decide +kernel
example : (VInstr.withdrawAsset [(⟨0, [.palletInstance 13, .generalIndex (BitVec.ofNat 128 (2 ^ 32))]⟩, 1)]).harmless = false := by
  simp only [VInstr.harmless]
  decide +kernel

/-! ## C108 -/

/-- C108: whatever messages do, the traps of an origin that is none of the senders, nor inside one, stay exactly as they
were: none is claimed, none is added. -/
theorem C108_only_own_traps (c c' : Chain) (ds : List Delivery) (h : deliverAll c ds = some c') (o : Location)
    (ho : ∀ d ∈ ds, ¬ Inside d.sender o) :
    (c'.traps.filter fun t => decide (t.1 = o)) = c.traps.filter fun t => decide (t.1 = o) := by
  induction ds generalizing c with
  | nil => cases h; rfl
  | cons d ds ih =>
    unfold deliverAll at h
    split at h
    · cases h
    · rename_i c1 h1
      rw [ih c1 h fun x hx => ho x (List.mem_cons_of_mem _ hx)]
      have ht := (execute_changed h1).traps
      have key : ∀ ts : List (Location × Hold), (ts.filter fun t => decide (t.1 = o)) =
          (ts.filter fun t => !decide (Inside d.sender t.1)).filter fun t => decide (t.1 = o) := by
        intro ts
        rw [List.filter_filter]
        apply List.filter_congr
        intro t _
        by_cases he : t.1 = o
        · rw [he]; simp [ho d List.mem_cons_self]
        · simp [he]
      rw [key c1.traps, key c.traps, ht]

theorem claim_found {o : Location} {h : Hold} : ∀ (ts : List (Location × Hold)), (o, h) ∈ ts →
    ∃ us, claim o (contents h) ts = some us := by
  intro ts
  induction ts with
  | nil => intro hm; cases hm
  | cons t ts ih =>
    intro hm
    unfold claim
    split
    · exact ⟨_, rfl⟩
    · rename_i hn
      rcases List.mem_cons.mp hm with rfl | hm
      · exact absurd ⟨rfl, (sameAssets_iff _ _).mpr fun l => (contents_sum h l).symm⟩ hn
      · obtain ⟨us, hus⟩ := ih hm
        exact ⟨_, by rw [hus]; rfl⟩

theorem subsume_room (as : List XAsset) : ∀ m : Mach, (∀ l, amt m.holding l + sumAt as l ≤ amountMax) →
    ∀ l, amt (m.subsume as).holding l = amt m.holding l + sumAt as l := by
  induction as with
  | nil => intro m _ l; simp [Mach.subsume, sumAt]
  | cons e as ih =>
    intro m h l
    obtain ⟨k, n⟩ := e
    have hk := h k
    simp only [sumAt, if_pos] at hk
    have hmin : Nat.min n (amountMax - amt m.holding k) = n := Nat.min_eq_left (by omega)
    unfold Mach.subsume
    rw [ih]
    · dsimp only
      rw [amt_put, hmin]
      simp only [sumAt]
      omega
    · intro j
      have := h j
      dsimp only
      rw [amt_put, hmin]
      simp only [sumAt] at this
      omega

/-- C108: what was trapped can be claimed by the origin it was trapped for: the claim puts exactly those amounts into its
hands, and that trap is used up. -/
theorem C108_claimable (c : Chain) (o : Location) (h : Hold) (ht : (o, h) ∈ c.traps) (hmax : ∀ l, amt h l ≤ amountMax)
    (rest : List VInstr) (luck : Luck) (hl : luck.fails = false) :
    ∃ m, (Mach.start c o (.claimAsset (contents h) :: rest)).run [luck] = some m ∧ m.code = rest ∧
      (∀ l, amt m.holding l = amt h l) ∧ (∀ l, trapped m.chain.traps l + amt h l = trapped c.traps l) := by
  obtain ⟨us, hus⟩ := claim_found c.traps ht
  refine ⟨Mach.subsume ⟨o, some o, [], [], rest, [], [], { c with traps := us }⟩ (contents h), ?_, ?_, ?_, ?_⟩
  · simp only [Mach.start, Mach.run, Mach.step, hl, Mach.effect, hus]
    rfl
  · exact (subsume_spec _ _).2.2.2.1
  · intro l
    rw [subsume_room]
    · rw [contents_sum]; simp
    · intro k; rw [contents_sum]; simpa using hmax k
  · intro l
    rw [(subsume_spec _ _).2.2.2.2.2.2.2.1]
    have := claim_trapped hus l
    rw [contents_sum] at this
    exact this

/-- C108: whatever a message still holds when it ends is trapped for its origin, or for its sender if it gave up its origin. -/
theorem C108_leftovers (m : Mach) (refund : Refund) (l : Location) (hl : 0 < amt (m.refund refund).holding l) :
    ∃ h, (m.finish refund).traps = m.chain.traps ++ [(m.origin.getD m.sender, h)] ∧
      ∀ k, amt h k = amt (m.refund refund).holding k := by
  obtain ⟨e1, e2, _, _, _, _, _, e8, _, _⟩ := refund_spec m refund
  unfold Mach.finish
  dsimp only
  split
  · rename_i he
    rw [empty_amt he l] at hl
    omega
  · exact ⟨(m.refund refund).holding, by rw [e1, e2, e8], fun _ => rfl⟩

example : ((execute fundedChain ⟨1, [.parachain 2000]⟩ [.withdrawAsset [(⟨1, []⟩, 300)], .clearOrigin, .plain .trap]
    [fineLuck, fineLuck, { fineLuck with fails := true }] ⟨[], 0⟩).any fun c => decide (c.traps = [(⟨1, [.parachain 2000]⟩, [(⟨1, []⟩, 300)])])) =
      true := by decide +kernel

end Verif.Xcm
