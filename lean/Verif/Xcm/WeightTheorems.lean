import Verif.Xcm.Weights
import Mathlib.Tactic.Linarith

/-! # C86, C91: weights of XCM messages -/

namespace Verif.Xcm

open Verif Verif.Runtime

/-! ## Specification -/

/-- The instructions the runtime does not support: HRMP channels, exchange, universal and alias origins, export, locks. -/
def Instr.Unsupported : Instr → Prop
  | .hrmpNewChannelOpenRequest | .hrmpChannelAccepted | .hrmpChannelClosing | .exchangeAsset | .universalOrigin _
  | .exportMessage | .lockAsset | .unlockAsset | .noteUnlockable | .requestUnlock | .aliasOrigin _ => True
  | _ => False

/-- An instruction occurs in a message: in the message itself, or in an error handler or appendix it sets, at any depth. -/
inductive Occurs (i : Instr) : List Instr → Prop
  | here (rest) : Occurs i (i :: rest)
  | later (j) {rest} : Occurs i rest → Occurs i (j :: rest)
  | handler {xcm} (rest) : Occurs i xcm → Occurs i (.setErrorHandler xcm :: rest)
  | appendix {xcm} (rest) : Occurs i xcm → Occurs i (.setAppendix xcm :: rest)

mutual
/-- Number of instructions of a message, handlers and appendices included. -/
def total : List Instr → Nat
  | [] => 0
  | i :: rest => 1 + carried i + total rest
/-- Number of instructions inside an instruction. -/
def carried : Instr → Nat
  | .setErrorHandler xcm => total xcm
  | .setAppendix xcm => total xcm
  | _ => 0
end

/-! ## Lemmas -/

theorem checkedAdd_some {v w s : Weight} (h : Weight.checkedAdd v w = some s) :
    s.refTime = v.refTime + w.refTime ∧ s.proofSize = v.proofSize + w.proofSize ∧ s.refTime ≤ u64Max ∧
      s.proofSize ≤ u64Max := by
  unfold Weight.checkedAdd at h
  split at h
  · rename_i hc
    obtain rfl := Option.some.inj h
    exact ⟨rfl, rfl, hc.1, hc.2⟩
  · cases h

theorem checkedAdd_max_left {v w s : Weight} (hv : v = Weight.max) (h : Weight.checkedAdd v w = some s) :
    s = Weight.max := by
  subst hv
  obtain ⟨h1, h2, h3, h4⟩ := checkedAdd_some h
  obtain ⟨a, b⟩ := s
  unfold Weight.max at *
  dsimp only at *
  generalize u64Max = m at *
  congr 1 <;> omega

theorem checkedAdd_max_right {v w s : Weight} (hw : w = Weight.max) (h : Weight.checkedAdd v w = some s) :
    s = Weight.max := by
  subst hw
  obtain ⟨h1, h2, h3, h4⟩ := checkedAdd_some h
  obtain ⟨a, b⟩ := s
  unfold Weight.max at *
  dsimp only at *
  generalize u64Max = m at *
  congr 1 <;> omega

theorem weighFrom_eq (msg : List Instr) (left : Nat) :
    weighFrom msg left = if msg.length ≤ left then weighAll msg (left - msg.length) else none := by
  rw [weighFrom]

theorem weighAll_cons {i : Instr} {rest : List Instr} {left : Nat} {s : Weight} {l : Nat}
    (h : weighAll (i :: rest) left = some (s, l)) :
    ∃ w l1 v, weighOne i left = some (w, l1) ∧ weighAll rest l1 = some (v, l) ∧ Weight.checkedAdd w v = some s := by
  rw [weighAll] at h
  split at h
  · cases h
  · rename_i w l1 hw
    split at h
    · cases h
    · rename_i v l2 hv
      cases hs : Weight.checkedAdd w v with
      | none => rw [hs] at h; cases h
      | some s' =>
        rw [hs] at h
        simp only [Option.map_some, Option.some.injEq, Prod.mk.injEq] at h
        obtain ⟨rfl, rfl⟩ := h
        exact ⟨w, l1, v, hw, hv, hs⟩

theorem weighFrom_some {msg : List Instr} {left : Nat} {r} (h : weighFrom msg left = some r) :
    msg.length ≤ left ∧ weighAll msg (left - msg.length) = some r := by
  rw [weighFrom_eq] at h
  split at h
  · rename_i hc
    exact ⟨hc, h⟩
  · cases h

theorem weighOne_handler {xcm : List Instr} {left l : Nat} {s : Weight}
    (h : weighOne (.setErrorHandler xcm) left = some (s, l)) :
    ∃ w, weighFrom xcm left = some (w, l) ∧ Weight.checkedAdd Generic.setErrorHandler w = some s := by
  rw [weighOne] at h
  split at h
  · cases h
  · rename_i w l1 hw
    cases hs : Weight.checkedAdd Generic.setErrorHandler w with
    | none => rw [hs] at h; cases h
    | some s' =>
      rw [hs] at h
      simp only [Option.map_some, Option.some.injEq, Prod.mk.injEq] at h
      obtain ⟨rfl, rfl⟩ := h
      exact ⟨w, hw, hs⟩

theorem weighOne_appendix {xcm : List Instr} {left l : Nat} {s : Weight}
    (h : weighOne (.setAppendix xcm) left = some (s, l)) :
    ∃ w, weighFrom xcm left = some (w, l) ∧ Weight.checkedAdd Generic.setAppendix w = some s := by
  rw [weighOne] at h
  split at h
  · cases h
  · rename_i w l1 hw
    cases hs : Weight.checkedAdd Generic.setAppendix w with
    | none => rw [hs] at h; cases h
    | some s' =>
      rw [hs] at h
      simp only [Option.map_some, Option.some.injEq, Prod.mk.injEq] at h
      obtain ⟨rfl, rfl⟩ := h
      exact ⟨w, hw, hs⟩

theorem weighOne_unsupported {i : Instr} (hu : i.Unsupported) {left l : Nat} {s : Weight}
    (h : weighOne i left = some (s, l)) : s = Weight.max := by
  cases i <;> simp [Instr.Unsupported] at hu <;>
    (simp [weighOne, Instr.weight] at h; exact h.1.symm)

theorem occurs_max {i : Instr} (hu : i.Unsupported) {msg : List Instr} (ho : Occurs i msg) :
    ∀ left s l, weighAll msg left = some (s, l) → s = Weight.max := by
  induction ho with
  | here rest =>
    intro left s l h
    obtain ⟨w, l1, v, h1, h2, h3⟩ := weighAll_cons h
    exact checkedAdd_max_left (weighOne_unsupported hu h1) h3
  | later j _ ih =>
    intro left s l h
    obtain ⟨w, l1, v, h1, h2, h3⟩ := weighAll_cons h
    exact checkedAdd_max_right (ih _ _ _ h2) h3
  | handler rest _ ih =>
    intro left s l h
    obtain ⟨w, l1, v, h1, h2, h3⟩ := weighAll_cons h
    obtain ⟨w', h4, h5⟩ := weighOne_handler h1
    exact checkedAdd_max_left (checkedAdd_max_right (ih _ _ _ (weighFrom_some h4).2) h5) h3
  | appendix rest _ ih =>
    intro left s l h
    obtain ⟨w, l1, v, h1, h2, h3⟩ := weighAll_cons h
    obtain ⟨w', h4, h5⟩ := weighOne_appendix h1
    exact checkedAdd_max_left (checkedAdd_max_right (ih _ _ _ (weighFrom_some h4).2) h5) h3

/-! ## C86 -/

/-- C86: a message in which an unsupported instruction occurs at any depth is refused by the weigher, or weighs the
maximum in both components, so that it fits no limit below the maximum. -/
theorem C86_unsupported (i : Instr) (hu : i.Unsupported) (msg : List Instr) (ho : Occurs i msg) :
    messageWeight msg = none ∨ messageWeight msg = some Weight.max := by
  unfold messageWeight
  cases h : weighFrom msg maxInstructions with
  | none => exact .inl rfl
  | some r =>
    obtain ⟨s, l⟩ := r
    right
    have := occurs_max hu ho _ _ _ (weighFrom_some h).2
    subst this
    rfl

theorem C86_fits_no_limit (i : Instr) (hu : i.Unsupported) (msg : List Instr) (ho : Occurs i msg) (limit w : Weight)
    (hl : limit.refTime < u64Max ∨ limit.proofSize < u64Max) (hw : messageWeight msg = some w) :
    ¬ (w.refTime ≤ limit.refTime ∧ w.proofSize ≤ limit.proofSize) := by
  rcases C86_unsupported i hu msg ho with h | h
  · rw [h] at hw; cases hw
  · rw [h] at hw
    obtain rfl := Option.some.inj hw
    unfold Weight.max
    dsimp only
    generalize u64Max = m at *
    omega

/-- C86: and it is the unsupported ones only: what any other single instruction weighs by itself is below the maximum,
for up to ten billion assets. -/
theorem C86_supported (i : Instr) (hu : ¬ i.Unsupported)
    (hn : ∀ n, i = .withdrawAsset n ∨ i = .receiveTeleportedAsset n ∨ i = .transferAsset n ∨ i = .transferReserveAsset n ∨
      i = .burnAsset n ∨ i = .expectAsset n ∨ i = .depositReserveAsset (.definite n) ∨
      i = .initiateReserveWithdraw (.definite n) ∨ i = .initiateTeleport (.definite n) → n ≤ 10000000000) :
    i.weight.refTime < u64Max ∧ i.weight.proofSize < u64Max := by
  have key : ∀ w : Weight, ∀ n, w.refTime ≤ 1000000000 → w.proofSize ≤ 10000 → n ≤ 10000000000 →
      (Weight.satMul w n).refTime < u64Max ∧ (Weight.satMul w n).proofSize < u64Max := by
    intro w n h1 h2 h3
    unfold Weight.satMul
    dsimp only
    have a1 : w.refTime * n ≤ 1000000000 * 10000000000 := Nat.mul_le_mul h1 h3
    have a2 : w.proofSize * n ≤ 10000 * 10000000000 := Nat.mul_le_mul h2 h3
    have e : u64Max = 18446744073709551615 := by decide +kernel
    rw [e]
    simp only [Nat.min_def]
    constructor <;> split <;> omega
  have keyF : ∀ w : Weight, ∀ f : AssetFilter, w.refTime ≤ 1000000000 → w.proofSize ≤ 10000 →
      (∀ n, f = .definite n → n ≤ 10000000000) → (f.weigh w).refTime < u64Max ∧ (f.weigh w).proofSize < u64Max := by
    intro w f h1 h2 h3
    cases f <;> unfold AssetFilter.weigh <;> dsimp only
    · exact key w _ h1 h2 (h3 _ rfl)
    · exact key w _ h1 h2 (by decide)
    · have e : u64Max = 18446744073709551615 := by decide +kernel
      omega
    · exact key w _ h1 h2 (by decide)
    · exact key w _ h1 h2 (Nat.le_trans (Nat.min_le_left _ _) (by decide))
    · exact key w _ h1 h2 (Nat.le_trans (Nat.min_le_left _ _) (by decide))
  cases i <;> simp only [Instr.Unsupported, not_true_eq_false, not_false_eq_true] at hu <;> unfold Instr.weight <;>
    dsimp only <;> try decide +kernel
  case withdrawAsset n => exact key _ _ (by decide) (by decide) (hn n (by simp))
  case receiveTeleportedAsset n => exact key _ _ (by decide) (by decide) (hn n (by simp))
  case transferAsset n => exact key _ _ (by decide) (by decide) (hn n (by simp))
  case transferReserveAsset n => exact key _ _ (by decide) (by decide) (hn n (by simp))
  case burnAsset n => exact key _ _ (by decide) (by decide) (hn n (by simp))
  case expectAsset n => exact key _ _ (by decide) (by decide) (hn n (by simp))
  case depositReserveAsset f => exact keyF _ _ (by decide) (by decide) (fun n h => hn n (by simp [h]))
  case initiateReserveWithdraw f => exact keyF _ _ (by decide) (by decide) (fun n h => hn n (by simp [h]))
  case initiateTeleport f => exact keyF _ _ (by decide) (by decide) (fun n h => hn n (by simp [h]))
  case depositAsset f =>
    unfold Weight.min
    dsimp only
    have e : u64Max = 18446744073709551615 := by decide +kernel
    rw [e]
    have h1 := Nat.min_le_left 1000000000 (f.weigh Fungible.depositAsset).refTime
    have h2 := Nat.min_le_left 0 (f.weigh Fungible.depositAsset).proofSize
    constructor
    · exact Nat.lt_of_le_of_lt h1 (by decide)
    · exact Nat.lt_of_le_of_lt h2 (by decide)

mutual
theorem weighFrom_count : ∀ (msg : List Instr) (left : Nat) (s : Weight) (l : Nat), weighFrom msg left = some (s, l) →
    total msg + l = left
  | msg, left, s, l, h => by
    obtain ⟨h1, h2⟩ := weighFrom_some h
    have := weighAll_count msg _ s l h2
    omega
  termination_by m => (sizeOf m, 2)
theorem weighAll_count : ∀ (msg : List Instr) (left : Nat) (s : Weight) (l : Nat), weighAll msg left = some (s, l) →
    total msg + l = left + msg.length
  | [], left, s, l, h => by
    rw [weighAll] at h
    simp only [Option.some.injEq, Prod.mk.injEq] at h
    simp [total, h.2]
  | i :: rest, left, s, l, h => by
    obtain ⟨w, l1, v, h1, h2, h3⟩ := weighAll_cons h
    have a := weighOne_count i _ _ _ h1
    have b := weighAll_count rest _ _ _ h2
    simp only [total, List.length_cons]
    omega
  termination_by m => (sizeOf m, 1)
theorem weighOne_count (i : Instr) (left : Nat) (s : Weight) (l : Nat) (h : weighOne i left = some (s, l)) :
    carried i + l = left := by
  match i, h with
  | .setErrorHandler xcm, h =>
    obtain ⟨w, h1, h2⟩ := weighOne_handler h
    have := weighFrom_count xcm _ _ _ h1
    simpa [carried] using this
  | .setAppendix xcm, h =>
    obtain ⟨w, h1, h2⟩ := weighOne_appendix h
    have := weighFrom_count xcm _ _ _ h1
    simpa [carried] using this
  | .transact k w, h =>
    rw [weighOne] at h
    cases hs : Weight.checkedAdd (Instr.weight (.transact k w)) w with
    | none => rw [hs] at h; cases h
    | some s' =>
      rw [hs] at h
      simp only [Option.map_some, Option.some.injEq, Prod.mk.injEq] at h
      simp [carried, h.2]
  | .withdrawAsset _, h | .reserveAssetDeposited _, h | .receiveTeleportedAsset _, h | .queryResponse, h
  | .transferAsset _, h | .transferReserveAsset _, h | .hrmpNewChannelOpenRequest, h | .hrmpChannelAccepted, h
  | .hrmpChannelClosing, h | .clearOrigin, h | .descendOrigin _, h | .reportError, h | .depositAsset _, h
  | .depositReserveAsset _, h | .exchangeAsset, h | .initiateReserveWithdraw _, h | .initiateTeleport _, h
  | .reportHolding, h | .buyExecution _, h | .refundSurplus, h | .clearError, h | .claimAsset _, h | .trap, h
  | .subscribeVersion, h | .unsubscribeVersion, h | .burnAsset _, h | .expectAsset _, h | .expectOrigin _, h
  | .expectError, h | .expectTransactStatus, h | .queryPallet, h | .expectPallet, h | .reportTransactStatus, h
  | .clearTransactStatus, h | .universalOrigin _, h | .exportMessage, h | .lockAsset, h | .unlockAsset, h
  | .noteUnlockable, h | .requestUnlock, h | .setFeesMode, h | .setTopic, h | .clearTopic, h | .aliasOrigin _, h
  | .unpaidExecution _ _, h =>
    simp [weighOne] at h
    simp [carried, h.2]
  termination_by (sizeOf i, 0)
end

/-- C86: no message of more than a hundred instructions, handlers and appendices included, gets a weight at all. -/
theorem C86_at_most_100 (msg : List Instr) (w : Weight) (h : messageWeight msg = some w) : total msg ≤ 100 := by
  unfold messageWeight at h
  cases hf : weighFrom msg maxInstructions with
  | none => rw [hf] at h; cases h
  | some r =>
    obtain ⟨s, l⟩ := r
    have := weighFrom_count _ _ _ _ hf
    unfold maxInstructions at this
    omega

theorem satMul_mono (w : Weight) {m n : Nat} (h : m ≤ n) :
    (Weight.satMul w m).refTime ≤ (Weight.satMul w n).refTime ∧
      (Weight.satMul w m).proofSize ≤ (Weight.satMul w n).proofSize := by
  unfold Weight.satMul
  dsimp only
  have a := Nat.mul_le_mul_left w.refTime h
  have b := Nat.mul_le_mul_left w.proofSize h
  simp only [Nat.min_def]
  generalize u64Max = x at *
  constructor <;> split <;> split <;> omega

/-- The instructions that handle a list of assets and pay by the number of them. -/
inductive PerAsset
  | withdraw | receiveTeleported | transfer | transferReserve | burn | expect

/-- Such an instruction for so many assets. -/
def PerAsset.instr : PerAsset → Nat → Instr
  | .withdraw, n => .withdrawAsset n
  | .receiveTeleported, n => .receiveTeleportedAsset n
  | .transfer, n => .transferAsset n
  | .transferReserve, n => .transferReserveAsset n
  | .burn, n => .burnAsset n
  | .expect, n => .expectAsset n

/-- The instructions that take assets matching a filter out of the holding register and pay by the number of them. -/
inductive PerMatch
  | depositReserve | initiateReserveWithdraw | initiateTeleport

def PerMatch.instr : PerMatch → AssetFilter → Instr
  | .depositReserve, f => .depositReserveAsset f
  | .initiateReserveWithdraw, f => .initiateReserveWithdraw f
  | .initiateTeleport, f => .initiateTeleport f

/-- C86: more assets never weigh less, and below the largest weight every asset adds the weight of one. -/
theorem C86_grows (p : PerAsset) {m n : Nat} (h : m ≤ n) :
    (p.instr m).weight.refTime ≤ (p.instr n).weight.refTime ∧
      (p.instr m).weight.proofSize ≤ (p.instr n).weight.proofSize := by
  cases p <;> exact satMul_mono _ h

theorem C86_linear (p : PerAsset) (n : Nat) :
    (p.instr n).weight.refTime = min u64Max (n * (p.instr 1).weight.refTime) ∧
      (p.instr n).weight.proofSize = min u64Max (n * (p.instr 1).weight.proofSize) := by
  have key : ∀ w : Weight, w.refTime ≤ u64Max → w.proofSize ≤ u64Max →
      (Weight.satMul w n).refTime = min u64Max (n * (Weight.satMul w 1).refTime) ∧
        (Weight.satMul w n).proofSize = min u64Max (n * (Weight.satMul w 1).proofSize) := by
    intro w h1 h2
    unfold Weight.satMul
    dsimp only
    rw [Nat.mul_one, Nat.mul_one, show Nat.min u64Max w.refTime = w.refTime from Nat.min_eq_right h1,
      show Nat.min u64Max w.proofSize = w.proofSize from Nat.min_eq_right h2, Nat.mul_comm n, Nat.mul_comm n]
    exact ⟨rfl, rfl⟩
  cases p <;> exact key _ (by decide +kernel) (by decide +kernel)

/-- C86: with a filter that names a number of assets the weight grows with it up to a hundred, and is the same from
there on; naming the list grows without that cap. -/
theorem C86_filter_grows (p : PerMatch) {m n : Nat} (h : m ≤ n) (mk : Nat → AssetFilter)
    (hm : mk = .definite ∨ mk = .allCounted ∨ mk = .allOfCounted) :
    (p.instr (mk m)).weight.refTime ≤ (p.instr (mk n)).weight.refTime ∧
      (p.instr (mk m)).weight.proofSize ≤ (p.instr (mk n)).weight.proofSize := by
  have hmin : Nat.min maxAssets m ≤ Nat.min maxAssets n := by simp only [Nat.min_def]; split <;> split <;> omega
  rcases hm with rfl | rfl | rfl <;> cases p <;> first | exact satMul_mono _ h | exact satMul_mono _ hmin

theorem C86_filter_cap (p : PerMatch) (n : Nat) (h : 100 ≤ n) :
    (p.instr (.allCounted n)).weight = (p.instr .all).weight ∧
      (p.instr (.allOfCounted n)).weight = (p.instr .all).weight := by
  have hmin : Nat.min maxAssets n = maxAssets := Nat.min_eq_left h
  cases p <;> simp only [PerMatch.instr, Instr.weight, AssetFilter.weigh, hmin, and_self]

/-! ## C91: weights cover the benchmarks -/

/-- How many assets of a holding register of `h` assets a filter can take. -/
def AssetFilter.takes : AssetFilter → Nat → Nat → Prop
  | .definite n, _, k => k ≤ n
  | .all, h, k => k ≤ h
  | .allOfFungible, h, k => k ≤ h ∧ k ≤ 1
  | .allOfNonFungible, h, k => k ≤ h
  | .allCounted n, h, k => k ≤ h ∧ k ≤ n
  | .allOfCounted n, h, k => k ≤ h ∧ k ≤ n

/-- A weight covers `k` times a benchmark, as far as weights go. -/
def CoversTimes (w : Weight) (k : Nat) (b : Weight) : Prop :=
  min u64Max (k * b.refTime) ≤ w.refTime ∧ min u64Max (k * b.proofSize) ≤ w.proofSize

/-- The benchmark of one asset, for every instruction that handles assets. -/
def Instr.perAsset : Instr → Option Weight
  | .withdrawAsset _ => some Fungible.withdrawAsset
  | .receiveTeleportedAsset _ => some Fungible.receiveTeleportedAsset
  | .transferAsset _ => some Fungible.transferAsset
  | .transferReserveAsset _ => some Fungible.transferReserveAsset
  | .depositAsset _ => some Fungible.depositAsset
  | .depositReserveAsset _ => some Fungible.depositReserveAsset
  | .initiateReserveWithdraw _ => some Generic.initiateReserveWithdraw
  | .initiateTeleport _ => some Fungible.initiateTeleport
  | .burnAsset _ => some Generic.burnAsset
  | .expectAsset _ => some Generic.expectAsset
  | .claimAsset _ => some Generic.claimAsset
  | _ => none

/-- How many assets an instruction handles, with a holding register of `h` assets. -/
def Instr.handles : Instr → Nat → Nat → Prop
  | .withdrawAsset n, _, k | .receiveTeleportedAsset n, _, k | .transferAsset n, _, k | .transferReserveAsset n, _, k
  | .burnAsset n, _, k | .expectAsset n, _, k | .claimAsset n, _, k => k ≤ n
  | .depositAsset f, h, k | .depositReserveAsset f, h, k | .initiateReserveWithdraw f, h, k | .initiateTeleport f, h, k =>
    f.takes h k
  | _, _, _ => False

theorem satMul_covers (w : Weight) {k n : Nat} (h : k ≤ n) : CoversTimes (Weight.satMul w n) k w := by
  unfold CoversTimes Weight.satMul
  dsimp only
  have a := Nat.mul_le_mul_left w.refTime h
  have b := Nat.mul_le_mul_left w.proofSize h
  rw [Nat.mul_comm k, Nat.mul_comm k]
  exact ⟨by show min _ _ ≤ min _ _; omega, by show min _ _ ≤ min _ _; omega⟩

theorem weigh_covers (f : AssetFilter) (w : Weight) {h k : Nat} (hk : f.takes h k) (hh : h ≤ 100) :
    CoversTimes (f.weigh w) k w := by
  cases f <;> unfold AssetFilter.takes at hk <;> unfold AssetFilter.weigh <;> dsimp only
  · exact satMul_covers _ hk
  · exact satMul_covers _ (Nat.le_trans hk hh)
  · have h1 := hk.2
    unfold CoversTimes
    have a := Nat.mul_le_mul_right w.refTime h1
    have b := Nat.mul_le_mul_right w.proofSize h1
    rw [Nat.one_mul] at a b
    omega
  · exact satMul_covers _ (Nat.le_trans hk (Nat.le_trans hh (by decide)))
  · exact satMul_covers _ (Nat.le_min.mpr ⟨Nat.le_trans hk.1 hh, hk.2⟩)
  · exact satMul_covers _ (Nat.le_min.mpr ⟨Nat.le_trans hk.1 hh, hk.2⟩)

/-- C91 fails: depositing a single asset is charged no proof size at all, although its benchmark needs some. -/
theorem C91_deposit_fails :
    ∃ f h k b, (Instr.depositAsset f).handles h k ∧ h ≤ 64 ∧ (Instr.depositAsset f).perAsset = some b ∧
      (Instr.depositAsset f).weight.proofSize = 0 ∧ 0 < b.proofSize ∧
      ¬ CoversTimes (Instr.depositAsset f).weight k b :=
  ⟨.definite 1, 1, 1, Fungible.depositAsset, Nat.le_refl 1, by decide, rfl, rfl, by decide, fun h => by
    have h2 := h.2
    revert h2
    decide +kernel⟩

/-- C91 fails: and depositing is never charged more than a millisecond, whatever the number of assets. -/
theorem C91_deposit_cap_fails :
    (∀ f, (Instr.depositAsset f).weight.refTime ≤ 1000000000) ∧
      ∃ f h k b, (Instr.depositAsset f).handles h k ∧ h ≤ 64 ∧ (Instr.depositAsset f).perAsset = some b ∧
        (Instr.depositAsset f).weight.refTime < k * b.refTime := by
  constructor
  · intro f
    exact Nat.min_le_left _ _
  · exact ⟨.all, 64, 64, Fungible.depositAsset, Nat.le_refl 64, by decide, rfl, by decide +kernel⟩

/-- C91 fails: claiming several trapped assets is charged as one. -/
theorem C91_claim_fails :
    ∃ n k b, (Instr.claimAsset n).handles 0 k ∧ (Instr.claimAsset n).perAsset = some b ∧
      ¬ CoversTimes (Instr.claimAsset n).weight k b :=
  ⟨2, 2, Generic.claimAsset, Nat.le_refl 2, rfl, fun h => by
    have h1 := h.1
    revert h1
    decide +kernel⟩

/-- C91, proved part: every other instruction that handles assets is charged at least its benchmark for each asset it
handles, with up to a hundred assets in holding. -/
theorem C91_covers_partial (i : Instr) (hd : ∀ f, i ≠ .depositAsset f) (hc : ∀ n, i ≠ .claimAsset n) (h k : Nat)
    (hk : i.handles h k) (hh : h ≤ 100) (b : Weight) (hb : i.perAsset = some b) :
    CoversTimes i.weight k b := by
  cases i <;> simp only [Instr.perAsset, Option.some.injEq, reduceCtorEq] at hb <;> subst hb <;>
    unfold Instr.handles at hk <;> dsimp only at hk <;> unfold Instr.weight
  case withdrawAsset => exact satMul_covers _ hk
  case receiveTeleportedAsset => exact satMul_covers _ hk
  case transferAsset => exact satMul_covers _ hk
  case transferReserveAsset => exact satMul_covers _ hk
  case burnAsset => exact satMul_covers _ hk
  case expectAsset => exact satMul_covers _ hk
  case depositReserveAsset => exact weigh_covers _ _ hk hh
  case initiateReserveWithdraw => exact weigh_covers _ _ hk hh
  case initiateTeleport => exact weigh_covers _ _ hk hh
  case depositAsset f => exact absurd rfl (hd f)
  case claimAsset n => exact absurd rfl (hc n)

/-- The benchmarks of the instructions that handle no assets: picoseconds, bytes of proof, items read, items written.
Specification only, no code behind it: figures of runtime/kreivo/src/weights/xcm/pallet_xcm_benchmarks_generic.rs 63-347. -/
def Instr.benchmark : Instr → Option (Nat × Nat × Nat × Nat)
  | .queryResponse => some (11070000, 3534, 1, 0)
  | .transact _ _ => some (13787000, 0, 0, 0)
  | .clearOrigin => some (2750000, 0, 0, 0)
  | .descendOrigin _ => some (3679000, 0, 0, 0)
  | .reportError => some (25553000, 3540, 6, 2)
  | .reportHolding => some (349790000, 3540, 6, 2)
  | .buyExecution _ => some (3994000, 0, 0, 0)
  | .refundSurplus => some (4328000, 0, 0, 0)
  | .setErrorHandler _ => some (2761000, 0, 0, 0)
  | .setAppendix _ => some (2723000, 0, 0, 0)
  | .clearError => some (2866000, 0, 0, 0)
  | .trap => some (2732000, 0, 0, 0)
  | .subscribeVersion => some (28531000, 3540, 6, 3)
  | .unsubscribeVersion => some (4996000, 0, 0, 1)
  | .expectOrigin _ => some (2831000, 0, 0, 0)
  | .expectError => some (2798000, 0, 0, 0)
  | .expectTransactStatus => some (2930000, 0, 0, 0)
  | .queryPallet => some (29596000, 3540, 6, 2)
  | .expectPallet => some (5444000, 0, 0, 0)
  | .reportTransactStatus => some (25842000, 3540, 6, 2)
  | .clearTransactStatus => some (2787000, 0, 0, 0)
  | .setFeesMode => some (2738000, 0, 0, 0)
  | .setTopic => some (2692000, 0, 0, 0)
  | .clearTopic => some (2705000, 0, 0, 0)
  | .unpaidExecution _ _ => some (2966000, 0, 0, 0)
  | _ => none

/-- C91, proved part: every instruction that handles no assets is charged its benchmark, with 25 microseconds for every item
read and 100 for every item written; and every instruction is one of those, one that handles assets, unsupported, or
`ReserveAssetDeposited`, which has no benchmark and is charged 10 nanoseconds. -/
theorem C91_benchmark_partial (i : Instr) :
    (∀ t p r w, i.benchmark = some (t, p, r, w) →
      i.weight.refTime = t + 25000000 * r + 100000000 * w ∧ i.weight.proofSize = p) ∧
    (i.benchmark = none → i.perAsset ≠ none ∨ i.Unsupported ∨
      ∃ n, i = .reserveAssetDeposited n ∧ i.weight = ⟨10000, 0⟩) := by
  cases i <;> refine ⟨?_, ?_⟩ <;> simp only [Instr.benchmark, reduceCtorEq, false_imp_iff, implies_true, Option.some.injEq,
    Prod.mk.injEq, Instr.perAsset, ne_eq, not_false_eq_true, true_or, Instr.Unsupported, or_true]
  all_goals first
    | (rintro t p r w ⟨rfl, rfl, rfl, rfl⟩; exact ⟨rfl, rfl⟩)
    | exact fun _ => Or.inr (Or.inr ⟨_, rfl, rfl⟩)

/-- Example for non-vacuity (outside /repo): reporting an error reads six items and writes two. -/
example : Instr.reportError.benchmark = some (25553000, 3540, 6, 2) ∧ Instr.reportError.weight = ⟨375553000, 3540⟩ :=
  ⟨rfl, rfl⟩

mutual
/-- Every instruction of a message, the ones in handlers and appendices included. -/
def flatten : List Instr → List Instr
  | [] => []
  | i :: rest => i :: (inside i ++ flatten rest)
def inside : Instr → List Instr
  | .setErrorHandler xcm => flatten xcm
  | .setAppendix xcm => flatten xcm
  | _ => []
end

/-- What an instruction may use: its own weight, and for `Transact` also the weight its call may use. -/
def Instr.mayUse : Instr → Weight
  | .transact k b => ⟨(Instr.transact k b).weight.refTime + b.refTime, (Instr.transact k b).weight.proofSize + b.proofSize⟩
  | i => i.weight

theorem weighOne_plain {i : Instr} {left l : Nat} {s : Weight} (h1 : weighOne i left = some (i.weight, left))
    (h2 : inside i = []) (h3 : i.mayUse = i.weight) (h : weighOne i left = some (s, l)) :
    s.refTime = i.mayUse.refTime + ((inside i).map (·.mayUse.refTime)).sum ∧
      s.proofSize = i.mayUse.proofSize + ((inside i).map (·.mayUse.proofSize)).sum := by
  rw [h1] at h
  simp only [Option.some.injEq, Prod.mk.injEq] at h
  rw [h2, h3, ← h.1]
  simp only [List.map_nil, List.sum_nil]
  omega

mutual
theorem weighFrom_sum : ∀ (msg : List Instr) (left : Nat) (s : Weight) (l : Nat), weighFrom msg left = some (s, l) →
    s.refTime = ((flatten msg).map (·.mayUse.refTime)).sum ∧ s.proofSize = ((flatten msg).map (·.mayUse.proofSize)).sum
  | msg, left, s, l, h => weighAll_sum msg _ s l (weighFrom_some h).2
  termination_by m => (sizeOf m, 2)
theorem weighAll_sum : ∀ (msg : List Instr) (left : Nat) (s : Weight) (l : Nat), weighAll msg left = some (s, l) →
    s.refTime = ((flatten msg).map (·.mayUse.refTime)).sum ∧ s.proofSize = ((flatten msg).map (·.mayUse.proofSize)).sum
  | [], left, s, l, h => by
    rw [weighAll] at h
    simp only [Option.some.injEq, Prod.mk.injEq] at h
    rw [← h.1]
    exact ⟨rfl, rfl⟩
  | i :: rest, left, s, l, h => by
    obtain ⟨w, l1, v, h1, h2, h3⟩ := weighAll_cons h
    have a := weighOne_sum i _ _ _ h1
    have b := weighAll_sum rest _ _ _ h2
    obtain ⟨c1, c2, _, _⟩ := checkedAdd_some h3
    simp only [flatten, List.map_cons, List.map_append, List.sum_cons, List.sum_append]
    omega
  termination_by m => (sizeOf m, 1)
theorem weighOne_sum (i : Instr) (left : Nat) (s : Weight) (l : Nat) (h : weighOne i left = some (s, l)) :
    s.refTime = i.mayUse.refTime + ((inside i).map (·.mayUse.refTime)).sum ∧
      s.proofSize = i.mayUse.proofSize + ((inside i).map (·.mayUse.proofSize)).sum := by
  match i, h with
  | .setErrorHandler xcm, h =>
    obtain ⟨w, h1, h2⟩ := weighOne_handler h
    have := weighFrom_sum xcm _ _ _ h1
    obtain ⟨c1, c2, _, _⟩ := checkedAdd_some h2
    rw [show (Instr.setErrorHandler xcm).mayUse = Generic.setErrorHandler from rfl]
    simp only [inside]
    omega
  | .setAppendix xcm, h =>
    obtain ⟨w, h1, h2⟩ := weighOne_appendix h
    have := weighFrom_sum xcm _ _ _ h1
    obtain ⟨c1, c2, _, _⟩ := checkedAdd_some h2
    rw [show (Instr.setAppendix xcm).mayUse = Generic.setAppendix from rfl]
    simp only [inside]
    omega
  | .transact k w, h =>
    rw [weighOne] at h
    cases hs : Weight.checkedAdd (Instr.weight (.transact k w)) w with
    | none => rw [hs] at h; cases h
    | some s' =>
      rw [hs] at h
      simp only [Option.map_some, Option.some.injEq, Prod.mk.injEq] at h
      obtain ⟨rfl, rfl⟩ := h
      obtain ⟨c1, c2, _, _⟩ := checkedAdd_some hs
      simp only [inside, Instr.mayUse, List.map_nil, List.sum_nil]
      omega
  | .withdrawAsset _, h | .reserveAssetDeposited _, h | .receiveTeleportedAsset _, h | .queryResponse, h
  | .transferAsset _, h | .transferReserveAsset _, h | .hrmpNewChannelOpenRequest, h | .hrmpChannelAccepted, h
  | .hrmpChannelClosing, h | .clearOrigin, h | .descendOrigin _, h | .reportError, h | .depositAsset _, h
  | .depositReserveAsset _, h | .exchangeAsset, h | .initiateReserveWithdraw _, h | .initiateTeleport _, h
  | .reportHolding, h | .buyExecution _, h | .refundSurplus, h | .clearError, h | .claimAsset _, h | .trap, h
  | .subscribeVersion, h | .unsubscribeVersion, h | .burnAsset _, h | .expectAsset _, h | .expectOrigin _, h
  | .expectError, h | .expectTransactStatus, h | .queryPallet, h | .expectPallet, h | .reportTransactStatus, h
  | .clearTransactStatus, h | .universalOrigin _, h | .exportMessage, h | .lockAsset, h | .unlockAsset, h
  | .noteUnlockable, h | .requestUnlock, h | .setFeesMode, h | .setTopic, h | .clearTopic, h | .aliasOrigin _, h
  | .unpaidExecution _ _, h =>
    exact weighOne_plain (by simp only [weighOne]) (by simp only [inside]) (by simp only [Instr.mayUse]) h
  termination_by (sizeOf i, 0)
end

/-- C91, proved part: a message weighs exactly the sum of what each of its instructions may use, handlers and appendices
included, and the calls of its `Transact`s at the weight they may use. -/
theorem C91_sum_partial (msg : List Instr) (w : Weight) (h : messageWeight msg = some w) :
    w.refTime = ((flatten msg).map (·.mayUse.refTime)).sum ∧
      w.proofSize = ((flatten msg).map (·.mayUse.proofSize)).sum := by
  unfold messageWeight at h
  cases hf : weighFrom msg maxInstructions with
  | none => rw [hf] at h; cases h
  | some r =>
    obtain ⟨s, l⟩ := r
    rw [hf] at h
    obtain rfl := Option.some.inj h
    exact weighFrom_sum _ _ _ _ hf

/-! ## Examples -/

example : Occurs .lockAsset [.clearOrigin, .setAppendix [.trap, .setErrorHandler [.lockAsset]]] :=
  .later _ (.appendix _ (.later _ (.handler _ (.here _))))
example : Instr.lockAsset.Unsupported := trivial
/-- A message with an appendix and a call has a weight. -/
example : messageWeight [.withdrawAsset 1, .buyExecution .unlimited, .setAppendix [.refundSurplus, .depositAsset .all],
    .transact .sovereignAccount ⟨500000000, 2000⟩] = some ⟨1676445000, 5593⟩ := by
  simp only [messageWeight, weighFrom_eq, weighAll, weighOne]
  decide +kernel
example : Instr.handles (.initiateTeleport .all) 64 64 := Nat.le_refl 64

end Verif.Xcm
