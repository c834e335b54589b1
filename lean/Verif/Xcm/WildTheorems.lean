import Verif.Xcm.ExactTheorems
import Verif.Xcm.TransferTheorems

/-!
# Deposits of everything (C139)
-/

namespace Verif.Xcm

open Verif Verif.Accounts

/-- C139: a deposit of all of an asset leaves the message none of it, and gives the receiver what there was; counted or not. -/
theorem C139_deposit_all_of (m m' : Mach) (luck : Luck) (dst l : Location) (cur : Cur) (b : AccountId) (f : VFilter)
    (hf : f = .allOf l ∨ ∃ n, f = .allOfCounted l n) (hm : matchAsset l = .cur cur) (hb : locationToAccount dst = some b)
    (h : m.effect luck (.depositAsset f dst) = .ok m') :
    (∀ k, amt m'.holding k = if k = l then 0 else amt m.holding k) ∧
    (∀ k x, m'.chain.ledger.get k x = m.chain.ledger.get k x + if k = cur ∧ x = b then amt m.holding l else 0) := by
  have h' : m.effect luck (.depositAsset (.definite [(l, amt m.holding l)]) dst) = .ok m' := by
    rcases hf with rfl | ⟨n, rfl⟩ <;> exact h
  obtain ⟨h1, h2⟩ := C139_deposit m m' luck dst l _ cur b hm hb h'
  have e : Nat.min (amt m.holding l) (amt m.holding l) = amt m.holding l := Nat.min_self _
  rw [e] at h1 h2
  refine ⟨fun k => ?_, h2⟩
  rw [h1 k]
  split
  · rename_i hk; rw [hk]; omega
  · omega

/-- C139: a deposit of everything leaves the message nothing, and gives the receiver all it held, of every currency. -/
theorem C139_deposit_everything (m m' : Mach) (luck : Luck) (dst : Location)
    (h : m.effect luck (.depositAsset .all dst) = .ok m') :
    (∀ k, amt m'.holding k = 0) ∧
    (∀ (k : Cur) x, m'.chain.ledger.get k x =
      m.chain.ledger.get k x + if locationToAccount dst = some x then amt m.holding k.location else 0) := by
  simp only [Mach.effect] at h
  split at h
  · rename_i a ha
    cases h
    refine ⟨fun k => takeAll_rest _ _ k, fun k x => ?_⟩
    show a.1.get k x = _
    unfold depositAll at ha
    split at ha
    · cases ha
    rw [(deposits_exact _ ha).2 k x]
    have h1 := takeList_spec (VFilter.all.wanted m.holding luck.pick) m.holding k.location
    rw [takeAll_rest] at h1
    have hs : sumAt (takeList m.holding (VFilter.all.wanted m.holding luck.pick)).1 k.location = amt m.holding k.location := by omega
    rw [hs]
    rfl
  · cases h
  · cases h

/-- A message that holds something. Example for non-vacuity (outside /repo). -/
def oneHeld : Mach := { Mach.start hundredthChain ⟨1, [.parachain 2000]⟩ [] with holding := [(⟨1, []⟩, 50000000)] }

/-- It deposits everything, and all of the asset. -/
example : locationToAccount ⟨1, [.parachain 2000]⟩ = some (siblingAccount 2000) ∧ matchAsset ⟨1, []⟩ = .cur .native ∧
    0 < amt oneHeld.holding ⟨1, []⟩ ∧
    (∃ m', oneHeld.effect fineLuck (.depositAsset .all ⟨1, [.parachain 2000]⟩) = .ok m') ∧
    ∃ m', oneHeld.effect fineLuck (.depositAsset (.allOf ⟨1, []⟩) ⟨1, [.parachain 2000]⟩) = .ok m' := by
  refine ⟨by decide +kernel, rfl, by decide +kernel, ?_, ?_⟩
  · have e : ∀ x : Tri Mach, (match x with | .ok _ => true | _ => false) = true → ∃ m', x = .ok m' := by
      intro x h; cases x <;> first | exact ⟨_, rfl⟩ | cases h
    exact e _ (by decide +kernel)
  · have e : ∀ x : Tri Mach, (match x with | .ok _ => true | _ => false) = true → ∃ m', x = .ok m' := by
      intro x h; cases x <;> first | exact ⟨_, rfl⟩ | cases h
    exact e _ (by decide +kernel)

end Verif.Xcm
