import Verif.Xcm.TransferTheorems

/-!
# How long the names in messages are (C131)

A location has at most eight junctions, so a name for another chain that would need more is refused, and all others exist.
-/

namespace Verif.Xcm

open Verif Verif.Runtime Verif.Accounts

theorem simplify_length (ctx : List Junction) : ∀ (p : Nat) (js : List Junction), (simplifyJs ctx p js).2.length ≤ js.length
  | 0, _ => Nat.le_refl _
  | _ + 1, [] => Nat.le_refl _
  | p + 1, j :: js => by
    unfold simplifyJs
    split
    · exact Nat.le_trans (simplify_length ctx p js) (Nat.le_succ _)
    · exact Nat.le_refl _

/-- **C131.** A name for another chain has at most eight junctions. -/
theorem C131_short (self : UInt32) (target l r : Location) (h : reanchor (universalLocation self) target l = some r) :
    r.interior.length ≤ 8 := by
  unfold reanchor at h
  cases hi : invertTarget (universalLocation self) target with
  | none => rw [hi] at h; cases h
  | some inv =>
    rw [hi] at h
    dsimp only at h
    cases hp : l.prependWith inv with
    | none => rw [hp] at h; cases h
    | some q =>
      rw [hp] at h
      cases h
      refine Nat.le_trans (simplify_length _ _ _) ?_
      unfold Location.prependWith at hp
      dsimp only at hp
      split at hp
      · rename_i hc
        cases hp
        exact hc.1
      · cases hp

/-- **C131.** Whatever here has at most seven junctions has a name for the relay chain and for every parachain; a thing with eight
below Kreivo itself has none, since Kreivo's own junction would come first. -/
theorem C131_exactly (self : UInt32) (target l : Location) (ht : target = ⟨1, []⟩ ∨ ∃ id, target = ⟨1, [.parachain id]⟩)
    (hp : l.parents = 0) : (∃ r, reanchor (universalLocation self) target l = some r) ↔ l.interior.length ≤ 7 := by
  have hm : maxJunctions = 8 := rfl
  have hinv : ∃ n, n ≤ 1 ∧ invertTarget (universalLocation self) target = some ⟨UInt8.ofNat n, [.parachain self]⟩ := by
    rcases ht with rfl | ⟨id, rfl⟩
    · exact ⟨0, by omega, rfl⟩
    · exact ⟨1, by omega, rfl⟩
  obtain ⟨n, hn, hinv⟩ := hinv
  have en : (UInt8.ofNat n).toNat = n := by rw [UInt8.toNat_ofNat']; omega
  have key : (∃ q, l.prependWith ⟨UInt8.ofNat n, [.parachain self]⟩ = some q) ↔ l.interior.length ≤ 7 := by
    unfold Location.prependWith
    dsimp only
    rw [en, hp]
    have e0 : (0 : UInt8).toNat = 0 := rfl
    rw [e0, List.length_append, List.length_take, List.length_singleton, hm]
    constructor
    · rintro ⟨q, hq⟩
      split at hq
      · omega
      · cases hq
    · intro h
      rw [if_pos ⟨by omega, by omega⟩]
      exact ⟨_, rfl⟩
  rw [← key]
  unfold reanchor
  rw [hinv]
  dsimp only
  constructor
  · rintro ⟨r, hr⟩
    cases hq : l.prependWith ⟨UInt8.ofNat n, [.parachain self]⟩ with
    | none => rw [hq] at hr; cases hr
    | some q => exact ⟨q, rfl⟩
  · rintro ⟨q, hq⟩
    rw [hq]
    exact ⟨_, rfl⟩

/-- Seven junctions have a name for the relay chain, eight have none. -/
example : (∃ r, reanchor (universalLocation 2281) ⟨1, []⟩ ⟨0, List.replicate 7 (.generalIndex 3)⟩ = some r) ∧
    reanchor (universalLocation 2281) ⟨1, []⟩ ⟨0, List.replicate 8 (.generalIndex 3)⟩ = none := ⟨⟨_, rfl⟩, rfl⟩

end Verif.Xcm
