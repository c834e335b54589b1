import Verif.Xcm.BarrierTheorems

/-!
# Who administers the collators (runtime/kreivo/src/lib.rs 402-421)
-/

namespace Verif.Xcm

open Verif Verif.Accounts

/-- `IsVoiceOfBody<RelayLocation, StakingAdminBodyId>` (xcm-builder, outside `/repo`) with the configuration of runtime/kreivo/src/lib.rs
409 and xcm_config.rs 37: the location is the relay chain's followed by the voice of the `Defense` body. -/
def isStakingAdmin (l : Location) : Bool :=
  match l.parents, l.interior with
  | 1, [j] => j == .plurality .defense .voice
  | _, _ => false

/-- `CollatorSelectionUpdateOrigin`: runtime/kreivo/src/lib.rs 414-415 (`EnsureXcm` accepts the origin a message passes through). -/
def collatorUpdateOrigin : CallOrigin → Bool
  | .root => true
  | .xcm l => isStakingAdmin l
  | _ => false

theorem isStakingAdmin_iff (l : Location) : isStakingAdmin l = true ↔ l = ⟨1, [.plurality .defense .voice]⟩ := by
  unfold isStakingAdmin
  obtain ⟨p, i⟩ := l
  dsimp only
  constructor
  · intro h
    split at h
    · rw [beq_iff_eq] at h; rw [h]
    · cases h
  · intro h
    cases h
    decide

/-- C104: collators are administered by root and by the voice of the relay chain's staking admin, and by no other origin: no
signer, no community, no parachain and not the relay chain as such. -/
theorem C104_who (o : CallOrigin) :
    collatorUpdateOrigin o = true ↔ o = .root ∨ o = .xcm ⟨1, [.plurality .defense .voice]⟩ := by
  cases o <;> simp [collatorUpdateOrigin, isStakingAdmin_iff]

/-- C104: and a message, whatever it contains and however it fails on the way, only gets there if it was sent by the relay
chain or its staking admin. -/
theorem C104_messages (sender : Location) (msg : List Instr) (fails : List Bool) (o : CallOrigin)
    (ho : o ∈ (Vm.start sender msg).run fails) (h : collatorUpdateOrigin o = true) :
    sender = ⟨1, []⟩ ∨ sender = ⟨1, [.plurality .defense .voice]⟩ := by
  obtain ⟨h1, h2, h3⟩ := C93_never_root sender msg fails o ho
  rcases (C104_who o).mp h with rfl | rfl
  · exact absurd rfl h1
  · obtain ⟨p, i⟩ := sender
    obtain ⟨rfl, hp⟩ := h3 _ rfl
    dsimp only at hp
    rcases List.prefix_cons_iff.mp hp with h | ⟨t, h, ht⟩
    · exact .inl (by rw [h])
    · rw [List.prefix_nil] at ht
      exact .inr (by rw [h, ht])

/-- The staking admin does get there. -/
example : (Vm.start ⟨1, [.plurality .defense .voice]⟩ [.transact .xcm ⟨1, 1⟩]).run [false] =
    [.xcm ⟨1, [.plurality .defense .voice]⟩] := by decide +kernel
example : collatorUpdateOrigin (.xcm ⟨1, [.plurality .defense .voice]⟩) = true := by decide
example : collatorUpdateOrigin (.xcm ⟨1, [.plurality .executive .voice]⟩) = false := by decide

end Verif.Xcm
