import Verif.Accounts.Model

/-!
# Upgrades of the runtime

The calls of `frame_system` that replace the runtime, and `cumulus_pallet_parachain_system`, through which Kreivo sends
every replacement (runtime/kreivo/src/configuration/system_support.rs 83-84): the new code waits until the relay chain
agrees. Both are outside `/repo`. The deprecated calls of the parachain pallet with the same effect as
`authorize_upgrade` and `apply_authorized_upgrade` are not modelled apart.
-/

namespace Verif.Runtime.Upgrade

open Verif Verif.Accounts Verif.Runtime

/-- What the pallets ask of the host: the hash of a code, its size, and the name and version of the specification written
into it, if it can be read (`sp_io::misc::runtime_version`). Outside /repo; used at
runtime/kreivo/src/configuration/system_support.rs 57-86 (frame_system). -/
structure Host (C H : Type) where
  hash : C → H
  size : C → Nat
  version : C → Option (String × Nat)

/-- The storage: the code in force; `PendingValidationCode`; `AuthorizedUpgrade` with `check_version`; whether
`ValidationData` exists; whether `UpgradeRestrictionSignal` forbids upgrades; and the `max_code_size` of
`HostConfiguration`. Outside /repo; used at runtime/kreivo/src/configuration/system_support.rs 57-108 (frame_system,
cumulus_pallet_parachain_system). -/
structure St (C H : Type) where
  code : C
  pending : Option C
  authorized : Option (H × Bool)
  validation : Bool
  restricted : Bool
  maxSize : Option Nat

/-- `Version = VERSION`: the name of the specification, and its number. runtime/kreivo/src/lib.rs 160-170,
runtime/kreivo/src/configuration/system_support.rs 13, 70-71. -/
def kreivoVersion : String × Nat := ("kreivo-parachain", 114)

/-- `can_set_code` with the version check: the new code has the name of the one in force and a greater number. `current` is
the constant `Version` of the code in force. Outside /repo; used at
runtime/kreivo/src/configuration/system_support.rs 70-71 (frame_system). -/
def canSetCode {C H : Type} (host : Host C H) (current : String × Nat) (c : C) : Bool :=
  match host.version c with
  | some v => decide (v.1 = current.1 ∧ current.2 < v.2)
  | none => false

/-- `OnSetCode = ParachainSetCode`, that is `schedule_code_upgrade`: the new code waits for the relay chain. Outside
/repo; used at runtime/kreivo/src/configuration/system_support.rs 83-84 (cumulus_pallet_parachain_system). -/
def scheduleUpgrade {C H : Type} (host : Host C H) (s : St C H) (c : C) : Option (St C H) :=
  match s.maxSize with
  | none => none
  | some m =>
    if s.validation = true ∧ s.restricted = false ∧ s.pending = none ∧ host.size c ≤ m then
      some { s with pending := some c }
    else none

/-- The calls: `set_code`, `set_code_without_checks`, `authorize_upgrade`, `authorize_upgrade_without_checks`,
`apply_authorized_upgrade`, and those that write storage directly (`set_storage`, `kill_storage`, `kill_prefix`), which may
do anything to this one. Outside /repo; used at runtime/kreivo/src/configuration/system_support.rs 57-86 (frame_system). -/
inductive Call (C H : Type)
  | setCode (c : C)
  | setCodeWithoutChecks (c : C)
  | authorize (h : H)
  | authorizeWithoutChecks (h : H)
  | applyAuthorized (c : C)
  | writeStorage (s : St C H)

/-- What they do; all but `apply_authorized_upgrade` are for root. `current` is the version of the code in force. Outside
/repo; used at runtime/kreivo/src/configuration/system_support.rs 57-86 (frame_system). -/
def dispatch {C H : Type} [DecidableEq H] (host : Host C H) (current : String × Nat) (s : St C H) (o : RtOrigin) :
    Call C H → Option (St C H)
  | .setCode c => if o = .root ∧ canSetCode host current c = true then scheduleUpgrade host s c else none
  | .setCodeWithoutChecks c => if o = .root then scheduleUpgrade host s c else none
  | .authorize h => if o = .root then some { s with authorized := some (h, true) } else none
  | .authorizeWithoutChecks h => if o = .root then some { s with authorized := some (h, false) } else none
  | .applyAuthorized c => match s.authorized with
    | none => none
    | some (h, check) =>
      if h = host.hash c ∧ (check = true → canSetCode host current c = true) then
        (scheduleUpgrade host s c).map fun s' => { s' with authorized := none }
      else none
  | .writeStorage s' => if o = .root then some s' else none

/-- The relay chain's `UpgradeGoAhead`. Outside /repo; used at
runtime/kreivo/src/configuration/system_support.rs 96-108 (cumulus_pallet_parachain_system). -/
inductive GoAhead | abort | goAhead
  deriving DecidableEq

/-- `set_validation_data`, which every block begins with: the relay chain's word about a waiting code, then its restriction
and configuration. It may be called by the block's author only. `none` is the panic that makes the block invalid. Outside
/repo; used at runtime/kreivo/src/configuration/system_support.rs 96-108 (cumulus_pallet_parachain_system). -/
def setValidationData {C H : Type} (s : St C H) (word : Option GoAhead) (restricted : Bool) (maxSize : Nat) :
    Option (St C H) :=
  let rest := fun s : St C H => { s with validation := true, restricted := restricted, maxSize := some maxSize }
  match word with
  | some .goAhead => match s.pending with
    | some c => some (rest { s with code := c, pending := none })
    | none => none
  | some .abort => some (rest { s with pending := none })
  | none => some (rest s)

/-- The beginning of a block, before the inherent: `ValidationData` and the like are killed. Outside /repo; used at
runtime/kreivo/src/configuration/system_support.rs 96-108 (cumulus_pallet_parachain_system). -/
def onInitialize {C H : Type} (s : St C H) : St C H := { s with validation := false }

end Verif.Runtime.Upgrade
