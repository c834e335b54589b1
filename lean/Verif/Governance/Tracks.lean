import Verif.Governance.Manager

/-!
# Tracks of the collective, submission of community referenda, pass challenges

runtime/kreivo/src/collective/tracks.rs, collective/governance.rs, communities/governance.rs, governance/origins.rs and
`UnincludedBlockHashChallenger` of configuration/system_support.rs.
-/

namespace Verif.Governance

open Verif Verif.Accounts Verif.Communities

/-- `MILLISECS_PER_BLOCK` of parachains_common (12 seconds in stable2409, although Kreivo's own blocks, lib.rs 350, take
six). Outside /repo; used at runtime/kreivo/src/lib.rs 106-109. No theorem depends on its value. -/
def commonBlockMillis : Nat := 12000

/-- `MINUTES` in blocks. Outside /repo; used at runtime/kreivo/src/lib.rs 106-109 (parachains_common). -/
def minutes : Nat := 60000 / commonBlockMillis
/-- `DAYS` in blocks. Outside /repo; used at runtime/kreivo/src/lib.rs 106-109 (parachains_common). -/
def days : Nat := minutes * 60 * 24

/-- A `Track`: its id and info. runtime/kreivo/src/collective/tracks.rs 18-106. -/
structure CTrack where
  id : Nat
  info : TrackInfo
  deriving DecidableEq

/-- `str_array` of a short name. Outside /repo; used at runtime/kreivo/src/collective/tracks.rs 18-106. -/
def trackName (s : String) : List UInt8 := (strArray25 (ascii s)).getD []

/-- One entry of `DATA`: the fields that differ are arguments. runtime/kreivo/src/collective/tracks.rs 18-106. -/
def collectiveTrack (id : Nat) (name : String) (deposit : Nat) (approval support : Curve) : CTrack :=
  ⟨id, { name := trackName name
         maxDeciding := 1
         decisionDeposit := deposit
         preparePeriod := 15 * minutes
         decisionPeriod := 4 * days
         confirmPeriod := 15 * minutes
         minEnactmentPeriod := 1
         minApproval := approval
         minSupport := support }⟩

/-- `TracksInfo::tracks`: collective/tracks.rs 18-105. -/
def collectiveTracks : List CTrack :=
  [collectiveTrack 0 "Root" (10 * units) ⟨percent 100, percent 90, percent 100⟩ ⟨percent 100, percent 0, percent 100⟩,
   collectiveTrack 1 "Referendum Canceller" units ⟨percent 100, percent 90, percent 100⟩
     ⟨percent 100, percent 0, percent 100⟩,
   collectiveTrack 2 "Referendum Killer" units ⟨percent 100, percent 90, percent 100⟩
     ⟨percent 100, percent 0, percent 100⟩,
   collectiveTrack 3 "Create Memberships" units ⟨percent 100, percent 50, percent 100⟩
     ⟨percent 100, percent 50, percent 100⟩]

/-- `TracksInfo::track_for`: collective/tracks.rs 108-123. -/
def collectiveTrackFor : Origin → Option Nat
  | .root => some 0
  | .none => none
  | .signed _ => none
  | .custom .referendumCanceller => some 1
  | .custom .referendumKiller => some 2
  | .custom .createMemberships => some 3
  | .community _ => none
  | .other _ => none

/-- `impl_tracksinfo_get!` (pallet_referenda, outside `/repo`): the info of the track with an id. -/
def collectiveInfo (id : Nat) : Option TrackInfo := (collectiveTracks.find? fun t => decide (t.id = id)).map (·.info)

/-- `submit` of the collective's referenda as far as the origins go (collective/governance.rs 16 and pallet_referenda):
signed, and the proposal's origin has a track. -/
def collectiveSubmit (o proposal : Origin) : Option (AccountId × Nat) :=
  match o with
  | .signed who => (collectiveTrackFor proposal).map fun t => (who, t)
  | _ => none

/-- `decl_unit_ensures!(ReferendumCanceller)`: governance/origins.rs 42-70; `CancelOrigin` of collective/governance.rs 17. -/
def mayCancel : Origin → Bool
  | .custom .referendumCanceller => true
  | _ => false

/-- `KillOrigin` of collective/governance.rs 18. -/
def mayKill : Origin → Bool
  | .custom .referendumKiller => true
  | _ => false

/-! ## Community referenda -/

/-- `EnsureOriginToTrack`: communities/governance.rs 18-31, the `UpdateOrigin` of community tracks. -/
def mayUpdateTrack (s : MSt) (o : Origin) (id : CId) : Bool :=
  match s.trackOf o with
  | some t => decide (t = id)
  | none => false

/-- `EnsureCommunityMember`: communities/governance.rs 51-83. -/
def ensureCommunityMember (s : MSt) (o trackOrigin : Origin) : Option AccountId :=
  match s.trackOf trackOrigin with
  | none => none
  | some c =>
    match o with
    | .signed who => if isMemberOf s.comm.world.items c who then some who else none
    | _ => none

/-- `SubmitOrigin`: communities/governance.rs 98-101. -/
def submitOrigin (s : MSt) (o trackOrigin : Origin) : Option AccountId :=
  match o with
  | .root => some treasuryAccount
  | _ => ensureCommunityMember s o trackOrigin

/-- `submit` of the community referenda as far as the origins go: who submits, and on which track. Outside /repo; used at
runtime/kreivo/src/communities/governance.rs 92-113 (pallet_referenda). -/
def communitySubmit (s : MSt) (o proposal : Origin) : Option (AccountId × CId) :=
  match submitOrigin s o proposal with
  | none => none
  | some who => (s.trackOf proposal).map fun t => (who, t)

/-! ## Challenges -/

/-- The block hashes known to the chain while block `now` is being built (frame_system, outside `/repo`): those of
earlier blocks; the map's default is the zero hash. Hashes older than `BlockHashCount` are forgotten. -/
structure Hashes where
  now : UInt32
  hash : UInt32 → List UInt8
  count : Nat

/-- `System::block_hash(n)`. Outside /repo; used at runtime/kreivo/src/configuration/system_support.rs 135-160. -/
def Hashes.blockHash (h : Hashes) (n : UInt32) : List UInt8 :=
  if n.toNat < h.now.toNat ∧ h.now.toNat ≤ n.toNat + h.count then h.hash n else List.replicate 32 0

/-- `check_challenge`: configuration/system_support.rs 144-147. -/
def checkChallenge (h : Hashes) (cx : UInt32) (challenge : List UInt8) : Bool :=
  decide (h.now.toNat - 3 ≤ cx.toNat) && decide (h.blockHash cx = challenge)

end Verif.Governance
