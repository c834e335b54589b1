import Verif.Communities.Demo
import Verif.Governance.Referenda

/-!
# The unit tests of pallets/communities, replayed on the model

Not proofs of properties but evidence that the model is the code: each test of pallets/communities/src/tests passes on the real
pallet, and the same calls in the mock's configuration give the same results here. The `weights` test is not replayed
(C83 to C86 are about weights). The order in which pallet_nfts enumerates memberships is that of hashes of keys; here the newest
comes first.
-/

namespace Verif.Conformance.Communities

open Verif Verif.Accounts Verif.Communities Verif.Communities.Demo Verif.Governance

/-- `RootAccount`: pallets/communities/src/mock.rs 150-152. -/
def rootAccount : AccountId := List.replicate 32 0xff

/-- `Config for Test`: pallets/communities/src/mock.rs 417-441. -/
def mock : Config where
  createOrigin := fun o => match o with
    | .root => some none
    | .signed a => some (some (10, a, rootAccount))
    | _ => none
  accountCommunity := fun _ => none

/-- The outcome of a call: its error, if any. Part of the transition system around the code (outside /repo). -/
def outcome : Except Err St → Option Err
  | .ok _ => none
  | .error e => some e

/-- The origin of a community: pallets/communities/src/mock.rs 443-445. -/
def origin (c : CId) : Origin := .community ⟨c, none⟩

/-- An empty chain; `native` is what accounts have. pallets/communities/src/mock.rs 529-545. -/
def empty (native : AccountId → Nat) : St where
  info := fun _ => none
  adminOf := fun _ => none
  method := fun _ => .membership
  votes := fun _ => []
  locks := fun _ => []
  frozenN := fun _ => 0
  frozenA := fun _ _ => 0
  providers := fun _ => 0
  events := []
  world :=
    { items := []
      native := native
      asset := fun k a => if k = 2 ∧ (a = bob ∨ a = charlie) then 50 else 0
      nativeIssuance := 45
      assetIssuance := fun k => if k = 2 then 100 else 0
      assetMin := fun k => if k = 2 then some 1 else none
      team := fun _ => ⟨[], [], [], [], true⟩
      polls := fun _ => none }

/-- `MembershipCollection::mint_into` a membership for the community: pallets/communities/src/mock.rs 570-576. -/
def mint (s : St) (c : CId) (m : MId) : St :=
  { s with world := { s.world with items := ⟨0, m, communityAccount c, 0⟩ :: s.world.items } }

/-- Mint the memberships and hand them out: pallets/communities/src/mock.rs 562-580. -/
def hand (s : St) (c : CId) : List AccountId → List MId → Except Err St
  | _, [] => .ok s
  | [], m :: ms => hand (mint s c m) c [] ms
  | a :: as, m :: ms => do
    let s ← addMember mock env (mint s c m) (origin c) (.id a)
    hand s c as ms

/-- `add_community` with `build`: pallets/communities/src/mock.rs 499-522 and 540-585. -/
def addCommunity (s : St) (c : CId) (dm : Method) (members : List AccountId) (ms : List MId) : Except Err St := do
  let s ← create mock env s .root (origin c) c
  let s ← setDecisionMethod mock env s (origin c) c dm
  hand s c members ms

/-- `new_test_ext`: pallets/communities/src/mock.rs 448-452. -/
def ext (members : List AccountId) (ms : List MId) : Except Err St :=
  addCommunity (empty fun _ => 0) 1 .membership members ms

/-- Observe a state reached without error. Part of the transition system around the code (outside /repo). -/
def see {α : Type} (r : Except Err St) (f : St → α) : Option α :=
  match r with
  | .ok s => some (f s)
  | .error _ => none

/-! ## registry.rs -/

/-- `create::fails_if_community_already_exists`: pallets/communities/src/tests/registry.rs 12-24. -/
example : see (ext [] []) (fun s => outcome (create mock env s .root (origin 1) 1)) = some (some .communityAlreadyExists) := by
  decide +kernel

/-- `create::it_works`: pallets/communities/src/tests/registry.rs 26-37. -/
example : see (ext [] []) (fun s => s.events.contains (.communityCreated 1 (origin 1))) = some true := by decide +kernel

/-- `create::takes_deposit_if_permissionlessly_creating_community`: pallets/communities/src/tests/registry.rs 39-60. -/
example : see (do
      let s ← ext [] []
      create mock env { s with world := { s.world with native := fun a => if a = alice then 15 else 0 } }
        (.signed alice) (origin 2) 2)
    (fun s => (s.events.head? == some (.communityCreated 2 (origin 2)), s.world.native alice)) = some (true, 5) := by
  decide +kernel

/-- `create::fails_if_admin_already_controls_another_community`: pallets/communities/src/tests/registry.rs 62-75. -/
example : see (ext [] []) (fun s => outcome (create mock env s .root (origin 1) 99)) = some (some .alreadyAdmin) := by
  decide +kernel

/-! ## membership.rs (COMMUNITY_MEMBER_1 and COMMUNITY_MEMBER_2 are `alice` and `bob`) -/

/-- `add_member::fails_when_community_is_not_active`: pallets/communities/src/tests/membership.rs 17-26. -/
example : see (ext [] [1]) (fun s => outcome (addMember mock env (forceState s 1 .blocked) (origin 1) (.id alice))) =
    some (some .badOrigin) := by decide +kernel

/-- `add_member::fails_when_caller_not_a_valid_origin`: pallets/communities/src/tests/membership.rs 28-40. -/
example : see (ext [] [1]) (fun s => (outcome (addMember mock env s .none (.id alice)), outcome (addMember mock env s .root (.id alice)))) =
    some (some .badOrigin, some .badOrigin) := by decide +kernel

/-- `add_member::adds_members`: pallets/communities/src/tests/membership.rs 42-52. -/
example : see (do
      let s ← ext [] [1, 2]
      let s ← addMember mock env s (origin 1) (.id alice)
      addMember mock env s (origin 1) (.id bob))
    (fun s => (isMemberOf s.world.items 1 alice, isMemberOf s.world.items 1 bob)) = some (true, true) := by decide +kernel

/-- `add_member::can_add_member_twice`: pallets/communities/src/tests/membership.rs 54-66. -/
example : see (do
      let s ← ext [alice] [1, 2]
      addMember mock env s (origin 1) (.id alice))
    (fun s => (userMemberships s.world.items alice (some 1)).map (·.2)) = some [2, 1] := by decide +kernel

/-- `remove_member::fails_when_community_is_not_active`: pallets/communities/src/tests/membership.rs 72-81. -/
example : see (ext [alice] [1]) (fun s => outcome (removeMember mock env (forceState s 1 .blocked) (origin 1) (.id alice) 1)) =
    some (some .badOrigin) := by decide +kernel

/-- `remove_member::fails_when_caller_not_a_privileged_origin`: pallets/communities/src/tests/membership.rs 83-95. -/
example : see (ext [alice] [1])
    (fun s => (outcome (removeMember mock env s .none (.id alice) 1), outcome (removeMember mock env s .root (.id alice) 1))) =
    some (some .badOrigin, some .badOrigin) := by decide +kernel

/-- `remove_member::fails_when_not_a_community_member`: pallets/communities/src/tests/membership.rs 97-105. -/
example : see (ext [alice] [1]) (fun s => outcome (removeMember mock env s (origin 1) (.id (List.replicate 32 0)) 1)) =
    some (some .notAMember) := by decide +kernel

/-- `remove_member::it_works`: pallets/communities/src/tests/membership.rs 107-116. -/
example : see (ext [alice] [1]) (fun s => outcome (removeMember mock env s (origin 1) (.id alice) 1)) = some none := by
  decide +kernel

/-- `promote_member::fails_when_caller_not_admin_origin`: pallets/communities/src/tests/membership.rs 125-130. -/
example : see (ext [alice] [1]) (fun s => outcome (promote mock env s .root 1)) = some (some .badOrigin) := by decide +kernel

/-- `promote_member::fails_when_not_a_community_member`: pallets/communities/src/tests/membership.rs 132-140. -/
example : see (ext [] [1]) (fun s => outcome (promote mock env s (origin 1) 1)) = some (some .notAMember) := by decide +kernel

/-- `promote_member::it_works`: pallets/communities/src/tests/membership.rs 142-148. -/
example : see (do
      let s ← ext [alice] [1]
      promote mock env s (origin 1) 1) (fun s => rankOf s.world.items 1 1) = some (some 1) := by decide +kernel

/-- `demote_member::fails_when_caller_not_a_privleged_origin`: pallets/communities/src/tests/membership.rs 154-159. -/
example : see (ext [alice] [1]) (fun s => outcome (demote mock env s .root 1)) = some (some .badOrigin) := by decide +kernel

/-- `demote_member::fails_when_not_a_community_member`: pallets/communities/src/tests/membership.rs 161-169. -/
example : see (ext [] []) (fun s => outcome (demote mock env s (origin 1) 1)) = some (some .notAMember) := by decide +kernel

/-- `demote_member::it_works`: pallets/communities/src/tests/membership.rs 171-179. -/
example : see (do
      let s ← ext [alice] [1]
      let s ← promote mock env s (origin 1) 1
      let s ← promote mock env s (origin 1) 1
      demote mock env s (origin 1) 1) (fun s => rankOf s.world.items 1 1) = some (some 1) := by decide +kernel

/-- `demote_member::should_remain_at_min_rank`: pallets/communities/src/tests/membership.rs 181-188. -/
example : see (do
      let s ← ext [alice] [1]
      demote mock env s (origin 1) 1) (fun s => rankOf s.world.items 1 1) = some (some 0) := by decide +kernel

/-! ## governance.rs -/

/-- `CommunityTrack`: pallets/communities/src/tests/governance.rs 55-73. -/
def track : TrackInfo where
  name := trackName "Community"
  maxDeciding := 1
  decisionDeposit := 5
  preparePeriod := 1
  decisionPeriod := 5
  confirmPeriod := 1
  minEnactmentPeriod := 1
  minApproval := ⟨percent 100, percent 50, percent 100⟩
  minSupport := ⟨percent 100, percent 0, percent 100⟩

/-- The four communities with their members: pallets/communities/src/tests/governance.rs 96-137. -/
def four : Except Err St := do
  let s := empty fun a => if a = alice ∨ a = bob ∨ a = charlie then 15 else 0
  let s ← addCommunity s 1 .membership [alice] [1, 2, 3]
  let s ← addCommunity s 2 (.asset 2 10) [bob, charlie] [4, 5, 6]
  let s ← addCommunity s 3 .native [alice, bob, charlie] [7, 8, 9]
  addCommunity s 4 .rank [alice, bob, charlie] [10, 11, 12]

/-- The operations of the other pallets, none of which is refused. Example for non-vacuity (outside /repo). -/
def genv : GEnv := ⟨⟨env, fun _ => false, fun _ => false, fun _ => false, fun _ _ => false, fun _ _ => false⟩,
  fun _ => false, fun _ => false⟩

/-- The chain before any referendum; block 1. pallets/communities/src/tests/governance.rs 96-137. -/
def chain0 : Option GSt := match four with
  | .error _ => none
  | .ok c => some {
      m :=
        { comm := c
          collections := fun _ => none
          prices := fun _ _ => none
          tracks := fun d => if d = 1 ∨ d = 2 ∨ d = 3 ∨ d = 4 then some track else none
          trackOf := fun o => if o = origin 1 then some 1 else if o = origin 2 then some 2
            else if o = origin 3 then some 3 else if o = origin 4 then some 4 else none
          seats := fun _ => none
          events := [] }
      roll := []
      now := 1
      crefs := fun _ => none
      cnext := 0
      ctally := fun _ => .zero
      cvotes := fun _ => []
      refs := fun _ => none
      next := 0
      agenda := [] }

/-- Run the calls that are due; errors are ignored. Outside /repo; used at pallets/communities/src/tests/helpers.rs 45-56
(pallet_scheduler). -/
def runDue : Nat → GSt → GSt
  | 0, s => s
  | n + 1, s => match s.agenda.find? fun t => decide (t.when ≤ s.now) with
    | none => s
    | some t =>
      let rest := { s with agenda := s.agenda.filter fun u => !decide (u.when ≤ s.now ∧ u.name = t.name) }
      runDue n ((gdispatch genv rest t.origin t.call).getD rest)

/-- `tick_block`: the next block starts; due calls run and every referendum is serviced.
pallets/communities/src/tests/helpers.rs 5-22. -/
def tick (s : GSt) : GSt :=
  let s := runDue 3 { s with now := s.now + 1 }
  (List.range s.next).foldl (fun s p => (serviceCommunity genv s p).getD s) s

/-- What a test does. pallets/communities/src/tests/governance.rs. -/
inductive Do
  | call (o : Origin) (c : GCall)
  | ticks (n : Nat)

/-- Do it all; `none` if a call fails. pallets/communities/src/tests/governance.rs. -/
def perform : GSt → List Do → Option GSt
  | s, [] => some s
  | s, .call o c :: l => match gdispatch genv s o c with
    | some s' => perform s' l
    | none => none
  | s, .ticks n :: l => perform (n.repeat tick s) l

/-- The referenda all tests start with: pallets/communities/src/tests/governance.rs 139-191. -/
def setup : List Do :=
  [.call (.signed alice) (.submit (origin 1) (.comm (.addMember (.id bob))) (.after 1)),
   .call (.signed bob) (.submit (origin 2) (.comm (.addMember (.id alice))) (.after 1)),
   .call (.signed bob) (.submit (origin 3) (.comm (.removeMember (.id charlie) 9)) (.after 1)),
   .call (.signed alice) (.deposit 0), .call (.signed bob) (.deposit 1), .call (.signed bob) (.deposit 2), .ticks 1]

/-- `new_test_ext` and then the test. pallets/communities/src/tests/governance.rs 96-194. -/
def test {α : Type} (l : List Do) (f : GSt → α) : Option α :=
  (chain0.bind fun s => perform s (setup ++ l)).map f

/-- A vote. pallets/communities/src/tests/governance.rs. -/
def votes (who : AccountId) (m : MId) (p : PollIx) (v : Vote) : Do := .call (.signed who) (.comm (.vote m p v))

/-- Where a referendum stands: its tally while it is ongoing, and its stage. pallets/communities/src/tests/governance.rs. -/
inductive Stage
  | deciding
  | confirming
  | confirmed
  | rejected
  | other
  deriving DecidableEq

/-- The stage of a referendum. pallets/communities/src/tests/governance.rs. -/
def stage (p : PollIx) (s : GSt) : Stage := match s.refs p with
  | some (.ongoing r) => match r.deciding with
    | some d => if d.confirming = none then .deciding else .confirming
    | none => .other
  | some (.approved _ _) => .confirmed
  | some (.rejected _) => .rejected
  | _ => .other

/-- The tally of an ongoing referendum. pallets/communities/src/tests/governance.rs. -/
def tally (p : PollIx) (s : GSt) : Option Tally := match s.m.comm.world.polls p with
  | some (.ongoing t _) => some t
  | _ => none

/-- The error of a vote. pallets/communities/src/tests/governance.rs. -/
def voteErr (who : AccountId) (m : MId) (p : PollIx) (v : Vote) (s : GSt) : Option Err :=
  outcome (vote env s.m.comm (.signed who) m p v)

/-- After `new_test_ext`, three polls have started: pallets/communities/src/tests/governance.rs 329-338. -/
example : test [] (fun s => (stage 0 s, stage 1 s, stage 2 s, tally 0 s)) =
    some (.deciding, .deciding, .deciding, some .zero) := by decide +kernel

/-- `common::fails_if_vote_weight_is_zero`: pallets/communities/src/tests/governance.rs 202-215. -/
example : test [] (voteErr bob 4 1 (.asset true 2 0)) = some (some .voteBelowMinimum) := by decide +kernel

/-- `common::fails_if_not_a_member`: pallets/communities/src/tests/governance.rs 217-230. -/
example : test [] (voteErr bob 2 0 (.standard true)) = some (some .notAMember) := by decide +kernel

/-- `common::fails_if_poll_is_not_ongoing`: pallets/communities/src/tests/governance.rs 232-245. -/
example : test [] (voteErr alice 1 256 (.standard true)) = some (some .notOngoing) := by decide +kernel

/-- `common::fails_if_voting_on_invalid_track`: pallets/communities/src/tests/governance.rs 247-260. -/
example : test [] (voteErr bob 4 0 (.standard true)) = some (some .invalidTrack) := by decide +kernel

/-- `Nfts::transfer` of a membership. Outside /repo; used at pallets/communities/src/tests/governance.rs 283-288. -/
def transfer (c : CId) (m : MId) (to_ : AccountId) (s : GSt) : GSt :=
  { s with m := { s.m with comm := { s.m.comm with world := { s.m.comm.world with
    items := s.m.comm.world.items.map fun i => if i.group = c ∧ i.id = m then { i with owner := to_ } else i } } } }

/-- `common::transferring_memberships_does_not_lead_to_double_voting`: pallets/communities/src/tests/governance.rs
262-318. -/
example : ((test [votes alice 1 0 (.standard true)] (transfer 1 1 bob)).bind fun s =>
      perform s [votes bob 1 0 (.standard true)]).map (tally 0) = some (some ⟨1, 0, 1⟩) := by decide +kernel

/-- `membership::passing_poll_executes`: pallets/communities/src/tests/governance.rs 326-384. -/
example : (test [votes alice 1 0 (.standard true), .ticks 1] (stage 0) = some .confirming) ∧
    (test [votes alice 1 0 (.standard true), .ticks 2] (stage 0) = some .confirmed) ∧
    (test [votes alice 1 0 (.standard true), .ticks 2] (fun s => isMemberOf s.m.comm.world.items 1 bob) = some false) ∧
    (test [votes alice 1 0 (.standard true), .ticks 3] (fun s => isMemberOf s.m.comm.world.items 1 bob) = some true) := by
  decide +kernel

/-- `membership::poll_rejects_on_single_nay`: pallets/communities/src/tests/governance.rs 386-423. -/
example : test [votes alice 1 0 (.standard false)] (tally 0) = some (some ⟨0, 1, 0⟩) ∧
    test [votes alice 1 0 (.standard false), .ticks 4] (stage 0) = some .deciding ∧
    test [votes alice 1 0 (.standard false), .ticks 5] (stage 0) = some .rejected := by decide +kernel

/-- `run_referenda`: pallets/communities/src/tests/governance.rs 427-472. -/
def tie : List Do :=
  [.call (origin 3) (.comm (.setDecisionMethod 3 .membership)), votes alice 7 2 (.standard true), .ticks 1,
   votes charlie 9 2 (.standard false), .ticks 4]

/-- `membership::tie_breaking_works`: pallets/communities/src/tests/governance.rs 425-523. -/
example : test tie (stage 2) = some .confirming ∧
    test (tie ++ [votes bob 8 2 (.standard true)]) (tally 2) = some (some ⟨2, 1, 2⟩) ∧
    test (tie ++ [votes bob 8 2 (.standard true), .ticks 1]) (stage 2) = some .confirmed ∧
    test (tie ++ [votes bob 8 2 (.standard false)]) (tally 2) = some (some ⟨1, 2, 1⟩) ∧
    test (tie ++ [votes bob 8 2 (.standard false), .ticks 1]) (stage 2) = some .rejected := by decide +kernel

/-- `asset_balance::fails_if_not_enough_balance`: pallets/communities/src/tests/governance.rs 529-543. -/
example : test [] (voteErr charlie 5 1 (.asset false 2 51)) = some (some .fundsUnavailable) := by decide +kernel

/-- `asset_balance::fails_if_asset_vote_weight_is_under_minimum`: pallets/communities/src/tests/governance.rs 545-564. -/
example : test [] (voteErr bob 4 1 (.asset true 2 9)) = some (some .voteBelowMinimum) ∧
    test [] (voteErr bob 4 1 (.asset true 2 10)) = some none := by decide +kernel

/-- `asset_balance::passes_with_approval_and_support`: pallets/communities/src/tests/governance.rs 566-618. -/
example :
    let l := [votes bob 4 1 (.asset true 2 30), .ticks 1, votes charlie 5 1 (.asset true 2 30)]
    test l (fun s => (stage 1 s, tally 1 s)) = some (.deciding, some ⟨60, 0, 60⟩) ∧
    test (l ++ [.ticks 1]) (stage 1) = some .confirming ∧
    test (l ++ [.ticks 2]) (stage 1) = some .confirmed := by decide +kernel

/-- `asset_balance::passes_with_approval_but_not_support`: pallets/communities/src/tests/governance.rs 620-672. -/
example :
    let l := [votes bob 4 1 (.asset true 2 12), .ticks 1, votes charlie 5 1 (.asset false 2 11)]
    test l (fun s => (stage 1 s, tally 1 s)) = some (.deciding, some ⟨12, 11, 12⟩) ∧
    test (l ++ [.ticks 4]) (stage 1) = some .confirming ∧
    test (l ++ [.ticks 5]) (stage 1) = some .confirmed := by decide +kernel

/-- `asset_balance::voter_can_change_decision_over_time`: pallets/communities/src/tests/governance.rs 674-733. -/
example :
    let l := [.ticks 1, votes charlie 5 1 (.asset true 2 11), .ticks 1, votes bob 4 1 (.asset false 2 12), .ticks 1,
      votes charlie 5 1 (.asset true 2 13)]
    test l (tally 1) = some (some ⟨13, 12, 13⟩) ∧ test (l ++ [.ticks 3]) (stage 1) = some .confirmed := by decide +kernel

/-- `native_balance::fails_if_not_enough_balance`: pallets/communities/src/tests/governance.rs 739-752. -/
example : test [] (voteErr bob 8 2 (.native true 16)) = some (some .fundsUnavailable) := by decide +kernel

/-- `native_balance::rejects_on_most_nays`: pallets/communities/src/tests/governance.rs 754-805. -/
example :
    let l := [.ticks 1, votes charlie 9 2 (.native false 14), .ticks 1, votes alice 7 2 (.native true 7)]
    test l (tally 2) = some (some ⟨7, 14, 7⟩) ∧ test (l ++ [.ticks 3]) (stage 2) = some .rejected := by decide +kernel

/-- `native_balance::voter_can_change_decision`: pallets/communities/src/tests/governance.rs 807-866. -/
example :
    let l := [.ticks 1, votes charlie 9 2 (.native false 6), .ticks 1, votes alice 7 2 (.native true 7), .ticks 1,
      votes charlie 9 2 (.native false 8)]
    test l (tally 2) = some (some ⟨7, 8, 7⟩) ∧ test (l ++ [.ticks 2]) (stage 2) = some .rejected := by decide +kernel

/-- The rank tests' `new_test_ext`: pallets/communities/src/tests/governance.rs 874-913. -/
def ranked : List Do :=
  [.call (origin 4) (.comm (.promote 10)), .call (origin 4) (.comm (.promote 11)), .call (origin 4) (.comm (.promote 12)),
   .call (.signed charlie) (.submit (origin 4) (.comm (.promote 12)) (.after 1)), .call (.signed charlie) (.deposit 3), .ticks 1]

/-- `rank::it_works`: pallets/communities/src/tests/governance.rs 915-947. -/
example : test (ranked ++ [votes alice 10 3 (.standard true), .ticks 1, votes bob 11 3 (.standard false), .ticks 1,
    votes charlie 12 3 (.standard true), .ticks 2]) (stage 3) = some .confirming := by decide +kernel

/-- `rank::it_works_with_different_ranks`: pallets/communities/src/tests/governance.rs 949-992. -/
example : test (ranked ++ [.call (origin 4) (.comm (.promote 10)), votes alice 10 3 (.standard false), .ticks 1,
    votes bob 11 3 (.standard true), .ticks 1, votes charlie 12 3 (.standard true)]) (tally 3) = some (some ⟨2, 2, 2⟩) := by
  decide +kernel

/-- The error of taking a vote back. pallets/communities/src/tests/governance.rs. -/
def removeErr (who : AccountId) (m : MId) (p : PollIx) (s : GSt) : Option Err :=
  outcome (removeVote env s.m.comm (.signed who) m p)

/-- `remove_vote::fails_if_not_a_member`, `fails_if_trying_to_remove_vote_from_invalid_track`,
`fails_if_poll_is_no_vote_casted`: pallets/communities/src/tests/governance.rs 1001-1029. -/
example : test [] (removeErr bob 2 0) = some (some .notAMember) ∧
    test [] (removeErr alice 1 1) = some (some .invalidTrack) ∧
    test [] (removeErr alice 1 0) = some (some .noVoteCasted) := by decide +kernel

/-- `remove_vote::it_works`: pallets/communities/src/tests/governance.rs 1031-1110. -/
example :
    test [votes alice 1 0 (.standard true), .ticks 1, .call (.signed alice) (.comm (.removeVote 1 0))] (tally 0) =
      some (some .zero) ∧
    test [votes alice 7 2 (.native true 15)] (fun s => s.m.comm.frozenN alice) = some 15 ∧
    test [votes alice 7 2 (.native true 15), .ticks 1, .call (.signed alice) (.comm (.removeVote 7 2))]
      (fun s => (tally 2 s, s.m.comm.frozenN alice)) = some (some .zero, 0) := by decide +kernel

/-- `unlock::fails_if_trying_to_unlock_on_an_ongoing_poll`: pallets/communities/src/tests/governance.rs 1116-1125. -/
example : test [] (fun s => outcome (unlock env s.m.comm (.signed bob) 1)) = some (some .alreadyOngoing) := by
  decide +kernel

/-- `unlock::it_works`: pallets/communities/src/tests/governance.rs 1127-1150. -/
example : test [votes bob 4 1 (.asset true 2 15), votes charlie 9 2 (.native true 15), .ticks 6,
    .call (.signed bob) (.comm (.unlock 1)), .call (.signed charlie) (.comm (.unlock 2))]
    (fun s => (s.m.comm.frozenA 2 bob, s.m.comm.frozenN charlie)) = some (0, 0) := by decide +kernel

end Verif.Conformance.Communities
