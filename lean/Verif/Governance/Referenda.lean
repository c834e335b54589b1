import Verif.Governance.Tracks

/-!
# Referenda of the collective and of the communities

The two instances of pallet_referenda Kreivo runs (runtime/kreivo/src/collective, runtime/kreivo/src/communities), the
ranked collective that votes in the first, the communities that vote in the second, and the scheduler both hand their
approved proposals to. pallet_referenda, pallet_ranked_collective and pallet_scheduler are outside `/repo`; what is
modelled of them is what the configuration in `/repo` uses. Simplifications: deposits are yes or no, the queue of
referenda waiting for a deciding slot has no order, a referendum may be serviced at any block (the pallet services it at
its alarms and when somebody nudges it), and sums of votes are those of 32-bit numbers.
-/

namespace Verif.Governance

open Verif Verif.Accounts Verif.Communities

/-- `DispatchTime`: when a proposal wants to be enacted. Outside /repo; used at
runtime/kreivo/src/collective/governance.rs 10-28 and runtime/kreivo/src/communities/governance.rs 92-113
(pallet_referenda). -/
inductive Moment
  | at (n : Nat)
  | after (n : Nat)

/-- `DispatchTime::evaluate`. Outside /repo; used at runtime/kreivo/src/collective/governance.rs 10-28 and
runtime/kreivo/src/communities/governance.rs 92-113 (pallet_referenda). -/
def Moment.evaluate (now : Nat) : Moment → Nat
  | .at n => n
  | .after n => now + n

/-- The calls of this machine: those of the communities pallet and its manager, those of the ranked collective
(collective/mod.rs 20-48), of the collective's referenda (collective/governance.rs 9-28), of the community referenda
(communities/governance.rs 87-113) and their tracks (lines 42-52), of the scheduler (runtime/kreivo/src/lib.rs 537-555), `dispatch_as` of the
utility pallet, `dispatch_as_account` of the communities pallet around any of these, batches of these (two at a time; a batch within a batch,
`dispatch_as` or `dispatch_as_account` is written as the batch of what is inside), and any other call. -/
inductive GCall
  | comm (c : Call)
  | mgr (c : MCall)
  | promote (who : AccountId)
  | demote (who : AccountId)
  | expel (who : AccountId) (minRank : Nat)
  | exchange (who new : AccountId)
  | cvote (p : Nat) (aye : Bool)
  | csubmit (origin : Origin) (call : GCall) (m : Moment)
  | cdeposit (p : Nat)
  | ccancel (p : Nat)
  | ckill (p : Nat)
  | submit (origin : Origin) (call : GCall) (m : Moment)
  | deposit (p : PollIx)
  | cancel (p : PollIx)
  | kill (p : PollIx)
  | insertTrack (c : CId) (i : TrackInfo) (o : Origin)
  | updateTrack (c : CId) (i : TrackInfo)
  | removeTrack (c : CId) (o : Origin)
  | schedule (m : Moment) (call : GCall)
  | unschedule (k : Nat)
  | dispatchAs (o : Origin) (call : GCall)
  | asAccount (call : GCall)
  | both (first rest : GCall)
  | other (n : Nat)

/-- `DecidingStatus` of pallet_referenda. Outside /repo; used at runtime/kreivo/src/collective/governance.rs 10-28 and
runtime/kreivo/src/communities/governance.rs 92-113 (pallet_referenda). -/
structure Deciding where
  since : Nat
  confirming : Option Nat
  deriving DecidableEq

/-- `ReferendumStatus` of pallet_referenda; the tally is kept elsewhere. Outside /repo; used at
runtime/kreivo/src/collective/governance.rs 10-28 and runtime/kreivo/src/communities/governance.rs 92-113
(pallet_referenda). -/
structure Ref (τ : Type) where
  track : τ
  origin : Origin
  call : GCall
  desired : Moment
  submitted : Nat
  deposit : Bool
  deciding : Option Deciding

/-- `ReferendumInfo` of pallet_referenda. Outside /repo; used at runtime/kreivo/src/collective/governance.rs 10-28 and
runtime/kreivo/src/communities/governance.rs 92-113 (pallet_referenda). -/
inductive RefInfo (τ : Type)
  | ongoing (r : Ref τ)
  | approved (r : Ref τ) (at_ : Nat)
  | rejected (r : Ref τ)
  | timedOut (r : Ref τ)
  | cancelled (r : Ref τ)
  | killed (r : Ref τ)

/-- Where a scheduled call comes from. Outside /repo; used at runtime/kreivo/src/lib.rs 542-553 (pallet_scheduler). -/
inductive Source
  | collective (p : Nat)
  | community (p : PollIx)
  | scheduled
  deriving DecidableEq

/-- A task of the scheduler. Outside /repo; used at runtime/kreivo/src/lib.rs 542-553 (pallet_scheduler). -/
structure Task where
  source : Source
  when : Nat
  origin : Origin
  call : GCall

/-- The name the task is scheduled under: both instances of pallet_referenda use
`blake2_256((*b"assembly", "enactment", index))`, of which only the index varies. Outside /repo; used at
runtime/kreivo/src/lib.rs 542-553 (pallet_scheduler). -/
def Task.name (t : Task) : Option Nat :=
  match t.source with
  | .collective p => some p
  | .community p => some p
  | .scheduled => none

/-- Storage. `m.seats` has the ranks of the collective's members and `roll` lists the members; the tallies of community
referenda are in `m.comm.world.polls`. Outside /repo; used at runtime/kreivo/src/collective/governance.rs 10-28,
runtime/kreivo/src/communities/governance.rs 92-113 and runtime/kreivo/src/collective/mod.rs 20-48. -/
structure GSt where
  m : MSt
  roll : List AccountId
  now : Nat
  crefs : Nat → Option (RefInfo Nat)
  cnext : Nat
  ctally : Nat → Tally
  cvotes : Nat → List (AccountId × (Bool × Nat))
  refs : Nat → Option (RefInfo CId)
  next : Nat
  agenda : List Task

/-- What other pallets may refuse: the operations of `MEnv`, deposits, and places in the agenda of a block. Outside /repo;
used at runtime/kreivo/src/collective/governance.rs 10-28, runtime/kreivo/src/communities/governance.rs 92-113 and
runtime/kreivo/src/lib.rs 542-553. -/
structure GEnv where
  base : MEnv
  denyDeposit : AccountId → Bool
  denySchedule : Nat → Bool

/-! ## The ranked collective -/

/-- `Rank::MAX`, also the rank up to which root may promote and demote: collective/mod.rs 29, 36. -/
def maxRank : Nat := 65535

/-- `MinRankOfClass`: collective/mod.rs 12-17, 42. -/
def minRank : Nat := 1

/-- `MemberCount(r)` of pallet_ranked_collective: the members of at least this rank. Outside /repo; used at
runtime/kreivo/src/collective/mod.rs 20-48 (pallet_ranked_collective). -/
def memberCount (s : GSt) (r : Nat) : Nat :=
  (s.roll.filter fun a => match s.m.seats a with | some k => decide (r ≤ k) | none => false).length

/-- `rank_to_votes` with `VoteWeight = Linear` (collective/mod.rs 44): excess rank plus one; `none` is `RankTooLow`. -/
def rankToVotes (rank : Nat) : Option Nat := if rank < minRank then none else some (rank - minRank + 1)

/-- `Tally::support` of pallet_ranked_collective. Outside /repo; used at runtime/kreivo/src/collective/mod.rs 20-48
(pallet_ranked_collective). -/
def csupport (s : GSt) (t : Tally) : Nat := fromRational perbill t.bareAyes (memberCount s minRank)

/-- `Tally::approval` of pallet_ranked_collective. Outside /repo; used at runtime/kreivo/src/collective/mod.rs 20-48
(pallet_ranked_collective). -/
def capproval (t : Tally) : Nat := fromRational perbill t.ayes (max 1 ((t.ayes + t.nays) % 2 ^ 32))

/-- Give a member a rank, or take it off the list. Outside /repo; used at runtime/kreivo/src/collective/mod.rs 20-48
(pallet_ranked_collective). -/
def setSeat (s : GSt) (who : AccountId) (r : Option Nat) : GSt :=
  { s with m := { s.m with seats := fun a => if a = who then r else s.m.seats a } }

/-- The member leaves: `remove_from_rank` for all ranks. Outside /repo; used at runtime/kreivo/src/collective/mod.rs 20-48
(pallet_ranked_collective). -/
def dropSeat (s : GSt) (who : AccountId) : GSt :=
  { setSeat s who none with roll := s.roll.filter fun a => decide (a ≠ who) }

/-- Forget an earlier vote of the account: `vote` of pallet_ranked_collective. Outside /repo; used at
runtime/kreivo/src/collective/mod.rs 20-48 (pallet_ranked_collective). -/
def retract (t : Tally) : Option (Bool × Nat) → Tally
  | some (true, n) => { t with bareAyes := t.bareAyes - 1, ayes := t.ayes - n }
  | some (false, n) => { t with nays := t.nays - n }
  | none => t

/-- Count a vote: `vote` of pallet_ranked_collective. Outside /repo; used at runtime/kreivo/src/collective/mod.rs 20-48
(pallet_ranked_collective). -/
def accrue (t : Tally) (aye : Bool) (n : Nat) : Tally :=
  if aye then { t with bareAyes := satAdd32 t.bareAyes 1, ayes := satAdd32 t.ayes n }
  else { t with nays := satAdd32 t.nays n }

/-- `KreivoCollective::vote`. Outside /repo; used at runtime/kreivo/src/collective/mod.rs 20-48
(pallet_ranked_collective). -/
def collectiveVote (s : GSt) (o : Origin) (p : Nat) (aye : Bool) : Option GSt :=
  match o with
  | .signed who =>
    match s.m.seats who, s.crefs p with
    | some rank, some (.ongoing _) =>
      match rankToVotes rank with
      | none => none
      | some n => some { s with
          ctally := fun q => if q = p then accrue (retract (s.ctally p) (aget (s.cvotes p) who)) aye n else s.ctally q
          cvotes := fun q => if q = p then aset (s.cvotes p) who (aye, n) else s.cvotes q }
    | _, _ => none
  | _ => none

/-! ## Servicing a referendum -/

/-- What servicing a referendum comes to. Outside /repo; used at runtime/kreivo/src/collective/governance.rs 10-28 and
runtime/kreivo/src/communities/governance.rs 92-113 (pallet_referenda). -/
inductive Verdict
  | stay
  | deciding (d : Deciding)
  | approve
  | reject
  | timeOut

/-- `service_referendum` with `begin_deciding` of pallet_referenda. `passing` is `is_passing` of the current tally after
a number of blocks; `free` says whether the track has a deciding slot. Outside /repo; used at
runtime/kreivo/src/collective/governance.rs 10-28 and runtime/kreivo/src/communities/governance.rs 92-113
(pallet_referenda). -/
def service {τ : Type} (i : TrackInfo) (now timeout : Nat) (free : Bool) (passing : Nat → Bool) (r : Ref τ) : Verdict :=
  match r.deciding with
  | none =>
    if r.deposit && decide (r.submitted + i.preparePeriod ≤ now) && free then
      .deciding ⟨now, if passing 0 then some (now + i.confirmPeriod) else none⟩
    else if r.submitted + timeout ≤ now then .timeOut
    else .stay
  | some d =>
    if passing (now - d.since) then
      match d.confirming with
      | some t => if t ≤ now then .approve else .stay
      | none => .deciding { d with confirming := some (now + i.confirmPeriod) }
    else if d.since + i.decisionPeriod ≤ now then .reject
    else .deciding { d with confirming := none }

/-- `schedule_enactment` of pallet_referenda: not before the minimum enactment period and the next block. An error of
the scheduler is ignored; the scheduler refuses a name that is taken. Outside /repo; used at
runtime/kreivo/src/collective/governance.rs 10-28 and runtime/kreivo/src/communities/governance.rs 92-113
(pallet_referenda). -/
def enact (env : GEnv) (s : GSt) (src : Source) (i : TrackInfo) (m : Moment) (o : Origin) (call : GCall) : List Task :=
  let t : Task := ⟨src, max (m.evaluate s.now) (s.now + max 1 i.minEnactmentPeriod), o, call⟩
  if (s.agenda.any fun u => decide (u.name = t.name)) || env.denySchedule t.when then s.agenda else t :: s.agenda

/-- Whether a referendum is being decided on a track. Outside /repo; used at runtime/kreivo/src/collective/governance.rs
10-28 and runtime/kreivo/src/communities/governance.rs 92-113 (pallet_referenda). -/
def isDeciding {τ : Type} [DecidableEq τ] (t : τ) : Option (RefInfo τ) → Bool
  | some (.ongoing r) => decide (r.track = t) && r.deciding.isSome
  | _ => false

/-- The track has a deciding slot: fewer referenda are being decided than `max_deciding`. Outside /repo; used at
runtime/kreivo/src/collective/governance.rs 10-28 and runtime/kreivo/src/communities/governance.rs 92-113
(pallet_referenda). -/
def hasSlot {τ : Type} [DecidableEq τ] (refs : Nat → Option (RefInfo τ)) (next : Nat) (t : τ) (i : TrackInfo) : Bool :=
  decide (((List.range next).filter fun q => isDeciding t (refs q)).length < i.maxDeciding)

/-- Write a referendum of the collective. Outside /repo; used at runtime/kreivo/src/collective/governance.rs 10-28 and
runtime/kreivo/src/communities/governance.rs 92-113 (pallet_referenda). -/
def setCRef (s : GSt) (p : Nat) (r : RefInfo Nat) : GSt :=
  { s with crefs := fun q => if q = p then some r else s.crefs q }

/-- Servicing a referendum of the collective: `UndecidingTimeout` of collective/governance.rs 24, tracks of
collective/tracks.rs. -/
def serviceCollective (env : GEnv) (s : GSt) (p : Nat) : Option GSt :=
  match s.crefs p with
  | some (.ongoing r) =>
    match collectiveInfo r.track with
    | none => none
    | some i =>
      match service i s.now (2 * days) (hasSlot s.crefs s.cnext r.track i)
          (fun e => isPassing i e (csupport s (s.ctally p)) (capproval (s.ctally p))) r with
      | .stay => some s
      | .deciding d => some (setCRef s p (.ongoing { r with deciding := some d }))
      | .approve => some { setCRef s p (.approved r s.now) with
          agenda := enact env s (.collective p) i r.desired r.origin r.call }
      | .reject => some (setCRef s p (.rejected r))
      | .timeOut => some (setCRef s p (.timedOut r))
  | _ => none

/-- Write a community referendum that goes on. Outside /repo; used at runtime/kreivo/src/collective/governance.rs 10-28
and runtime/kreivo/src/communities/governance.rs 92-113 (pallet_referenda). -/
def setRef (s : GSt) (p : PollIx) (r : RefInfo CId) : GSt :=
  { s with refs := fun q => if q = p then some r else s.refs q }

/-- Write a community referendum that is over: its tally is no longer accessible to the communities pallet. Outside /repo;
used at runtime/kreivo/src/collective/governance.rs 10-28 and runtime/kreivo/src/communities/governance.rs 92-113
(pallet_referenda). -/
def endRef (s : GSt) (p : PollIx) (r : RefInfo CId) : GSt :=
  { setRef s p r with m := { s.m with comm := setPoll s.m.comm p .ended } }

/-- Servicing a community referendum: `UndecidingTimeout` of communities/governance.rs 15, tracks of the community. -/
def serviceCommunity (env : GEnv) (s : GSt) (p : PollIx) : Option GSt :=
  match s.refs p, s.m.comm.world.polls p with
  | some (.ongoing r), some (.ongoing t _) =>
    match s.m.tracks r.track with
    | none => none
    | some i =>
      match service i s.now (14 * days) (hasSlot s.refs s.next r.track i)
          (fun e => isPassing i e (support s.m.comm t r.track) (approval t)) r with
      | .stay => some s
      | .deciding d => some (setRef s p (.ongoing { r with deciding := some d }))
      | .approve => some { endRef s p (.approved r s.now) with
          agenda := enact env s (.community p) i r.desired r.origin r.call }
      | .reject => some (endRef s p (.rejected r))
      | .timeOut => some (endRef s p (.timedOut r))
  | _, _ => none

/-! ## Calls -/

/-- Run `f` for root only. Outside /repo; used at runtime/kreivo/src/collective/mod.rs 20-48 (EnsureRoot). -/
def rootOnly (o : Origin) (r : Option GSt) : Option GSt := match o with | .root => r | _ => none

/-- `promote_member` of pallet_ranked_collective, up to the largest rank. Outside /repo; used at
runtime/kreivo/src/collective/mod.rs 20-48 (pallet_ranked_collective). -/
def promoteSeat (s : GSt) (who : AccountId) : Option GSt :=
  match s.m.seats who with
  | none => none
  | some r => if r + 1 ≤ maxRank then some (setSeat s who (some (r + 1))) else none

/-- `demote_member`: members of rank 0 leave. Outside /repo; used at runtime/kreivo/src/collective/mod.rs 20-48
(pallet_ranked_collective). -/
def demoteSeat (s : GSt) (who : AccountId) : Option GSt :=
  match s.m.seats who with
  | none => none
  | some 0 => some (dropSeat s who)
  | some (r + 1) => some (setSeat s who (some r))

/-- `remove_member`. Outside /repo; used at runtime/kreivo/src/collective/mod.rs 20-48 (pallet_ranked_collective). -/
def expelSeat (s : GSt) (who : AccountId) (k : Nat) : Option GSt :=
  match s.m.seats who with
  | none => none
  | some r => if r ≤ k then some (dropSeat s who) else none

/-- `exchange_member`. Outside /repo; used at runtime/kreivo/src/collective/mod.rs 20-48 (pallet_ranked_collective). -/
def exchangeSeat (s : GSt) (who new : AccountId) : Option GSt :=
  match s.m.seats who, s.m.seats new with
  | some r, none => if who = new then none else
      some { setSeat (dropSeat s who) new (some r) with roll := new :: (dropSeat s who).roll }
  | _, _ => none

/-- End an ongoing referendum of the collective. Outside /repo; used at runtime/kreivo/src/collective/governance.rs 10-28
and runtime/kreivo/src/communities/governance.rs 92-113 (pallet_referenda). -/
def closeC (s : GSt) (p : Nat) (f : Ref Nat → RefInfo Nat) : Option GSt :=
  match s.crefs p with
  | some (.ongoing r) => some (setCRef s p (f r))
  | _ => none

/-- End an ongoing community referendum. Outside /repo; used at runtime/kreivo/src/collective/governance.rs 10-28 and
runtime/kreivo/src/communities/governance.rs 92-113 (pallet_referenda). -/
def close (s : GSt) (p : PollIx) (f : Ref CId → RefInfo CId) : Option GSt :=
  match s.refs p with
  | some (.ongoing r) => some (endRef s p (f r))
  | _ => none

/-- `place_decision_deposit`: anybody who signs, once, while the referendum is ongoing. Outside /repo; used at
runtime/kreivo/src/collective/governance.rs 10-28 and runtime/kreivo/src/communities/governance.rs 92-113
(pallet_referenda). -/
def placeC (env : GEnv) (s : GSt) (o : Origin) (p : Nat) : Option GSt :=
  match o, s.crefs p with
  | .signed who, some (.ongoing r) =>
    if r.deposit || env.denyDeposit who then none else some (setCRef s p (.ongoing { r with deposit := true }))
  | _, _ => none

/-- The same for community referenda. Outside /repo; used at runtime/kreivo/src/collective/governance.rs 10-28 and
runtime/kreivo/src/communities/governance.rs 92-113 (pallet_referenda). -/
def place (env : GEnv) (s : GSt) (o : Origin) (p : PollIx) : Option GSt :=
  match o, s.refs p with
  | .signed who, some (.ongoing r) =>
    if r.deposit || env.denyDeposit who then none else some (setRef s p (.ongoing { r with deposit := true }))
  | _, _ => none

/-- `submit` of the collective's referenda: collective/governance.rs 16, tracks.rs 108-123. -/
def submitC (env : GEnv) (s : GSt) (o origin : Origin) (call : GCall) (m : Moment) : Option GSt :=
  match collectiveSubmit o origin with
  | none => none
  | some (who, t) =>
    if env.denyDeposit who then none else
      some { setCRef s s.cnext (.ongoing ⟨t, origin, call, m, s.now, false, none⟩) with
        cnext := s.cnext + 1
        ctally := fun q => if q = s.cnext then .zero else s.ctally q }

/-- `submit` of the community referenda: communities/governance.rs 98-101. A new poll has an empty tally. -/
def submitR (env : GEnv) (s : GSt) (o origin : Origin) (call : GCall) (m : Moment) : Option GSt :=
  match communitySubmit s.m o origin with
  | none => none
  | some (who, t) =>
    if env.denyDeposit who then none else
      some { setRef s s.next (.ongoing ⟨t, origin, call, m, s.now, false, none⟩) with
        next := s.next + 1
        m := { s.m with comm := setPoll s.m.comm s.next (.ongoing .zero t) } }

/-- `register` gives the community's account a seat. pallets/communities-manager/src/lib.rs 186. -/
def rollAfter (s : GSt) : MCall → List AccountId
  | .register c _ _ _ _ => communityAccount c :: s.roll
  | _ => s.roll

/-- Dispatch of a call; `none` is an error, which leaves the state as it was. The collective's `AddOrigin` is
`EnsureNever` (collective/mod.rs 24), so `add_member` always fails and is not listed. A batch does nothing by itself here: scheduled ones are taken apart (`GStep`), and
from outside its calls are made one by one (Governance/TogetherTheorems). -/
def gdispatch (env : GEnv) (s : GSt) (o : Origin) : GCall → Option GSt
  | .comm c => match dispatch kreivo env.base.base s.m.comm o c with
    | .ok c' => some { s with m := { s.m with comm := c' } }
    | .error _ => none
  | .mgr c => match mdispatch kreivoManager env.base s.m o c with
    | .ok m' => some { s with m := m', roll := rollAfter s c }
    | .error _ => none
  | .promote who => rootOnly o (promoteSeat s who)
  | .demote who => rootOnly o (demoteSeat s who)
  | .expel who k => rootOnly o (expelSeat s who k)
  | .exchange who new => rootOnly o (exchangeSeat s who new)
  | .cvote p aye => collectiveVote s o p aye
  | .csubmit origin call m => submitC env s o origin call m
  | .cdeposit p => placeC env s o p
  | .ccancel p => if mayCancel o then closeC s p .cancelled else none
  | .ckill p => if mayKill o then closeC s p .killed else none
  | .submit origin call m => submitR env s o origin call m
  | .deposit p => place env s o p
  | .cancel p => rootOnly o (close s p .cancelled)
  | .kill p => rootOnly o (close s p .killed)
  | .insertTrack c i x => rootOnly o (match insertTrack env.base s.m c i x with
    | .ok m' => some { s with m := m' }
    | .error _ => none)
  | .updateTrack c i =>
    if mayUpdateTrack s.m o c && (s.m.tracks c).isSome then
      some { s with m := { s.m with tracks := fun d => if d = c then some i else s.m.tracks d } }
    else none
  | .removeTrack c x => rootOnly o (
    if s.m.trackOf x = some c then
      some { s with m := { s.m with
        tracks := fun d => if d = c then none else s.m.tracks d
        trackOf := fun y => if y = x then none else s.m.trackOf y } }
    else none)
  | .schedule m call => rootOnly o (
    let w := m.evaluate s.now
    if w ≤ s.now ∨ env.denySchedule w then none
    else some { s with agenda := ⟨.scheduled, w, .root, call⟩ :: s.agenda })
  | .unschedule k => rootOnly o (
    if k < s.agenda.length then some { s with agenda := s.agenda.eraseIdx k } else none)
  | .dispatchAs x call => match o with
    | .root => gdispatch env s x call
    | _ => none
  | .asAccount call => match authority kreivo s.m.comm o with
    | none => none
    | some c => gdispatch env s (.signed (communityAccount c)) call
  | .both _ _ => some s
  | .other _ => some s

/-! ## Histories -/

/-- The origins calls from outside have: signed or unsigned extrinsics, and XCM messages, which act as signed accounts or
as origins of the XCM pallets (C93). -/
def Outside : Origin → Prop
  | .signed _ => True
  | .none => True
  | .other _ => True
  | _ => False

/-- Calls of pallets that are not modelled leave the referenda alone. Specification only, no code behind it (outside
/repo). -/
def Tame (env : GEnv) : Prop := ∀ n o w w', env.base.base.foreign n o w = some w' → w'.polls = w.polls

/-- The calls of a scheduled batch, as tasks of their own. Part of the transition system around the code (outside /repo). -/
def Task.parts (t : Task) : List Task :=
  match t.call with
  | .both a b => [{ t with call := a }, { t with call := b }]
  | _ => []

/-- One step of the chain: a call from outside, a scheduled call whose time has come (its errors are ignored), the
servicing of a referendum, time, and changes of memberships and balances. A scheduled batch whose time has come is taken apart
and its calls run one by one or are left out: that includes what `batch`, `batch_all` and `force_batch` do, which stop, undo or go
on when a call fails, and more. A call whose preimage cannot be had leaves the agenda without running. -/
inductive GStep : GSt → GSt → Prop
  | call {s s' : GSt} (env : GEnv) (he : Tame env) (o : Origin) (ho : Outside o) (c : GCall)
      (h : gdispatch env s o c = some s') : GStep s s'
  | run {s : GSt} (env : GEnv) (he : Tame env) (pre post : List Task) (t : Task) (ha : s.agenda = pre ++ t :: post)
      (hw : t.when ≤ s.now) :
      GStep s ((gdispatch env { s with agenda := pre ++ post } t.origin t.call).getD { s with agenda := pre ++ post })
  | apart {s : GSt} (pre post rest : List Task) (t : Task) (ha : s.agenda = pre ++ t :: post) (hr : rest.Sublist t.parts)
      (hw : t.when ≤ s.now) : GStep s { s with agenda := pre ++ post ++ rest }
  | collective {s s' : GSt} (env : GEnv) (p : Nat) (h : serviceCollective env s p = some s') : GStep s s'
  | community {s s' : GSt} (env : GEnv) (p : PollIx) (h : serviceCommunity env s p = some s') : GStep s s'
  | time {s : GSt} (n : Nat) : GStep s { s with now := s.now + n }
  | world {s : GSt} (w : World) (h : w.polls = s.m.comm.world.polls) :
      GStep s { s with m := { s.m with comm := { s.m.comm with world := w } } }

/-- A chain without communities, tracks of communities, referenda and scheduled calls. The collective may have members.
Specification only, no code behind it (outside /repo). -/
structure GGenesis (s : GSt) : Prop where
  comm : Genesis s.m.comm
  trackOf : ∀ o, s.m.trackOf o = none
  roll : s.roll.Nodup ∧ ∀ a, a ∈ s.roll ↔ s.m.seats a ≠ none
  ranks : ∀ a r, s.m.seats a = some r → r ≤ maxRank
  crefs : ∀ p, s.crefs p = none
  refs : ∀ p, s.refs p = none
  tally : ∀ p, s.ctally p = .zero
  votes : ∀ p, s.cvotes p = []
  agenda : s.agenda = []

/-- States reached from a chain `g`. Specification only, no code behind it (outside /repo). -/
inductive GReach (g : GSt) : GSt → Prop
  | start : GReach g g
  | step {s s' : GSt} (h : GReach g s) (st : GStep s s') : GReach g s'

end Verif.Governance
