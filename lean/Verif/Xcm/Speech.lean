import Verif.Xcm.Transfers

/-!
# What other chains hear from Kreivo (runtime/kreivo/src/xcm_config.rs 228-316)

The messages that leave Kreivo, instruction by instruction: those a community sends with `send`, those that go with assets,
those that executed messages of other chains bring about, and those the pallet sends by itself; and what a chain that receives
one carries out in whose name. pallet-xcm, xcm-executor and the other chains are outside `/repo`; who may send and what is
filtered is decided here.

Simplifications: `sudo_send_upward_message`, by which root sends any message to the relay chain, is left out: it is kept for
root (C186).
-/

namespace Verif.Xcm

open Verif Verif.Runtime Verif.Accounts

/-! ## Messages that leave -/

/-- `SendController::send` and `send_xcm` with `SendXcmOrigin` (xcm_config.rs 286) and `XcmRouter` (277-282): the message with
the location of the sender, as seen from Kreivo, descended into first. pallet-xcm. -/
def sendMessage (o : RtOrigin) (dest : Location) (msg : List VInstr) : Option (Location × List VInstr) :=
  match canSendXcm o with
  | none => none
  | some l =>
    if l.parents = 0 ∧ routable dest then
      some (dest, if l.interior = [] then msg else .descendOrigin l.interior :: msg)
    else none

/-- The instruction an order begins with. Outside /repo; used at runtime/kreivo/src/xcm_config.rs 284-311 (pallet-xcm). -/
def Order.load (o : Order) : VInstr :=
  match o.kind with
  | .withdraw => .withdrawAsset o.assets
  | .deposited => .reserveAssetDeposited o.assets

/-- What goes out for the orders of one call, which are for one chain: `local_reserve_transfer_programs`,
`destination_reserve_transfer_programs`, `InitiateReserveWithdraw` of the executor and `add_fees_to_xcm`. Fees that travel in
another way than the rest are loaded and paid first. What follows `ClearOrigin` is up to the caller
(`transfer_assets_using_type_and_then` takes a program for it). Outside /repo; used at runtime/kreivo/src/xcm_config.rs 284-311
(pallet-xcm). -/
def orderMessage (pay : VInstr) (custom : List VInstr) : List Order → List (Location × List VInstr)
  | [] => []
  | [o] => [(o.dest, o.load :: .clearOrigin :: pay :: custom)]
  | f :: o :: _ => [(o.dest, f.load :: pay :: o.load :: .clearOrigin :: custom)]

/-- What executing an instruction sends, `named` being the assets as the receiver names them, `inner` the program that came
with it: `TransferReserveAsset`, `DepositReserveAsset`, `InitiateReserveWithdraw`, `InitiateTeleport`, and the answers of
`ReportError`, `ReportHolding`, `QueryPallet`, `ReportTransactStatus` and `SubscribeVersion`, which go where the message
says. `AssetLocker` and `MessageExporter` are `()` (xcm_config.rs 248, 251). -/
def forwards (named : List XAsset) (inner : List VInstr) (answerTo : Location) : VInstr → Option (Location × List VInstr)
  | .transferReserveAsset _ dest => some (dest, .reserveAssetDeposited named :: .clearOrigin :: inner)
  | .depositReserveAsset _ dest => some (dest, .reserveAssetDeposited named :: .clearOrigin :: inner)
  | .initiateReserveWithdraw _ reserve => some (reserve, .withdrawAsset named :: .clearOrigin :: inner)
  | .initiateTeleport _ dest => some (dest, .receiveTeleportedAsset named :: .clearOrigin :: inner)
  | .plain .reportError => some (answerTo, [.plain .queryResponse])
  | .plain .reportHolding => some (answerTo, [.plain .queryResponse])
  | .plain .queryPallet => some (answerTo, [.plain .queryResponse])
  | .plain .reportTransactStatus => some (answerTo, [.plain .queryResponse])
  | .plain .subscribeVersion => some (answerTo, [.plain .queryResponse])
  | _ => none

/-- The messages that leave Kreivo: to which chain, and what. Outside /repo; used at runtime/kreivo/src/xcm_config.rs 228-311
(pallet-xcm, xcm-executor). -/
inductive Departs (self : UInt32) : Location → List VInstr → Prop
  /-- `send` of an origin -/
  | said (o : RtOrigin) (dest goal : Location) (msg out : List VInstr) (h : sendMessage o dest msg = some (goal, out)) :
      Departs self goal out
  /-- a call that sends assets -/
  | goods (dust : Cur → Bool) (c c' : Chain) (o : RtOrigin) (call : XcmCall) (os : List Order) (fee : XAsset)
      (limit : WeightLimit) (custom : List VInstr) (goal : Location) (out : List VInstr)
      (h : xcmCall self dust c o call = .ok (c', os)) (hm : (goal, out) ∈ orderMessage (.buyExecution fee limit) custom os) :
      Departs self goal out
  /-- an instruction of a message of another chain -/
  | passed (i : VInstr) (named : List XAsset) (inner : List VInstr) (answerTo goal : Location) (out : List VInstr)
      (h : forwards named inner answerTo i = some (goal, out)) : Departs self goal out
  /-- the pallet's own questions and answers about versions -/
  | own (i : Plain) (goal : Location) (h : i = .subscribeVersion ∨ i = .unsubscribeVersion ∨ i = .queryResponse) :
      Departs self goal [.plain i]

/-! ## Chains that receive them -/

/-- What a chain lets an origin turn into: `Aliasers` and `UniversalAliases` of its own configuration. Outside /repo; used at
runtime/kreivo/src/xcm_config.rs 277-282 (the receiving chain). -/
structure Host where
  aliases : Location → Location → Bool
  universal : Location → Junction → Option Location

/-- The registers of its executor that decide in whose name an instruction is carried out. Outside /repo; used at
runtime/kreivo/src/xcm_config.rs 277-282 (xcm-executor on the receiving chain). -/
structure Ear where
  origin : Option Location
  code : List VInstr
  handler : List VInstr
  appendix : List VInstr

/-- What an instruction does to them; none when it is refused. Outside /repo; used at runtime/kreivo/src/xcm_config.rs 277-282
(xcm-executor on the receiving chain). -/
def Ear.effect (H : Host) (e : Ear) : VInstr → Option Ear
  | .clearOrigin => some { e with origin := none }
  | .descendOrigin who =>
    match e.origin with
    | none => none
    | some l => (l.append who).map fun l' => { e with origin := some l' }
  | .plain (.universalOrigin j) =>
    match e.origin with
    | none => none
    | some l => (H.universal l j).map fun l' => { e with origin := some l' }
  | .plain (.aliasOrigin t) =>
    match e.origin with
    | none => none
    | some l => if H.aliases l t then some { e with origin := some t } else none
  | .setErrorHandler x => some { e with handler := x }
  | .setAppendix x => some { e with appendix := x }
  | _ => some e

/-- After an error: the error handler, or else the appendix. Outside /repo; used at runtime/kreivo/src/xcm_config.rs 277-282
(xcm-executor on the receiving chain). -/
def Ear.failed (e : Ear) : Ear :=
  match e.handler with
  | [] => { e with code := e.appendix, handler := [], appendix := [] }
  | h => { e with code := h, handler := [] }

/-- One step: an instruction, which may also fail for reasons not modelled, or the move to the appendix; with the instruction
taken up and the origin it is taken up with. Outside /repo; used at runtime/kreivo/src/xcm_config.rs 277-282 (xcm-executor on
the receiving chain). -/
def Ear.step (H : Host) (e : Ear) (fails : Bool) : List (Option Location × VInstr) × Ear :=
  match e.code with
  | [] => ([], { e with code := e.appendix, handler := [], appendix := [] })
  | i :: rest =>
    ([(e.origin, i)],
      if fails then e.failed
      else
        match Ear.effect H { e with code := rest } i with
        | some e' => e'
        | none => e.failed)

/-- All instructions taken up in a run, each with the origin it is taken up with; the list says which fail. Outside /repo; used
at runtime/kreivo/src/xcm_config.rs 277-282 (xcm-executor on the receiving chain). -/
def Ear.run (H : Host) (e : Ear) : List Bool → List (Option Location × VInstr)
  | [] => []
  | b :: bs => (e.step H b).1 ++ Ear.run H (e.step H b).2 bs

/-- What a chain hears when a message of `us` arrives, as it names Kreivo. Outside /repo; used at
runtime/kreivo/src/xcm_config.rs 277-282 (xcm-executor on the receiving chain). -/
def heard (H : Host) (us : Location) (msg : List VInstr) (fails : List Bool) : List (Option Location × VInstr) :=
  Ear.run H ⟨some us, msg, [], []⟩ fails

end Verif.Xcm
