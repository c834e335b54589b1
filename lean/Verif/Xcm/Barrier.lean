import Verif.Xcm.Weights
import Verif.Accounts.Model

/-!
# Which XCM messages run, and as whom (runtime/kreivo/src/xcm_config.rs)

The barrier, the origin converters and the origin register of the XCM executor. The combinators come from xcm-builder and
xcm-executor (outside `/repo`); which of them are used, and with what, is the configuration of Kreivo.
-/

namespace Verif.Xcm

open Verif Verif.Runtime Verif.Accounts

/-- `ParentOrParentsExecutivePlurality`: xcm_config.rs 140-154. -/
def parentOrExecutive (l : Location) : Bool :=
  match l.parents, l.interior with
  | 1, [] => true
  | 1, [.plurality .executive _] => true
  | _, _ => false

/-- `UniversalLocation`: xcm_config.rs 44-48, with the id of the chain. -/
def universalLocation (self : UInt32) : List Junction :=
  [.globalConsensus .polkadot, .globalConsensus .kusama, .parachain self]

/-- `InteriorLocation::relative_to` of a single junction: one shared first junction is stripped, the rest of the viewer's
become parents. Outside /repo; used at runtime/kreivo/src/xcm_config.rs 156-167 (xcm-builder). -/
def relativeTo (j : Junction) (viewer : List Junction) : Location :=
  match viewer with
  | v :: rest => if v = j then ⟨UInt8.ofNat rest.length, []⟩ else ⟨UInt8.ofNat (rest.length + 1), [j]⟩
  | [] => ⟨0, [j]⟩

/-- `Location::append_with`: at most eight junctions. Outside /repo; used at runtime/kreivo/src/xcm_config.rs 156-167
(xcm-builder). -/
def Location.append (l : Location) (who : List Junction) : Option Location :=
  if l.interior.length + who.length ≤ 8 then some ⟨l.parents, l.interior ++ who⟩ else none

/-- The loop of `WithComputedOrigin` (xcm_config.rs 158-166: at most eight instructions): the instructions passed over, the
origin they compute, and the rest. -/
def computeOrigin (self : UInt32) : Nat → Location → List Instr → Option (List Instr × Location × List Instr)
  | 0, l, msg => some ([], l, msg)
  | n + 1, l, .universalOrigin j :: rest =>
    (computeOrigin self n (relativeTo j (universalLocation self)) rest).map
      fun r => (.universalOrigin j :: r.1, r.2)
  | n + 1, l, .descendOrigin who :: rest =>
    match l.append who with
    | none => none
    | some l' => (computeOrigin self n l' rest).map fun r => (.descendOrigin who :: r.1, r.2)
  | _ + 1, l, msg => some ([], l, msg)

/-- First instruction of a paid message: puts at most two kinds of assets into holding. Outside /repo; used at
runtime/kreivo/src/xcm_config.rs 156-167 (xcm-builder). -/
def loadsAssets : Instr → Bool
  | .withdrawAsset n | .receiveTeleportedAsset n | .reserveAssetDeposited n | .claimAsset n => decide (n ≤ 2)
  | _ => false

/-- `BuyExecution` that covers the weight of the message; its limit is set to that weight. Outside /repo; used at
runtime/kreivo/src/xcm_config.rs 156-167 (xcm-builder). -/
def buys (w : Weight) : Instr → Option Instr
  | .buyExecution .unlimited => some (.buyExecution (.limited w))
  | .buyExecution (.limited v) => if Weight.allGte v w then some (.buyExecution (.limited w)) else none
  | _ => none

/-- Instructions passed over up to a `BuyExecution`. Outside /repo; used at runtime/kreivo/src/xcm_config.rs 156-167
(xcm-builder). -/
def skipAndBuy (skip : Instr → Bool) (w : Weight) : List Instr → Option (List Instr)
  | [] => none
  | i :: rest => if skip i then (skipAndBuy skip w rest).map (i :: ·) else (buys w i).map (· :: rest)

/-- `AllowTopLevelPaidExecutionFrom<Everything>`: looks at five instructions. Which instructions it passes over between
loading and buying depends on the version of xcm-builder and is a parameter. Answers the message to run. Outside /repo;
used at runtime/kreivo/src/xcm_config.rs 156-167 (xcm-builder). -/
def topLevelPaid (skip : Instr → Bool) (w : Weight) (msg : List Instr) : Option (List Instr) :=
  match msg.take 5 with
  | [] => none
  | i :: rest => if loadsAssets i then (skipAndBuy skip w rest).map fun r => i :: r ++ msg.drop 5 else none

/-- `AllowExplicitUnpaidExecutionFrom<ParentOrParentsExecutivePlurality>`. Outside /repo; used at
runtime/kreivo/src/xcm_config.rs 161 (xcm-builder). -/
def explicitUnpaid (origin : Location) (w : Weight) (msg : List Instr) : Option (List Instr) :=
  if parentOrExecutive origin then
    match msg with
    | .unpaidExecution .unlimited _ :: _ => some msg
    | .unpaidExecution (.limited v) _ :: _ => if Weight.allGte v w then some msg else none
    | _ => none
  else none

/-- `Barrier`: xcm_config.rs 156-167, for a message of weight `w` sent with `credit`. Answers the message to run. -/
def barrier (skip : Instr → Bool) (self : UInt32) (sender : Location) (msg : List Instr) (w credit : Weight) :
    Option (List Instr) :=
  if Weight.covers credit w then some msg
  else
    match msg with
    | [] => none
    | _ =>
      match computeOrigin self 8 sender msg with
      | none => none
      | some (pre, origin, rest) =>
        ((topLevelPaid skip w rest).or (explicitUnpaid origin w rest)).map (pre ++ ·)

/-- `XcmExecutor::prepare` and the barrier: a message is weighed, then has to pass the barrier. Outside /repo; used at
runtime/kreivo/src/xcm_config.rs 239-240 (xcm-executor). -/
def admit (skip : Instr → Bool) (self : UInt32) (sender : Location) (msg : List Instr) (credit : Weight) :
    Option (List Instr) :=
  match messageWeight msg with
  | none => none
  | some w => barrier skip self sender msg w credit

/-! ## Dispatch origins -/

/-- The origins a call can be dispatched with, as far as XCM could produce them. runtime/kreivo/src/xcm_config.rs 113-129.
-/
inductive CallOrigin
  | root
  | community (c : UInt16)
  | signed (a : AccountId)
  | relay
  | siblingPara (id : UInt32)
  | xcm (l : Location)
  deriving DecidableEq

/-- `SovereignSignedViaLocation<LocationToAccountId, _>`. Outside /repo; used at runtime/kreivo/src/xcm_config.rs 117. -/
def sovereignSigned (l : Location) (k : OriginKind) : Option CallOrigin :=
  match k with
  | .sovereignAccount => (locationToAccount l).map .signed
  | _ => none

/-- `RelayChainAsNative<RelayChainOrigin, _>`. Outside /repo; used at runtime/kreivo/src/xcm_config.rs 120. -/
def relayAsNative (l : Location) (k : OriginKind) : Option CallOrigin :=
  match k with
  | .native => if l = ⟨1, []⟩ then some .relay else none
  | _ => none

/-- `SiblingParachainAsNative<cumulus_pallet_xcm::Origin, _>`. Outside /repo; used at runtime/kreivo/src/xcm_config.rs
123. -/
def siblingAsNative (l : Location) (k : OriginKind) : Option CallOrigin :=
  match k, l.parents, l.interior with
  | .native, 1, [.parachain id] => some (.siblingPara id)
  | _, _, _ => none

/-- `SignedAccountId32AsNative<RelayNetwork, _>`. Outside /repo; used at runtime/kreivo/src/xcm_config.rs 126. -/
def accountAsNative (l : Location) (k : OriginKind) : Option CallOrigin :=
  match k, l.parents, l.interior with
  | .native, 0, [.accountId32 n id] => if n = none ∨ n = relayNetwork then some (.signed id) else none
  | _, _, _ => none

/-- `XcmPassthrough`. Outside /repo; used at runtime/kreivo/src/xcm_config.rs 128. -/
def xcmPassthrough (l : Location) (k : OriginKind) : Option CallOrigin :=
  match k with
  | .xcm => some (.xcm l)
  | _ => none

/-- `XcmOriginToTransactDispatchOrigin`: xcm_config.rs 111-129. -/
def convertOrigin (l : Location) (k : OriginKind) : Option CallOrigin :=
  (sovereignSigned l k).or <| (relayAsNative l k).or <| (siblingAsNative l k).or <| (accountAsNative l k).or <|
    xcmPassthrough l k

/-- The registers of the XCM executor that decide the origin of calls. Outside /repo; used at
runtime/kreivo/src/xcm_config.rs 228-261 (xcm-executor). -/
structure Vm where
  origin : Option Location
  code : List Instr
  handler : List Instr
  appendix : List Instr

/-- A message begins with its sender as the origin. Outside /repo; used at runtime/kreivo/src/xcm_config.rs 228-261
(xcm-executor). -/
def Vm.start (sender : Location) (msg : List Instr) : Vm := ⟨some sender, msg, [], []⟩

/-- What an instruction does to the registers, and the call it dispatches; none when it is refused.
`UniversalAliases` and `Aliasers` are `Nothing` (xcm_config.rs 252, 255): the two instructions that would replace the
origin always fail. -/
def Vm.effect (vm : Vm) : Instr → Option (Vm × List CallOrigin)
  | .clearOrigin => some ({ vm with origin := none }, [])
  | .descendOrigin who =>
    match vm.origin with
    | none => none
    | some l =>
      match l.append who with
      | none => none
      | some l' => some ({ vm with origin := some l' }, [])
  | .universalOrigin _ => none
  | .aliasOrigin _ => none
  | .setErrorHandler x => some ({ vm with handler := x }, [])
  | .setAppendix x => some ({ vm with appendix := x }, [])
  | .transact k _ =>
    match vm.origin with
    | none => none
    | some l =>
      match convertOrigin l k with
      | none => none
      | some o => some (vm, [o])
  | _ => some (vm, [])

/-- After an error: the error handler, or else the appendix. Outside /repo; used at runtime/kreivo/src/xcm_config.rs
228-261 (xcm-executor). -/
def Vm.failed (vm : Vm) : Vm :=
  match vm.handler with
  | [] => { vm with code := vm.appendix, handler := [], appendix := [] }
  | h => { vm with code := h, handler := [] }

/-- One step of `XcmExecutor`: an instruction, which may also fail for reasons not modelled (`fails`), or the move to the
appendix at the end of the code. Outside /repo; used at runtime/kreivo/src/xcm_config.rs 228-261 (xcm-executor). -/
def Vm.step (vm : Vm) (fails : Bool) : Vm × List CallOrigin :=
  match vm.code with
  | [] => ({ vm with code := vm.appendix, handler := [], appendix := [] }, [])
  | i :: rest =>
    if fails then (vm.failed, [])
    else
      match Vm.effect { vm with code := rest } i with
      | none => (vm.failed, [])
      | some r => r

/-- The origins of the calls dispatched in a run; the list says which instructions fail. Outside /repo; used at
runtime/kreivo/src/xcm_config.rs 228-261 (xcm-executor). -/
def Vm.run (vm : Vm) : List Bool → List CallOrigin
  | [] => []
  | b :: bs => (vm.step b).2 ++ Vm.run (vm.step b).1 bs

end Verif.Xcm
