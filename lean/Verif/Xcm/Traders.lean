import Verif.Runtime.Charge
import Verif.Xcm.Executor

/-!
# What XCM messages pay for their weight on Kreivo (runtime/kreivo/src/xcm_config.rs 204-220)

The traders that sell weight and give back what was not used, and the executor's account of the weight that was not used.
The traders themselves (`TakeFirstAssetTrader` of cumulus-primitives-utility, `UsingComponents` and the tuple of xcm-builder)
and the executor are outside `/repo`, as they are in the stable2409 branch; which of them are used, in which order and with
which prices is the configuration of Kreivo.

Simplifications: amounts paid to `UsingComponents` do not reach u128 (no balance does); the weight that
`TakeFirstAssetTrader` notes down is not used by it and left out; holding has room for a refund.
-/

namespace Verif.Xcm

open Verif Verif.Runtime Verif.Accounts

/-- `Weight::saturating_sub`. Outside /repo; used at runtime/kreivo/src/xcm_config.rs 210-220. -/
def Weight.satSub (v w : Weight) : Weight := ⟨v.refTime - w.refTime, v.proofSize - w.proofSize⟩

/-- What prices depend on: the amounts behind `WeightToFee` (constants.rs 60-108), the existential deposit, and what `Assets`
records of its assets. -/
structure Prices where
  cents : Nat
  base : Nat
  ed : Nat
  info : AssetId → Option AssetInfo

/-- The price of a weight in the native token. runtime/kreivo/src/xcm_config.rs 205 and 219,
runtime/kreivo/src/constants.rs 63-72. -/
def Prices.fee (p : Prices) (w : Weight) : Nat := weightToFee p.cents p.base w

/-- `AssetFeeAsExistentialDepositMultiplierFeeCharger`: xcm_config.rs 203-209: the price in an asset, by the minimum balances
of the native token and the asset. -/
def Prices.inAsset (p : Prices) (id : AssetId) (w : Weight) : Option Nat :=
  match p.info id with
  | none => none
  | some i =>
    if i.sufficient = false then none
    else if p.ed = 0 then none
    else some (fixedMulInt (fixedRatio i.min p.ed) (p.fee w))

/-- The least balance of an asset. Outside /repo; used at runtime/kreivo/src/xcm_config.rs 211-217. -/
def Prices.least (p : Prices) (id : AssetId) : Nat :=
  match p.info id with
  | none => 0
  | some i => i.min

/-- `LocationConvertedConcreteId`: xcm_config.rs 69-75: the assets the first trader takes. -/
def payableAsset (l : Location) : Option AssetId :=
  if matchesPrefix assetHub l || matchesPrefix polkadotLocation l then
    match convert l with
    | .some id => some id
    | _ => none
  else none

/-- The traders of a message and the executor's account of weight. `asset` is what the first trader was paid and has not
given back; `weight` and `amount` are those of `UsingComponents`. `handler` and `appendix` are the weights of what is set as
the error handler and the appendix. `used` is not kept by the code: the weight of what was executed so far. Outside /repo;
used at runtime/kreivo/src/xcm_config.rs 210-241 (xcm-executor). -/
structure Till where
  asset : Option (Location × AssetId × Nat)
  weight : Weight
  amount : Nat
  surplus : Weight
  refunded : Weight
  handler : Weight
  appendix : Weight
  used : Weight

/-- A message begins with nothing bought. Outside /repo; used at runtime/kreivo/src/xcm_config.rs 210-241 (xcm-executor).
-/
def Till.start : Till := ⟨none, Weight.zero, 0, Weight.zero, Weight.zero, Weight.zero, Weight.zero, Weight.zero⟩

/-- What `TakeFirstAssetTrader::buy_weight` charges: at least the least balance of the asset, and only if nothing was bought
from it before. Outside /repo; used at runtime/kreivo/src/xcm_config.rs 211-217. -/
def Till.buyAsset (p : Prices) (t : Till) (w : Weight) (fees : XAsset) : Option (Till × Nat) :=
  match t.asset with
  | some _ => none
  | none =>
    match payableAsset fees.1 with
    | none => none
    | some id =>
      match p.inAsset id w with
      | none => none
      | some a =>
        if max a (p.least id) ≤ fees.2 then
          some ({ t with asset := some (fees.1, id, max a (p.least id)) }, max a (p.least id))
        else none

/-- `UsingComponents<WeightToFee, RelayLocation, ..>::buy_weight`. Outside /repo; used at runtime/kreivo/src/xcm_config.rs
219. -/
def Till.buyRelay (p : Prices) (t : Till) (w : Weight) (fees : XAsset) : Option (Till × Nat) :=
  if fees.1 = ⟨1, []⟩ ∧ p.fee w ≤ fees.2 then
    some ({ t with weight := Weight.satAdd t.weight w, amount := t.amount + p.fee w }, p.fee w)
  else none

/-- `Traders::buy_weight`: xcm_config.rs 210-221: the first trader that sells. Answers the charge. -/
def Till.buy (p : Prices) (t : Till) (w : Weight) (fees : XAsset) : Option (Till × Nat) :=
  (t.buyAsset p w fees).or (t.buyRelay p w fees)

/-- `TakeFirstAssetTrader::refund_weight`: the price of the weight, but the least balance is kept. Outside /repo; used at
runtime/kreivo/src/xcm_config.rs 211-217. -/
def Till.refundAsset (p : Prices) (t : Till) (w : Weight) : Till × Option XAsset :=
  match t.asset with
  | none => (t, none)
  | some (l, id, left) =>
    match p.inAsset id w with
    | none => (t, none)
    | some a =>
      if left - a > p.least id then
        ({ t with asset := some (l, id, left - a) }, if a = 0 then none else some (l, a))
      else
        ({ t with asset := some (l, id, p.least id) },
          if left - p.least id = 0 then none else some (l, left - p.least id))

/-- `UsingComponents::refund_weight`: the price of the weight, as far as that weight was bought, whatever was paid.
Outside /repo; used at runtime/kreivo/src/xcm_config.rs 219. -/
def Till.refundRelay (p : Prices) (t : Till) (w : Weight) : Till × Option Nat :=
  let v := Weight.min w t.weight
  ({ t with weight := Weight.satSub t.weight v, amount := t.amount - p.fee v }, if p.fee v = 0 then none else some (p.fee v))

/-- `XcmExecutor::refund_surplus` with `Traders::refund_weight`: xcm_config.rs 211-221: the weight not yet refunded, to the
first trader that gives something. What `UsingComponents` gives beyond what it still has is a bonus. -/
def Till.refund (p : Prices) (t : Till) : Till × Refund :=
  let w := Weight.satSub t.surplus t.refunded
  if w = Weight.zero then (t, ⟨[], 0⟩)
  else
    match t.refundAsset p w with
    | (t1, some x) => ({ t1 with refunded := Weight.satAdd t.refunded w }, ⟨[x], 0⟩)
    | (t1, none) =>
      match t1.refundRelay p w with
      | (t2, some n) =>
        ({ t2 with refunded := Weight.satAdd t.refunded w }, ⟨[(⟨1, []⟩, Nat.min n t.amount)], n - t.amount⟩)
      | (t2, none) => (t2, ⟨[], 0⟩)

/-- What the model leaves open about one step: besides what happens to assets, the weight the call of a `Transact` turned out
to have. Outside /repo; used at runtime/kreivo/src/xcm_config.rs 210-241 (xcm-executor). -/
structure Chance where
  luck : Luck
  actual : Weight

/-- `Weigher::instr_weight`, or nothing if it fails. Outside /repo; used at runtime/kreivo/src/xcm_config.rs 210-241
(xcm-executor). -/
def instrWeight (i : VInstr) : Weight :=
  match weighOne i.shape maxInstructions with
  | some (w, _) => w
  | none => Weight.zero

/-- Weight of what is left of a message after an error. Outside /repo; used at runtime/kreivo/src/xcm_config.rs 210-241
(xcm-executor). -/
def remaining : List VInstr → Weight
  | [] => Weight.zero
  | i :: rest => Weight.satAdd (instrWeight i) (remaining rest)

/-- The weight of an instruction itself, without what it carries: `KreivoXcmWeight`, weights/xcm/mod.rs 58-223. -/
def VInstr.weight : VInstr → Weight
  | .withdrawAsset as => (Instr.withdrawAsset as.length).weight
  | .reserveAssetDeposited as => (Instr.reserveAssetDeposited as.length).weight
  | .receiveTeleportedAsset as => (Instr.receiveTeleportedAsset as.length).weight
  | .transferAsset as _ => (Instr.transferAsset as.length).weight
  | .transferReserveAsset as _ => (Instr.transferReserveAsset as.length).weight
  | .transact _ _ => Generic.transact
  | .clearOrigin => Generic.clearOrigin
  | .descendOrigin _ => Generic.descendOrigin
  | .depositAsset f _ => (Instr.depositAsset f.shape).weight
  | .depositReserveAsset f _ => (Instr.depositReserveAsset f.shape).weight
  | .initiateReserveWithdraw f _ => (Instr.initiateReserveWithdraw f.shape).weight
  | .initiateTeleport f _ => (Instr.initiateTeleport f.shape).weight
  | .buyExecution _ _ => Generic.buyExecution
  | .refundSurplus => Generic.refundSurplus
  | .setErrorHandler _ => Generic.setErrorHandler
  | .setAppendix _ => Generic.setAppendix
  | .claimAsset as => (Instr.claimAsset as.length).weight
  | .burnAsset as => (Instr.burnAsset as.length).weight
  | .plain i => i.shape.weight

/-- An instruction uses its own weight. Outside /repo; used at runtime/kreivo/src/xcm_config.rs 210-241 (xcm-executor). -/
def Till.uses (t : Till) (w : Weight) : Till :=
  { t with used := ⟨t.used.refTime + w.refTime, t.used.proofSize + w.proofSize⟩ }

/-- The till after an instruction that succeeds, and the step's luck with the traders' answers: `buy_weight` and
`refund_surplus`, the weight a call did not need, and the weights of replaced handlers and appendices. None if the traders
do not sell or a handler cannot be weighed. Outside /repo; used at runtime/kreivo/src/xcm_config.rs 210-241
(xcm-executor). -/
def Till.price (p : Prices) (t : Till) (x : Chance) : VInstr → Option (Till × Luck)
  | .buyExecution fees limit =>
    match limit with
    | .unlimited => some (t.uses Generic.buyExecution, x.luck)
    | .limited w => (t.buy p w fees).map fun r => (r.1.uses Generic.buyExecution, { x.luck with charge := r.2 })
  | .refundSurplus => some ((t.refund p).1.uses Generic.refundSurplus, { x.luck with refund := (t.refund p).2 })
  | .transact _ w =>
    if Weight.allGte w x.actual then
      some (Till.uses { t with surplus := Weight.satAdd t.surplus (Weight.satSub w x.actual) }
        ⟨Generic.transact.refTime + x.actual.refTime, Generic.transact.proofSize + x.actual.proofSize⟩, x.luck)
    else none
  | .setErrorHandler xcm =>
    (messageWeight (xcm.map VInstr.shape)).map fun w =>
      (Till.uses { t with surplus := Weight.satAdd t.surplus t.handler, handler := w } Generic.setErrorHandler, x.luck)
  | .setAppendix xcm =>
    (messageWeight (xcm.map VInstr.shape)).map fun w =>
      (Till.uses { t with surplus := Weight.satAdd t.surplus t.appendix, appendix := w } Generic.setAppendix, x.luck)
  | i => some (t.uses i.weight, x.luck)

/-- After an error at `i`: what is left of the code is surplus; the handler or else the appendix is taken. Outside /repo;
used at runtime/kreivo/src/xcm_config.rs 210-241 (xcm-executor). -/
def Till.failed (t : Till) (handler : List VInstr) (i : VInstr) (rest : List VInstr) : Till :=
  let t := Till.uses { t with surplus := Weight.satAdd t.surplus (remaining rest) } (instrWeight i)
  match handler with
  | [] => { t with handler := Weight.zero, appendix := Weight.zero }
  | _ => { t with handler := Weight.zero }

/-- One step of `XcmExecutor::execute` with its traders; none is a panic. At the end of the code the error handler is dropped
and the appendix taken. Outside /repo; used at runtime/kreivo/src/xcm_config.rs 210-241 (xcm-executor). -/
def pricedStep (p : Prices) (m : Mach) (t : Till) (x : Chance) : Option (Mach × Till) :=
  match m.code with
  | [] =>
    some ({ m with code := m.appendix, handler := [], appendix := [] },
      { t with surplus := Weight.satAdd t.surplus t.handler, handler := Weight.zero, appendix := Weight.zero })
  | i :: rest =>
    if x.luck.fails then some (m.failed, t.failed m.handler i rest)
    else
      match t.price p x i with
      | none => some (m.failed, t.failed m.handler i rest)
      | some (t1, luck) =>
        match Mach.effect { m with code := rest } luck i with
        | .ok m' => some (m', t1)
        | .err => some (m.failed, t.failed m.handler i rest)
        | .panic => none

/-- Any number of steps. Outside /repo; used at runtime/kreivo/src/xcm_config.rs 210-241 (xcm-executor). -/
def pricedRun (p : Prices) (m : Mach) (t : Till) : List Chance → Option (Mach × Till)
  | [] => some (m, t)
  | x :: xs =>
    match pricedStep p m t x with
    | none => none
    | some (m', t') => pricedRun p m' t' xs

/-- Executing a message with its traders. Answers what it leaves behind, and the traders after the last refund. Outside
/repo; used at runtime/kreivo/src/xcm_config.rs 210-241 (xcm-executor). -/
def pricedExecute (p : Prices) (c : Chain) (sender : Location) (msg : List VInstr) (xs : List Chance) :
    Option (Chain × Till) :=
  (pricedRun p (Mach.start c sender msg) Till.start xs).map fun r => (r.1.finish (r.2.refund p).2, (r.2.refund p).1)

end Verif.Xcm
