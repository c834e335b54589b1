import Verif.Governance.Tracks
import Verif.Accounts.OriginTheorems

/-!
# Passes

Accounts that devices act for (`Pass`, pallet_pass). What /repo decides is in the configuration: who registers and at what
price, how challenges are made and checked, and how long sessions last. The pallet itself is outside /repo; it is modelled by
what its calls need and change, and any of them may be refused for any other reason.
-/

namespace Verif.Runtime

open Verif Verif.Governance Verif.Accounts

/-- What a user shows to log in: for which user and authority, the block whose hash was signed, that hash, and the signature
of a device. It names no call and no signer. Outside /repo; used at runtime/kreivo/src/configuration/system_support.rs
150-158 (pass_webauthn). -/
structure Credential where
  user : List UInt8
  authority : List UInt8
  cx : UInt32
  challenge : List UInt8
  signature : List UInt8
  deriving DecidableEq

/-- What a device shows to be taken on: its id and public key, and the same proof of freshness. Outside /repo; used at
runtime/kreivo/src/configuration/system_support.rs 150-158 (pass_webauthn). -/
structure Attestation where
  device : List UInt8
  key : List UInt8
  authority : List UInt8
  cx : UInt32
  challenge : List UInt8
  signature : List UInt8
  deriving DecidableEq

/-- What the pallet depends on: the account of a user, the authority (made from `kreivo_p`), whether a signature of a
credential is that of a key, whether an attestation is well formed and signed, and the price of a cent. Outside /repo; used at
runtime/kreivo/src/configuration/system_support.rs 131 and 150-158. -/
structure PassEnv where
  accountOf : List UInt8 → AccountId
  authority : List UInt8
  signedBy : List UInt8 → Credential → Bool
  attested : Attestation → Bool
  cents : Nat

/-- The pallet's storage, and the block hashes: which accounts are registered, the key of each of their devices, and for
each session key the account it speaks for and the last block it does. Outside /repo; used at
runtime/kreivo/src/configuration/system_support.rs 198-225 (pallet_pass). -/
structure Passes where
  hashes : Hashes
  registered : AccountId → Bool
  devices : AccountId → List UInt8 → Option (List UInt8)
  sessions : AccountId → Option (AccountId × Nat)

/-- The number of the block being built. Outside /repo; used at runtime/kreivo/src/configuration/system_support.rs 145
(frame_system). -/
def Passes.now (s : Passes) : Nat := s.hashes.now.toNat

/-- `MaxSessionDuration`: runtime/kreivo/src/configuration/system_support.rs 206. -/
def maxSession : Nat := 15 * minutes

/-- The calls of the pallet; `C` are the calls of the runtime. Outside /repo; used at runtime/kreivo/src/lib.rs 210
(pallet_pass). -/
inductive PassCall (C : Type)
  | register (user : List UInt8) (a : Attestation)
  | addDevice (a : Attestation)
  | authenticate (device : List UInt8) (c : Credential) (duration : Option Nat)
  | dispatch (call : C) (auth : Option (List UInt8 × Credential)) (next : Option AccountId)

/-- `verify_user`: the authority, the challenge and the signature. Outside /repo; used at
runtime/kreivo/src/configuration/system_support.rs 136-158 (fc_traits_authn), where `check_challenge` is defined. -/
def verifyUser (env : PassEnv) (h : Hashes) (key : List UInt8) (c : Credential) : Bool :=
  decide (c.authority = env.authority) && checkChallenge h c.cx c.challenge && env.signedBy key c

/-- `verify_device`. Outside /repo; used at runtime/kreivo/src/configuration/system_support.rs 136-158 (fc_traits_authn). -/
def verifyDevice (env : PassEnv) (h : Hashes) (a : Attestation) : Bool :=
  decide (a.authority = env.authority) && checkChallenge h a.cx a.challenge && env.attested a

/-- The account a credential logs in to, if it is good for the device it names. Outside /repo; used at
runtime/kreivo/src/lib.rs 210 (pallet_pass). -/
def loginAs (env : PassEnv) (s : Passes) (device : List UInt8) (c : Credential) : Option AccountId :=
  match s.devices (env.accountOf c.user) device with
  | none => none
  | some key => if verifyUser env s.hashes key c then some (env.accountOf c.user) else none

/-- The account a session key speaks for now. Outside /repo; used at runtime/kreivo/src/lib.rs 139 and 210 (pallet_pass). -/
def sessionOf (s : Passes) (k : AccountId) : Option AccountId :=
  match s.sessions k with
  | none => none
  | some (a, last) => if s.now ≤ last then some a else none

/-- `do_add_device`. Outside /repo; used at runtime/kreivo/src/lib.rs 210 (pallet_pass). -/
def takeDevice (env : PassEnv) (s : Passes) (a : AccountId) (t : Attestation) : Option Passes :=
  if verifyDevice env s.hashes t then
    some { s with devices := fun x d => if x = a ∧ d = t.device then some t.key else s.devices x d }
  else none

/-- `do_add_session`: no longer than the longest session. Outside /repo; used at runtime/kreivo/src/lib.rs 210 (pallet_pass)
and runtime/kreivo/src/configuration/system_support.rs 206. -/
def openSession (s : Passes) (k a : AccountId) (duration : Option Nat) : Passes :=
  { s with sessions := fun x => if x = k then some (a, s.now + min (duration.getD maxSession) maxSession) else s.sessions x }

/-- Who the call of a `dispatch` is made for: the account of the credential that comes along or, without one, the account
the signer's session speaks for. Outside /repo; used at runtime/kreivo/src/lib.rs 210 (pallet_pass). -/
def speaksFor (env : PassEnv) (s : Passes) (o : RtOrigin) (auth : Option (List UInt8 × Credential)) : Option AccountId :=
  match auth with
  | some (d, c) => loginAs env s d c
  | none => match o with
    | .signed k => sessionOf s k
    | _ => none

/-- One call: the new storage and the calls dispatched with the account they are signed by, or `none` if it is refused.
The payment for `register` is C99. Outside /repo; used at runtime/kreivo/src/lib.rs 210 (pallet_pass) and
runtime/kreivo/src/configuration/system_support.rs 198-225. -/
def passCall {C : Type} (env : PassEnv) (s : Passes) (o : RtOrigin) : PassCall C → Option (Passes × List (AccountId × C))
  | .register user t =>
    match registerOrigin env.cents o with
    | none => none
    | some _ =>
      if s.registered (env.accountOf user) then none
      else (takeDevice env { s with registered := fun x => if x = env.accountOf user then true else s.registered x }
        (env.accountOf user) t).map fun s' => (s', [])
  | .addDevice t =>
    match o with
    | .signed a => if s.registered a then (takeDevice env s a t).map fun s' => (s', []) else none
    | _ => none
  | .authenticate d c duration =>
    match o with
    | .signed k => (loginAs env s d c).map fun a => (openSession s k a duration, [])
    | _ => none
  | .dispatch call auth next =>
    match speaksFor env s o auth with
    | none => none
    | some a => some (match next with
      | some k => openSession s k a none
      | none => s, [(a, call)])

/-- What happens: a call is made (`fine` is false if it is refused for a reason not modelled), the next block begins, or a
session is removed, as scheduled or before. Part of the transition system around the code (outside /repo). -/
inductive PassEvent (C : Type)
  | call (o : RtOrigin) (c : PassCall C) (fine : Bool)
  | block (hash : List UInt8)
  | drop (k : AccountId)

/-- The state after an event and what was dispatched in it. The chain ends when the numbers of blocks are used up. Part of the
transition system around the code (outside /repo). -/
def passNext {C : Type} (env : PassEnv) (s : Passes) : PassEvent C → Passes × List (AccountId × C)
  | .call o c fine =>
    if fine then
      match passCall env s o c with
      | some r => r
      | none => (s, [])
    else (s, [])
  | .block hash =>
    if s.hashes.now.toNat + 1 < 2 ^ 32 then
      ({ s with hashes := { s.hashes with
          now := s.hashes.now + 1, hash := fun n => if n = s.hashes.now then hash else s.hashes.hash n } }, [])
    else (s, [])
  | .drop k => ({ s with sessions := fun x => if x = k then none else s.sessions x }, [])

/-- A history: every event with the state it happened in, the first one first. Part of the transition system around the code
(outside /repo). -/
inductive PassRun {C : Type} (env : PassEnv) (z : Passes) : List (Passes × PassEvent C) → Passes → Prop
  | start : PassRun env z [] z
  | more {l : List (Passes × PassEvent C)} {s : Passes} (h : PassRun env z l s) (e : PassEvent C) :
    PassRun env z (l ++ [(s, e)]) (passNext env s e).1

/-- Nobody is registered yet. Part of the transition system around the code (outside /repo). -/
structure Passes.Fresh (s : Passes) : Prop where
  registered : ∀ a, s.registered a = false
  devices : ∀ a d, s.devices a d = none
  sessions : ∀ k, s.sessions k = none

end Verif.Runtime
