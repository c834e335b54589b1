import Verif.Runtime.Collators
import Verif.Runtime.Sessions

/-! # Sessions and collators together (runtime/kreivo/src/lib.rs 228-241, 293-296, 381-431; C193, C194)

The pallets of Runtime/Sessions and Runtime/Collators in one chain of blocks, as the runtime connects them: the author of a
block is noted by pallet_collator_selection (`EventHandler`), the end of a session makes it drop idle candidates and choose
(`SessionManager`), and only accounts with session keys may become collators (`ValidatorRegistration`). -/

namespace Verif.Runtime.Serving

variable {A K : Type} [DecidableEq A] [DecidableEq K]

/-- The state of both: runtime/kreivo/src/lib.rs 386-398 and 417-431. -/
structure St (A K : Type) where
  sess : Sessions.St A K
  coll : Collators.St A

/-- The transactions that matter here: calls about keys, and the calls of pallet_collator_selection, with what accounts can
reserve at that moment. Outside /repo; used at runtime/kreivo/src/lib.rs 386-398 and 417-431. -/
inductive Tx (A K : Type)
  | keys (c : Sessions.Call A K)
  | coll (can : A → Nat → Bool) (op : Collators.Op A)

/-- A block: its slot, the key of its seal, and its transactions. Outside /repo; used at runtime/kreivo/src/lib.rs 386-398. -/
structure Blk (A K : Type) where
  slot : Nat
  signer : K
  txs : List (Tx A K)

/-- Which operations of pallet_collator_selection are calls; the others happen in hooks. Outside /repo; used at
runtime/kreivo/src/lib.rs 417-431. -/
def isCall : Collators.Op A → Bool
  | .author _ => false
  | .block => false
  | .session => false
  | _ => true

/-- What pallet_collator_selection is configured with: `ValidatorRegistration` is pallet_session, `KickThreshold` is `Period`:
runtime/kreivo/src/lib.rs 426-428. -/
def env (hour : Nat) (s : St A K) (can : A → Nat → Bool) : Collators.Env A := ⟨fun a => (s.sess.keys a).isSome, can, hour⟩

/-- A transaction; one that fails changes nothing. Outside /repo; used at runtime/kreivo/src/lib.rs 386-398 and 417-431. -/
def tx (hour : Nat) (s : St A K) : Tx A K → St A K
  | .keys c => { s with sess := Sessions.call s.sess c }
  | .coll can op =>
    if isCall op then { s with coll := (Collators.step (env hour s can) s.coll op).getD s.coll } else s

/-- `on_initialize` of the pallets: runtime/kreivo/src/lib.rs 230-241. The author found is told to
pallet_collator_selection (`EventHandler`, 295); at the end of a session it drops idle candidates and chooses
(`SessionManager`, 393). -/
def init (hour : Nat) (b : Blk A K) (s : St A K) : Sessions.Hook → St A K
  | .authorship =>
    { sess := { s.sess with author := Sessions.findAuthor s.sess b.slot }
      coll := match Sessions.findAuthor s.sess b.slot with
        | some a => Collators.noteAuthor s.coll a
        | none => s.coll }
  | .session =>
    if Sessions.ends (Collators.period hour) s.sess.number then
      let coll := Collators.kickStale (env hour s fun _ _ => false) s.coll
      { sess := Sessions.rotate (Collators.assemble coll) s.sess, coll := coll }
    else s
  | _ => s

/-- The start of a block: its number, then the hooks in the order of the runtime: runtime/kreivo/src/lib.rs 230-241. -/
def hooks (hour : Nat) (b : Blk A K) (s : St A K) : St A K :=
  Sessions.order.foldl (init hour b)
    { sess := { s.sess with number := s.sess.number + 1 }, coll := { s.coll with now := s.coll.now + 1 } }

/-- A block (see `Sessions.execute`): the seal, the hooks, the transactions and `on_finalize`. Outside /repo; used at
runtime/kreivo/src/lib.rs 325. -/
def execute (hour : Nat) (s : St A K) (b : Blk A K) : Option (St A K) :=
  if s.sess.sealers[b.slot % s.sess.authorities.length]? = some b.signer then
    let t := b.txs.foldl (tx hour) (hooks hour b s)
    some { t with sess := Sessions.finalize t.sess }
  else none

/-- The genesis: the collators with keys are the invulnerables. chain-spec-generator/src/spec/local.rs 127-133 and
runtime/kreivo/src/lib.rs 386-398. -/
def genesis (l : List (A × K)) (bond : Nat) : St A K := ⟨Sessions.genesis l, Collators.genesis (l.map Prod.fst) bond⟩

/-- A chain of blocks. Part of the transition system around the code (outside /repo). -/
def run (hour : Nat) (l : List (A × K)) (bond : Nat) (bs : List (Blk A K)) : Option (St A K) :=
  bs.foldl (fun s b => s.bind fun s => execute hour s b) (some (genesis l bond))

end Verif.Runtime.Serving
