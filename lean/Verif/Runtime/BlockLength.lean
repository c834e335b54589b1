import Verif.Runtime.Block

/-!
# The length of blocks (runtime/kreivo/src/configuration/system_support.rs 19-20)

`CheckWeight` and `BlockLength` are frame_system's (outside `/repo`); the limits are those of Kreivo.
-/

namespace Verif.Runtime.Length

open Verif Verif.Runtime

/-- `RuntimeBlockLength`: runtime/kreivo/src/configuration/system_support.rs 19-20; `max_with_normal_ratio` takes the share
`NORMAL_DISPATCH_RATIO` (75%) of the length for normal transactions and all of it for the others. -/
def lengthMax : Class → Nat
  | .normal => perbillOf (75 * 10000000) (5 * 1024 * 1024)
  | .operational => 5 * 1024 * 1024
  | .mandatory => 5 * 1024 * 1024

/-- `check_block_length` of `CheckWeight`: the sum is a saturating u32. Outside /repo; used at runtime/kreivo/src/lib.rs 138
(frame_system). -/
def checkLength (used : Nat) (c : Class) (len : Nat) : Option Nat :=
  let next := min (2 ^ 32 - 1) (used + len)
  if lengthMax c < next then none else some next

/-- A block while it is built: weights used, length used (`AllExtrinsicsLen`), and what went in, the newest first. Part of the
transition system around the code (outside /repo). -/
structure Filling where
  used : Used
  length : Nat
  inside : List (Class × Nat)

/-- What happens to a block while it is built: hooks, and transactions (or inherents) of some length that are tried. Part of the
transition system around the code (outside /repo). -/
inductive Act
  | hook (w : Weight)
  | tx (c : Class) (len : Nat) (cost unspent : Weight)

/-- One step: what does not fit, by weight or by length, stays out (`CheckWeight`, `do_pre_dispatch`). Outside /repo; used at
runtime/kreivo/src/lib.rs 138 (frame_system). -/
def act (base : Weight) (s : Filling) : Act → Filling
  | .hook w => { s with used := s.used.set .mandatory (Weight.satAdd s.used.mandatory w) }
  | .tx c len cost unspent =>
    match checkWeight base s.used c cost, checkLength s.length c len with
    | some v, some n => ⟨v.set c (Weight.satSub (v.of c) unspent), n, (c, len) :: s.inside⟩
    | _, _ => s

/-- A block from its start. Part of the transition system around the code (outside /repo). -/
def fill (base : Weight) (acts : List Act) : Filling := acts.foldl (act base) ⟨⟨⟨0, 0⟩, ⟨0, 0⟩, ⟨0, 0⟩⟩, 0, []⟩

end Verif.Runtime.Length
