import Verif.Base.Bytes

/-!
# Payment ids

Model of common/src/payment_id.rs, and of the parts of the `bs58` crate it uses (`encode(..).onto`,
`decode(..).onto`, default alphabet), which is not in the repository.
-/

namespace Verif.Ids

/-- `PaymentId`, payment_id.rs:8-12. -/
structure PaymentId where
  p0 : UInt8
  p1 : UInt8
  index : UInt16
  block : UInt32
deriving DecidableEq, Repr

/-- `AsRef<[u8]>`, payment_id.rs:87-92: the bytes of the `repr(C)` struct on a little-endian machine (the wasm
runtime): prefix, index, block. -/
def PaymentId.bytes (p : PaymentId) : List UInt8 :=
  [p.p0, p.p1] ++ leBytes 2 p.index.toNat ++ leBytes 4 p.block.toNat

/-- `From<PaymentId> for u64`, payment_id.rs:57-61. -/
def PaymentId.toU64 (p : PaymentId) : UInt64 := UInt64.ofNat (fromLE p.bytes)

/-- `From<u64> for PaymentId`, payment_id.rs:63-74: slices of `to_le_bytes`. -/
def PaymentId.ofU64 (v : UInt64) : PaymentId :=
  let val := leBytes 8 v.toNat
  { p0 := val.getD 0 0
    p1 := val.getD 1 0
    index := UInt16.ofNat (fromLE ((val.drop 2).take 2))
    block := UInt32.ofNat (fromLE (val.drop 4)) }

/-- `From<(u32, u32, &[u8])>`, payment_id.rs:76-85: `idx as u16` truncates; fewer than two bytes of `extra`
panic (`none`). -/
def PaymentId.ofParts (block idx : UInt32) (extra : List UInt8) : Option PaymentId :=
  match extra with
  | a :: b :: _ => some ⟨a, b, UInt16.ofNat idx.toNat, block⟩
  | _ => none

/-- `block_number`, payment_id.rs:27-30. -/
def PaymentId.blockNumber (p : PaymentId) : UInt32 := p.block

/-- `extrinsic_index`, payment_id.rs:32-35. -/
def PaymentId.extrinsicIndex (p : PaymentId) : UInt32 := UInt32.ofNat p.index.toNat

/-- `PaymentId::next` on Kreivo, runtime/kreivo/src/payments.rs:67-73: `extrinsicIndex` is
`System::extrinsic_index()`, absent outside extrinsics; `beneficiary` the encoded account (32 bytes). -/
def PaymentId.next (blockNumber : UInt32) (extrinsicIndex : Option UInt32) (beneficiary : List UInt8) :
    Option PaymentId :=
  match extrinsicIndex with
  | none => none
  | some idx => PaymentId.ofParts blockNumber idx beneficiary

/-- `Encode`, payment_id.rs:144-152. -/
def PaymentId.encode (p : PaymentId) : List UInt8 := leBytes 8 p.toU64.toNat

/-- `Decode`, payment_id.rs:153-162: reads eight bytes from the input or fails; returns the id and the rest of
the input. -/
def PaymentId.decode (input : List UInt8) : Option (PaymentId × List UInt8) :=
  if 8 ≤ input.length then
    some (PaymentId.ofU64 (UInt64.ofNat (fromLE (input.take 8))), input.drop 8)
  else none

/-! ## base58 -/

/-- The bs58 default alphabet. Outside /repo; used at common/src/payment_id.rs 119. -/
def alphabet : List UInt8 := ascii "123456789ABCDEFGHJKLMNPQRSTUVWXYZabcdefghijkmnopqrstuvwxyz"

/-- Inner loop of bs58's `encode_into`/`decode_into`: multiply a little-endian digit list by `mul` and add
`carry`, in base `base`, returning the digits and what is carried out of the last one. Outside /repo; used at
common/src/payment_id.rs 109 and 119. -/
def mulAdd (base mul : Nat) : List Nat → Nat → List Nat × Nat
  | [], carry => ([], carry)
  | d :: ds, carry =>
    let c := carry + d * mul
    let (ds', out) := mulAdd base mul ds (c / base)
    (c % base :: ds', out)

/-- `while carry > 0 { push carry % base; carry /= base }`. Outside /repo; used at common/src/payment_id.rs 109 and 119. -/
def pushCarry (base : Nat) (carry : Nat) : List Nat :=
  if h : 2 ≤ base ∧ 0 < carry then carry % base :: pushCarry base (carry / base) else []
termination_by carry
decreasing_by exact Nat.div_lt_self h.2 h.1

/-- One input symbol. Outside /repo; used at common/src/payment_id.rs 109 and 119. -/
def digitStep (base mul : Nat) (ds : List Nat) (x : Nat) : List Nat :=
  let (ds', out) := mulAdd base mul ds x
  ds' ++ pushCarry base out

/-- `bs58::encode(input).onto(out)` with a buffer of `cap` bytes: `none` is `BufferTooSmall`. Outside /repo; used at
common/src/payment_id.rs 119. -/
def b58encode (cap : Nat) (input : List UInt8) : Option (List UInt8) :=
  let ds := input.foldl (fun ds b => digitStep 58 256 ds b.toNat) []
  let ds := ds ++ (input.takeWhile (· = 0)).map (fun _ => 0)
  if ds.length ≤ cap then some ((ds.map fun d => alphabet.getD d 0).reverse) else none

/-- Position of a character in the alphabet (`alpha.decode`): `none` for an invalid character, which includes
every byte above 127. Outside /repo; used at common/src/payment_id.rs 109. -/
def charVal (c : UInt8) : Option Nat :=
  if c ∈ alphabet then some (alphabet.idxOf c) else none

/-- `bs58::decode(input).onto(out)` with a buffer of `cap` bytes: `none` is any error. Simplification: the
order in which an invalid character and a full buffer are noticed is not modelled, both are errors. Outside /repo; used at
common/src/payment_id.rs 109. -/
def b58decode (cap : Nat) (input : List UInt8) : Option (List UInt8) :=
  match input.mapM charVal with
  | none => none
  | some vals =>
    let ds := vals.foldl (fun ds v => digitStep 256 58 ds v) []
    let ds := ds ++ (vals.takeWhile (· = 0)).map (fun _ => 0)
    if ds.length ≤ cap then some ((ds.map UInt8.ofNat).reverse) else none

/-! ## text form -/

/-- Result of code that may panic. common/src/payment_id.rs 98-111. -/
inductive Outcome (α : Type)
  | ok (a : α)
  | err
  | panic
deriving DecidableEq, Repr

/-- The character `-`. common/src/payment_id.rs 101 and 123. -/
def dash : UInt8 := 45

/-- `Display`, payment_id.rs:114-127; `alternate` is `{:#}`. Slicing `out[..5]` panics if the text is shorter. -/
def PaymentId.display (alternate : Bool) (p : PaymentId) : Outcome (List UInt8) :=
  match b58encode 12 p.bytes with
  | none => .err
  | some out =>
    if 5 ≤ out.length then .ok (out.take 5 ++ (if alternate then [dash] else []) ++ out.drop 5)
    else .panic

/-- `str::split_once('-')`. Outside /repo; used at common/src/payment_id.rs 101. -/
def splitOnce : List UInt8 → Option (List UInt8 × List UInt8)
  | [] => none
  | c :: cs => if c = dash then some ([], cs) else (splitOnce cs).map fun (a, b) => (c :: a, b)

/-- The part of `from_str` after the separator is gone, payment_id.rs:108-110: decode onto eight zero bytes. -/
def parseDigits (input : List UInt8) : Outcome PaymentId :=
  match b58decode 8 input with
  | none => .err
  | some out => .ok (PaymentId.ofU64 (UInt64.ofNat (fromLE (out ++ List.replicate (8 - out.length) 0))))

/-- `FromStr`, payment_id.rs:94-112, on the UTF-8 bytes of the string. The slice copies into `tmp[12]` panic
when the two parts are longer than twelve bytes together. -/
def PaymentId.fromStr (s : List UInt8) : Outcome PaymentId :=
  match splitOnce s with
  | none => parseDigits s
  | some (p1, p2) =>
    if 12 < p1.length + p2.length then .panic
    else if (p1 ++ p2).all (· < 128) then parseDigits (p1 ++ p2)
    else .err

end Verif.Ids
