import Verif.Base.Bytes

/-!
# SCALE encoding

The parts of parity-scale-codec that the stored types use. Outside /repo; used at pallets/payments/src/types.rs 30,
pallets/communities/src/types.rs 36 and elsewhere (`#[derive(Encode, Decode)]`).
-/

namespace Verif

/-- An encoding: `Encode::encode`, and `Decode::decode`, which returns the value and the rest of the input. Outside /repo; used
at pallets/payments/src/types.rs 30 and wherever else `Encode` and `Decode` are derived. -/
structure Codec (α : Type) where
  enc : α → List UInt8
  dec : List UInt8 → Option (α × List UInt8)

/-- Little-endian integers of `k` bytes. Outside /repo; used at pallets/payments/src/types.rs 30 (parity-scale-codec). -/
def leC {α : Type} (k : Nat) (toNat : α → Nat) (ofNat : Nat → α) : Codec α where
  enc a := leBytes k (toNat a)
  dec i := if k ≤ i.length then some (ofNat (fromLE (i.take k)), i.drop k) else none

/-- `u8`. Outside /repo; used at pallets/payments/src/types.rs 30 (parity-scale-codec). -/
def u8C : Codec UInt8 := leC 1 UInt8.toNat UInt8.ofNat
/-- `u16`. Outside /repo; used at pallets/payments/src/types.rs 30 (parity-scale-codec). -/
def u16C : Codec UInt16 := leC 2 UInt16.toNat UInt16.ofNat
/-- `u32`. Outside /repo; used at pallets/payments/src/types.rs 30 (parity-scale-codec). -/
def u32C : Codec UInt32 := leC 4 UInt32.toNat UInt32.ofNat
/-- `u64`. Outside /repo; used at pallets/payments/src/types.rs 30 (parity-scale-codec). -/
def u64C : Codec UInt64 := leC 8 UInt64.toNat UInt64.ofNat
/-- `u128`. Outside /repo; used at pallets/payments/src/types.rs 30 (parity-scale-codec). -/
def u128C : Codec (BitVec 128) := leC 16 BitVec.toNat (BitVec.ofNat 128)

/-- `bool`: 0 or 1, and nothing else. Outside /repo; used at pallets/payments/src/types.rs 30 (parity-scale-codec). -/
def boolC : Codec Bool where
  enc b := [if b then 1 else 0]
  dec
    | 0 :: r => some (false, r)
    | 1 :: r => some (true, r)
    | _ => none

/-- Exactly `n` bytes. Outside /repo; used at pallets/payments/src/types.rs 30 (`[u8; 32]` in `AccountId32`). -/
abbrev BytesN (n : Nat) := { l : List UInt8 // l.length = n }

/-- Byte arrays. Outside /repo; used at pallets/payments/src/types.rs 30 (parity-scale-codec). -/
def bytesC (n : Nat) : Codec (BytesN n) where
  enc a := a.1
  dec i := if h : n ≤ i.length then some (⟨i.take n, by simp [h]⟩, i.drop n) else none

/-- `Option`: 0, or 1 and the value. Outside /repo; used at common/src/multilocation_asset_id.rs 15 and
pallets/communities/src/origin.rs 100 (parity-scale-codec). -/
def optionC {α : Type} (c : Codec α) : Codec (Option α) where
  enc
    | none => [0]
    | some a => 1 :: c.enc a
  dec
    | 0 :: r => some (none, r)
    | 1 :: r => (c.dec r).map fun (a, r) => (some a, r)
    | _ => none

/-- Pairs and structs: the fields in order. Outside /repo; used at pallets/payments/src/lib.rs 179 (parity-scale-codec). -/
def pairC {α β : Type} (c : Codec α) (d : Codec β) : Codec (α × β) where
  enc p := c.enc p.1 ++ d.enc p.2
  dec i := (c.dec i).bind fun (a, r) => (d.dec r).map fun (b, r) => ((a, b), r)

/-- `Compact<u32>`. Outside /repo; used at pallets/payments/src/types.rs 20 (parity-scale-codec, the length of a vector): two bits
for the mode, the smallest that fits. -/
def compactEnc (n : Nat) : List UInt8 :=
  if n < 2 ^ 6 then leBytes 1 (4 * n)
  else if n < 2 ^ 14 then leBytes 2 (4 * n + 1)
  else if n < 2 ^ 30 then leBytes 4 (4 * n + 2)
  else 3 :: leBytes 4 n

/-- Decoding of `Compact<u32>`, which refuses numbers for which a smaller mode would do. Outside /repo; used at
pallets/payments/src/types.rs 20 (parity-scale-codec). -/
def compactDec : List UInt8 → Option (Nat × List UInt8)
  | [] => none
  | b :: r =>
    if b.toNat % 4 = 0 then some (b.toNat / 4, r)
    else if b.toNat % 4 = 1 then
      if 2 ≤ (b :: r).length ∧ 2 ^ 6 ≤ fromLE ((b :: r).take 2) / 4 then some (fromLE ((b :: r).take 2) / 4, (b :: r).drop 2)
      else none
    else if b.toNat % 4 = 2 then
      if 4 ≤ (b :: r).length ∧ 2 ^ 14 ≤ fromLE ((b :: r).take 4) / 4 then some (fromLE ((b :: r).take 4) / 4, (b :: r).drop 4)
      else none
    else if b.toNat / 4 = 0 ∧ 4 ≤ r.length ∧ 2 ^ 30 ≤ fromLE (r.take 4) then some (fromLE (r.take 4), r.drop 4)
    else none

/-- `k` elements. Outside /repo; used at pallets/payments/src/types.rs 20 (parity-scale-codec). -/
def decMany {α : Type} (c : Codec α) : Nat → List UInt8 → Option (List α × List UInt8)
  | 0, r => some ([], r)
  | k + 1, r => (c.dec r).bind fun (a, r) => (decMany c k r).map fun (l, r) => (a :: l, r)

/-- A vector of at most `n` elements. Outside /repo; used at pallets/payments/src/types.rs 20 (`BoundedVec`). -/
abbrev Bounded (n : Nat) (α : Type) := { l : List α // l.length ≤ n }

/-- `BoundedVec`: the length, refused beyond the bound, and the elements. Outside /repo; used at
pallets/payments/src/types.rs 20. -/
def boundedC {α : Type} (n : Nat) (c : Codec α) : Codec (Bounded n α) where
  enc l := compactEnc l.1.length ++ (l.1.map c.enc).flatten
  dec i := (compactDec i).bind fun (k, r) =>
    if k ≤ n then
      (decMany c k r).bind fun (l, r) => if h : l.length ≤ n then some (⟨l, h⟩, r) else none
    else none

/-! ## Laws -/

/-- What is written is read back, only what is written is read, and it takes at most `n` bytes. Specification only, no code
behind it (outside /repo). -/
structure Codec.Ok {α : Type} (c : Codec α) (n : Nat) : Prop where
  back : ∀ a rest, c.dec (c.enc a ++ rest) = some (a, rest)
  only : ∀ {input a rest}, c.dec input = some (a, rest) → input = c.enc a ++ rest
  len : ∀ a, (c.enc a).length ≤ n

theorem Codec.Ok.mono {α : Type} {c : Codec α} {n m : Nat} (h : c.Ok n) (hm : n ≤ m) : c.Ok m :=
  ⟨h.back, h.only, fun a => Nat.le_trans (h.len a) hm⟩

/-- Encodings are self-delimiting: neither value nor rest can be confused. -/
theorem Codec.Ok.split {α : Type} {c : Codec α} {n : Nat} (h : c.Ok n) {a b : α} {r s : List UInt8}
    (e : c.enc a ++ r = c.enc b ++ s) : a = b ∧ r = s := by
  have h1 := h.back a r
  rw [e, h.back b s] at h1
  cases h1
  exact ⟨rfl, rfl⟩

theorem leC_ok {α : Type} {k : Nat} {toNat : α → Nat} {ofNat : Nat → α} (h1 : ∀ a, toNat a < 256 ^ k)
    (h2 : ∀ a, ofNat (toNat a) = a) (h3 : ∀ n, n < 256 ^ k → toNat (ofNat n) = n) : (leC k toNat ofNat).Ok k := by
  refine ⟨fun a rest => ?_, fun {input a rest} h => ?_, fun a => by simp [leC]⟩
  · have e1 : (leBytes k (toNat a) ++ rest).take k = leBytes k (toNat a) := by
      rw [List.take_append_of_le_length (by simp)]
      exact List.take_of_length_le (by simp)
    have e2 : (leBytes k (toNat a) ++ rest).drop k = rest := by
      rw [List.drop_append_of_le_length (by simp), List.drop_of_length_le (by simp)]
      rfl
    simp only [leC]
    rw [if_pos (by simp), e1, e2, fromLE_leBytes_lt (h1 a), h2]
  · simp only [leC] at h
    split at h
    · rename_i hl
      cases h
      have hlen : (input.take k).length = k := by simp [hl]
      have hlt := fromLE_lt (input.take k)
      rw [hlen] at hlt
      simp only [leC]
      rw [h3 _ hlt]
      have := leBytes_fromLE (input.take k)
      rw [hlen] at this
      rw [this, List.take_append_drop]
    · cases h

theorem u8C_ok : u8C.Ok 1 := leC_ok (fun a => a.toNat_lt) (fun a => by simp) (fun n h => by simp at h ⊢; omega)
theorem u16C_ok : u16C.Ok 2 := leC_ok (fun a => a.toNat_lt) (fun a => by simp) (fun n h => by simp at h ⊢; omega)
theorem u32C_ok : u32C.Ok 4 := leC_ok (fun a => a.toNat_lt) (fun a => by simp) (fun n h => by simp at h ⊢; omega)
theorem u64C_ok : u64C.Ok 8 := leC_ok (fun a => a.toNat_lt) (fun a => by simp) (fun n h => by simp at h ⊢; omega)
theorem u128C_ok : u128C.Ok 16 :=
  leC_ok (fun a => a.isLt) (fun a => by simp) (fun n h => by simp at h ⊢; omega)

theorem boolC_ok : boolC.Ok 1 := by
  refine ⟨fun a rest => by cases a <;> rfl, fun {input a rest} h => ?_, fun a => by simp [boolC]⟩
  simp only [boolC] at h
  split at h <;> cases h <;> rfl

theorem bytesC_ok (n : Nat) : (bytesC n).Ok n := by
  refine ⟨fun a rest => ?_, fun {input a rest} h => ?_, fun a => by simp [bytesC, a.2]⟩
  · obtain ⟨l, rfl⟩ := a
    simp [bytesC]
  · simp only [bytesC] at h
    split at h
    · cases h
      simp [bytesC]
    · cases h

theorem optionC_ok {α : Type} {c : Codec α} {n : Nat} (hc : c.Ok n) : (optionC c).Ok (1 + n) := by
  refine ⟨fun a rest => ?_, fun {input a rest} h => ?_, fun a => ?_⟩
  · cases a with
    | none => rfl
    | some a => simp [optionC, hc.back]
  · simp only [optionC] at h
    split at h
    · cases h; rfl
    · rename_i r
      rw [Option.map_eq_some_iff] at h
      obtain ⟨⟨b, r'⟩, h1, h2⟩ := h
      cases h2
      rw [hc.only h1]; rfl
    · cases h
  · cases a with
    | none => simp [optionC]
    | some a => have := hc.len a; simp [optionC]; omega

theorem pairC_ok {α β : Type} {c : Codec α} {d : Codec β} {n m : Nat} (hc : c.Ok n) (hd : d.Ok m) :
    (pairC c d).Ok (n + m) := by
  refine ⟨fun a rest => ?_, fun {input a rest} h => ?_, fun a => ?_⟩
  · simp [pairC, List.append_assoc, hc.back, hd.back]
  · simp only [pairC, Option.bind_eq_some_iff, Option.map_eq_some_iff] at h
    obtain ⟨⟨a1, r1⟩, h1, ⟨b1, r2⟩, h2, h3⟩ := h
    cases h3
    dsimp only at h2
    rw [hc.only h1, hd.only h2]
    simp [pairC]
  · have := hc.len a.1
    have := hd.len a.2
    simp [pairC]; omega

theorem take_enc (k n : Nat) (rest : List UInt8) :
    (leBytes k n ++ rest).take k = leBytes k n ∧ (leBytes k n ++ rest).drop k = rest := by
  constructor
  · rw [List.take_append_of_le_length (by simp)]
    exact List.take_of_length_le (by simp)
  · rw [List.drop_append_of_le_length (by simp), List.drop_of_length_le (by simp)]
    rfl

theorem leBytes_cons (k n : Nat) : ∃ t, leBytes (k + 1) n = UInt8.ofNat (n % 256) :: t := ⟨_, rfl⟩

theorem compact_back (n : Nat) (hn : n < 2 ^ 32) (rest : List UInt8) : compactDec (compactEnc n ++ rest) = some (n, rest) := by
  unfold compactEnc
  split
  · rename_i h
    have : leBytes 1 (4 * n) = [UInt8.ofNat (4 * n % 256)] := rfl
    rw [this]
    simp only [List.cons_append, List.nil_append, compactDec]
    have e : (UInt8.ofNat (4 * n % 256)).toNat = 4 * n := by
      rw [toNat_ofNat_mod]; omega
    rw [e, if_pos (by omega)]
    congr 2
    omega
  · split
    · obtain ⟨h1, h2⟩ := take_enc 2 (4 * n + 1) rest
      obtain ⟨t, ht⟩ := leBytes_cons 1 (4 * n + 1)
      have hv : fromLE ((leBytes 2 (4 * n + 1) ++ rest).take 2) = 4 * n + 1 := by
        rw [h1]; exact fromLE_leBytes_lt (by omega)
      have hl : 2 ≤ (leBytes 2 (4 * n + 1) ++ rest).length := by simp
      rw [ht, List.cons_append] at h2 hv hl
      rw [ht, List.cons_append]
      simp only [compactDec]
      have e : (UInt8.ofNat ((4 * n + 1) % 256)).toNat % 4 = 1 := by
        rw [toNat_ofNat_mod]; omega
      rw [if_neg (by omega), if_pos e, hv, h2, if_pos ⟨hl, by omega⟩]
      congr 2
      omega
    · split
      · obtain ⟨h1, h2⟩ := take_enc 4 (4 * n + 2) rest
        obtain ⟨t, ht⟩ := leBytes_cons 3 (4 * n + 2)
        have hv : fromLE ((leBytes 4 (4 * n + 2) ++ rest).take 4) = 4 * n + 2 := by
          rw [h1]; exact fromLE_leBytes_lt (by omega)
        have hl : 4 ≤ (leBytes 4 (4 * n + 2) ++ rest).length := by simp
        rw [ht, List.cons_append] at h2 hv hl
        rw [ht, List.cons_append]
        simp only [compactDec]
        have e : (UInt8.ofNat ((4 * n + 2) % 256)).toNat % 4 = 2 := by
          rw [toNat_ofNat_mod]; omega
        rw [if_neg (by omega), if_neg (by omega), if_pos e, hv, h2, if_pos ⟨hl, by omega⟩]
        congr 2
        omega
      · obtain ⟨h1, h2⟩ := take_enc 4 n rest
        have hv : fromLE ((leBytes 4 n ++ rest).take 4) = n := by
          rw [h1]; exact fromLE_leBytes_lt (by omega)
        simp only [List.cons_append, compactDec]
        have e3 : (3 : UInt8).toNat = 3 := rfl
        rw [e3, if_neg (by omega), if_neg (by omega), if_neg (by omega), hv, h2,
          if_pos ⟨by omega, by simp, by omega⟩]

theorem compact_only {input rest : List UInt8} {n : Nat} (h : compactDec input = some (n, rest)) :
    input = compactEnc n ++ rest := by
  cases input with
  | nil => cases h
  | cons b r =>
    have hb := b.toNat_lt
    simp only [compactDec] at h
    -- the bytes from the number
    have key : ∀ k m, k ≤ (b :: r).length → fromLE ((b :: r).take k) = m → b :: r = leBytes k m ++ (b :: r).drop k := by
      intro k m hk hm
      have hl : ((b :: r).take k).length = k := by rw [List.length_take]; omega
      have := leBytes_fromLE ((b :: r).take k)
      rw [hl, hm] at this
      rw [this, List.take_append_drop]
    have low : ∀ k, fromLE ((b :: r).take (k + 1)) % 256 = b.toNat := by
      intro k
      rw [List.take_succ_cons]
      simp only [fromLE]
      omega
    have lt : ∀ k, k ≤ (b :: r).length → fromLE ((b :: r).take k) < 256 ^ k := by
      intro k hk
      have hl : ((b :: r).take k).length = k := by rw [List.length_take]; omega
      have := fromLE_lt ((b :: r).take k)
      rwa [hl] at this
    split at h
    · cases h
      have := key 1 (4 * (b.toNat / 4)) (by simp) (by simp [fromLE]; omega)
      unfold compactEnc
      rw [if_pos (by omega)]
      simpa using this
    · split at h
      · split at h
        · rename_i h1 h2 h3
          cases h
          have hl : fromLE ((b :: r).take 2) % 256 = b.toNat := low 1
          have hlt := lt 2 h3.1
          have := key 2 (4 * (fromLE ((b :: r).take 2) / 4) + 1) h3.1 (by omega)
          unfold compactEnc
          rw [if_neg (by omega), if_pos (by omega)]
          exact this
        · cases h
      · split at h
        · split at h
          · rename_i h1 h2 h3 h4
            cases h
            have hl : fromLE ((b :: r).take 4) % 256 = b.toNat := low 3
            have hlt := lt 4 h4.1
            have := key 4 (4 * (fromLE ((b :: r).take 4) / 4) + 2) h4.1 (by omega)
            unfold compactEnc
            rw [if_neg (by omega), if_neg (by omega), if_pos (by omega)]
            exact this
          · cases h
        · split at h
          · rename_i h1 h2 h3 h4
            cases h
            have hb3 : b = 3 := by
              rw [← UInt8.toNat_inj]
              have : (3 : UInt8).toNat = 3 := rfl
              omega
            unfold compactEnc
            rw [if_neg (by omega), if_neg (by omega), if_neg (by omega), hb3]
            have hl : (r.take 4).length = 4 := by rw [List.length_take]; omega
            have := leBytes_fromLE (r.take 4)
            rw [hl] at this
            rw [this, List.cons_append, List.take_append_drop]
          · cases h

theorem decMany_back {α : Type} {c : Codec α} {n : Nat} (hc : c.Ok n) : ∀ (l : List α) (rest : List UInt8),
    decMany c l.length ((l.map c.enc).flatten ++ rest) = some (l, rest)
  | [], rest => rfl
  | a :: l, rest => by
    simp only [List.length_cons, decMany, List.map_cons, List.flatten_cons, List.append_assoc, hc.back]
    simp [decMany_back hc l rest]

theorem decMany_only {α : Type} {c : Codec α} {n : Nat} (hc : c.Ok n) : ∀ (k : Nat) {input rest : List UInt8} {l : List α},
    decMany c k input = some (l, rest) → l.length = k ∧ input = (l.map c.enc).flatten ++ rest
  | 0, input, rest, l, h => by cases h; exact ⟨rfl, rfl⟩
  | k + 1, input, rest, l, h => by
    simp only [decMany, Option.bind_eq_some_iff, Option.map_eq_some_iff] at h
    obtain ⟨⟨a, r⟩, h1, ⟨l', r'⟩, h2, h3⟩ := h
    cases h3
    dsimp only at h2
    obtain ⟨h4, h5⟩ := decMany_only hc k h2
    refine ⟨by simp [h4], ?_⟩
    rw [hc.only h1, h5]
    simp

theorem compactEnc_len (n : Nat) (h : n < 2 ^ 6) : (compactEnc n).length = 1 := by
  unfold compactEnc; rw [if_pos h]; simp

theorem boundedC_ok {α : Type} {c : Codec α} {n m : Nat} (hn : n < 2 ^ 6) (hc : c.Ok m) :
    (boundedC n c).Ok (1 + n * m) := by
  refine ⟨fun a rest => ?_, fun {input a rest} h => ?_, fun a => ?_⟩
  · obtain ⟨l, hl⟩ := a
    simp only [boundedC, List.append_assoc]
    rw [compact_back _ (by omega)]
    simp [hl, decMany_back hc]
  · simp only [boundedC, Option.bind_eq_some_iff] at h
    obtain ⟨⟨k, r⟩, h1, h2⟩ := h
    simp only at h2
    split at h2
    · rw [Option.bind_eq_some_iff] at h2
      obtain ⟨⟨l, r'⟩, h3, h4⟩ := h2
      simp only at h4
      split at h4
      · cases h4
        obtain ⟨h5, h6⟩ := decMany_only hc k h3
        rw [compact_only h1, h6]
        simp [boundedC, h5]
      · cases h4
    · cases h2
  · obtain ⟨l, hl⟩ := a
    have h1 : ((l.map c.enc).flatten).length ≤ l.length * m := by
      clear hl
      induction l with
      | nil => simp
      | cons a l ih =>
        have := hc.len a
        simp only [List.map_cons, List.flatten_cons, List.length_append, List.length_cons]
        rw [Nat.add_mul]
        omega
    have h2 : l.length * m ≤ n * m := Nat.mul_le_mul_right _ hl
    simp only [boundedC, List.length_append, compactEnc_len _ (Nat.lt_of_le_of_lt hl hn)]
    omega

end Verif
