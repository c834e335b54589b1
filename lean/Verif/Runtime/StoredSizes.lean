import Verif.Runtime.StorageTheorems

/-!
# How much room stored entries take

The weights of the two pallets charge, for each entry a call may touch, the largest size the entry can have. The theorems
here compare these numbers with what the encodings really need.
-/

namespace Verif.Runtime

open Verif Verif.Accounts

/-- What an entry adds to a proof besides the prefix of its map: the rest of the key and the value. Specification only, no code
behind it (outside /repo). -/
def SMap.room {κ ν : Type} (m : SMap κ ν) (k : κ) (v : ν) : Nat := (m.key k).length + (m.val.enc v).length

/-- No entry takes more than `n` bytes, and some entry takes that many. Specification only, no code behind it (outside
/repo). -/
def SMap.Largest {κ ν : Type} (m : SMap κ ν) (n : Nat) : Prop :=
  (∀ k v, m.room k v ≤ n) ∧ ∃ k v, m.room k v = n

/-- `max_size` of `Info`: runtime/kreivo/src/weights/pallet_communities.rs 39. -/
def infoSize : Nat := 19
/-- `max_size` of `CommunityIdFor`: runtime/kreivo/src/weights/pallet_communities.rs 41. -/
def idForSize : Nat := 622
/-- `max_size` of `CommunityDecisionMethod`: runtime/kreivo/src/weights/pallet_communities.rs 73. -/
def methodSize : Nat := 53
/-- `max_size` of `CommunityVotes`: runtime/kreivo/src/weights/pallet_communities.rs 181. -/
def votesSize : Nat := 108
/-- `max_size` of `CommunityVoteLocks`: runtime/kreivo/src/weights/pallet_communities.rs 185. -/
def locksSize : Nat := 104
/-- `max_size` of `Payment`: runtime/kreivo/src/weights/pallet_payments.rs 39. -/
def paymentSize : Nat := 5053
/-- `max_size` of `PaymentParties`: runtime/kreivo/src/weights/pallet_payments.rs 47. -/
def partiesSize : Nat := 80

theorem concatKey_len {α : Type} {hash : List UInt8 → List UInt8} {L n : Nat} (hL : ∀ l, (hash l).length = L) {c : Codec α}
    (hc : ∀ a, (c.enc a).length ≤ n) (a : α) : (concatKey hash c a).length ≤ L + n := by
  have := hc a
  simp only [concatKey, List.length_append, hL]
  omega

theorem concatKey_len_eq {α : Type} {hash : List UInt8 → List UInt8} {L n : Nat} (hL : ∀ l, (hash l).length = L)
    {c : Codec α} {a : α} (hc : (c.enc a).length = n) : (concatKey hash c a).length = L + n := by
  simp only [concatKey, List.length_append, hL, hc]

/-- The longest asset id. Example for non-vacuity (outside /repo). -/
def longAsset : Xcm.AssetId := .external (.ethereum 1) (some ⟨2000, 50, 7⟩)

/-- An account. Example for non-vacuity (outside /repo). -/
def longAcc : Acc32 := ⟨List.replicate 32 7, rfl⟩

/-- As many fees as there may be. Example for non-vacuity (outside /repo). -/
def longFees : Bounded maxFees StoredFee := ⟨List.replicate 50 (longAcc, 5, true), by decide⟩

/-- The longest payment. Example for non-vacuity (outside /repo). -/
def longPayment : StoredPayment := ⟨longAsset, 1000, longAcc, 10, .refundRequested 900, longFees, longFees⟩

/-- C218: whatever the keys, values and hash functions, no entry of the maps of the two pallets takes more room than the
weights charge for it, and for each map some entry takes all of it. -/
theorem C218_sizes (h : Hashers) :
    (infoMap h).Largest infoSize ∧ (methodMap h).Largest methodSize ∧ (votesMap h).Largest votesSize ∧
      (locksMap h).Largest locksSize ∧ (paymentMap h).Largest paymentSize ∧ (partiesMap h).Largest partiesSize := by
  have b := h.blake128_len
  have t := h.twox64_len
  refine ⟨⟨fun k v => ?_, 0, .active, ?_⟩, ⟨fun k v => ?_, 0, .communityAsset longAsset 1, ?_⟩,
    ⟨fun k v => ?_, (0, 0), (.asset true longAsset 1, longAcc), ?_⟩,
    ⟨fun k v => ?_, (longAcc, 0), .asset true longAsset 1, ?_⟩,
    ⟨fun k v => ?_, (longAcc, ⟨1, 2, 3, 4⟩), longPayment, ?_⟩, ⟨fun k v => ?_, ⟨1, 2, 3, 4⟩, (longAcc, longAcc), ?_⟩⟩
  · have h1 := concatKey_len b u16C_ok.len k
    have h2 := stateC_ok.len v
    simp only [SMap.room, infoMap, infoSize]; omega
  · have h1 := concatKey_len_eq (c := u16C) (a := 0) (n := 2) b rfl
    simp only [SMap.room, infoMap, infoSize, h1]; rfl
  · have h1 := concatKey_len b u16C_ok.len k
    have h2 := methodC_ok.len v
    simp only [SMap.room, methodMap, methodSize]; omega
  · have h1 := concatKey_len_eq (c := u16C) (a := 0) (n := 2) b rfl
    simp only [SMap.room, methodMap, methodSize, h1]; rfl
  · have h1 := concatKey_len b u32C_ok.len k.1
    have h3 := concatKey_len b u32C_ok.len k.2
    have h2 := (pairC_ok voteC_ok accC_ok).len v
    simp only [SMap.room, votesMap, votesSize, List.length_append]; omega
  · have h1 := concatKey_len_eq (c := u32C) (a := 0) (n := 4) b rfl
    simp only [SMap.room, votesMap, votesSize, List.length_append, h1]; rfl
  · have h1 := concatKey_len b accC_ok.len k.1
    have h3 := concatKey_len b u32C_ok.len k.2
    have h2 := voteC_ok.len v
    simp only [SMap.room, locksMap, locksSize, List.length_append]; omega
  · have h1 := concatKey_len_eq (c := u32C) (a := 0) (n := 4) b rfl
    have h3 := concatKey_len_eq (c := bytesC 32) (a := longAcc) (n := 32) b rfl
    simp only [SMap.room, locksMap, locksSize, List.length_append, h1, h3]; rfl
  · have h1 := concatKey_len b accC_ok.len k.1
    have h3 := concatKey_len t paymentIdC_ok.len k.2
    have h2 := paymentC_ok.len v
    simp only [SMap.room, paymentMap, paymentSize, List.length_append]; omega
  · have h1 := concatKey_len_eq (c := paymentIdC) (a := ⟨1, 2, 3, 4⟩) (n := 8) t rfl
    have h3 := concatKey_len_eq (c := bytesC 32) (a := longAcc) (n := 32) b rfl
    have h2 : (paymentC.enc longPayment).length = 4989 := by decide +kernel
    simp only [SMap.room, paymentMap, paymentSize, List.length_append, h1, h3, h2]
  · have h1 := concatKey_len t paymentIdC_ok.len k
    have h2 := (pairC_ok accC_ok accC_ok).len v
    simp only [SMap.room, partiesMap, partiesSize]; omega
  · have h1 := concatKey_len_eq (c := paymentIdC) (a := ⟨1, 2, 3, 4⟩) (n := 8) t rfl
    simp only [SMap.room, partiesMap, partiesSize, h1]; rfl

/-- C218: for the map from admins to communities this holds exactly when origins take at most 604 bytes. -/
theorem C218_admins {O : Type} (h : Hashers) (origins : Codec O) :
    (∀ k v, (idForMap h origins).room k v ≤ idForSize) ↔ ∀ o, (origins.enc o).length ≤ 604 := by
  have e : ∀ k v, (idForMap h origins).room k v = 18 + (origins.enc k).length := by
    intro k v
    have h2 : (u16C.enc v).length = 2 := by simp [u16C, leC]
    simp only [SMap.room, idForMap, concatKey, List.length_append, h.blake128_len, h2]
    omega
  constructor
  · intro hk o
    have := hk o 0
    rw [e] at this
    simp only [idForSize] at this
    omega
  · intro ho k v
    have := ho k
    rw [e]
    simp only [idForSize]
    omega

/-- Community origins, one of the kinds of origins, take far less. -/
example : ∀ k v, (idForMap exHashers communityOriginC).room k v ≤ idForSize :=
  (C218_admins exHashers communityOriginC).2 fun o => Nat.le_trans (communityOriginC_ok.len o) (by decide)

example : (paymentMap exHashers).room (longAcc, ⟨1, 2, 3, 4⟩) exPayment = 202 := by decide +kernel

end Verif.Runtime
