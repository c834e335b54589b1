import Verif.Runtime.StorageLemmas

/-!
# Stored data reads back as written, under its own key (C153, C154)
-/

namespace Verif.Runtime

open Verif Verif.Accounts

theorem paymentIdC_ok : paymentIdC.Ok 8 := by
  refine ⟨Ids.C35_scale_roundtrip, fun {input a rest} h => ?_, fun a => ?_⟩
  · by_cases hl : 8 ≤ input.length
    · obtain ⟨p, h1, h2⟩ := Ids.C35_decode_total input hl
      have h3 : Ids.PaymentId.decode input = some (a, rest) := h
      rw [h1] at h3
      cases h3
      show input = Ids.PaymentId.encode _ ++ _
      rw [h2, List.take_append_drop]
    · have h3 : Ids.PaymentId.decode input = some (a, rest) := h
      rw [(Ids.C35_scale_length a input).2 (by omega)] at h3
      cases h3
  · exact Nat.le_of_eq (Ids.C35_scale_length a []).1

/-! ## C153 -/

/-- C153: what the communities pallet stores, and the origin it adds, reads back as written, from these bytes only, and takes no
more than the stated bytes: state of a community, decision method, vote with its voter, lock, tally, origin. -/
theorem C153_communities :
    stateC.Ok 1 ∧ methodC.Ok 35 ∧ (pairC voteC (bytesC 32)).Ok 68 ∧ voteC.Ok 36 ∧ tallyC.Ok 12 ∧ communityOriginC.Ok 8 :=
  ⟨stateC_ok, methodC_ok, pairC_ok voteC_ok accC_ok, voteC_ok, tallyC_ok, communityOriginC_ok⟩

/-- C153: the same for what the payments pallet stores and for the verdict it takes. -/
theorem C153_payments :
    paymentC.Ok 4989 ∧ (pairC (bytesC 32) (bytesC 32)).Ok 64 ∧ paymentIdC.Ok 8 ∧ disputeC.Ok 2 :=
  ⟨paymentC_ok, pairC_ok accC_ok accC_ok, paymentIdC_ok, disputeC_ok⟩

/-- C153: the same for asset ids and proxy types. -/
theorem C153_shared : assetIdC.Ok 18 ∧ proxyTypeC.Ok 1 := ⟨assetIdC_ok, proxyTypeC_ok⟩

/-- Example for non-vacuity (outside /repo). -/
def exPayment : StoredPayment where
  asset := .external (.ethereum 1) (some ⟨2000, 50, 7⟩)
  amount := 1000
  beneficiary := ⟨List.replicate 32 7, rfl⟩
  incentive := 10
  state := .refundRequested 900
  senderPays := ⟨[(⟨List.replicate 32 9, rfl⟩, 5, true)], by decide⟩
  beneficiaryPays := ⟨[], by decide⟩

example : (paymentC.enc exPayment).length = 138 := by decide +kernel

example : ∃ p r, paymentC.dec (paymentC.enc exPayment ++ [1, 2]) = some (p, r) ∧ r = [1, 2] ∧ p.amount = 1000 :=
  ⟨_, _, C153_payments.1.back exPayment [1, 2], rfl, rfl⟩

example : communityOriginC.dec [5, 0, 1, 2, 0x20, 0xa1, 7, 0] = some (⟨5, some (.fraction ⟨500000, by decide⟩)⟩, []) ∧
    communityOriginC.dec [5, 0, 1, 2, 0x41, 0x42, 0x0f, 0] = none := by decide +kernel

example : methodC.enc (.communityAsset (.here 3) 1) = [2, 0, 3, 0, 0, 0, 1, 0, 0, 0, 0, 0, 0, 0, 0, 0, 0, 0, 0, 0, 0, 0] ∧
    proxyTypeC.enc .collator = [6] ∧ proxyTypeC.dec [7] = none := by decide +kernel

/-! ## C154 -/

/-- Reading after writing, for a map of its own. Specification only, no code behind it (outside /repo). -/
structure SMap.Lawful {κ ν : Type} (m : SMap κ ν) : Prop where
  insert_same : ∀ s k v, m.get (m.insert s k v) k = some v
  insert_other : ∀ s k v k', k' ≠ k → m.get (m.insert s k v) k' = m.get s k'
  remove_same : ∀ s k, m.get (m.remove s k) k = none
  remove_other : ∀ s k k', k' ≠ k → m.get (m.remove s k) k' = m.get s k'

theorem SMap.lawful {κ ν : Type} {m : SMap κ ν} {n : Nat} (hk : ∀ k k', m.key k = m.key k' → k = k') (hv : m.val.Ok n) :
    m.Lawful := by
  have hne : ∀ {k k'}, k' ≠ k → m.pre ++ m.key k' ≠ m.pre ++ m.key k := fun h e =>
    h (hk _ _ (List.append_cancel_left e))
  refine ⟨fun s k v => ?_, fun s k v k' h => ?_, fun s k => ?_, fun s k k' h => ?_⟩
  · simp only [SMap.get, SMap.insert, if_pos, Option.bind_some]
    have := hv.back v []
    rw [List.append_nil] at this
    rw [this]
    rfl
  · simp only [SMap.get, SMap.insert, if_neg (hne h)]
  · simp only [SMap.get, SMap.remove, if_pos, Option.bind_none]
  · simp only [SMap.get, SMap.remove, if_neg (hne h)]

theorem concatKey_split {α : Type} {hash : List UInt8 → List UInt8} {L n : Nat} (hL : ∀ l, (hash l).length = L)
    {c : Codec α} (hc : c.Ok n) {a b : α} {r s : List UInt8} (e : concatKey hash c a ++ r = concatKey hash c b ++ s) :
    a = b ∧ r = s := by
  simp only [concatKey, List.append_assoc] at e
  exact hc.split (List.append_inj e (by rw [hL, hL])).2

theorem concatKey_inj {α : Type} {hash : List UInt8 → List UInt8} {L n : Nat} (hL : ∀ l, (hash l).length = L)
    {c : Codec α} (hc : c.Ok n) {a b : α} (e : concatKey hash c a = concatKey hash c b) : a = b :=
  (concatKey_split (r := []) (s := []) hL hc (by rw [e])).1

theorem concatKey_inj2 {α β : Type} {hash hash' : List UInt8 → List UInt8} {L L' n n' : Nat} (hL : ∀ l, (hash l).length = L)
    (hL' : ∀ l, (hash' l).length = L') {c : Codec α} {d : Codec β} (hc : c.Ok n) (hd : d.Ok n') {a b : α × β}
    (e : concatKey hash c a.1 ++ concatKey hash' d a.2 = concatKey hash c b.1 ++ concatKey hash' d b.2) : a = b := by
  obtain ⟨h1, h2⟩ := concatKey_split hL hc e
  exact Prod.ext h1 (concatKey_inj hL' hd h2)

/-- C154: whatever the hash functions collide on, each map of the two pallets gives back what was last written under a key, and
writing or removing under one key leaves the others alone. -/
theorem C154_maps {O : Type} (h : Hashers) (origins : Codec O) {n : Nat} (ho : origins.Ok n) :
    (infoMap h).Lawful ∧ (idForMap h origins).Lawful ∧ (methodMap h).Lawful ∧ (votesMap h).Lawful ∧ (locksMap h).Lawful ∧
      (paymentMap h).Lawful ∧ (partiesMap h).Lawful :=
  ⟨SMap.lawful (fun _ _ e => concatKey_inj h.blake128_len u16C_ok e) stateC_ok,
    SMap.lawful (fun _ _ e => concatKey_inj h.blake128_len ho e) u16C_ok,
    SMap.lawful (fun _ _ e => concatKey_inj h.blake128_len u16C_ok e) methodC_ok,
    SMap.lawful (fun _ _ e => concatKey_inj2 h.blake128_len h.blake128_len u32C_ok u32C_ok e) (pairC_ok voteC_ok accC_ok),
    SMap.lawful (fun _ _ e => concatKey_inj2 h.blake128_len h.blake128_len accC_ok u32C_ok e) voteC_ok,
    SMap.lawful (fun _ _ e => concatKey_inj2 h.blake128_len h.twox64_len accC_ok paymentIdC_ok e) paymentC_ok,
    SMap.lawful (fun _ _ e => concatKey_inj h.twox64_len paymentIdC_ok e) (pairC_ok accC_ok accC_ok)⟩

/-- The prefixes of the maps of the two pallets. Specification only, no code behind it (outside /repo). -/
def prefixes (h : Hashers) : List (List UInt8) :=
  [mapPrefix h "Communities" "Info", mapPrefix h "Communities" "CommunityIdFor",
    mapPrefix h "Communities" "CommunityDecisionMethod", mapPrefix h "Communities" "CommunityVotes",
    mapPrefix h "Communities" "CommunityVoteLocks", mapPrefix h "Payments" "Payment", mapPrefix h "Payments" "PaymentParties"]

/-- C154: two of these maps share nothing, provided the seven names hash differently: writing or removing in one of them never
changes what is read from another. -/
theorem C154_apart {κ ν κ' ν' : Type} (h : Hashers) (m : SMap κ ν) (m' : SMap κ' ν') (hm : m.pre ∈ prefixes h)
    (hm' : m'.pre ∈ prefixes h) (hne : m.pre ≠ m'.pre) (s : Raw) (k : κ) (v : ν) (k' : κ') :
    m'.get (m.insert s k v) k' = m'.get s k' ∧ m'.get (m.remove s k) k' = m'.get s k' := by
  have hl : ∀ p ∈ prefixes h, p.length = 32 := by
    intro p hp
    simp only [prefixes, List.mem_cons, List.not_mem_nil, or_false] at hp
    rcases hp with rfl | rfl | rfl | rfl | rfl | rfl | rfl <;>
      simp only [mapPrefix, List.length_append, h.twox128_len]
  have hk : m'.pre ++ m'.key k' ≠ m.pre ++ m.key k := fun e =>
    hne (List.append_inj e (by rw [hl _ hm, hl _ hm'])).1.symm
  constructor
  · simp only [SMap.get, SMap.insert, if_neg hk]
  · simp only [SMap.get, SMap.remove, if_neg hk]

/-- The names that are hashed. Specification only, no code behind it (outside /repo). -/
def mapNames : List String :=
  ["Communities", "Payments", "Info", "CommunityIdFor", "CommunityDecisionMethod", "CommunityVotes", "CommunityVoteLocks",
    "Payment", "PaymentParties"]

/-- C154: the seven maps have seven different prefixes, those of `C154_apart`, unless two of the nine names of pallets and maps
collide. -/
theorem C154_names {O : Type} (h : Hashers) (origins : Codec O)
    (hh : ∀ a ∈ mapNames, ∀ b ∈ mapNames, h.twox128 (ascii a) = h.twox128 (ascii b) → a = b) :
    [(infoMap h).pre, (idForMap h origins).pre, (methodMap h).pre, (votesMap h).pre, (locksMap h).pre, (paymentMap h).pre,
      (partiesMap h).pre] = prefixes h ∧ (prefixes h).Nodup := by
  refine ⟨rfl, ?_⟩
  have key : ∀ p ∈ mapNames, ∀ m ∈ mapNames, ∀ p' ∈ mapNames, ∀ m' ∈ mapNames, ¬ (p = p' ∧ m = m') →
      mapPrefix h p m ≠ mapPrefix h p' m' := by
    intro p hp m hm p' hp' m' hm' hne e
    have := List.append_inj e (by rw [h.twox128_len, h.twox128_len])
    exact hne ⟨hh p hp p' hp' this.1, hh m hm m' hm' this.2⟩
  unfold prefixes
  simp only [List.nodup_cons, List.mem_cons, List.not_mem_nil, or_false, not_or, not_false_eq_true, List.nodup_nil, and_true]
  refine ⟨⟨?_, ?_, ?_, ?_, ?_, ?_⟩, ⟨?_, ?_, ?_, ?_, ?_⟩, ⟨?_, ?_, ?_, ?_⟩, ⟨?_, ?_, ?_⟩, ⟨?_, ?_⟩, ?_⟩ <;>
    exact key _ (by decide) _ (by decide) _ (by decide) _ (by decide) (by decide)

/-- C154: walking the locks of an account meets the locks of that account and no others: a stored lock lies under the prefix of
an account exactly if it is that account's. -/
theorem C154_walk (h : Hashers) (who : Acc32) (k : Acc32 × UInt32) :
    ((locksMap h).pre ++ concatKey h.blake128 (bytesC 32) who <+: (locksMap h).pre ++ (locksMap h).key k) ↔ k.1 = who := by
  constructor
  · rintro ⟨t, e⟩
    rw [List.append_assoc] at e
    exact ((concatKey_split h.blake128_len accC_ok (List.append_cancel_left e)).1).symm
  · intro e
    refine ⟨concatKey h.blake128 u32C k.2, ?_⟩
    rw [List.append_assoc, ← e]
    rfl

/-- C154: the cancellations scheduled for two payments are named by the hashes of different texts. -/
theorem C154_task {a b : Ids.PaymentId} (e : taskName a = taskName b) : a = b :=
  (paymentIdC_ok.split (r := []) (s := []) (by rw [List.append_cancel_left e])).1

/-- Example for non-vacuity (outside /repo): hash functions that collide a lot. -/
def exHashers : Hashers where
  blake128 _ := List.replicate 16 0
  twox64 _ := List.replicate 8 0
  twox128 l := l.take 16 ++ List.replicate (16 - l.length) 0
  blake128_len _ := by simp
  twox64_len _ := by simp
  twox128_len l := by simp; omega

example : ∀ a ∈ mapNames, ∀ b ∈ mapNames, exHashers.twox128 (ascii a) = exHashers.twox128 (ascii b) → a = b := by
  decide +kernel

example : (prefixes exHashers).Nodup := by decide +kernel

example : (methodMap exHashers).get ((methodMap exHashers).insert ((infoMap exHashers).insert (fun _ => none) 7 .blocked) 8 .rank) 8 =
    some .rank ∧
    (infoMap exHashers).get ((methodMap exHashers).insert ((infoMap exHashers).insert (fun _ => none) 7 .blocked) 8 .rank) 7 =
      some .blocked ∧
    (infoMap exHashers).get ((methodMap exHashers).insert ((infoMap exHashers).insert (fun _ => none) 7 .blocked) 8 .rank) 8 =
      none := by decide +kernel

example : (locksMap exHashers).get
    ((locksMap exHashers).remove ((locksMap exHashers).insert (fun _ => none) (⟨List.replicate 32 1, rfl⟩, 4) (.standard true))
      (⟨List.replicate 32 1, rfl⟩, 5)) (⟨List.replicate 32 1, rfl⟩, 4) = some (.standard true) := by decide +kernel

example : taskName ⟨2, 5, 5, 1234567⟩ ≠ taskName ⟨2, 5, 5, 1234568⟩ := by decide

end Verif.Runtime
