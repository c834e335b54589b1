import Verif.Xcm.Executor
import Verif.Xcm.AssetIdTheorems

/-! # Lemmas about the executor: amounts, balances, registers -/

namespace Verif.Xcm

open Verif Verif.Runtime Verif.Accounts

/-! ## Amounts -/

@[simp] theorem amt_nil (l : Location) : amt [] l = 0 := rfl

theorem amt_aset (h : Hold) (l k : Location) (n : Nat) : amt (aset h l n) k = if k = l then n else amt h k := by
  unfold amt
  rw [aget_aset]
  split <;> rfl

theorem amt_put (h : Hold) (l k : Location) (n : Nat) : amt (put h l n) k = amt h k + if l = k then n else 0 := by
  unfold put
  rw [amt_aset]
  by_cases hk : k = l
  · subst hk; simp
  · rw [if_neg hk, if_neg fun h => hk h.symm]; rfl

theorem sumAt_append (as bs : List XAsset) (l : Location) : sumAt (as ++ bs) l = sumAt as l + sumAt bs l := by
  induction as with
  | nil => simp [sumAt]
  | cons a as ih =>
    obtain ⟨m, n⟩ := a
    simp only [List.cons_append, sumAt, ih]
    omega

theorem takeList_spec (w : List XAsset) : ∀ (h : Hold) (k : Location),
    sumAt (takeList h w).1 k + amt (takeList h w).2 k = amt h k := by
  induction w with
  | nil => intro h k; simp [takeList, sumAt]
  | cons a w ih =>
    intro h k
    obtain ⟨l, n⟩ := a
    have := ih (aset h l (amt h l - Nat.min n (amt h l))) k
    rw [amt_aset] at this
    have hmin : Nat.min n (amt h l) ≤ amt h l := Nat.min_le_right _ _
    simp only [takeList]
    generalize Nat.min n (amt h l) = t at *
    have key : sumAt (if t = 0 then (takeList (aset h l (amt h l - t)) w).1
        else (l, t) :: (takeList (aset h l (amt h l - t)) w).1) k =
        (if l = k then t else 0) + sumAt (takeList (aset h l (amt h l - t)) w).1 k := by
      split
      · rename_i h0; subst h0; simp
      · simp only [sumAt]
    rw [key]
    by_cases hk : k = l
    · subst hk
      rw [if_pos rfl] at this ⊢
      omega
    · rw [if_neg hk] at this
      rw [if_neg fun h => hk h.symm]
      omega

theorem takeList_pos (w : List XAsset) : ∀ (h : Hold), ∀ e ∈ (takeList h w).1, 0 < e.2 ∧ 0 < amt h e.1 := by
  induction w with
  | nil => intro h e he; simp [takeList] at he
  | cons a w ih =>
    intro h e he
    obtain ⟨l, n⟩ := a
    have hmin : Nat.min n (amt h l) ≤ amt h l := Nat.min_le_right _ _
    simp only [takeList] at he
    generalize Nat.min n (amt h l) = t at *
    have rest : e ∈ (takeList (aset h l (amt h l - t)) w).1 → 0 < e.2 ∧ 0 < amt h e.1 := by
      intro he
      obtain ⟨h1, h2⟩ := ih _ _ he
      rw [amt_aset] at h2
      refine ⟨h1, ?_⟩
      split at h2
      · rename_i hl; rw [hl]; omega
      · exact h2
    split at he
    · exact rest he
    · rcases List.mem_cons.mp he with rfl | he
      · dsimp only; exact ⟨by omega, by omega⟩
      · exact rest he

theorem takeList_le (w : List XAsset) (h : Hold) (k : Location) : amt (takeList h w).2 k ≤ amt h k := by
  have := takeList_spec w h k
  omega

theorem amt_putAll (as : List XAsset) : ∀ (h : Hold) (k : Location), amt (putAll h as) k = amt h k + sumAt as k := by
  induction as with
  | nil => intro h k; simp [putAll, sumAt]
  | cons a as ih =>
    intro h k
    obtain ⟨l, n⟩ := a
    simp only [putAll, sumAt]
    rw [ih, amt_put]
    omega

theorem sumAt_filter (p : XAsset → Bool) (as : List XAsset) (k : Location) :
    sumAt (as.filter p) k + sumAt (as.filter fun e => !p e) k = sumAt as k := by
  induction as with
  | nil => simp [sumAt]
  | cons a as ih =>
    obtain ⟨l, n⟩ := a
    cases hp : p (l, n) <;> simp [hp, sumAt] <;> omega

theorem amt_pos_mem {h : Hold} {l : Location} (hl : 0 < amt h l) : l ∈ h.map (·.1) := by
  unfold amt at hl
  cases hg : aget h l with
  | none => rw [hg] at hl; simp at hl
  | some v => exact List.mem_map.mpr ⟨_, mem_of_aget hg, rfl⟩

theorem sumAt_pos_mem {as : List XAsset} {l : Location} (h : 0 < sumAt as l) : l ∈ as.map (·.1) := by
  induction as with
  | nil => simp [sumAt] at h
  | cons a as ih =>
    obtain ⟨m, n⟩ := a
    simp only [sumAt] at h
    by_cases hm : m = l
    · simp [hm]
    · rw [if_neg hm] at h
      exact List.mem_cons_of_mem _ (ih (by omega))

theorem sameAssets_iff (h : Hold) (as : List XAsset) : sameAssets h as = true ↔ ∀ l, amt h l = sumAt as l := by
  unfold sameAssets
  rw [List.all_eq_true]
  constructor
  · intro hs l
    by_cases hl : l ∈ h.map (·.1) ++ as.map (·.1)
    · simpa using hs l hl
    · rw [List.mem_append, not_or] at hl
      have h1 : ¬ 0 < amt h l := fun h => hl.1 (amt_pos_mem h)
      have h2 : ¬ 0 < sumAt as l := fun h => hl.2 (sumAt_pos_mem h)
      omega
  · intro hs l _
    simpa using hs l

/-- Asking for everything in a register takes everything. -/
theorem takeAll_rest (h : Hold) (pick : Location → Bool) (k : Location) :
    amt (takeList h (VFilter.all.wanted h pick)).2 k = 0 := by
  have key : ∀ (w : List XAsset) (g : Hold), (∀ l, amt g l ≤ amt h l) → (∀ l, 0 < amt g l → (l, amt h l) ∈ w) →
      amt (takeList g w).2 k = 0 := by
    intro w
    induction w with
    | nil =>
      intro g _ hm
      by_contra hk
      exact absurd (hm k (by simp only [takeList] at hk; omega)) (by simp)
    | cons a w ih =>
      intro g hle hm
      obtain ⟨l, n⟩ := a
      simp only [takeList]
      refine ih _ ?_ ?_
      · intro j
        rw [amt_aset]
        have := hle j
        split
        · rename_i hj; subst hj; omega
        · exact this
      · intro j hj
        rw [amt_aset] at hj
        split at hj
        · rename_i hjl
          subst hjl
          have hpos : 0 < amt g j := by omega
          rcases List.mem_cons.mp (hm j hpos) with hmm | hmm
          · have hn : amt h j = n := (Prod.mk.inj hmm).2
            have hmin : Nat.min n (amt g j) = amt g j := Nat.min_eq_right (by rw [← hn]; exact hle j)
            rw [hmin] at hj
            omega
          · exact hmm
        · rename_i hjl
          rcases List.mem_cons.mp (hm j hj) with hmm | hmm
          · exact absurd (Prod.mk.inj hmm).1 hjl
          · exact hmm
  refine key _ h (fun _ => le_rfl) ?_
  intro l hl
  obtain ⟨e, he, rfl⟩ := List.mem_map.mp (amt_pos_mem hl)
  exact List.mem_map.mpr ⟨e, he, rfl⟩

theorem contents_sum (h : Hold) (k : Location) : sumAt (contents h) k = amt h k := by
  have h1 := takeList_spec (VFilter.all.wanted h fun _ => true) h k
  have h2 := takeAll_rest h (fun _ => true) k
  unfold contents
  omega

/-! ## Currencies -/

theorem convertBack_not_relay (id : AssetId) : convertBack id ≠ ⟨1, []⟩ := by
  intro h
  have := C67_id_location_id id
  rw [h] at this
  simp [convert] at this

theorem match_location {l : Location} {c : Cur} (h : matchAsset l = .cur c) : l = c.location := by
  unfold matchAsset at h
  split at h
  · rename_i hl
    cases h
    exact hl
  · split at h
    · rename_i id hc
      cases h
      exact (C67_location_id_location _ _ hc).symm
    · cases h
    · cases h

theorem location_match (c : Cur) : matchAsset c.location = .cur c := by
  cases c with
  | native => rfl
  | asset id =>
    unfold matchAsset Cur.location
    rw [if_neg (convertBack_not_relay id), C67_id_location_id]

theorem location_inj {c d : Cur} (h : c.location = d.location) : c = d := by
  have h1 := location_match c
  rw [h, location_match d] at h1
  cases h1
  rfl

/-! ## Balances -/

theorem get_set (L : XLedger) (c d : Cur) (a b : AccountId) (n : Nat) :
    (L.set c a n).get d b = if d = c ∧ b = a then n else L.get d b := by
  unfold XLedger.get XLedger.set
  dsimp only
  rw [aget_aset]
  by_cases h : (d, b) = (c, a)
  · rw [if_pos h]
    obtain ⟨rfl, rfl⟩ := Prod.mk.inj h
    simp
  · rw [if_neg h, if_neg]
    rintro ⟨rfl, rfl⟩
    exact h rfl

theorem supply_set {L : XLedger} (ok : AOk L.bal) (c : Cur) (a : AccountId) (n : Nat) (k : Cur) :
    (L.set c a n).supply k + (if c = k then L.get c a else 0) = L.supply k + if c = k then n else 0 := by
  unfold XLedger.supply XLedger.set XLedger.get
  dsimp only
  rw [asum_aset]
  cases hg : aget L.bal (c, a) with
  | none =>
    rw [adel_of_none hg]
    dsimp only
    split <;> simp <;> omega
  | some v =>
    rw [asum_split ok _ hg]
    dsimp only [Option.getD_some]
    split <;> omega

theorem set_aok {L : XLedger} (ok : AOk L.bal) (c : Cur) (a : AccountId) (n : Nat) : AOk (L.set c a n).bal :=
  aok_aset ok _ _

/-- What a withdrawal does. -/
theorem withdraw_spec {L L' : XLedger} {c : Cur} {a : AccountId} {n dust : Nat} (h : L.withdraw c a n = some (L', dust)) :
    ∃ b, L' = L.set c a b ∧ b + n + dust = L.get c a := by
  unfold XLedger.withdraw at h
  split at h
  · cases h
  · split at h
    · cases h
    · split at h
      · cases h; exact ⟨0, rfl, by omega⟩
      · cases h; exact ⟨_, rfl, by omega⟩

/-- What a deposit does. -/
theorem deposit_spec {L L' : XLedger} {c : Cur} {a : AccountId} {n : Nat} (h : L.deposit c a n = some L') :
    (n = 0 ∧ L' = L) ∨ L' = L.set c a (L.get c a + n) := by
  unfold XLedger.deposit at h
  split at h
  · cases h; exact .inl ⟨‹_›, rfl⟩
  · split at h
    · cases h
    · split at h
      · cases h
      · split at h
        · cases h
        · cases h; exact .inr rfl

theorem withdraw_supply {L L' : XLedger} (ok : AOk L.bal) {c : Cur} {a : AccountId} {n dust : Nat}
    (h : L.withdraw c a n = some (L', dust)) (k : Cur) :
    AOk L'.bal ∧ L'.supply k + (if c = k then n + dust else 0) = L.supply k := by
  obtain ⟨b, rfl, hb⟩ := withdraw_spec h
  refine ⟨set_aok ok _ _ _, ?_⟩
  have := supply_set ok c a b k
  split <;> simp_all <;> omega

theorem deposit_supply {L L' : XLedger} (ok : AOk L.bal) {c : Cur} {a : AccountId} {n : Nat}
    (h : L.deposit c a n = some L') (k : Cur) :
    AOk L'.bal ∧ L'.supply k = L.supply k + if c = k then n else 0 := by
  rcases deposit_spec h with ⟨rfl, rfl⟩ | rfl
  · exact ⟨ok, by simp⟩
  · refine ⟨set_aok ok _ _ _, ?_⟩
    have := supply_set ok c a (L.get c a + n) k
    split <;> simp_all
    omega

theorem transfer_supply {L L' : XLedger} (ok : AOk L.bal) {c : Cur} {s d : AccountId} {n dust : Nat} {b : Bool}
    (h : L.transfer c s d n b = some (L', dust)) (k : Cur) :
    AOk L'.bal ∧ L'.supply k + (if c = k then dust else 0) = L.supply k := by
  unfold XLedger.transfer at h
  split at h
  · split at h
    · cases h
    · cases h; exact ⟨ok, by simp⟩
  · split at h
    · cases h
    · rename_i L1 dd hw
      obtain ⟨ok1, s1⟩ := withdraw_supply ok hw k
      split at h
      · cases hd : L1.deposit c d (n + dd) with
        | none => rw [hd] at h; cases h
        | some L2 =>
          rw [hd] at h
          cases h
          obtain ⟨ok2, s2⟩ := deposit_supply ok1 hd k
          refine ⟨ok2, ?_⟩
          split <;> simp_all
      · cases hd : L1.deposit c d n with
        | none => rw [hd] at h; cases h
        | some L2 =>
          rw [hd] at h
          cases h
          obtain ⟨ok2, s2⟩ := deposit_supply ok1 hd k
          refine ⟨ok2, ?_⟩
          split <;> simp_all <;> omega

theorem withdraw_get {L L' : XLedger} {c : Cur} {a : AccountId} {n dust : Nat} (h : L.withdraw c a n = some (L', dust))
    (k : Cur) (b : AccountId) (hb : b ≠ a) : L'.get k b = L.get k b := by
  obtain ⟨x, rfl, _⟩ := withdraw_spec h
  rw [get_set, if_neg fun h => hb h.2]

theorem deposit_get {L L' : XLedger} {c : Cur} {a : AccountId} {n : Nat} (h : L.deposit c a n = some L')
    (k : Cur) (b : AccountId) : L.get k b ≤ L'.get k b := by
  rcases deposit_spec h with ⟨_, rfl⟩ | rfl
  · exact le_rfl
  · rw [get_set]
    split
    · rename_i h; obtain ⟨rfl, rfl⟩ := h; omega
    · exact le_rfl

theorem transfer_get {L L' : XLedger} {c : Cur} {s d : AccountId} {n dust : Nat} {t : Bool}
    (h : L.transfer c s d n t = some (L', dust)) (k : Cur) (b : AccountId) (hb : b ≠ s) : L.get k b ≤ L'.get k b := by
  unfold XLedger.transfer at h
  split at h
  · split at h
    · cases h
    · cases h; exact le_rfl
  · split at h
    · cases h
    · rename_i L1 dd hw
      have h1 := withdraw_get hw k b hb
      split at h
      · cases hd : L1.deposit c d (n + dd) with
        | none => rw [hd] at h; cases h
        | some L2 => rw [hd] at h; cases h; rw [← h1]; exact deposit_get hd k b
      · cases hd : L1.deposit c d n with
        | none => rw [hd] at h; cases h
        | some L2 => rw [hd] at h; cases h; rw [← h1]; exact deposit_get hd k b

end Verif.Xcm
