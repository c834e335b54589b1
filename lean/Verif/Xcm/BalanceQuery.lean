import Verif.Xcm.AssetIdTheorems
import Verif.Base.AMap

/-!
# The balances API (runtime/kreivo/src/apis.rs 87-114)
-/

namespace Verif.Xcm

open Verif

/-- Largest u128. Outside /repo; used at runtime/kreivo/src/apis.rs (Balance is u128). -/
def balanceMax : Nat := 2 ^ 128 - 1

/-- `Assets::from(Vec<Asset>)` (XCM, outside `/repo`), one entry at a time: amounts of the same asset are added up,
saturating. The order, sorted in XCM, is not modelled. -/
def mergeEntry (acc : List (Location × Nat)) (e : Location × Nat) : List (Location × Nat) :=
  match aget acc e.1 with
  | some n => aset acc e.1 (min balanceMax (n + e.2))
  | none => acc ++ [e]

/-- `convert_balance::<RelayLocation, _>` of a positive balance, nothing for an empty account: apis.rs 97-104. -/
def nativeEntry (free : Nat) : List (Location × Nat) := if free > 0 then [(⟨1, []⟩, free)] else []

/-- `convert::<_, _, _, _, LocationConvertedConcreteId>` of the positive balances: apis.rs 106-110. The conversion of ids is
`convert_back` of `AsFungibleAssetLocation`, which never fails; that of amounts is the identity (`JustTry` on u128). -/
def assetEntries (balances : List (AssetId × Nat)) : List (Location × Nat) :=
  (balances.filter fun e => e.2 > 0).map fun e => (convertBack e.1, e.2)

/-- `query_account_balances`: apis.rs 93-113. `free` is the account's free native balance and `balances` its entries in the
assets pallet, one for each asset. -/
def queryAccountBalances (free : Nat) (balances : List (AssetId × Nat)) : List (Location × Nat) :=
  (nativeEntry free ++ assetEntries balances).foldl mergeEntry []

theorem aget_none_of_not_mem {l : List (Location × Nat)} {k : Location} (h : k ∉ l.map (·.1)) : aget l k = none := by
  induction l with
  | nil => rfl
  | cons e t ih =>
    simp only [List.map_cons, List.mem_cons, not_or] at h
    rw [aget_cons, if_neg (Ne.symm h.1), ih h.2]

/-- Entries of distinct assets are kept as they are. -/
theorem merge_distinct : ∀ (es acc : List (Location × Nat)), (acc.map (·.1) ++ es.map (·.1)).Nodup →
    es.foldl mergeEntry acc = acc ++ es
  | [], acc, _ => by simp
  | e :: es, acc, h => by
    have hn : e.1 ∉ acc.map (·.1) := by
      intro hm
      have := (List.nodup_append.mp h).2.2 _ hm e.1 (by simp)
      exact this rfl
    rw [List.foldl_cons, mergeEntry, aget_none_of_not_mem hn]
    dsimp only
    rw [merge_distinct es]
    · simp
    · simpa using h

theorem convertBack_ne_parent (a : AssetId) : convertBack a ≠ ⟨1, []⟩ := by
  match a with
  | .here i => simp [convertBack]
  | .sibling p => simp [convertBack, Para.junctions]
  | .external n none => simp [convertBack]
  | .external n (some p) => simp [convertBack]

theorem entries_nodup {free : Nat} {balances : List (AssetId × Nat)} (hd : (balances.map (·.1)).Nodup) :
    ((nativeEntry free ++ assetEntries balances).map (·.1)).Nodup := by
  have h1 : ((assetEntries balances).map (·.1)).Nodup := by
    unfold assetEntries
    rw [List.map_map]
    have : ((fun x : Location × Nat => x.1) ∘ fun e : AssetId × Nat => (convertBack e.1, e.2)) =
        convertBack ∘ fun e => e.1 := rfl
    rw [this, ← List.map_map]
    refine List.Nodup.map (fun a b h => C68_distinct_ids_distinct_locations a b h) ?_
    exact hd.sublist (List.Sublist.map _ List.filter_sublist)
  rw [List.map_append]
  refine List.nodup_append.mpr ⟨?_, h1, ?_⟩
  · unfold nativeEntry; split <;> simp
  · intro x hx y hy
    unfold nativeEntry at hx
    split at hx
    · simp only [List.map_cons, List.map_nil, List.mem_singleton] at hx
      subst hx
      unfold assetEntries at hy
      simp only [List.map_map, List.mem_map, List.mem_filter, Function.comp_apply] at hy
      obtain ⟨e, _, rfl⟩ := hy
      exact (convertBack_ne_parent _).symm
    · simp at hx

/-- C103: the answer lists exactly what the account has: its free native balance under the relay chain's location, each
asset under its own location, with the exact amounts, and nothing that is zero. It never fails. -/
theorem C103_exact (free : Nat) (balances : List (AssetId × Nat)) (hd : (balances.map (·.1)).Nodup)
    (l : Location) (n : Nat) :
    (l, n) ∈ queryAccountBalances free balances ↔
      (l = ⟨1, []⟩ ∧ n = free ∧ 0 < n) ∨ (∃ a, l = convertBack a ∧ (a, n) ∈ balances ∧ 0 < n) := by
  unfold queryAccountBalances
  rw [merge_distinct _ _ (by simpa using entries_nodup hd), List.nil_append, List.mem_append]
  refine or_congr ?_ ?_
  · unfold nativeEntry
    split
    · simp only [List.mem_singleton, Prod.mk.injEq]
      constructor
      · rintro ⟨h1, rfl⟩; exact ⟨h1, rfl, by assumption⟩
      · rintro ⟨h1, h2, _⟩; exact ⟨h1, h2⟩
    · simp only [List.not_mem_nil, false_iff]
      rintro ⟨_, rfl, h⟩
      omega
  · unfold assetEntries
    simp only [List.mem_map, List.mem_filter, Prod.mk.injEq, decide_eq_true_eq, Prod.exists]
    constructor
    · rintro ⟨a, m, ⟨h1, h2⟩, h3, rfl⟩; exact ⟨a, h3.symm, h1, h2⟩
    · rintro ⟨a, h1, h2, h3⟩; exact ⟨a, n, ⟨h2, h3⟩, h1.symm, rfl⟩

/-- C103: no asset is listed twice: amounts are never added up or confused. -/
theorem C103_once (free : Nat) (balances : List (AssetId × Nat)) (hd : (balances.map (·.1)).Nodup) :
    ((queryAccountBalances free balances).map (·.1)).Nodup := by
  unfold queryAccountBalances
  rw [merge_distinct _ _ (by simpa using entries_nodup hd), List.nil_append]
  exact entries_nodup hd

example : queryAccountBalances 7 [(.here 5, 0), (.sibling ⟨1000, 50, 1984⟩, 9)] =
    [(⟨1, []⟩, 7), (⟨1, [.parachain 1000, .palletInstance 50, .generalIndex 1984]⟩, 9)] := by decide +kernel

end Verif.Xcm
