import Mathlib.Data.List.Nodup
import Mathlib.Algebra.BigOperators.Group.List.Basic

/-!
# Storage maps that are iterated over, as lists of entries

`aget`, `aset` and `adel` are `get`, `insert` and `remove` of a `StorageMap` kept as a list of entries with distinct
keys.
-/

namespace Verif

variable {K V : Type} [DecidableEq K]

/-- `StorageMap::get`. Outside /repo; used at pallets/communities/src/lib.rs 265-294. -/
def aget (l : List (K × V)) (k : K) : Option V := (l.find? fun e => decide (e.1 = k)).map (·.2)
/-- `StorageMap::remove`. Outside /repo; used at pallets/communities/src/lib.rs 265-294. -/
def adel (l : List (K × V)) (k : K) : List (K × V) := l.filter fun e => !decide (e.1 = k)
/-- `StorageMap::insert`. Outside /repo; used at pallets/communities/src/lib.rs 265-294. -/
def aset (l : List (K × V)) (k : K) (v : V) : List (K × V) := (k, v) :: adel l k

/-- Distinct keys. Specification only, no code behind it (outside /repo). -/
def AOk (l : List (K × V)) : Prop := (l.map (·.1)).Nodup

@[simp] theorem aget_nil (k : K) : aget ([] : List (K × V)) k = none := rfl

theorem aget_cons (e : K × V) (l : List (K × V)) (k : K) :
    aget (e :: l) k = if e.1 = k then some e.2 else aget l k := by
  unfold aget
  by_cases h : e.1 = k <;> simp [h]

theorem aget_adel_self (l : List (K × V)) (k : K) : aget (adel l k) k = none := by
  induction l with
  | nil => rfl
  | cons e l ih =>
    unfold adel at *
    by_cases h : e.1 = k
    · simp [h, ih]
    · simp [h, aget_cons, ih]

theorem aget_adel_ne (l : List (K × V)) {k j : K} (h : j ≠ k) : aget (adel l k) j = aget l j := by
  induction l with
  | nil => rfl
  | cons e l ih =>
    unfold adel at *
    by_cases h1 : e.1 = k
    · have : e.1 ≠ j := fun h2 => h (h2 ▸ h1)
      simp [h1, ih, aget_cons]
      intro h2; exact absurd h2.symm h
    · simp [h1, aget_cons, ih]

@[simp] theorem aget_aset_self (l : List (K × V)) (k : K) (v : V) : aget (aset l k v) k = some v := by
  simp [aset, aget_cons]

theorem aget_aset_ne (l : List (K × V)) {k j : K} (v : V) (h : j ≠ k) : aget (aset l k v) j = aget l j := by
  rw [aset, aget_cons, if_neg (fun h1 => h h1.symm), aget_adel_ne l h]

theorem aget_aset (l : List (K × V)) (k j : K) (v : V) :
    aget (aset l k v) j = if j = k then some v else aget l j := by
  split
  · subst_vars; simp
  · exact aget_aset_ne l v ‹_›

theorem aget_adel (l : List (K × V)) (k j : K) : aget (adel l k) j = if j = k then none else aget l j := by
  split
  · subst_vars; exact aget_adel_self l _
  · exact aget_adel_ne l ‹_›

theorem mem_of_aget {l : List (K × V)} {k : K} {v : V} (h : aget l k = some v) : (k, v) ∈ l := by
  induction l with
  | nil => simp at h
  | cons e l ih =>
    rw [aget_cons] at h
    split at h
    · rename_i h1; cases h; subst h1; simp
    · exact List.mem_cons_of_mem _ (ih h)

theorem aget_of_mem {l : List (K × V)} (ok : AOk l) {k : K} {v : V} (h : (k, v) ∈ l) : aget l k = some v := by
  induction l with
  | nil => simp at h
  | cons e l ih =>
    have ok' : e.1 ∉ l.map (·.1) ∧ AOk l := by simpa [AOk] using ok
    rw [aget_cons]
    rcases List.mem_cons.1 h with h | h
    · subst h; simp
    · have : e.1 ≠ k := by
        intro h1; apply ok'.1; rw [h1]; exact List.mem_map.2 ⟨_, h, rfl⟩
      rw [if_neg this]; exact ih ok'.2 h

theorem mem_adel {l : List (K × V)} {k : K} {e : K × V} : e ∈ adel l k ↔ e ∈ l ∧ e.1 ≠ k := by
  simp [adel]

theorem aok_nil : AOk ([] : List (K × V)) := by simp [AOk]

theorem aok_adel {l : List (K × V)} (h : AOk l) (k : K) : AOk (adel l k) :=
  List.Nodup.sublist (List.Sublist.map _ List.filter_sublist) h

theorem aok_aset {l : List (K × V)} (h : AOk l) (k : K) (v : V) : AOk (aset l k v) := by
  unfold AOk aset
  rw [List.map_cons, List.nodup_cons]
  refine ⟨?_, aok_adel h k⟩
  intro h1
  obtain ⟨e, he, h2⟩ := List.mem_map.1 h1
  exact (mem_adel.1 he).2 h2

theorem adel_of_none {l : List (K × V)} {k : K} (h : aget l k = none) : adel l k = l := by
  induction l with
  | nil => rfl
  | cons e l ih =>
    rw [aget_cons] at h
    split at h
    · cases h
    · rename_i h1
      unfold adel at *
      simp [h1, ih h]

theorem adel_aset (l : List (K × V)) (k : K) (v : V) : adel (aset l k v) k = adel l k := by
  unfold aset adel; simp

theorem aset_aset (l : List (K × V)) (k : K) (v w : V) : aset (aset l k v) k w = aset l k w := by
  rw [aset, adel_aset]; rfl

/-- Sum of a quantity over the entries. Specification only, no code behind it (outside /repo). -/
def asum (f : K × V → Nat) (l : List (K × V)) : Nat := (l.map f).sum

@[simp] theorem asum_nil (f : K × V → Nat) : asum f [] = 0 := rfl

theorem asum_cons (f : K × V → Nat) (e : K × V) (l : List (K × V)) : asum f (e :: l) = f e + asum f l := by
  simp [asum]

theorem asum_aset (f : K × V → Nat) (l : List (K × V)) (k : K) (v : V) :
    asum f (aset l k v) = f (k, v) + asum f (adel l k) := asum_cons f _ _

theorem asum_split {l : List (K × V)} (ok : AOk l) (f : K × V → Nat) {k : K} {v : V} (h : aget l k = some v) :
    asum f l = f (k, v) + asum f (adel l k) := by
  induction l with
  | nil => simp at h
  | cons e l ih =>
    have ok' : e.1 ∉ l.map (·.1) ∧ AOk l := by simpa [AOk] using ok
    rw [aget_cons] at h
    split at h
    · rename_i h1
      cases h; subst h1
      have hn : aget l e.1 = none := by
        cases hg : aget l e.1 with
        | none => rfl
        | some v => exact absurd (List.mem_map.2 ⟨_, mem_of_aget hg, rfl⟩) ok'.1
      have : adel (e :: l) e.1 = l := by
        have := adel_of_none hn
        unfold adel at *
        simp [this]
      rw [this, asum_cons]
    · rename_i h1
      have : adel (e :: l) k = e :: adel l k := by unfold adel; simp [h1]
      rw [this, asum_cons, asum_cons, ih ok'.2 h]; omega

theorem asum_adel_le (f : K × V → Nat) (l : List (K × V)) (k : K) : asum f (adel l k) ≤ asum f l := by
  induction l with
  | nil => simp [adel]
  | cons e l ih =>
    unfold adel at *
    by_cases h : e.1 = k
    · simp [h, asum_cons]; omega
    · simp [h, asum_cons]; exact ih

theorem asum_congr {f g : K × V → Nat} {l : List (K × V)} (h : ∀ e ∈ l, f e = g e) : asum f l = asum g l := by
  unfold asum; rw [List.map_congr_left h]

end Verif
