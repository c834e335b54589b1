import Verif.Xcm.Reserves

/-! # C70: trusted reserves -/

namespace Verif.Xcm

theorem zip_all_prefix : ∀ (p l : List Junction), p.length ≤ l.length →
    ((List.zip p l).all fun x => x.1 == x.2) = true → p <+: l
  | [], l, _, _ => List.nil_prefix
  | a :: p, [], h, _ => by simp at h
  | a :: p, b :: l, h, hz => by
    simp only [List.zip_cons_cons, List.all_cons, Bool.and_eq_true, beq_iff_eq] at hz
    rw [hz.1, List.cons_prefix_cons]
    exact ⟨rfl, zip_all_prefix p l (by simpa using h) hz.2⟩

theorem prefix_zip_all : ∀ (p l : List Junction), p <+: l →
    ((List.zip p l).all fun x => x.1 == x.2) = true
  | [], l, _ => by simp
  | a :: p, [], h => by simp at h
  | a :: p, b :: l, h => by
    rw [List.cons_prefix_cons] at h
    simp [h.1, prefix_zip_all p l h.2]

/-- The prefix test says what its name says: same number of parents, and the interior begins with the prefix. -/
theorem matchesPrefix_iff (pre loc : Location) :
    matchesPrefix pre loc = true ↔ pre.parents = loc.parents ∧ pre.interior <+: loc.interior := by
  unfold matchesPrefix
  rw [Bool.and_eq_true, Bool.and_eq_true, beq_iff_eq, decide_eq_true_iff]
  constructor
  · rintro ⟨⟨h1, h2⟩, h3⟩
    exact ⟨h1, zip_all_prefix _ _ h2 h3⟩
  · rintro ⟨h1, h2⟩
    exact ⟨⟨h1, h2.length_le⟩, prefix_zip_all _ _ h2⟩

/-- The asset lives on Asset Hub: its location starts with Asset Hub's. -/
def OnAssetHub (asset : Location) : Prop := asset.parents = 1 ∧ [Junction.parachain 1000] <+: asset.interior

/-- The asset comes from the Polkadot consensus system. -/
def FromPolkadot (asset : Location) : Prop :=
  asset.parents = 2 ∧ [Junction.globalConsensus .polkadot] <+: asset.interior

/-- C70: exactly which asset is accepted from which origin. -/
theorem C70_accepted_iff (asset origin : Location) :
    isReserve asset origin = true ↔
      asset = origin ∨ OnAssetHub asset ∨ (origin = ⟨1, [.parachain 1000]⟩ ∧ FromPolkadot asset) := by
  unfold isReserve nativeAsset reserveAssetsFrom reserveForeignAssetsFrom
  rw [Bool.or_eq_true, Bool.or_eq_true, Bool.and_eq_true, matchesPrefix_iff, matchesPrefix_iff, beq_iff_eq,
    beq_iff_eq]
  unfold OnAssetHub FromPolkadot assetHub polkadotLocation
  constructor
  · rintro ((h | ⟨h1, h2⟩) | ⟨h0, h1, h2⟩)
    · exact .inl h
    · exact .inr (.inl ⟨h1.symm, h2⟩)
    · exact .inr (.inr ⟨h0.symm, h1.symm, h2⟩)
  · rintro (h | ⟨h1, h2⟩ | ⟨h0, h1, h2⟩)
    · exact .inl (.inl h)
    · exact .inl (.inr ⟨h1.symm, h2⟩)
    · exact .inr ⟨h0.symm, h1.symm, h2⟩

/-- What the property asks: the origin is the asset's own reserve, i.e. the chain that issues it, or Asset Hub for
its own and Polkadot's assets. -/
def OwnReserve (asset origin : Location) : Prop :=
  asset = origin ∨ (origin = ⟨1, [.parachain 1000]⟩ ∧ (OnAssetHub asset ∨ FromPolkadot asset))

/-- C70 (partial: assets outside Asset Hub): accepted only from the asset's own reserve. -/
theorem C70_only_own_reserve_partial (asset origin : Location) (hn : ¬ OnAssetHub asset)
    (h : isReserve asset origin = true) : OwnReserve asset origin := by
  rcases (C70_accepted_iff asset origin).1 h with h | h | h
  · exact .inl h
  · exact absurd h hn
  · exact .inr ⟨h.1, .inr h.2⟩

/-- C70: every own reserve is accepted. -/
theorem C70_own_reserve_accepted (asset origin : Location) (h : OwnReserve asset origin) :
    isReserve asset origin = true := by
  rw [C70_accepted_iff]
  rcases h with h | ⟨h, h' | h'⟩
  · exact .inl h
  · exact .inr (.inl h')
  · exact .inr (.inr ⟨h, h'⟩)

/-- C70 is false of the code: any origin whatsoever, here parachain 2000, is trusted as a reserve of Asset Hub's
assets. -/
theorem C70_any_origin_mints_asset_hub_assets_fails :
    (∀ origin : Location, isReserve ⟨1, [.parachain 1000, .palletInstance 50, .generalIndex 1984]⟩ origin = true) ∧
    ¬ OwnReserve ⟨1, [.parachain 1000, .palletInstance 50, .generalIndex 1984]⟩ ⟨1, [.parachain 2000]⟩ := by
  constructor
  · intro origin
    rw [C70_accepted_iff]
    exact .inr (.inl ⟨rfl, ⟨_, rfl⟩⟩)
  · rintro (h | ⟨h, _⟩)
    · revert h; decide
    · revert h; decide

example : isReserve ⟨1, []⟩ ⟨1, []⟩ = true := by decide
example : isReserve ⟨2, [.globalConsensus .polkadot]⟩ ⟨1, [.parachain 1000]⟩ = true := by decide
example : isReserve ⟨2, [.globalConsensus .polkadot]⟩ ⟨1, [.parachain 2000]⟩ = false := by decide
example : isReserve ⟨1, [.parachain 2000, .generalIndex 1]⟩ ⟨1, [.parachain 2000]⟩ = false := by decide

end Verif.Xcm
