import Verif.Xcm.AssetIdTheorems

/-!
# Numbers as ids of assets (C67)

`From<u32>` and `Default` of the ids, common/src/multilocation_asset_id.rs 40-50.
-/

namespace Verif.Xcm

/-- C67: a number stands for the asset of that index in this chain's own assets pallet, which is pallet 13, and for no other; the
default id is that of index 0. -/
theorem C67_numbers (v : UInt32) (l : Location) :
    (convert l = .some (AssetId.ofU32 v) ↔ l = ⟨0, [.palletInstance 13, .generalIndex (BitVec.ofNat 128 v.toNat)]⟩) ∧
    (AssetId.ofU32 v = AssetId.default ↔ v = 0) := by
  have hb : convertBack (AssetId.ofU32 v) = ⟨0, [.palletInstance 13, .generalIndex (BitVec.ofNat 128 v.toNat)]⟩ := rfl
  refine ⟨⟨fun h => ?_, fun h => ?_⟩, fun h => ?_, fun h => h ▸ rfl⟩
  · rw [← C67_location_id_location l _ h, hb]
  · rw [h, ← hb]
    exact C67_id_location_id _
  · exact AssetId.here.inj h

example : convert ⟨0, [.palletInstance 13, .generalIndex 7]⟩ = .some (AssetId.ofU32 7) := ((C67_numbers 7 _).1).2 rfl
example : convert ⟨0, [.palletInstance 13, .generalIndex 0]⟩ = .some AssetId.default := ((C67_numbers 0 _).1).2 rfl

end Verif.Xcm
