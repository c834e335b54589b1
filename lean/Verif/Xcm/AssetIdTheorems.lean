import Verif.Xcm.AssetId

/-! # C67–C69: asset ids and XCM locations -/

namespace Verif.Xcm

theorem u16_roundtrip (x : UInt16) : u16OfU32 (UInt32.ofNat x.toNat) = some x := by
  have h := x.toNat_lt
  unfold u16OfU32
  rw [UInt32.toNat_ofNat', Nat.mod_eq_of_lt (by omega), if_pos (by omega)]
  simp

theorem u32_roundtrip (x : UInt32) : u32OfU128 (BitVec.ofNat 128 x.toNat) = some x := by
  have h := x.toNat_lt
  unfold u32OfU128
  rw [BitVec.toNat_ofNat, Nat.mod_eq_of_lt (by omega), if_pos (by omega)]
  simp

theorem u16_back {x : UInt32} {y : UInt16} (h : u16OfU32 x = some y) : UInt32.ofNat y.toNat = x := by
  unfold u16OfU32 at h
  split at h
  · cases h
    rename_i hlt
    rw [UInt16.toNat_ofNat', Nat.mod_eq_of_lt (by omega)]; simp
  · cases h

theorem u32_back {x : BitVec 128} {y : UInt32} (h : u32OfU128 x = some y) : BitVec.ofNat 128 y.toNat = x := by
  unfold u32OfU128 at h
  split at h
  · cases h
    rename_i hlt
    rw [UInt32.toNat_ofNat', Nat.mod_eq_of_lt (by omega)]; simp
  · cases h

theorem network_roundtrip (n : Network) : Network.tryFrom n.into = some n := by cases n <;> rfl

theorem network_back {n : NetworkId} {m : Network} (h : Network.tryFrom n = some m) : m.into = n := by
  cases n <;> simp [Network.tryFrom] at h <;> subst h <;> rfl

theorem para_roundtrip (p : Para) :
    Para.tryNew (UInt32.ofNat p.id.toNat) p.pallet (BitVec.ofNat 128 p.index.toNat) = some p := by
  simp only [Para.tryNew, u16_roundtrip, u32_roundtrip]

theorem para_back {id : UInt32} {pal : UInt8} {i : BitVec 128} {p : Para} (h : Para.tryNew id pal i = some p) :
    p.junctions = [.parachain id, .palletInstance pal, .generalIndex i] := by
  unfold Para.tryNew at h
  split at h
  · rename_i a b ha hb
    cases h
    simp [Para.junctions, u16_back ha, u32_back hb]
  · cases h

/-- C67: every local asset id survives the trip to an XCM location and back. -/
theorem C67_id_location_id (a : AssetId) : convert (convertBack a) = .some a := by
  match a with
  | .here i => simp [convertBack, convert, u32_roundtrip]
  | .sibling p => simp only [convertBack, convert, Para.junctions, para_roundtrip]
  | .external n none => simp [convertBack, convert, network_roundtrip]
  | .external n (some p) => simp only [convertBack, convert, Para.junctions, network_roundtrip, para_roundtrip]

/-- C67: every location that is converted to an id is what that id converts back to. -/
theorem C67_location_id_location (l : Location) (a : AssetId) (h : convert l = .some a) : convertBack a = l := by
  obtain ⟨ps, int⟩ := l
  unfold convert at h
  dsimp only at h
  split at h
  · split at h
    · rename_i hn; cases h; simp [convertBack, network_back hn]
    · cases h
  · split at h
    · rename_i hn hp; cases h; simp [convertBack, network_back hn, para_back hp]
    · cases h
  · split at h
    · rename_i hp; cases h; simp [convertBack, para_back hp]
    · cases h
  · split at h
    · rename_i hx; cases h; simp [convertBack, u32_back hx]
    · cases h
  · cases h

-- Non-trivial instances: USDT on Asset Hub, an asset of a Polkadot parachain, and ether.
example : convert ⟨1, [.parachain 1000, .palletInstance 50, .generalIndex 1984]⟩
    = .some (.sibling ⟨1000, 50, 1984⟩) := by decide
example : convert ⟨2, [.globalConsensus .polkadot, .parachain 1000, .palletInstance 50, .generalIndex 1337]⟩
    = .some (.external .polkadot (some ⟨1000, 50, 1337⟩)) := by decide
example : convertBack (.external (.ethereum 1) none) = ⟨2, [.globalConsensus (.ethereum 1)]⟩ := by decide

/-- C68: two locations that convert to the same id are the same location. -/
theorem C68_distinct_locations_distinct_ids (l m : Location) (a : AssetId) (hl : convert l = .some a)
    (hm : convert m = .some a) : l = m := by
  rw [← C67_location_id_location l a hl, C67_location_id_location m a hm]

/-- C68: and two ids that are presented to other chains as the same location are the same id. -/
theorem C68_distinct_ids_distinct_locations (a b : AssetId) (h : convertBack a = convertBack b) : a = b := by
  have ha := C67_id_location_id a
  rw [h, C67_id_location_id b] at ha
  cases ha; rfl

/-- C69 (partial): the exact set of locations on which the conversion panics: a local `PalletInstance(13)`
location whose index does not fit 32 bits. -/
theorem C69_panics_iff_partial (l : Location) :
    convert l = .panic ↔
      ∃ i : BitVec 128, 2 ^ 32 ≤ i.toNat ∧ l = ⟨0, [.palletInstance 13, .generalIndex i]⟩ := by
  constructor
  · intro h
    obtain ⟨ps, int⟩ := l
    unfold convert at h
    dsimp only at h
    split at h
    · split at h <;> cases h
    · split at h <;> cases h
    · split at h <;> cases h
    · split at h
      · cases h
      · rename_i i _ hx
        refine ⟨_, ?_, rfl⟩
        unfold u32OfU128 at hx
        split at hx
        · cases hx
        · omega
    · cases h
  · rintro ⟨i, hi, rfl⟩
    have : u32OfU128 i = none := by unfold u32OfU128; rw [if_neg (by omega)]
    simp [convert, this]

/-- C69 (partial): locations outside this chain never panic. -/
theorem C69_foreign_never_panics_partial (l : Location) (h : l.parents ≠ 0) : convert l ≠ .panic := by
  rw [Ne, C69_panics_iff_partial]
  rintro ⟨i, _, rfl⟩
  exact h rfl

/-- C69 is false of the code: a location of this chain's own assets pallet with a large index panics. -/
theorem C69_large_local_index_fails :
    convert ⟨0, [.palletInstance 13, .generalIndex (BitVec.ofNat 128 (2 ^ 32))]⟩ = .panic := by decide

end Verif.Xcm
