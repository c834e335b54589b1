import Verif.Governance.Tracks
import Verif.Governance.ManagerTheorems

/-! # C80, C82, C83, C90: governance tracks, submissions and challenges -/

namespace Verif.Governance

open Verif Verif.Accounts Verif.Communities

/-! ## C82 -/

/-- C82: the four tracks have the ids 0 to 3. -/
theorem C82_ids : collectiveTracks.map (·.id) = [0, 1, 2, 3] := rfl

/-- C82: each of the four origins has its own track; no other origin has one. -/
theorem C82_track_for (o : Origin) (t : Nat) :
    collectiveTrackFor o = some t ↔
      (o = .root ∧ t = 0) ∨ (o = .custom .referendumCanceller ∧ t = 1) ∨ (o = .custom .referendumKiller ∧ t = 2) ∨
      (o = .custom .createMemberships ∧ t = 3) := by
  cases o with
  | custom c => cases c <;> simp [collectiveTrackFor, eq_comm]
  | _ => simp [collectiveTrackFor, eq_comm]

/-- C82: no two origins share a track. -/
theorem C82_injective {a b : Origin} {t : Nat} (h1 : collectiveTrackFor a = some t) (h2 : collectiveTrackFor b = some t) :
    a = b := by
  rw [C82_track_for] at h1 h2
  rcases h1 with ⟨rfl, rfl⟩ | ⟨rfl, rfl⟩ | ⟨rfl, rfl⟩ | ⟨rfl, rfl⟩ <;> simp at h2 <;> exact h2.symm

/-- C82: the names of the tracks are those of their origins. -/
theorem C82_names :
    (collectiveTrackFor .root).bind collectiveInfo = collectiveInfo 0 ∧
    ∀ o t i, collectiveTrackFor o = some t → collectiveInfo t = some i →
      i.name = match o with
        | .root => trackName "Root"
        | .custom .referendumCanceller => trackName "Referendum Canceller"
        | .custom .referendumKiller => trackName "Referendum Killer"
        | _ => trackName "Create Memberships" := by
  refine ⟨rfl, ?_⟩
  intro o t i h hi
  rw [C82_track_for] at h
  rcases h with ⟨rfl, rfl⟩ | ⟨rfl, rfl⟩ | ⟨rfl, rfl⟩ | ⟨rfl, rfl⟩ <;> cases hi <;> rfl

/-- C82: so every submission to the collective is signed and names one of the four origins, whose track it gets. -/
theorem C82_submit {o p : Origin} {who : AccountId} {t : Nat} (h : collectiveSubmit o p = some (who, t)) :
    o = .signed who ∧ collectiveTrackFor p = some t ∧ collectiveInfo t ≠ none := by
  cases o <;> simp only [collectiveSubmit] at h <;> try cases h
  rename_i a
  cases hp : collectiveTrackFor p with
  | none => rw [hp] at h; cases h
  | some u =>
    rw [hp] at h
    cases h
    refine ⟨rfl, rfl, ?_⟩
    rw [C82_track_for] at hp
    rcases hp with ⟨_, rfl⟩ | ⟨_, rfl⟩ | ⟨_, rfl⟩ | ⟨_, rfl⟩ <;> decide +kernel

/-- C82: cancelling and killing referenda is for the two origins only, whose tracks differ; not even for root. -/
theorem C82_cancel_kill (o : Origin) :
    (mayCancel o = true ↔ collectiveTrackFor o = some 1) ∧ (mayKill o = true ↔ collectiveTrackFor o = some 2) := by
  cases o with
  | custom c => cases c <;> simp [mayCancel, mayKill, collectiveTrackFor]
  | _ => simp [mayCancel, mayKill, collectiveTrackFor]

example : collectiveSubmit (.signed [1]) .root = some ([1], 0) ∧ collectiveSubmit .root .root = none ∧
    collectiveSubmit (.signed [1]) (.signed [1]) = none := ⟨rfl, rfl, rfl⟩

/-! ## C90 -/

/-- A full length linear curve gives `ceil - x·(ceil - floor)`. -/
theorem threshold_full (x f c : Nat) (hx : x ≤ 1000000000) :
    Curve.threshold ⟨percent 100, f, c⟩ x = c - x * (c - f) / 1000000000 := by
  unfold Curve.threshold perbillMul
  dsimp only
  have hp : percent 100 = 1000000000 := rfl
  rw [hp, Nat.min_eq_left hx, fromRational_exact (by omega) hx (by decide)]
  unfold perbill
  rw [Nat.mul_div_cancel _ (by omega)]

/-- C90: after any part of the decision period a referendum for the root, canceller or killer origin needs at least 90%
approval, and one for creating memberships at least 50% approval and 50% support. -/
theorem C90_floors (o : Origin) (t : Nat) (i : TrackInfo) (ho : collectiveTrackFor o = some t)
    (hi : collectiveInfo t = some i) (elapsed support approval : Nat) (h : isPassing i elapsed support approval = true) :
    (o ≠ .custom .createMemberships → 900000000 ≤ approval) ∧
    (o = .custom .createMemberships → 500000000 ≤ approval ∧ 500000000 ≤ support) := by
  unfold isPassing at h
  simp only [Bool.and_eq_true, Curve.passing, decide_eq_true_eq] at h
  obtain ⟨h1, h2⟩ := h
  have hx := fromRational_le perbill (min elapsed i.decisionPeriod) i.decisionPeriod
  revert h1 h2
  generalize fromRational perbill (min elapsed i.decisionPeriod) i.decisionPeriod = x at hx
  unfold perbill at hx
  intro h1 h2
  have p0 : percent 100 = 1000000000 := rfl
  have p1 : percent 90 = 900000000 := rfl
  have p2 : percent 50 = 500000000 := rfl
  rw [C82_track_for] at ho
  rcases ho with ⟨rfl, rfl⟩ | ⟨rfl, rfl⟩ | ⟨rfl, rfl⟩ | ⟨rfl, rfl⟩ <;> cases hi <;>
    simp only [collectiveTrack, threshold_full _ _ _ hx] at h1 h2 <;> simp only [p0, p1, p2] at h1 h2 <;>
    norm_num at h1 h2 <;> refine ⟨fun hn => ?_, fun hn => ?_⟩ <;> first | omega | cases hn | exact absurd rfl hn

/-- C90: at the start of the decision period it takes everybody: full approval and full support. -/
theorem C90_start (o : Origin) (t : Nat) (i : TrackInfo) (ho : collectiveTrackFor o = some t)
    (hi : collectiveInfo t = some i) (support approval : Nat) (h : isPassing i 0 support approval = true) :
    1000000000 ≤ approval ∧ 1000000000 ≤ support := by
  unfold isPassing at h
  simp only [Bool.and_eq_true, Curve.passing, decide_eq_true_eq, Nat.zero_min] at h
  obtain ⟨h1, h2⟩ := h
  have hd : 0 < i.decisionPeriod := by
    rw [C82_track_for] at ho
    rcases ho with ⟨rfl, rfl⟩ | ⟨rfl, rfl⟩ | ⟨rfl, rfl⟩ | ⟨rfl, rfl⟩ <;> cases hi <;> decide
  rw [fromRational_zero hd] at h1 h2
  rw [C82_track_for] at ho
  rcases ho with ⟨rfl, rfl⟩ | ⟨rfl, rfl⟩ | ⟨rfl, rfl⟩ | ⟨rfl, rfl⟩ <;> cases hi <;>
    simp only [collectiveTrack, threshold_full _ _ _ (Nat.zero_le _)] at h1 h2 <;>
    simp [percent] at h1 h2 <;> exact ⟨h2, h1⟩

/-- C90: the requirements only ever get weaker with time. -/
theorem C90_weaker (o : Origin) (t : Nat) (i : TrackInfo) (ho : collectiveTrackFor o = some t)
    (hi : collectiveInfo t = some i) (e1 e2 support approval : Nat) (he : e1 ≤ e2)
    (h : isPassing i e1 support approval = true) : isPassing i e2 support approval = true := by
  have hx2 := fromRational_le perbill (min e2 i.decisionPeriod) i.decisionPeriod
  have hm := fromRational_mono_num (M := perbill) (q := i.decisionPeriod)
    (show min e1 i.decisionPeriod ≤ min e2 i.decisionPeriod by omega)
  unfold isPassing at h ⊢
  simp only [Bool.and_eq_true, Curve.passing, decide_eq_true_eq] at h ⊢
  obtain ⟨h1, h2⟩ := h
  revert h1 h2 hx2 hm
  generalize fromRational perbill (min e1 i.decisionPeriod) i.decisionPeriod = x1
  generalize fromRational perbill (min e2 i.decisionPeriod) i.decisionPeriod = x2
  intro hx2 hm h1 h2
  have hx2 : x2 ≤ 1000000000 := hx2
  have hx1 : x1 ≤ 1000000000 := by omega
  have hcurve : ∀ f c y, Curve.threshold ⟨percent 100, f, c⟩ x1 ≤ y → Curve.threshold ⟨percent 100, f, c⟩ x2 ≤ y := by
    intro f c y hy
    rw [threshold_full _ _ _ hx1] at hy
    rw [threshold_full _ _ _ hx2]
    have : x1 * (c - f) / 1000000000 ≤ x2 * (c - f) / 1000000000 := Nat.div_le_div_right (Nat.mul_le_mul_right _ hm)
    omega
  rw [C82_track_for] at ho
  rcases ho with ⟨rfl, rfl⟩ | ⟨rfl, rfl⟩ | ⟨rfl, rfl⟩ | ⟨rfl, rfl⟩ <;> cases hi <;>
    exact ⟨hcurve _ _ _ h1, hcurve _ _ _ h2⟩

-- Half way, a root referendum needs 95% approval and 50% support; at the end one aye is enough.
example : ∃ i, collectiveInfo 0 = some i ∧ isPassing i (2 * days) 500000000 950000000 = true ∧
    isPassing i (2 * days) 500000000 940000000 = false ∧ isPassing i (4 * days) 1 900000000 = true ∧
    isPassing i (4 * days) 1000000000 899999999 = false :=
  ⟨_, rfl, by decide +kernel, by decide +kernel, by decide +kernel, by decide +kernel⟩

/-! ## C83 -/

/-- C83: in every reachable state a submission of a community referendum is for the voice of one registered community,
on that community's own track, and comes from root or from a signed member of that very community. -/
theorem C83_submit (s : MSt) (hr : MReachable s) (o p : Origin) (who : AccountId) (t : CId)
    (h : communitySubmit s o p = some (who, t)) :
    p = .community ⟨t, none⟩ ∧ s.comm.info t ≠ none ∧
    ((o = .root ∧ who = treasuryAccount) ∨
      (o = .signed who ∧ ∃ i ∈ s.comm.world.items, i.group = t ∧ i.owner = who)) := by
  unfold communitySubmit at h
  cases hs : submitOrigin s o p with
  | none => rw [hs] at h; cases h
  | some w =>
    rw [hs] at h
    cases ht : s.trackOf p with
    | none => rw [ht] at h; cases h
    | some c =>
      rw [ht] at h
      cases h
      obtain ⟨h1, h2⟩ := (C65_complete s hr).2 p t ht
      refine ⟨h1, h2, ?_⟩
      unfold submitOrigin at hs
      split at hs
      · cases hs; exact .inl ⟨rfl, rfl⟩
      · right
        unfold ensureCommunityMember at hs
        rw [ht] at hs
        dsimp only at hs
        split at hs
        · split at hs
          · rename_i hm
            cases hs
            refine ⟨rfl, ?_⟩
            unfold isMemberOf at hm
            obtain ⟨i, hi, hd⟩ := List.any_eq_true.1 hm
            exact ⟨i, hi, of_decide_eq_true hd⟩
          · cases hs
        · cases hs

/-- C83: and every member of a registered community can submit. -/
theorem C83_members_can (s : MSt) (hr : MReachable s) (c : CId) (hc : s.comm.info c ≠ none) (i : Item)
    (hi : i ∈ s.comm.world.items) (hg : i.group = c) :
    communitySubmit s (.signed i.owner) (.community ⟨c, none⟩) = some (i.owner, c) := by
  have ht := ((C65_complete s hr).1 c hc).2.2.1
  have hm : isMemberOf s.comm.world.items c i.owner = true :=
    List.any_eq_true.2 ⟨i, hi, decide_eq_true ⟨hg, rfl⟩⟩
  unfold communitySubmit submitOrigin ensureCommunityMember
  simp [ht, hm]

/-- C83: a community's track can be changed by that community's own voice only. -/
theorem C83_update (s : MSt) (hr : MReachable s) (o : Origin) (c : CId) (h : mayUpdateTrack s o c = true) :
    o = .community ⟨c, none⟩ ∧ s.comm.info c ≠ none := by
  unfold mayUpdateTrack at h
  split at h
  · rename_i t ht
    cases of_decide_eq_true h
    exact (C65_complete s hr).2 o c ht
  · cases h

/-- C83: the check `EnsureMember` offers to other pallets lets through exactly signed accounts that hold a membership of the
community. -/
theorem C83_ensure_member (s : St) (o : Origin) (c : CId) :
    ensureMember s o c = true ↔ ∃ who, o = .signed who ∧ ∃ i ∈ s.world.items, i.group = c ∧ i.owner = who := by
  unfold ensureMember
  constructor
  · intro h
    split at h
    · rename_i who
      obtain ⟨i, hi, h1⟩ := List.any_eq_true.1 h
      exact ⟨who, rfl, i, hi, of_decide_eq_true h1⟩
    · cases h
  · rintro ⟨who, rfl, i, hi, h1⟩
    exact List.any_eq_true.2 ⟨i, hi, decide_eq_true h1⟩

/-- Community 7 registered by root. -/
def Demo.seven : MSt :=
  match mdispatch kreivoManager Demo.menv Demo.mstart .root (.register 7 (ascii "seven") (.id [1]) none none) with
  | .ok s => s
  | .error _ => Demo.mstart

/-- And account 5 got one of its memberships. -/
def Demo.registered : MSt :=
  { Demo.seven with comm := { Demo.seven.comm with world := { Demo.seven.comm.world with items := [⟨7, 3, [5], 0⟩] } } }

example : MReachable Demo.registered :=
  .step (.step (.start ⟨fun _ => rfl, fun _ => rfl, fun _ => rfl, fun _ => rfl, fun _ => rfl, fun _ _ => rfl,
    fun _ => rfl⟩ fun _ => rfl) (.manager (s := Demo.mstart) (s' := Demo.seven) Demo.menv .root
      (.register 7 (ascii "seven") (.id [1]) none none) rfl)) (.world _ fun p => by
    show match Demo.seven.comm.world.polls p with
      | none => Demo.seven.comm.world.polls p = none ∨ ∃ c, Demo.seven.comm.world.polls p = some (.ongoing .zero c)
      | some .ended => Demo.seven.comm.world.polls p = some .ended
      | some (.ongoing t c) => Demo.seven.comm.world.polls p = some (.ongoing t c) ∨
        Demo.seven.comm.world.polls p = some .ended
    split <;> simp_all)

example : communitySubmit Demo.registered (.signed [5]) (.community ⟨7, none⟩) = some ([5], 7) ∧
    communitySubmit Demo.registered (.signed [6]) (.community ⟨7, none⟩) = none ∧
    communitySubmit Demo.registered (.signed [5]) (.community ⟨8, none⟩) = none ∧
    mayUpdateTrack Demo.registered (.community ⟨7, none⟩) 7 = true ∧
    ensureMember Demo.registered.comm (.signed [5]) 7 = true ∧ ensureMember Demo.registered.comm .root 7 = false ∧
    ensureMember Demo.registered.comm (.signed [5]) 8 = false := by decide +kernel

/-! ## C80 -/

/-- C80 is false: while block `now` is being built, the zero hash is accepted for any later block number, so a challenge
that is the hash of no block at all passes, now and ever after. -/
theorem C80_fresh_fails :
    ∃ challenge : List UInt8, ∃ cx : UInt32, ∀ h : Hashes, checkChallenge h cx challenge = true := by
  refine ⟨List.replicate 32 0, 0xFFFFFFFF, fun h => ?_⟩
  have hn : h.now.toNat < 2 ^ 32 := h.now.toNat_lt
  have hc : (0xFFFFFFFF : UInt32).toNat = 4294967295 := rfl
  unfold checkChallenge Hashes.blockHash
  rw [hc, if_neg (by omega), decide_eq_true (by omega)]
  rfl

/-- C80, what holds: a challenge other than the zero hash is accepted only for one of the last three blocks, and only if
it is that block's hash. -/
theorem C80_fresh_partial (h : Hashes) (cx : UInt32) (challenge : List UInt8)
    (hz : challenge ≠ List.replicate 32 0) (hok : checkChallenge h cx challenge = true) :
    cx.toNat < h.now.toNat ∧ h.now.toNat ≤ cx.toNat + 3 ∧ h.hash cx = challenge := by
  unfold checkChallenge Hashes.blockHash at hok
  rw [Bool.and_eq_true, decide_eq_true_eq, decide_eq_true_eq] at hok
  obtain ⟨h1, h2⟩ := hok
  split at h2
  · rename_i hb; exact ⟨hb.1, by omega, h2⟩
  · exact absurd h2.symm hz

/-- C80, what holds: the same for any challenge, if it is presented for a block that is already built and whose hash is
still stored. -/
theorem C80_past_partial (h : Hashes) (cx : UInt32) (challenge : List UInt8) (hp : cx.toNat < h.now.toNat)
    (hk : 3 ≤ h.count) (hok : checkChallenge h cx challenge = true) :
    h.now.toNat ≤ cx.toNat + 3 ∧ h.hash cx = challenge := by
  unfold checkChallenge Hashes.blockHash at hok
  rw [Bool.and_eq_true, decide_eq_true_eq, decide_eq_true_eq] at hok
  obtain ⟨h1, h2⟩ := hok
  rw [if_pos ⟨hp, by omega⟩] at h2
  exact ⟨by omega, h2⟩

/-- C80, what holds: and the hashes of the last three blocks are all accepted. -/
theorem C80_accepts_partial (h : Hashes) (cx : UInt32) (h1 : cx.toNat < h.now.toNat) (h3 : h.now.toNat ≤ cx.toNat + 3)
    (hk : 3 ≤ h.count) : checkChallenge h cx (h.hash cx) = true := by
  unfold checkChallenge Hashes.blockHash
  rw [if_pos ⟨h1, by omega⟩, decide_eq_true (by omega)]
  simp

/-- C80, what holds: as the chain goes on, the hash of a block is accepted in exactly the three blocks after it, in each of
them as often as it is presented and whoever presents it. -/
theorem C80_window_partial (hash : UInt32 → List UInt8) (cx : UInt32) (hz : hash cx ≠ List.replicate 32 0) (now : UInt32)
    {count : Nat} (hk : 3 ≤ count) :
    checkChallenge ⟨now, hash, count⟩ cx (hash cx) = true ↔
      now.toNat = cx.toNat + 1 ∨ now.toNat = cx.toNat + 2 ∨ now.toNat = cx.toNat + 3 := by
  constructor
  · intro h
    obtain ⟨h1, h2, _⟩ := C80_fresh_partial ⟨now, hash, count⟩ cx _ hz h
    dsimp only at h1 h2
    omega
  · intro h
    exact C80_accepts_partial ⟨now, hash, count⟩ cx (by dsimp only; omega) (by dsimp only; omega) hk

example : ∃ h : Hashes, 3 ≤ h.count ∧ checkChallenge h 98 (h.hash 98) = true ∧ checkChallenge h 96 (h.hash 96) = false ∧
    checkChallenge h 98 (h.hash 97) = false :=
  ⟨⟨100, fun n => List.replicate 32 n.toUInt8, 256⟩, by decide, by decide +kernel, by decide +kernel, by decide +kernel⟩

end Verif.Governance
