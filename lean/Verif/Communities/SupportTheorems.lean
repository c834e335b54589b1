import Verif.Communities.TallyTheorems

/-!
# C120: full support of a poll means the support of the whole community
-/

namespace Verif.Communities

open Verif Verif.Accounts

/-- `10^9` parts of a number are the whole exactly if nothing is missing. -/
theorem fromRational_full {a b : Nat} (hb : 0 < b) (h : b ≤ 10 ^ 9) :
    fromRational perbill a b = 10 ^ 9 ↔ b ≤ a := by
  rcases Nat.lt_or_ge a b with hlt | hge
  · have hx : fromRational perbill a b = a * 10 ^ 9 / b := fromRational_exact hb (by omega) h
    rw [hx]
    constructor
    · intro e
      have h1 : a * 10 ^ 9 / b < 10 ^ 9 := by
        rw [Nat.div_lt_iff_lt_mul hb, Nat.mul_comm (10 ^ 9) b]
        exact Nat.mul_lt_mul_of_pos_right hlt (by norm_num)
      omega
    · intro e; omega
  · refine ⟨fun _ => hge, fun _ => ?_⟩
    have h1 := fromRational_mono_num (M := perbill) (q := b) hge
    have h2 : fromRational perbill b b = b * 10 ^ 9 / b := fromRational_exact hb (le_refl _) h
    have h3 := fromRational_le perbill a b
    rw [h2, Nat.mul_div_cancel_left _ hb] at h1
    exact Nat.le_antisymm h3 h1

/-- C120, what holds: in a community that decides by membership, with any number of memberships up to `10^9`, support is
full exactly if there are as many ayes as memberships. -/
theorem C120_membership_partial (s : St) (t : Tally) (c : CId) (hm : s.method c = .membership)
    (h0 : ∃ i ∈ s.world.items, i.group = c) (h : (s.world.items.countP fun i => i.group == c) ≤ 10 ^ 9) :
    support s t c = 10 ^ 9 ↔ (s.world.items.countP fun i => i.group == c) ≤ t.bareAyes := by
  have hx := (C56_maximum s c).1 hm
  unfold support
  rw [hx]
  apply fromRational_full _ h
  obtain ⟨i, hi, hc⟩ := h0
  exact List.countP_pos_iff.2 ⟨i, hi, by simp [hc]⟩

/-- C120, what holds: in a community that decides by a currency whose whole issuance fits a vote weight, support is full
exactly if the whole issuance votes aye. -/
theorem C120_currency_partial (s : St) (t : Tally) (c : CId) (hm : s.method c = .native)
    (h0 : 0 < s.world.nativeIssuance) (h : s.world.nativeIssuance ≤ 10 ^ 9) :
    support s t c = 10 ^ 9 ↔ s.world.nativeIssuance ≤ t.bareAyes := by
  have hx := (C56_maximum s c).2.2.1 hm
  unfold support
  rw [hx, Nat.min_eq_left (by omega)]
  exact fromRational_full h0 h

/-- C120, what holds: the same in a community that decides by an asset. -/
theorem C120_asset_partial (s : St) (t : Tally) (c : CId) (k : AssetKey) (n : Nat) (hm : s.method c = .asset k n)
    (h0 : 0 < s.world.assetIssuance k) (h : s.world.assetIssuance k ≤ 10 ^ 9) :
    support s t c = 10 ^ 9 ↔ s.world.assetIssuance k ≤ t.bareAyes := by
  have hx := (C56_maximum s c).2.2.2 k n hm
  unfold support
  rw [hx, Nat.min_eq_left (by omega)]
  exact fromRational_full h0 h

example : support Demo.chain ⟨2, 0, 2⟩ 1 = 10 ^ 9 ∧ support Demo.chain ⟨1, 0, 1⟩ 1 < 10 ^ 9 ∧
    (Demo.chain.world.items.countP fun i => i.group == 1) = 2 := by decide +kernel

/-- Alice and bob are all of community 1, with ranks 4 and 4. -/
def Demo.ranked : St :=
  { Demo.chain with world := { Demo.world1 with items := [⟨1, 1, Demo.alice, 4⟩, ⟨1, 2, Demo.bob, 4⟩] } }

theorem Demo.ranked_reachable (cfg : Config) : Reachable cfg Demo.ranked :=
  (Demo.chain_reachable cfg).step (.world _ (pollsMove_of_eq rfl))

/-- C120 is false of a community that decides by rank: ayes are counted once each, but against the sum of the ranks. All
members say aye and support is 25%. -/
theorem C120_rank_unanimous_fails :
    ∃ s t, Reachable kreivo s ∧ s.method 1 = .rank ∧ s.world.polls 0 = some (.ongoing t 1) ∧
      (∀ i ∈ s.world.items, i.group = 1 ∧ ∃ w, aget (s.votes 0) i.id = some (.standard true, w)) ∧
      support s t 1 = 250000000 :=
  ⟨after kreivo Demo.env Demo.ranked
      [(.signed Demo.alice, .setDecisionMethod 1 .rank), (.signed Demo.alice, .vote 1 0 (.standard true)),
        (.signed Demo.bob, .vote 2 0 (.standard true))], _,
    after_reachable Demo.env_lawful (Demo.ranked_reachable _) _, rfl, rfl,
    by
      intro i hi
      have hi : i ∈ [⟨1, 1, Demo.alice, 4⟩, ⟨1, 2, Demo.bob, 4⟩] := hi
      simp only [List.mem_cons, List.mem_nil_iff, or_false] at hi
      rcases hi with rfl | rfl
      · exact ⟨rfl, Demo.alice, by decide +kernel⟩
      · exact ⟨rfl, Demo.bob, by decide +kernel⟩,
    by decide +kernel⟩

/-- Alice, bob and charlie are community 1; only bob has a rank, 1. -/
def Demo.unranked : St :=
  { Demo.chain with
    world := { Demo.world1 with items := [⟨1, 1, Demo.alice, 0⟩, ⟨1, 2, Demo.bob, 1⟩, ⟨1, 3, Demo.charlie, 0⟩] } }

theorem Demo.unranked_reachable (cfg : Config) : Reachable cfg Demo.unranked :=
  (Demo.chain_reachable cfg).step (.world _ (pollsMove_of_eq rfl))

/-- C120 is false of a community that decides by rank, the other way round: one aye of a member without rank, whose vote
weighs nothing, is full support. -/
theorem C120_rank_single_fails :
    ∃ s t, Reachable kreivo s ∧ s.method 1 = .rank ∧ s.world.polls 0 = some (.ongoing t 1) ∧
      s.votes 0 = [(1, (.standard true, Demo.alice))] ∧ rankOf s.world.items 1 1 = some 0 ∧
      s.world.items.length = 3 ∧ support s t 1 = 10 ^ 9 :=
  ⟨after kreivo Demo.env Demo.unranked
      [(.signed Demo.alice, .setDecisionMethod 1 .rank), (.signed Demo.alice, .vote 1 0 (.standard true))], _,
    after_reachable Demo.env_lawful (Demo.unranked_reachable _) _, rfl, rfl,
    by decide +kernel, rfl, rfl, by decide +kernel⟩

/-- An issuance of ten million coins of `10^12`, of which everybody here has ten. -/
def Demo.wealthy : St :=
  { Demo.chain with world := { Demo.world1 with native := fun _ => 10 ^ 13, nativeIssuance := 10 ^ 19 } }

theorem Demo.wealthy_reachable (cfg : Config) : Reachable cfg Demo.wealthy :=
  (Demo.chain_reachable cfg).step (.world _ (pollsMove_of_eq rfl))

/-- C120 is false of a community that decides by the native currency: `2^32 - 1` of its smallest units, less than five
thousandths of a coin, are full support of an issuance of ten million coins. -/
theorem C120_native_fails :
    ∃ s t, Reachable kreivo s ∧ s.method 1 = .native ∧ s.world.nativeIssuance = 10 ^ 19 ∧
      s.world.polls 0 = some (.ongoing t 1) ∧ s.votes 0 = [(1, (.native true 4294967295, Demo.alice))] ∧
      support s t 1 = 10 ^ 9 :=
  ⟨after kreivo Demo.env Demo.wealthy
      [(.signed Demo.alice, .setDecisionMethod 1 .native), (.signed Demo.alice, .vote 1 0 (.native true 4294967295))], _,
    after_reachable Demo.env_lawful (Demo.wealthy_reachable _) _, rfl, rfl, rfl,
    by decide +kernel, by decide +kernel⟩

end Verif.Communities
