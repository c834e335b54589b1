import Verif.Communities.VoteLemmas
import Verif.Communities.Spec

/-! # The tally and the votes on record -/

namespace Verif.Communities

open Verif Verif.Accounts

theorem weight_eq (v : Vote) : v.weight = plainWeight v := by cases v <;> rfl

theorem mult_weight (s : St) (c : CId) (m : MId) (v : Vote) :
    multiplier s (s.method c) c m * v.weight = power s c m v := by
  unfold multiplier power
  rw [weight_eq]
  split
  · rename_i h; rw [if_pos h]; rfl
  · rename_i h; rw [if_neg h, Nat.one_mul]

theorem weight_le_power_or (s : St) (c : CId) (m : MId) (v : Vote) (h : s.method c ≠ .rank) :
    power s c m v = plainWeight v := by unfold power; rw [if_neg h]

theorem mul32_power (s : St) (c : CId) (m : MId) (v : Vote) (h : power s c m v ≤ 2 ^ 32 - 1) :
    mul32 (multiplier s (s.method c) c m) v.weight = power s c m v := by
  unfold mul32; rw [mult_weight]; exact Nat.mod_eq_of_lt (by omega)

theorem power_same {s s' : St} (h1 : s'.method = s.method) (h2 : s'.world.items = s.world.items) (c : CId) (m : MId)
    (v : Vote) : power s' c m v = power s c m v := by unfold power; rw [h1, h2]

theorem onRecord_same {s s' : St} {p : PollIx} (h0 : s'.votes p = s.votes p) {c : CId}
    (h : ∀ e ∈ s.votes p, power s' c e.1 e.2.1 = power s c e.1 e.2.1) : onRecord s' c p = onRecord s c p := by
  unfold onRecord
  rw [h0]
  congr 1
  · exact asum_congr fun e he => by rw [h e he]
  · exact asum_congr fun e he => by rw [h e he]

/-- Recording a vote that was not there adds its power; nothing saturates if the new sums fit. -/
theorem cast_onRecord {s s' : St} {c : CId} {who : AccountId} {m : MId} {p : PollIx} {v : Vote} {t : Tally}
    (h : Cast s s' c who m p v t) (hn : aget (s.votes p) m = none) (ht : t = onRecord s c p)
    (hf : Fits (onRecord s' c p)) : s'.world.polls p = some (.ongoing (onRecord s' c p) c) := by
  have hv : s'.votes p = (m, (v, who)) :: s.votes p := by
    rw [h.votes p, if_pos rfl, aset, adel_of_none hn]
  have hp := power_same h.method h.items c
  have e1 : (onRecord s' c p).ayes = (if v.say then power s c m v else 0) + t.ayes := by
    rw [ht]; unfold onRecord; simp only [hv, asum_cons, hp]
  have e2 : (onRecord s' c p).nays = (if v.say then 0 else power s c m v) + t.nays := by
    rw [ht]; unfold onRecord; simp only [hv, asum_cons, hp]
  have e3 : (onRecord s' c p).bareAyes = (if v.say then plainWeight v else 0) + t.bareAyes := by
    rw [ht]; unfold onRecord; simp only [hv, asum_cons]
  obtain ⟨f1, f2, f3⟩ := hf
  rw [h.polls p, if_pos rfl]
  congr 2
  have hw : v.weight = plainWeight v := weight_eq v
  have hle : power s c m v ≤ 2 ^ 32 - 1 := by
    cases hs : v.say <;> simp only [hs, if_true, if_false, Bool.false_eq_true] at e1 e2 <;> omega
  rw [mul32_power s c m v hle]
  cases hr : onRecord s' c p with
  | mk a n b =>
    rw [hr] at e1 e2 e3 f1 f2 f3
    unfold Tally.addVote satAdd32 WMAX
    cases hs : v.say <;> simp only [hs, if_true, if_false, Bool.false_eq_true] at e1 e2 e3 ⊢
    · cases t; simp only [Tally.mk.injEq] at *; omega
    · cases t; simp only [Tally.mk.injEq] at *; omega

/-- Taking a vote off the record subtracts its power. -/
theorem uncast_onRecord {s s' : St} {c : CId} {voter : AccountId} {m : MId} {p : PollIx} {v : Vote} {t : Tally}
    (h : Uncast s s' c (s.method c) voter m p v t) (ok : AOk (s.votes p)) (ht : t = onRecord s c p)
    (hf : Fits (onRecord s c p)) :
    s'.world.polls p = some (.ongoing (onRecord s' c p) c) ∧ Fits (onRecord s' c p) := by
  have hv : s'.votes p = adel (s.votes p) m := by rw [h.votes p, if_pos rfl]
  have hp := power_same h.method h.items c
  have e1 : t.ayes = (if v.say then power s c m v else 0) + (onRecord s' c p).ayes := by
    rw [ht]; unfold onRecord
    simp only [hv, hp]
    exact asum_split ok _ h.recorded
  have e2 : t.nays = (if v.say then 0 else power s c m v) + (onRecord s' c p).nays := by
    rw [ht]; unfold onRecord
    simp only [hv, hp]
    exact asum_split ok _ h.recorded
  have e3 : t.bareAyes = (if v.say then plainWeight v else 0) + (onRecord s' c p).bareAyes := by
    rw [ht]; unfold onRecord
    simp only [hv]
    exact asum_split ok (fun e => if e.2.1.say then plainWeight e.2.1 else 0) h.recorded
  rw [← ht] at hf
  obtain ⟨f1, f2, f3⟩ := hf
  refine ⟨?_, by omega, by omega, by omega⟩
  rw [h.polls p, if_pos rfl]
  congr 2
  have hw : v.weight = plainWeight v := weight_eq v
  have hle : power s c m v ≤ 2 ^ 32 - 1 := by
    cases hs : v.say <;> simp only [hs, if_true, if_false, Bool.false_eq_true] at e1 e2 <;> omega
  rw [mul32_power s c m v hle]
  cases hr : onRecord s' c p with
  | mk a n b =>
    rw [hr] at e1 e2 e3
    unfold Tally.removeVote
    cases hs : v.say <;> simp only [hs, if_true, if_false, Bool.false_eq_true] at e1 e2 e3 ⊢
    · cases t; simp only [Tally.mk.injEq] at *; omega
    · cases t; simp only [Tally.mk.injEq] at *; omega

end Verif.Communities
