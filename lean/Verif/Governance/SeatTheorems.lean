import Verif.Governance.CollectiveTheorems

/-!
# Seats of the collective: theorems (C135)
-/

namespace Verif.Governance

open Verif Verif.Accounts Verif.Communities

/-! ## Specification -/

/-- After it, `who` has the seat `r` (none: no seat), everybody else the seat they had, the list of members has exactly those
with a seat if it had before, and nothing else changed. Specification only, no code behind it (outside /repo). -/
structure Reseated (s s' : GSt) (who : AccountId) (r : Option Nat) : Prop where
  seat : s'.m.seats who = r
  others : ∀ a, a ≠ who → s'.m.seats a = s.m.seats a
  roll : (∀ a, a ∈ s.roll ↔ s.m.seats a ≠ none) → ∀ a, a ∈ s'.roll ↔ s'.m.seats a ≠ none
  rest : s' = { s with
    m := { s.m with seats := s'.m.seats }
    roll := s'.roll }

/-- What may happen to one seat: a new community gets one of rank 0, a rank goes up or down by one, somebody leaves, or
somebody takes over the seat another one gives up. Specification only, no code behind it (outside /repo). -/
inductive SeatMove (before after : AccountId → Option Nat) (a : AccountId) : Prop
  | community (c : CId) (ha : a = communityAccount c) (h0 : before a = none) (h1 : after a = some 0)
  | up (r : Nat) (h0 : before a = some r) (h1 : after a = some (r + 1)) (hr : r + 1 ≤ 65535)
  | down (r : Nat) (h0 : before a = some (r + 1)) (h1 : after a = some r)
  | gone (r : Nat) (h0 : before a = some r) (h1 : after a = none)
  | heir (b : AccountId) (r : Nat) (h0 : before a = none) (h1 : after a = some r) (h2 : before b = some r)
      (h3 : after b = none)

/-! ## Lemmas -/

theorem setSeat_reseated {s : GSt} {who : AccountId} {r k : Nat} (h : s.m.seats who = some k) :
    Reseated s (setSeat s who (some r)) who (some r) := by
  refine ⟨?_, ?_, ?_, rfl⟩
  · simp [setSeat]
  · intro a ha; simp [setSeat, ha]
  · intro hr a
    show a ∈ s.roll ↔ (if a = who then some r else s.m.seats a) ≠ none
    rw [hr a]
    by_cases e : a = who
    · subst e; simp [h]
    · simp [e]

theorem dropSeat_reseated {s : GSt} {who : AccountId} : Reseated s (dropSeat s who) who none := by
  refine ⟨?_, ?_, ?_, rfl⟩
  · simp [dropSeat, setSeat]
  · intro a ha; simp [dropSeat, setSeat, ha]
  · intro hr a
    show a ∈ s.roll.filter _ ↔ (if a = who then none else s.m.seats a) ≠ none
    rw [List.mem_filter, hr a]
    by_cases e : a = who
    · subst e; simp
    · simp [e]

/-! ## C135 -/

/-- C135: `promote_member` by root succeeds exactly for a member below the largest rank, and raises its rank by one. -/
theorem C135_promote (env : GEnv) (s : GSt) (who : AccountId) :
    (∀ s', gdispatch env s .root (.promote who) = some s' →
      ∃ r, s.m.seats who = some r ∧ r < 65535 ∧ Reseated s s' who (some (r + 1))) ∧
    (∀ r, s.m.seats who = some r → r < 65535 → ∃ s', gdispatch env s .root (.promote who) = some s') := by
  constructor
  · intro s' h
    rw [gdispatch] at h
    unfold rootOnly promoteSeat maxRank at h
    dsimp only at h
    split at h
    · cases h
    · rename_i r hr
      split at h
      · cases h; exact ⟨r, hr, by omega, setSeat_reseated hr⟩
      · cases h
  · intro r hr hl
    rw [gdispatch]
    unfold rootOnly promoteSeat maxRank
    dsimp only
    rw [hr]
    dsimp only
    rw [if_pos (by omega)]
    exact ⟨_, rfl⟩

/-- C135: `demote_member` by root succeeds exactly for a member, and lowers its rank by one; a member of rank 0 leaves. -/
theorem C135_demote (env : GEnv) (s : GSt) (who : AccountId) :
    (∀ s', gdispatch env s .root (.demote who) = some s' →
      (∃ r, s.m.seats who = some (r + 1) ∧ Reseated s s' who (some r)) ∨
      (s.m.seats who = some 0 ∧ Reseated s s' who none)) ∧
    (∀ r, s.m.seats who = some r → ∃ s', gdispatch env s .root (.demote who) = some s') := by
  constructor
  · intro s' h
    rw [gdispatch] at h
    unfold rootOnly demoteSeat at h
    dsimp only at h
    split at h
    · cases h
    · rename_i hr
      cases h
      exact Or.inr ⟨hr, dropSeat_reseated⟩
    · rename_i r hr
      cases h
      exact Or.inl ⟨r, hr, setSeat_reseated hr⟩
  · intro r hr
    rw [gdispatch]
    unfold rootOnly demoteSeat
    dsimp only
    rw [hr]
    cases r with
    | zero => exact ⟨_, rfl⟩
    | succ r => exact ⟨_, rfl⟩

/-- C135: `remove_member` by root succeeds exactly for a member whose rank is at most the one named, and takes its seat. -/
theorem C135_expel (env : GEnv) (s : GSt) (who : AccountId) (k : Nat) :
    (∀ s', gdispatch env s .root (.expel who k) = some s' →
      ∃ r, s.m.seats who = some r ∧ r ≤ k ∧ Reseated s s' who none) ∧
    (∀ r, s.m.seats who = some r → r ≤ k → ∃ s', gdispatch env s .root (.expel who k) = some s') := by
  constructor
  · intro s' h
    rw [gdispatch] at h
    unfold rootOnly expelSeat at h
    dsimp only at h
    split at h
    · cases h
    · rename_i r hr
      split at h
      · rename_i hk
        cases h; exact ⟨r, hr, hk, dropSeat_reseated⟩
      · cases h
  · intro r hr hl
    rw [gdispatch]
    unfold rootOnly expelSeat
    dsimp only
    rw [hr]
    dsimp only
    rw [if_pos hl]
    exact ⟨_, rfl⟩

/-- C135: `exchange_member` by root succeeds exactly if the first is a member and the second is not; the second then has the
first one's rank, the first no seat, and nothing else changes. -/
theorem C135_exchange (env : GEnv) (s : GSt) (who new : AccountId) :
    (∀ s', gdispatch env s .root (.exchange who new) = some s' →
      ∃ r s1, s.m.seats who = some r ∧ s.m.seats new = none ∧ Reseated s s1 who none ∧ Reseated s1 s' new (some r)) ∧
    (∀ r, s.m.seats who = some r → s.m.seats new = none →
      ∃ s', gdispatch env s .root (.exchange who new) = some s') := by
  constructor
  · intro s' h
    rw [gdispatch] at h
    unfold rootOnly exchangeSeat at h
    dsimp only at h
    split at h
    · rename_i r hr hn
      split at h
      · cases h
      · rename_i hne
        cases h
        refine ⟨r, dropSeat s who, hr, hn, dropSeat_reseated, ?_, ?_, ?_, rfl⟩
        · simp [setSeat]
        · intro a ha; simp [setSeat, ha]
        · intro hroll a
          show a ∈ new :: (dropSeat s who).roll ↔ (if a = new then some r else (dropSeat s who).m.seats a) ≠ none
          rw [List.mem_cons, hroll a]
          by_cases e : a = new
          · simp [e]
          · simp [e]
    · cases h
  · intro r hr hn
    have hne : who ≠ new := by rintro rfl; rw [hr] at hn; cases hn
    rw [gdispatch]
    unfold rootOnly exchangeSeat
    dsimp only
    rw [hr, hn]
    dsimp only
    rw [if_neg hne]
    exact ⟨_, rfl⟩

/-- C135: nobody but root succeeds with any of these. -/
theorem C135_only_root (env : GEnv) (s : GSt) (o : Origin) (ho : o ≠ .root) (who new : AccountId) (k : Nat) :
    gdispatch env s o (.promote who) = none ∧ gdispatch env s o (.demote who) = none ∧
      gdispatch env s o (.expel who k) = none ∧ gdispatch env s o (.exchange who new) = none := by
  refine ⟨?_, ?_, ?_, ?_⟩ <;>
  · rw [gdispatch]
    unfold rootOnly
    split
    · exact absurd rfl ho
    · rfl

/-- C135: whatever happens on the chain, one step changes a seat in no other way than these; in particular nobody comes to
vote in the collective at once: a rank grows by one at a time or is taken over from a member who leaves. -/
theorem C135_moves (s s' : GSt) (st : GStep s s') (a : AccountId) (h : s'.m.seats a ≠ s.m.seats a) :
    SeatMove s.m.seats s'.m.seats a := by
  have hleaf : ∀ (env : GEnv) (s1 s' : GSt) (o : Origin), s1.m.seats = s.m.seats → Leaf env s1 o s' →
      s'.m.seats a ≠ s.m.seats a → SeatMove s.m.seats s'.m.seats a := by
    intro env s1 s' o e1 hl h
    cases hl with
    | mgr o c m' hm =>
      have h : m'.seats a ≠ s.m.seats a := h
      rcases (mdispatch_facts hm).2.2 with ⟨h1, _⟩ | ⟨d, _, _, _, _, _, h0, h1⟩
      · rw [h1, e1] at h; exact absurd rfl h
      · by_cases hd : a = communityAccount d
        · subst hd
          refine .community d rfl (by rw [← e1]; exact h0) ?_
          show m'.seats _ = _
          rw [h1]; simp
        · rw [h1] at h
          simp only [if_neg hd] at h
          rw [e1] at h; exact absurd rfl h
    | promote who r hw hr =>
      by_cases e : a = who
      · subst e
        exact .up r (by rw [← e1]; exact hw) (by simp [setSeat]) hr
      · exact absurd (show (setSeat s1 who _).m.seats a = _ by simp [setSeat, e, e1]) h
    | demote who r hw =>
      by_cases e : a = who
      · subst e
        exact .down r (by rw [← e1]; exact hw) (by simp [setSeat])
      · exact absurd (show (setSeat s1 who _).m.seats a = _ by simp [setSeat, e, e1]) h
    | leave who r hw =>
      by_cases e : a = who
      · subst e
        exact .gone r (by rw [← e1]; exact hw) (by simp [dropSeat, setSeat])
      · exact absurd (show (dropSeat s1 who).m.seats a = _ by simp [dropSeat, setSeat, e, e1]) h
    | exchange who new r h1 h2 hne =>
      by_cases e : a = new
      · subst e
        refine .heir who r (by rw [← e1]; exact h2) ?_ (by rw [← e1]; exact h1) ?_
        · simp [setSeat]
        · simp [dropSeat, setSeat, hne]
      · by_cases e' : a = who
        · subst e'
          exact .gone r (by rw [← e1]; exact h1) (by simp [dropSeat, setSeat, e])
        · exact absurd (show (setSeat (dropSeat s1 who) new _).m.seats a = _ by simp [dropSeat, setSeat, e, e', e1]) h
    | close | tracks | plan | unplan => exact absurd (show s1.m.seats a = s.m.seats a by rw [e1]) h
    | comm o c c' hc => exact absurd (show s1.m.seats a = s.m.seats a by rw [e1]) h
    | cvote | csubmit | cref | submit | place | update | same => exact absurd (show s1.m.seats a = s.m.seats a by rw [e1]) h
  cases st with
  | call env he o ho c hd =>
    obtain ⟨o', _, hl⟩ := gdispatch_leaf hd
    exact hleaf env s s' o' rfl hl h
  | run env he pre post t ha hw =>
    rcases run_cases (env := env) (s := { s with agenda := pre ++ post }) (o := t.origin) (c := t.call) with h2 | h2
    · rw [h2] at h; exact absurd rfl h
    · obtain ⟨o', _, hl⟩ := gdispatch_leaf h2
      exact hleaf env { s with agenda := pre ++ post } _ o' rfl hl h
  | apart pre post rest t ha hr hw => exact absurd rfl h
  | collective env q hs => rw [(serviceCollective_same hs).1] at h; exact absurd rfl h
  | community env q hs => rw [(serviceCommunity_same hs).1] at h; exact absurd rfl h
  | time n => exact absurd rfl h
  | world w hw => exact absurd rfl h

/-! ## Examples -/

/-- On the demo chain account 9 has rank 1: it can be expelled by naming rank 1, not by naming rank 0, promoted, demoted, and
replaced by 42, who then has rank 1. -/
example : Demo.gstart.m.seats [9] = some 1 ∧
    (∃ s', gdispatch Demo.genv Demo.gstart .root (.expel [9] 1) = some s' ∧ s'.m.seats [9] = none) ∧
    gdispatch Demo.genv Demo.gstart .root (.expel [9] 0) = none ∧
    (∃ s', gdispatch Demo.genv Demo.gstart .root (.promote [9]) = some s' ∧ s'.m.seats [9] = some 2) ∧
    (∃ s', gdispatch Demo.genv Demo.gstart .root (.demote [9]) = some s' ∧ s'.m.seats [9] = some 0) ∧
    (∃ s', gdispatch Demo.genv Demo.gstart .root (.exchange [9] [42]) = some s' ∧ s'.m.seats [9] = none ∧
      s'.m.seats [42] = some 1) :=
  ⟨rfl, ⟨_, rfl, rfl⟩, rfl, ⟨_, rfl, rfl⟩, ⟨_, rfl, rfl⟩, _, rfl, rfl, rfl⟩

end Verif.Governance
