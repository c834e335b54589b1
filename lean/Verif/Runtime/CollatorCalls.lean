import Verif.Runtime.CollatorTheorems

/-!
# When the calls of candidates succeed (C158)

Exactly when an account becomes a candidate, leaves, changes its bond or takes the place of another, and what is reserved then.
-/

namespace Verif.Runtime.Collators

variable {A : Type} [DecidableEq A]

theorem lookup_of_mem {l : List (A × Nat)} {a : A} {d : Nat} (hn : (l.map Prod.fst).Nodup) (h : (a, d) ∈ l) :
    l.lookup a = some d := by
  cases e : l.lookup a with
  | none => exact absurd (List.mem_map_of_mem h) (lookup_none e)
  | some d' => rw [← held_of_mem hn h, held_of_mem hn (lookup_mem e)]

/-- The place of a candidate in the list, and whether it is among the last ones. -/
theorem place_iff {l : List (A × Nat)} {a : A} (hn : (l.map Prod.fst).Nodup) (h : a ∈ l.map Prod.fst) (n : Nat) :
    (l.findIdx fun c => decide (c.1 = a)) + n < l.length ↔ a ∉ (l.reverse.take n).map Prod.fst := by
  have e : (l.reverse.take n).map Prod.fst = ((l.map Prod.fst).drop (l.length - n)).reverse := by
    rw [List.take_reverse, List.map_reverse, List.map_drop]
  rw [e, List.mem_reverse]
  have hf : (l.findIdx fun c => decide (c.1 = a)) = (l.map Prod.fst).findIdx (fun x => decide (x = a)) := by
    rw [List.findIdx_map]; rfl
  have hlen : l.length = (l.map Prod.fst).length := by rw [List.length_map]
  rw [hf, hlen]
  generalize l.map Prod.fst = m at hn h
  have hi : (m.findIdx fun x => decide (x = a)) < m.length := List.findIdx_lt_length_of_exists ⟨a, h, by simp⟩
  have ha : m[(m.findIdx fun x => decide (x = a))] = a := by simpa using List.findIdx_getElem (w := hi)
  generalize (m.findIdx fun x => decide (x = a)) = i at hi ha
  constructor
  · intro hlt hm
    obtain ⟨j, hj, e⟩ := List.mem_iff_getElem.1 hm
    rw [List.getElem_drop] at e
    have := (List.Nodup.getElem_inj_iff hn).1 (ha.trans e.symm)
    omega
  · intro hm
    by_contra hc
    refine hm (List.mem_iff_getElem.2 ⟨i - (m.length - n), by rw [List.length_drop]; omega, ?_⟩)
    rw [List.getElem_drop]
    have : m.length - n + (i - (m.length - n)) = i := by omega
    simp only [this]
    exact ha

/-- **C158.** A candidate's bond is raised if the rest can be reserved; it is lowered, not below the least bond, if the candidate
is not among the candidates chosen for the next session. What is reserved is then the new bond. -/
theorem C158_changes {inv : List A} {bond : Nat} {s : St A} (h : Reach (genesis inv bond) s) (e : Env A) (who : A) (d n : Nat)
    (hm : (who, d) ∈ s.candidates) :
    ((∃ s', step e s (.updateBond who n) = some s') ↔
      s.bond ≤ n ∧ ((d < n ∧ e.canReserve who (n - d) = true) ∨
        (n < d ∧ who ∉ (s.candidates.reverse.take s.desired).map Prod.fst))) ∧
    ∀ s', step e s (.updateBond who n) = some s' →
      s'.reserved who = n ∧ (who, n) ∈ s'.candidates ∧ s'.candidates.length = s.candidates.length ∧
      ∀ a, a ≠ who → s'.reserved a = s.reserved a ∧ ∀ c, (a, c) ∈ s'.candidates ↔ (a, c) ∈ s.candidates := by
  have hi := inv_reach h
  have hl : s.depositOf who = some d := lookup_of_mem hi.nodup hm
  have hp := place_iff hi.nodup (List.mem_map_of_mem hm) s.desired
  have hr : s.reserved who = d := by rw [hi.res, held_of_mem hi.nodup hm]
  dsimp only at hp
  have hlen : (placed who n (without who s.candidates)).length = s.candidates.length := by
    rw [(placed_perm who n _).length_eq, List.length_cons]
    have key : ∀ l : List (A × Nat), (l.map Prod.fst).Nodup → who ∈ l.map Prod.fst → (without who l).length + 1 = l.length := by
      intro l
      induction l with
      | nil => intro _ h; cases h
      | cons c l ih =>
        intro hn hc
        rw [List.map_cons, List.nodup_cons] at hn
        unfold without
        rw [List.filter_cons]
        by_cases hw : c.1 = who
        · rw [if_neg (by simpa using hw)]
          have : l.filter (fun c => decide (c.1 ≠ who)) = l := by
            refine List.filter_eq_self.2 fun x hx => ?_
            have : x.1 ≠ who := fun e => hn.1 (hw ▸ e ▸ List.mem_map_of_mem hx)
            simpa using this
          rw [this]; rfl
        · rw [if_pos (by simpa using hw)]
          have hc' : who ∈ l.map Prod.fst := by
            rw [List.map_cons, List.mem_cons] at hc
            exact hc.resolve_left fun e => hw e.symm
          have := ih hn.2 hc'
          unfold without at this
          rw [List.length_cons, List.length_cons]; omega
    exact key _ hi.nodup (List.mem_map_of_mem hm)
  have hmem : ∀ a c, (a, c) ∈ placed who n (without who s.candidates) ↔
      (a = who ∧ c = n) ∨ (a ≠ who ∧ (a, c) ∈ s.candidates) := by
    intro a c
    rw [(placed_perm who n _).mem_iff, List.mem_cons, without, List.mem_filter]
    simp only [Prod.mk.injEq, decide_eq_true_eq]
    exact ⟨fun h => h.elim .inl fun h => .inr ⟨h.2, h.1⟩, fun h => h.elim .inl fun h => .inr ⟨h.2, h.1⟩⟩
  have after : ∀ (r : A → Nat) (s' : St A), s' = { s with candidates := placed who n (without who s.candidates), reserved := r } →
      r who = n → (∀ a, a ≠ who → r a = s.reserved a) →
      s'.reserved who = n ∧ (who, n) ∈ s'.candidates ∧ s'.candidates.length = s.candidates.length ∧
      ∀ a, a ≠ who → s'.reserved a = s.reserved a ∧ ∀ c, (a, c) ∈ s'.candidates ↔ (a, c) ∈ s.candidates := by
    rintro r s' rfl h1 h2
    refine ⟨h1, (hmem who n).2 (.inl ⟨rfl, rfl⟩), hlen, fun a ha => ⟨h2 a ha, fun c => ?_⟩⟩
    rw [hmem]
    exact ⟨fun h => h.elim (fun h => absurd h.1 ha) (·.2), fun h => .inr ⟨ha, h⟩⟩
  simp only [step, updateBond, hl, tryReserve]
  constructor
  · constructor
    · rintro ⟨s', hs⟩
      split at hs
      · cases hs
      · refine ⟨by omega, ?_⟩
        split at hs
        · rename_i hd
          by_cases hc : e.canReserve who (n - d) = true
          · exact .inl ⟨hd, hc⟩
          · rw [if_neg hc] at hs; cases hs
        · split at hs
          · rename_i hd; exact .inr ⟨hd.1, hp.1 hd.2⟩
          · cases hs
    · rintro ⟨h1, h2⟩
      rw [if_neg (by omega)]
      rcases h2 with ⟨h2, h3⟩ | ⟨h2, h3⟩
      · rw [if_pos h2, if_pos h3]; exact ⟨_, rfl⟩
      · rw [if_neg (by omega), if_pos ⟨h2, hp.2 h3⟩]; exact ⟨_, rfl⟩
  · intro s' hs
    split at hs
    · cases hs
    · split at hs
      · rename_i hd
        by_cases hc : e.canReserve who (n - d) = true
        · rw [if_pos hc] at hs
          refine after _ _ (Option.some.inj hs).symm ?_ fun a ha => if_neg ha
          show (if who = who then s.reserved who + (n - d) else _) = n
          rw [if_pos rfl, hr]; omega
        · rw [if_neg hc] at hs; cases hs
      · split at hs
        · rename_i hd
          refine after _ _ (Option.some.inj hs).symm ?_ fun a ha => if_neg ha
          show (if who = who then s.reserved who - (d - n) else _) = n
          rw [if_pos rfl, hr]; omega
        · cases hs

/-- **C158.** An account becomes a candidate exactly if there are fewer than a thousand, it is neither invulnerable nor a candidate,
it has session keys and the least bond can be reserved. -/
theorem C158_registers (e : Env A) (s : St A) (who : A) :
    (∃ s', step e s (.register who) = some s') ↔
      s.candidates.length < 1000 ∧ who ∉ s.invulnerables ∧ e.registered who = true ∧ who ∉ s.candidates.map Prod.fst ∧
        e.canReserve who s.bond = true := by
  have hx : maxCandidates = 1000 := rfl
  simp only [step, register, tryReserve]
  constructor
  · rintro ⟨s', hs⟩
    split at hs
    · cases hs
    · rename_i hc
      simp only [not_or] at hc
      by_cases hr : e.canReserve who s.bond = true
      · exact ⟨by omega, hc.2.1, by simpa using hc.2.2.1, hc.2.2.2, hr⟩
      · rw [if_neg hr] at hs; cases hs
  · rintro ⟨h1, h2, h3, h4, h5⟩
    rw [if_neg (by rw [not_or, not_or, not_or]; exact ⟨by omega, h2, by simp [h3], h4⟩), if_pos h5]
    exact ⟨_, rfl⟩

/-- **C158.** A candidate may leave, with all of its bond, exactly if somebody else is eligible. -/
theorem C158_leaves {inv : List A} {bond : Nat} {s : St A} (h : Reach (genesis inv bond) s) (e : Env A) (who : A) :
    ((∃ s', step e s (.leave who) = some s') ↔
      who ∈ s.candidates.map Prod.fst ∧ 1 < s.candidates.length + s.invulnerables.length) ∧
    ∀ s', step e s (.leave who) = some s' → s'.reserved who = 0 ∧ who ∉ s'.candidates.map Prod.fst ∧
      ∀ a, a ≠ who → s'.reserved a = s.reserved a ∧ ∀ c, (a, c) ∈ s'.candidates ↔ (a, c) ∈ s.candidates := by
  have hi := inv_reach h
  have hx : minEligible = 1 := rfl
  have hy : s.eligible = s.candidates.length + s.invulnerables.length := rfl
  simp only [step, leave, removeCandidate]
  constructor
  · constructor
    · rintro ⟨s', hs⟩
      split at hs
      · cases hs
      · cases hd : s.depositOf who with
        | none => rw [hd] at hs; cases hs
        | some d => exact ⟨List.mem_map_of_mem (lookup_mem hd), by omega⟩
    · rintro ⟨h1, h2⟩
      rw [if_neg (by omega)]
      obtain ⟨x, hx, rfl⟩ := List.mem_map.1 h1
      rw [show s.depositOf x.1 = some x.2 from lookup_of_mem hi.nodup hx]
      exact ⟨_, rfl⟩
  · intro s' hs
    split at hs
    · cases hs
    · cases hd : s.depositOf who with
      | none => rw [hd] at hs; cases hs
      | some d =>
        rw [hd] at hs
        cases hs
        have hr : s.reserved who = d := by rw [hi.res, held_of_mem hi.nodup (lookup_mem hd)]
        refine ⟨?_, ?_, fun a ha => ⟨if_neg ha, fun c => ?_⟩⟩
        · show (if who = who then s.reserved who - d else _) = 0
          rw [if_pos rfl, hr]; omega
        · intro hm
          obtain ⟨x, hx, e⟩ := List.mem_map.1 hm
          have := (List.mem_filter.1 hx).2
          simp only [decide_eq_true_eq] at this
          exact this e
        · show (a, c) ∈ without who s.candidates ↔ _
          rw [without, List.mem_filter]
          simp [ha]

/-- **C158.** An account takes the place of a candidate exactly if it offers more than that candidate's bond and no less than the
least one, is neither invulnerable nor a candidate, has session keys, and what it offers can be reserved. -/
theorem C158_takes {inv : List A} {bond : Nat} {s : St A} (h : Reach (genesis inv bond) s) (e : Env A) (who target : A) (n : Nat) :
    (∃ s', step e s (.takeSlot who n target) = some s') ↔
      (∃ d, (target, d) ∈ s.candidates ∧ d < n) ∧ s.bond ≤ n ∧ who ∉ s.invulnerables ∧ e.registered who = true ∧
        who ∉ s.candidates.map Prod.fst ∧ e.canReserve who n = true := by
  have hi := inv_reach h
  simp only [step, takeSlot, tryReserve]
  constructor
  · rintro ⟨s', hs⟩
    split at hs
    · cases hs
    · rename_i hc
      simp only [not_or] at hc
      cases hd : s.depositOf target with
      | none => rw [hd] at hs; cases hs
      | some d =>
        rw [hd] at hs
        dsimp only at hs
        split at hs
        · cases hs
        · by_cases hr : e.canReserve who n = true
          · exact ⟨⟨d, lookup_mem hd, by omega⟩, by omega, hc.1, by simpa using hc.2.2.1, hc.2.2.2, hr⟩
          · rw [if_neg hr] at hs; cases hs
  · rintro ⟨⟨d, h1, h2⟩, h3, h4, h5, h6, h7⟩
    rw [if_neg (by simp only [not_or]; exact ⟨h4, by omega, by simp [h5], h6⟩),
      show s.depositOf target = some d from lookup_of_mem hi.nodup h1]
    dsimp only
    rw [if_neg (by omega), if_pos h7]
    exact ⟨_, rfl⟩

/-! ## Examples -/

/-- A candidate with the higher bond is chosen and may not lower it; the other one may, and may leave; and a third account takes
its place for more. -/
example : ∃ s : St Nat, Reach (genesis [1] 5) s ∧ s.candidates = [(2, 6), (3, 9)] ∧ s.desired = 1 ∧
    step ⟨fun _ => true, fun _ _ => true, 300⟩ s (.updateBond 3 7) = none ∧
    (∃ s', step ⟨fun _ => true, fun _ _ => true, 300⟩ s (.updateBond 2 5) = some s') ∧
    (∃ s', step ⟨fun _ => true, fun _ _ => true, 300⟩ s (.leave 2) = some s') ∧
    ∃ s', step ⟨fun _ => true, fun _ _ => true, 300⟩ s (.takeSlot 4 7 2) = some s' := by
  let e : Env Nat := ⟨fun _ => true, fun _ _ => true, 300⟩
  have h1 := Reach.step (e := e) (op := .updateBond 3 9) (.step (e := e) (op := .register 3)
    (.step (e := e) (op := .updateBond 2 6) (.step (e := e) (op := .register 2)
      (.step (e := e) (op := .setDesired 1) (Reach.start (g := genesis [1] 5)) rfl) rfl) rfl) rfl) rfl
  exact ⟨_, h1, rfl, rfl, rfl, ⟨_, rfl⟩, ⟨_, rfl⟩, ⟨_, rfl⟩⟩

end Verif.Runtime.Collators
