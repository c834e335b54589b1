import Verif.Runtime.Collators
import Mathlib.Algebra.BigOperators.Group.List.Basic
import Mathlib.Tactic.Ring

/-!
# Lemmas for C157, C158 and C159
-/

namespace Verif.Runtime.Collators

variable {A : Type} [DecidableEq A]

/-! ## Lemmas -/

/-- All bonds of an account. Specification only, no code behind it (outside /repo). -/
def held (l : List (A × Nat)) (a : A) : Nat := ((l.filter fun c => decide (c.1 = a)).map Prod.snd).sum

theorem held_append (l m : List (A × Nat)) (a : A) : held (l ++ m) a = held l a + held m a := by
  simp [held]

theorem held_cons (c : A × Nat) (l : List (A × Nat)) (a : A) : held (c :: l) a = (if c.1 = a then c.2 else 0) + held l a := by
  unfold held
  rw [List.filter_cons]
  by_cases h : c.1 = a <;> simp [h]

theorem held_perm {l m : List (A × Nat)} (h : l.Perm m) (a : A) : held l a = held m a :=
  ((h.filter _).map _).sum_eq

theorem held_none {l : List (A × Nat)} {a : A} (h : a ∉ l.map Prod.fst) : held l a = 0 := by
  unfold held
  rw [List.filter_eq_nil_iff.2]
  · rfl
  · intro c hc
    simp only [decide_eq_true_eq]
    intro e
    exact h (List.mem_map.2 ⟨c, hc, e⟩)

theorem held_of_mem {l : List (A × Nat)} {a : A} {d : Nat} (hn : (l.map Prod.fst).Nodup) (h : (a, d) ∈ l) : held l a = d := by
  induction l with
  | nil => cases h
  | cons c l ih =>
    rw [List.map_cons, List.nodup_cons] at hn
    rw [held_cons]
    rcases List.mem_cons.1 h with rfl | h
    · rw [if_pos rfl, held_none hn.1]; rfl
    · have : c.1 ≠ a := fun e => hn.1 (List.mem_map.2 ⟨_, h, e.symm⟩)
      rw [if_neg this, ih hn.2 h, Nat.zero_add]

theorem held_without (w : A) (l : List (A × Nat)) (a : A) : held (without w l) a = if a = w then 0 else held l a := by
  induction l with
  | nil => simp [without, held]
  | cons c l ih =>
    unfold without at ih ⊢
    rw [List.filter_cons]
    by_cases h : c.1 = w
    · rw [if_neg (by simp [h]), ih, held_cons]
      by_cases ha : a = w
      · simp [ha]
      · rw [if_neg ha, if_neg ha, if_neg (by rw [h]; exact fun e => ha e.symm), Nat.zero_add]
    · rw [if_pos (by simp [h]), held_cons, ih, held_cons]
      by_cases ha : a = w
      · rw [if_pos ha, if_pos ha, if_neg (by rw [ha]; exact h)]
      · rw [if_neg ha, if_neg ha]

omit [DecidableEq A] in
theorem placed_perm (who : A) (n : Nat) (l : List (A × Nat)) : (placed who n l).Perm ((who, n) :: l) := by
  unfold placed
  refine List.perm_middle.trans ?_
  rw [List.takeWhile_append_dropWhile]

theorem without_sub (w : A) (l : List (A × Nat)) : (without w l).Sublist l := List.filter_sublist

theorem mem_without {w : A} {l : List (A × Nat)} {c : A × Nat} : c ∈ without w l ↔ c ∈ l ∧ c.1 ≠ w := by
  simp [without]

theorem lookup_mem {l : List (A × Nat)} {a : A} {d : Nat} (h : l.lookup a = some d) : (a, d) ∈ l := by
  induction l with
  | nil => cases h
  | cons c l ih =>
    rw [List.lookup_cons] at h
    split at h
    · rename_i he
      have : a = c.1 := by simpa using he
      cases h
      rw [this]
      exact List.mem_cons_self
    · exact List.mem_cons_of_mem _ (ih h)

theorem lookup_none {l : List (A × Nat)} {a : A} (h : l.lookup a = none) : a ∉ l.map Prod.fst := by
  induction l with
  | nil => simp
  | cons c l ih =>
    rw [List.lookup_cons] at h
    split at h
    · cases h
    · rename_i he
      rw [List.map_cons, List.mem_cons]
      rintro (rfl | h')
      · simp at he
      · exact ih h h'

theorem not_mem_without (w : A) (l : List (A × Nat)) : w ∉ (without w l).map Prod.fst := by
  intro h
  obtain ⟨c, hc, e⟩ := List.mem_map.1 h
  exact (mem_without.1 hc).2 e

omit [DecidableEq A] in
theorem sorted_placed {l : List (A × Nat)} (h : l.Pairwise fun c d => c.2 ≤ d.2) (who : A) (n : Nat) :
    (placed who n l).Pairwise fun c d => c.2 ≤ d.2 := by
  unfold placed
  have ht : ∀ c ∈ l.takeWhile (fun c => decide (c.2 < n)), c.2 < n := by
    intro c hc
    have := List.all_takeWhile (p := fun c : A × Nat => decide (c.2 < n)) (l := l)
    rw [List.all_eq_true] at this
    simpa using this c hc
  have hd : ∀ c ∈ l.dropWhile (fun c => decide (c.2 < n)), n ≤ c.2 := by
    induction l with
    | nil => simp
    | cons x l ih =>
      rw [List.pairwise_cons] at h
      rw [List.dropWhile_cons]
      split
      · refine ih h.2 ?_
        intro c hc
        have := List.all_takeWhile (p := fun c : A × Nat => decide (c.2 < n)) (l := l)
        rw [List.all_eq_true] at this
        simpa using this c hc
      · rename_i hx
        have hx : n ≤ x.2 := by simpa using hx
        intro c hc
        rcases List.mem_cons.1 hc with rfl | hc
        · exact hx
        · exact Nat.le_trans hx (h.1 c hc)
  rw [List.pairwise_append]
  refine ⟨h.sublist (List.takeWhile_sublist _), ?_, ?_⟩
  · rw [List.pairwise_cons]
    exact ⟨hd, h.sublist (List.dropWhile_sublist _)⟩
  · intro c hc d hdm
    rcases List.mem_cons.1 hdm with rfl | hdm
    · exact Nat.le_of_lt (ht c hc)
    · exact Nat.le_trans (Nat.le_of_lt (ht c hc)) (hd d hdm)

theorem kickAll_reserved (s : St A) (l : List (A × Nat)) (a : A) : (kickAll s l).reserved a = s.reserved a - held l a := by
  induction l generalizing s with
  | nil => simp [kickAll, held]
  | cons c l ih =>
    rw [kickAll, ih, held_cons]
    simp only [put]
    by_cases h : a = c.1
    · subst h; rw [if_pos rfl, if_pos rfl, Nat.sub_sub]
    · rw [if_neg h, if_neg (fun e => h e.symm), Nat.zero_add]

theorem kickAll_same (s : St A) (l : List (A × Nat)) : (kickAll s l).invulnerables = s.invulnerables ∧
    (kickAll s l).desired = s.desired ∧ (kickAll s l).now = s.now := by
  induction l generalizing s with
  | nil => exact ⟨rfl, rfl, rfl⟩
  | cons c l ih => rw [kickAll]; exact ih _

/-- What holds at all times. Specification only, no code behind it (outside /repo). -/
structure Inv (s : St A) : Prop where
  nodup : (s.candidates.map Prod.fst).Nodup
  sorted : s.candidates.Pairwise fun c d => c.2 ≤ d.2
  least : ∀ c ∈ s.candidates, s.bond ≤ c.2
  res : ∀ a, s.reserved a = held s.candidates a

theorem nodup_placed {s : St A} (hs : Inv s) (who x : A) (n : Nat) (hw : who ∉ (without x s.candidates).map Prod.fst) :
    ((placed who n (without x s.candidates)).map Prod.fst).Nodup := by
  rw [((placed_perm who n _).map Prod.fst).nodup_iff, List.map_cons, List.nodup_cons]
  exact ⟨hw, hs.nodup.sublist ((without_sub _ _).map _)⟩

theorem inv_remove {s s' : St A} {who : A} {f : Bool} (hs : Inv s) (h : removeCandidate s who f = some s') : Inv s' := by
  unfold removeCandidate at h
  split at h
  · cases h
  · rename_i d hd
    cases h
    refine ⟨hs.nodup.sublist ((without_sub _ _).map _), hs.sorted.sublist (without_sub _ _),
      fun c hc => hs.least c (mem_without.1 hc).1, fun a => ?_⟩
    have := held_of_mem hs.nodup (lookup_mem hd)
    show put s.reserved who _ a = held (without who s.candidates) a
    rw [held_without, put]
    split
    · rw [hs.res, this, Nat.sub_self]
    · exact hs.res a

theorem inv_kickOne {s : St A} (e : Env A) (who : A) (hs : Inv s) : Inv (kickOne e s who) := by
  unfold kickOne
  have key : ∀ f, Inv ((removeCandidate s who f).getD s) := by
    intro f
    cases h : removeCandidate s who f with
    | none => exact hs
    | some s' => exact inv_remove hs h
  split
  · exact key _
  · split
    · exact hs
    · exact key _

theorem inv_step {s s' : St A} {e : Env A} {op : Op A} (hs : Inv s) (h : step e s op = some s') : Inv s' := by
  cases op with
  | setInvulnerables new =>
    simp only [step, setInvulnerables] at h
    split at h
    · cases h
    · split at h
      · cases h
      · cases h; exact ⟨hs.nodup, hs.sorted, hs.least, hs.res⟩
  | setDesired n => cases h; exact ⟨hs.nodup, hs.sorted, hs.least, hs.res⟩
  | setBond n =>
    simp only [step, setBond, Option.some.injEq] at h
    split at h
    · subst h
      have hperm := List.takeWhile_append_dropWhile (p := fun c : A × Nat => decide (c.2 < n)) (l := s.candidates)
      refine ⟨hs.nodup.sublist ((List.dropWhile_sublist _).map _), hs.sorted.sublist (List.dropWhile_sublist _), ?_, ?_⟩
      · intro c hc
        show n ≤ c.2
        cases hl : s.candidates.dropWhile (fun c => decide (c.2 < n)) with
        | nil => dsimp only at hc; rw [hl] at hc; cases hc
        | cons x l =>
          have hx : n ≤ x.2 := by
            have := List.head?_dropWhile_not (fun c : A × Nat => decide (c.2 < n)) s.candidates
            rw [hl] at this
            simpa using this
          have hsd := hs.sorted.sublist (List.dropWhile_sublist (fun c : A × Nat => decide (c.2 < n)))
          dsimp only at hc
          rw [hl] at hc hsd
          rw [List.pairwise_cons] at hsd
          rcases List.mem_cons.1 hc with rfl | hc
          · exact hx
          · exact Nat.le_trans hx (hsd.1 c hc)
      · intro a
        show (kickAll s _).reserved a = _
        rw [kickAll_reserved, hs.res a]
        dsimp only
        conv_lhs => rw [← hperm]
        rw [held_append, hperm]
        omega
    · subst h
      exact ⟨hs.nodup, hs.sorted, fun c hc => Nat.le_trans (by dsimp only; omega) (hs.least c hc), hs.res⟩
  | addInvulnerable who =>
    simp only [step, addInvulnerable] at h
    split at h
    · cases h
    · simp only [Option.some.injEq] at h
      have hs' : Inv { s with invulnerables := who :: s.invulnerables } := ⟨hs.nodup, hs.sorted, hs.least, hs.res⟩
      subst h
      cases hr : removeCandidate { s with invulnerables := who :: s.invulnerables } who false with
      | none => exact hs'
      | some s1 => exact inv_remove hs' hr
  | removeInvulnerable who =>
    simp only [step, removeInvulnerable] at h
    split at h
    · cases h
    · cases h; exact ⟨hs.nodup, hs.sorted, hs.least, hs.res⟩
  | register who =>
    simp only [step, register] at h
    split at h
    · cases h
    · rename_i hc
      split at h
      · cases h
      · rename_i r hr
        cases h
        unfold tryReserve at hr
        split at hr
        · cases hr
          have hn : who ∉ s.candidates.map Prod.fst := fun hm => hc (.inr (.inr (.inr hm)))
          refine ⟨?_, ?_, ?_, ?_⟩
          · rw [List.map_cons, List.nodup_cons]; exact ⟨hn, hs.nodup⟩
          · rw [List.pairwise_cons]; exact ⟨fun c hc => hs.least c hc, hs.sorted⟩
          · intro c hc
            rcases List.mem_cons.1 hc with rfl | hc
            · exact Nat.le_refl _
            · exact hs.least c hc
          · intro a
            show put s.reserved who _ a = held ((who, s.bond) :: s.candidates) a
            rw [held_cons, put, hs.res]
            by_cases ha : a = who
            · rw [if_pos ha, if_pos ha.symm, ha]; omega
            · rw [if_neg ha, if_neg (fun e => ha e.symm), hs.res]; omega
        · cases hr
  | leave who =>
    simp only [step, leave] at h
    split at h
    · cases h
    · exact inv_remove hs h
  | updateBond who n =>
    simp only [step, updateBond] at h
    split at h
    · cases h
    · rename_i hb
      split at h
      · cases h
      · rename_i d hd
        have hh := held_of_mem hs.nodup (lookup_mem hd)
        have hbase : ∀ r : A → Nat, r who = n → (∀ a, a ≠ who → r a = s.reserved a) →
            Inv { s with candidates := placed who n (without who s.candidates), reserved := r } := by
          intro r h1 h2
          refine ⟨nodup_placed hs who who n (not_mem_without _ _),
            sorted_placed (hs.sorted.sublist (without_sub _ _)) _ _, ?_, ?_⟩
          · intro c hc
            rcases List.mem_cons.1 ((placed_perm _ _ _).mem_iff.1 hc) with rfl | hc
            · show s.bond ≤ n; omega
            · exact hs.least c (mem_without.1 hc).1
          · intro a
            show r a = held (placed who n (without who s.candidates)) a
            rw [held_perm (placed_perm _ _ _), held_cons, held_without]
            by_cases ha : a = who
            · rw [ha, if_pos rfl, if_pos rfl]; omega
            · rw [if_neg (fun e => ha e.symm), if_neg ha, h2 a ha, hs.res]; omega
        split at h
        · split at h
          · cases h
          · rename_i r hr
            cases h
            unfold tryReserve at hr
            split at hr
            · cases hr
              refine hbase _ ?_ ?_
              · rw [put, if_pos rfl, hs.res, hh]; omega
              · intro a ha; rw [put, if_neg ha]
            · cases hr
        · split at h
          · cases h
            refine hbase _ ?_ ?_
            · rw [put, if_pos rfl, hs.res, hh]; omega
            · intro a ha; rw [put, if_neg ha]
          · cases h
  | takeSlot who n target =>
    simp only [step, takeSlot] at h
    split at h
    · cases h
    · rename_i hc
      split at h
      · cases h
      · rename_i d hd
        have hh := held_of_mem hs.nodup (lookup_mem hd)
        split at h
        · cases h
        · split at h
          · cases h
          · rename_i r hr
            cases h
            unfold tryReserve at hr
            split at hr
            · cases hr
              have hn : who ∉ s.candidates.map Prod.fst := fun hm => hc (.inr (.inr (.inr hm)))
              have hwt : who ≠ target := fun e => hn (List.mem_map.2 ⟨_, lookup_mem hd, e.symm⟩)
              refine ⟨nodup_placed hs who target n (fun hm => hn (((without_sub _ _).map _).mem hm)),
                sorted_placed (hs.sorted.sublist (without_sub _ _)) _ _, ?_, ?_⟩
              · intro c hcm
                rcases List.mem_cons.1 ((placed_perm _ _ _).mem_iff.1 hcm) with rfl | hcm
                · show s.bond ≤ n
                  by_contra hlt
                  exact hc (.inr (.inl (by omega)))
                · exact hs.least c (mem_without.1 hcm).1
              · intro a
                show put (put s.reserved who _) target _ a = held (placed who n (without target s.candidates)) a
                rw [held_perm (placed_perm _ _ _), held_cons, held_without]
                simp only [put]
                by_cases ha : a = target
                · subst ha
                  rw [if_pos rfl, if_pos rfl, if_neg hwt, if_neg (fun e => hwt e.symm), hs.res, hh]
                  omega
                · rw [if_neg ha, if_neg ha]
                  by_cases hb : a = who
                  · subst hb
                    rw [if_pos rfl, if_pos rfl, hs.res]; omega
                  · rw [if_neg hb, if_neg (fun e => hb e.symm), hs.res]; omega
            · cases hr
  | author who => cases h; exact ⟨hs.nodup, hs.sorted, hs.least, hs.res⟩
  | block => cases h; exact ⟨hs.nodup, hs.sorted, hs.least, hs.res⟩
  | session =>
    cases h
    unfold kickStale
    generalize s.candidates.map Prod.fst = l
    induction l generalizing s with
    | nil => exact hs
    | cons w l ih => exact ih (inv_kickOne e w hs)

theorem inv_reach {inv : List A} {bond : Nat} {s : St A} (h : Reach (genesis inv bond) s) : Inv s := by
  induction h with
  | start => exact ⟨List.nodup_nil, List.Pairwise.nil, fun c hc => (by cases hc), fun a => rfl⟩
  | step _ hs ih => exact inv_step ih hs

end Verif.Runtime.Collators
