import Verif.Runtime.CollatorLemmas

/-!
# C157, C158, C159: bonds of collators, who is chosen, and that somebody is
-/

namespace Verif.Runtime.Collators

variable {A : Type} [DecidableEq A]

/-! ## C157 -/

/-- **C157.** At all times the pallet has reserved of a candidate exactly their bond, which is at least the least one in
force, and nothing of anybody else. Nobody is a candidate twice. -/
theorem C157_bonds {inv : List A} {bond : Nat} {s : St A} (h : Reach (genesis inv bond) s) :
    (s.candidates.map Prod.fst).Nodup ∧ (∀ a d, (a, d) ∈ s.candidates → s.reserved a = d ∧ s.bond ≤ d) ∧
      ∀ a, a ∉ s.candidates.map Prod.fst → s.reserved a = 0 := by
  have hs := inv_reach h
  exact ⟨hs.nodup, fun a d hm => ⟨by rw [hs.res, held_of_mem hs.nodup hm], hs.least _ hm⟩,
    fun a hn => by rw [hs.res, held_none hn]⟩

/-- What a step did to the reserves of one account, if it was somebody else's. -/
theorem reserved_remove {s s' : St A} {who : A} {f : Bool} (h : removeCandidate s who f = some s') (a : A) :
    s'.reserved a ≤ s.reserved a := by
  unfold removeCandidate at h
  split at h
  · cases h
  · cases h
    show put s.reserved who _ a ≤ _
    unfold put
    split
    · rename_i e; rw [e]; omega
    · exact Nat.le_refl _

theorem reserved_kickOne (e : Env A) (s : St A) (w a : A) : (kickOne e s w).reserved a ≤ s.reserved a := by
  have key : ∀ f, ((removeCandidate s w f).getD s).reserved a ≤ s.reserved a := by
    intro f
    cases h : removeCandidate s w f with
    | none => exact Nat.le_refl _
    | some s' => exact reserved_remove h a
  unfold kickOne
  split
  · exact key _
  · split
    · exact Nat.le_refl _
    · exact key _

/-- **C157.** More is reserved of an account only by its own call: to become a candidate, to raise its bond or to take
another's place. It reserves the least bond, or what the call says. -/
theorem C157_own_call {inv : List A} {bond : Nat} {s s' : St A} (h : Reach (genesis inv bond) s) {e : Env A} {op : Op A}
    (hs : step e s op = some s') (a : A) (hm : s.reserved a < s'.reserved a) :
    (op = .register a ∧ s.reserved a = 0 ∧ s'.reserved a = s.bond) ∨
      (∃ n, op = .updateBond a n ∧ s'.reserved a = n) ∨
      (∃ n t, op = .takeSlot a n t ∧ s.reserved a = 0 ∧ s'.reserved a = n) := by
  have hi := inv_reach h
  cases op with
  | setInvulnerables new =>
    simp only [step, setInvulnerables] at hs
    split at hs
    · cases hs
    · split at hs
      · cases hs
      · cases hs; exact absurd hm (Nat.lt_irrefl _)
  | setDesired n => cases hs; exact absurd hm (Nat.lt_irrefl _)
  | setBond n =>
    simp only [step, setBond, Option.some.injEq] at hs
    split at hs
    · subst hs
      dsimp only at hm
      rw [kickAll_reserved] at hm
      omega
    · subst hs; exact absurd hm (Nat.lt_irrefl _)
  | addInvulnerable who =>
    simp only [step, addInvulnerable] at hs
    split at hs
    · cases hs
    · simp only [Option.some.injEq] at hs
      subst hs
      cases hr : removeCandidate { s with invulnerables := who :: s.invulnerables } who false with
      | none => rw [hr] at hm; exact absurd hm (Nat.lt_irrefl _)
      | some s1 =>
        rw [hr] at hm
        have h1 := reserved_remove hr a
        dsimp only [Option.getD] at hm h1
        omega
  | removeInvulnerable who =>
    simp only [step, removeInvulnerable] at hs
    split at hs
    · cases hs
    · cases hs; exact absurd hm (Nat.lt_irrefl _)
  | register who =>
    simp only [step, register] at hs
    split at hs
    · cases hs
    · rename_i hc
      split at hs
      · cases hs
      · rename_i r hr
        cases hs
        unfold tryReserve at hr
        split at hr
        · cases hr
          have hn : who ∉ s.candidates.map Prod.fst := fun hm => hc (.inr (.inr (.inr hm)))
          dsimp only [put] at hm ⊢
          split at hm
          · rename_i ha
            subst ha
            have h0 : s.reserved a = 0 := by rw [hi.res, held_none hn]
            exact .inl ⟨rfl, h0, by rw [if_pos rfl, h0, Nat.zero_add]⟩
          · exact absurd hm (Nat.lt_irrefl _)
        · cases hr
  | leave who =>
    simp only [step, leave] at hs
    split at hs
    · cases hs
    · have := reserved_remove hs a
      omega
  | updateBond who n =>
    have hI := inv_step hi hs
    simp only [step, updateBond] at hs
    split at hs
    · cases hs
    · split at hs
      · cases hs
      · rename_i d hd
        have hh := held_of_mem hi.nodup (lookup_mem hd)
        have hr := hi.res who
        split at hs
        · split at hs
          · cases hs
          · rename_i r hr
            cases hs
            unfold tryReserve at hr
            split at hr
            · cases hr
              dsimp only [put] at hm ⊢
              split at hm
              · rename_i ha
                subst ha
                exact .inr (.inl ⟨n, rfl, by rw [if_pos rfl]; omega⟩)
              · exact absurd hm (Nat.lt_irrefl _)
            · cases hr
        · split at hs
          · cases hs
            dsimp only [put] at hm
            split at hm
            · rename_i ha
              subst ha
              omega
            · exact absurd hm (Nat.lt_irrefl _)
          · cases hs
  | takeSlot who n target =>
    simp only [step, takeSlot] at hs
    split at hs
    · cases hs
    · rename_i hc
      split at hs
      · cases hs
      · rename_i d hd
        split at hs
        · cases hs
        · split at hs
          · cases hs
          · rename_i r hr
            cases hs
            unfold tryReserve at hr
            split at hr
            · cases hr
              have hn : who ∉ s.candidates.map Prod.fst := fun hm => hc (.inr (.inr (.inr hm)))
              have hwt : who ≠ target := fun e => hn (List.mem_map.2 ⟨_, lookup_mem hd, e.symm⟩)
              have h0 : s.reserved who = 0 := by rw [hi.res, held_none hn]
              dsimp only [put] at hm ⊢
              split at hm
              · rename_i ha
                subst ha
                rw [if_neg (fun e => hwt e.symm)] at hm
                omega
              · rename_i ha
                split at hm
                · rename_i hb
                  subst hb
                  exact .inr (.inr ⟨n, target, rfl, h0, by rw [if_neg ha, if_pos rfl, h0, Nat.zero_add]⟩)
                · exact absurd hm (Nat.lt_irrefl _)
            · cases hr
  | author who => cases hs; exact absurd hm (Nat.lt_irrefl _)
  | block => cases hs; exact absurd hm (Nat.lt_irrefl _)
  | session =>
    cases hs
    exfalso
    have : ∀ (l : List A) (s : St A), (l.foldl (kickOne e) s).reserved a ≤ s.reserved a := by
      intro l
      induction l with
      | nil => exact fun s => Nat.le_refl _
      | cons w l ih => exact fun s => Nat.le_trans (ih _) (reserved_kickOne e s w a)
    have := this (s.candidates.map Prod.fst) s
    unfold kickStale at hm
    omega

/-! ## C158 -/

/-- **C158.** The candidates are kept in the order of their bonds. -/
theorem C158_sorted {inv : List A} {bond : Nat} {s : St A} (h : Reach (genesis inv bond) s) :
    s.candidates.Pairwise fun c d => c.2 ≤ d.2 := (inv_reach h).sorted

/-- **C158.** The collators are all invulnerables, and as many candidates as desired, if there are as many. -/
theorem C158_count (s : St A) : (∀ a ∈ s.invulnerables, a ∈ assemble s) ∧
    (assemble s).length = s.invulnerables.length + min s.desired s.candidates.length := by
  constructor
  · intro a ha
    exact List.mem_append_left _ ha
  · simp [assemble]

/-- **C158.** Nobody is chosen before a candidate with a higher bond. -/
theorem C158_highest {inv : List A} {bond : Nat} {s : St A} (h : Reach (genesis inv bond) s) (x c : A) (d e : Nat)
    (hx : (x, d) ∈ s.candidates) (hc : (c, e) ∈ s.candidates) (hin : x ∈ assemble s) (hni : x ∉ s.invulnerables)
    (hlt : d < e) : c ∈ assemble s := by
  have hi := inv_reach h
  unfold assemble at *
  rcases List.mem_append.1 hin with hin | hin
  · exact absurd hin hni
  · refine List.mem_append_right _ ?_
    obtain ⟨y, hy, rfl⟩ := List.mem_map.1 hin
    have hyc : y ∈ s.candidates := List.mem_reverse.1 (List.mem_of_mem_take hy)
    have hyd : y.2 = d := by rw [← held_of_mem hi.nodup hx, ← held_of_mem (d := y.2) hi.nodup hyc]
    have hr : s.candidates.reverse.Pairwise fun c d => d.2 ≤ c.2 := by
      rw [List.pairwise_reverse]; exact hi.sorted
    have hcr : (c, e) ∈ s.candidates.reverse := List.mem_reverse.2 hc
    rw [← List.take_append_drop s.desired s.candidates.reverse] at hr hcr
    rw [List.pairwise_append] at hr
    rcases List.mem_append.1 hcr with hcr | hcr
    · exact List.mem_map.2 ⟨_, hcr, rfl⟩
    · have := hr.2.2 y hy _ hcr
      dsimp only at this
      omega

theorem mem_remove {s s' : St A} {who a : A} {f : Bool} {d : Nat} (h : removeCandidate s who f = some s')
    (ha : a ≠ who) (hm : (a, d) ∈ s.candidates) : (a, d) ∈ s'.candidates := by
  unfold removeCandidate at h
  split at h
  · cases h
  · cases h
    exact mem_without.2 ⟨hm, ha⟩

theorem same_remove {s s' : St A} {who : A} {f : Bool} (h : removeCandidate s who f = some s') :
    s'.invulnerables = s.invulnerables ∧ s'.now = s.now ∧ ∀ a, a ≠ who → s'.last a = s.last a := by
  unfold removeCandidate at h
  split at h
  · cases h
  · cases h
    refine ⟨rfl, rfl, fun a ha => ?_⟩
    dsimp only
    split
    · rw [put, if_neg ha]
    · rfl

theorem kickOne_cases (e : Env A) (s : St A) (w : A) : kickOne e s w = s ∨ ∃ f, removeCandidate s w f = some (kickOne e s w) ∧
    (w ∈ s.invulnerables ∨ (minEligible < s.eligible ∧ period e.hour ≤ s.now - s.last w)) := by
  have key : ∀ f, (removeCandidate s w f).getD s = s ∨ removeCandidate s w f = some ((removeCandidate s w f).getD s) := by
    intro f
    cases removeCandidate s w f with
    | none => exact .inl rfl
    | some s' => exact .inr rfl
  unfold kickOne
  split
  · rename_i hw
    rcases key false with h | h
    · exact .inl h
    · exact .inr ⟨_, h, .inl hw⟩
  · split
    · exact .inl rfl
    · rename_i hc
      rcases key true with h | h
      · exact .inl h
      · exact .inr ⟨_, h, .inr (by omega)⟩

theorem kept_session (e : Env A) {a : A} {d : Nat} (l : List A) : ∀ s : St A, (a, d) ∈ s.candidates →
    (a, d) ∈ (l.foldl (kickOne e) s).candidates ∨ a ∈ s.invulnerables ∨ period e.hour ≤ s.now - s.last a := by
  induction l with
  | nil => exact fun s hm => .inl hm
  | cons w l ih =>
    intro s hm
    rw [List.foldl_cons]
    rcases kickOne_cases e s w with hk | ⟨f, hk, hc⟩
    · rw [hk]; exact ih s hm
    · by_cases ha : a = w
      · subst ha
        rcases hc with hc | hc
        · exact .inr (.inl hc)
        · exact .inr (.inr hc.2)
      · obtain ⟨h1, h2, h3⟩ := same_remove hk
        rcases ih _ (mem_remove hk ha hm) with h | h | h
        · exact .inl h
        · rw [h1] at h; exact .inr (.inl h)
        · rw [h2, h3 a ha] at h; exact .inr (.inr h)

/-- **C158.** A candidate keeps place and bond until: they leave, or change the bond; the least bond is raised above theirs;
they are made invulnerable; somebody gives a higher bond to take their very place; or a session begins when they are
invulnerable, or have not made a block for six hours. -/
theorem C158_kept {inv : List A} {bond : Nat} {s s' : St A} (h : Reach (genesis inv bond) s) {e : Env A} {op : Op A}
    (hs : step e s op = some s') (a : A) (d : Nat) (hm : (a, d) ∈ s.candidates) :
    (a, d) ∈ s'.candidates ∨ op = .leave a ∨ (∃ n, op = .updateBond a n) ∨ (∃ n, op = .setBond n ∧ d < n) ∨
      op = .addInvulnerable a ∨ (∃ w n, op = .takeSlot w n a ∧ d < n) ∨
      (op = .session ∧ (a ∈ s.invulnerables ∨ 6 * e.hour ≤ s.now - s.last a)) := by
  have hp : period e.hour = 6 * e.hour := rfl
  rw [← hp]
  have hi := inv_reach h
  cases op with
  | setInvulnerables new =>
    simp only [step, setInvulnerables] at hs
    split at hs
    · cases hs
    · split at hs
      · cases hs
      · cases hs; exact .inl hm
  | setDesired n => cases hs; exact .inl hm
  | setBond n =>
    simp only [step, setBond, Option.some.injEq] at hs
    split at hs
    · subst hs
      rw [← List.takeWhile_append_dropWhile (p := fun c : A × Nat => decide (c.2 < n)) (l := s.candidates)] at hm
      rcases List.mem_append.1 hm with hm | hm
      · have := List.all_takeWhile (p := fun c : A × Nat => decide (c.2 < n)) (l := s.candidates)
        rw [List.all_eq_true] at this
        exact .inr (.inr (.inr (.inl ⟨n, rfl, by simpa using this _ hm⟩)))
      · exact .inl hm
    · subst hs; exact .inl hm
  | addInvulnerable who =>
    simp only [step, addInvulnerable] at hs
    split at hs
    · cases hs
    · simp only [Option.some.injEq] at hs
      subst hs
      by_cases ha : a = who
      · subst ha; exact .inr (.inr (.inr (.inr (.inl rfl))))
      · left
        cases hr : removeCandidate { s with invulnerables := who :: s.invulnerables } who false with
        | none => exact hm
        | some s1 => exact mem_remove hr ha hm
  | removeInvulnerable who =>
    simp only [step, removeInvulnerable] at hs
    split at hs
    · cases hs
    · cases hs; exact .inl hm
  | register who =>
    simp only [step, register] at hs
    split at hs
    · cases hs
    · split at hs
      · cases hs
      · cases hs; exact .inl (List.mem_cons_of_mem _ hm)
  | leave who =>
    simp only [step, leave] at hs
    split at hs
    · cases hs
    · by_cases ha : a = who
      · subst ha; exact .inr (.inl rfl)
      · exact .inl (mem_remove hs ha hm)
  | updateBond who n =>
    by_cases ha : a = who
    · subst ha; exact .inr (.inr (.inl ⟨n, rfl⟩))
    · left
      have key : (a, d) ∈ placed who n (without who s.candidates) :=
        (placed_perm _ _ _).mem_iff.2 (List.mem_cons_of_mem _ (mem_without.2 ⟨hm, ha⟩))
      simp only [step, updateBond] at hs
      split at hs
      · cases hs
      · split at hs
        · cases hs
        · split at hs
          · split at hs
            · cases hs
            · cases hs; exact key
          · split at hs
            · cases hs; exact key
            · cases hs
  | takeSlot who n target =>
    simp only [step, takeSlot] at hs
    split at hs
    · cases hs
    · split at hs
      · cases hs
      · rename_i d' hd
        split at hs
        · cases hs
        · rename_i hn
          split at hs
          · cases hs
          · cases hs
            by_cases ha : a = target
            · subst ha
              have : d = d' := by rw [← held_of_mem hi.nodup hm, ← held_of_mem hi.nodup (lookup_mem hd)]
              exact .inr (.inr (.inr (.inr (.inr (.inl ⟨who, n, rfl, by omega⟩)))))
            · exact .inl ((placed_perm _ _ _).mem_iff.2 (List.mem_cons_of_mem _ (mem_without.2 ⟨hm, ha⟩)))
  | author who => cases hs; exact .inl hm
  | block => cases hs; exact .inl hm
  | session =>
    cases hs
    rcases kept_session e (s.candidates.map Prod.fst) s hm with h | h
    · exact .inl h
    · exact .inr (.inr (.inr (.inr (.inr (.inr ⟨rfl, h⟩)))))

/-- **C158.** Becoming a candidate takes session keys, which collators need to make blocks, and a bond of one's own call. -/
theorem C158_enters {s s' : St A} {e : Env A} {op : Op A} (hs : step e s op = some s') (a : A)
    (hn : a ∉ s.candidates.map Prod.fst) (hm : a ∈ s'.candidates.map Prod.fst) :
    (op = .register a ∨ ∃ n t, op = .takeSlot a n t) ∧ e.registered a = true ∧ a ∉ s.invulnerables := by
  have hrem : ∀ {s s' : St A} {w : A} {f : Bool}, removeCandidate s w f = some s' → a ∈ s'.candidates.map Prod.fst →
      a ∈ s.candidates.map Prod.fst := by
    intro s s' w f h hm
    unfold removeCandidate at h
    split at h
    · cases h
    · cases h; exact ((without_sub _ _).map _).mem hm
  have hpl : ∀ {w t : A} {n : Nat}, a ∈ (placed w n (without t s.candidates)).map Prod.fst → a = w := by
    intro w t n hm
    have := ((placed_perm w n (without t s.candidates)).map Prod.fst).mem_iff.1 hm
    rw [List.map_cons] at this
    rcases List.mem_cons.1 this with h | h
    · exact h
    · exact absurd (((without_sub _ _).map _).mem h) hn
  cases op with
  | setInvulnerables new =>
    simp only [step, setInvulnerables] at hs
    split at hs
    · cases hs
    · split at hs
      · cases hs
      · cases hs; exact absurd hm hn
  | setDesired n => cases hs; exact absurd hm hn
  | setBond n =>
    simp only [step, setBond, Option.some.injEq] at hs
    split at hs
    · subst hs; exact absurd (((List.dropWhile_sublist _).map _).mem hm) hn
    · subst hs; exact absurd hm hn
  | addInvulnerable who =>
    simp only [step, addInvulnerable] at hs
    split at hs
    · cases hs
    · simp only [Option.some.injEq] at hs
      subst hs
      cases hr : removeCandidate { s with invulnerables := who :: s.invulnerables } who false with
      | none => rw [hr] at hm; exact absurd hm hn
      | some s1 => rw [hr] at hm; exact absurd (hrem hr hm) hn
  | removeInvulnerable who =>
    simp only [step, removeInvulnerable] at hs
    split at hs
    · cases hs
    · cases hs; exact absurd hm hn
  | register who =>
    simp only [step, register] at hs
    split at hs
    · cases hs
    · rename_i hc
      split at hs
      · cases hs
      · cases hs
        rw [List.map_cons] at hm
        rcases List.mem_cons.1 hm with h | h
        · subst h
          exact ⟨.inl rfl, by simpa using fun h => hc (.inr (.inr (.inl h))), fun h => hc (.inr (.inl h))⟩
        · exact absurd h hn
  | leave who =>
    simp only [step, leave] at hs
    split at hs
    · cases hs
    · exact absurd (hrem hs hm) hn
  | updateBond who n =>
    exfalso
    simp only [step, updateBond] at hs
    split at hs
    · cases hs
    · split at hs
      · cases hs
      · rename_i d hd
        have hw : who ∈ s.candidates.map Prod.fst := List.mem_map.2 ⟨_, lookup_mem hd, rfl⟩
        split at hs
        · split at hs
          · cases hs
          · cases hs; rw [hpl hm] at hn; exact hn hw
        · split at hs
          · cases hs; rw [hpl hm] at hn; exact hn hw
          · cases hs
  | takeSlot who n target =>
    simp only [step, takeSlot] at hs
    split at hs
    · cases hs
    · rename_i hc
      split at hs
      · cases hs
      · split at hs
        · cases hs
        · split at hs
          · cases hs
          · cases hs
            have := hpl hm
            subst this
            exact ⟨.inr ⟨n, target, rfl⟩, by simpa using fun h => hc (.inr (.inr (.inl h))), fun h => hc (.inl h)⟩
  | author who => cases hs; exact absurd hm hn
  | block => cases hs; exact absurd hm hn
  | session =>
    cases hs
    exfalso
    have : ∀ (l : List A) (s : St A), a ∈ (l.foldl (kickOne e) s).candidates.map Prod.fst → a ∈ s.candidates.map Prod.fst := by
      intro l
      induction l with
      | nil => exact fun s h => h
      | cons w l ih =>
        intro s h
        rw [List.foldl_cons] at h
        have := ih _ h
        rcases kickOne_cases e s w with hk | ⟨f, hk, -⟩
        · rwa [hk] at this
        · exact hrem hk this
    exact hn (this _ _ hm)

/-! ## C159 -/

theorem without_length {l : List (A × Nat)} (hn : (l.map Prod.fst).Nodup) (w : A) : l.length ≤ (without w l).length + 1 := by
  induction l with
  | nil => simp
  | cons c l ih =>
    rw [List.map_cons, List.nodup_cons] at hn
    unfold without at ih ⊢
    rw [List.filter_cons]
    by_cases h : c.1 = w
    · rw [if_neg (by simp [h])]
      have : l.filter (fun c => decide (c.1 ≠ w)) = l := by
        rw [List.filter_eq_self]
        intro x hx
        simp only [decide_eq_true_eq]
        intro e
        exact hn.1 (List.mem_map.2 ⟨x, hx, by rw [e, h]⟩)
      rw [this, List.length_cons]
    · rw [if_pos (by simp [h]), List.length_cons, List.length_cons]
      have := ih hn.2
      omega

theorem eligible_remove {s s' : St A} {w : A} {f : Bool} (hs : Inv s) (h : removeCandidate s w f = some s') :
    s.eligible ≤ s'.eligible + 1 := by
  unfold removeCandidate at h
  split at h
  · cases h
  · cases h
    have := without_length hs.nodup w
    simp only [St.eligible]
    omega

/-- **C159**, false of the pallet: that whoever administers the collators cannot leave the chain without any. Naming an
invulnerable without session keys is refused for that one alone, the check that somebody is left is made before. -/
theorem C159_none_fails : ∃ (e : Env Nat) (s : St Nat) (op : Op Nat) (s' : St Nat), Reach (genesis [1] 5) s ∧
    1 ≤ (assemble s).length ∧ step e s op = some s' ∧ s'.eligible = 0 ∧ assemble s' = [] :=
  ⟨⟨fun a => decide (a = 1), fun _ _ => true, 300⟩, genesis [1] 5, .setInvulnerables [2],
    { (genesis [1] 5 : St Nat) with invulnerables := [] }, .start, by decide, rfl, rfl, rfl⟩

/-- **C159**, false of the pallet: a candidate counts as eligible also while none is desired, as at genesis, and then the
last invulnerable may be removed. -/
theorem C159_undesired_fails : ∃ s : St Nat, Reach (genesis [1] 5) s ∧ s.eligible = 1 ∧ assemble s = [] :=
  let e : Env Nat := ⟨fun _ => true, fun _ _ => true, 300⟩
  let s1 : St Nat := ⟨[1], [(2, 5)], 0, 5, put (fun _ => 0) 2 1800, 0, put (fun _ => 0) 2 5⟩
  ⟨{ s1 with invulnerables := [] }, .step (e := e) (op := .removeInvulnerable 1)
    (.step (e := e) (op := .register 2) .start rfl) rfl, rfl, rfl⟩

/-- **C159**, what holds: somebody stays eligible, except if the administration names only accounts without session keys
while there are no candidates, or raises the least bond above that of all candidates while there are no invulnerables. No
candidate leaving, no removal and no session leaves nobody. -/
theorem C159_eligible_partial {inv : List A} {bond : Nat} {s s' : St A} (h : Reach (genesis inv bond) s) {e : Env A}
    {op : Op A} (hs : step e s op = some s') (h1 : 1 ≤ s.eligible) :
    1 ≤ s'.eligible ∨
      (∃ new, op = .setInvulnerables new ∧ (∀ a ∈ new, e.registered a = false) ∧ s.candidates = []) ∨
      (∃ n, op = .setBond n ∧ s.invulnerables = [] ∧ ∀ c ∈ s.candidates, c.2 < n) := by
  have hi := inv_reach h
  cases op with
  | setInvulnerables new =>
    simp only [step, setInvulnerables] at hs
    split at hs
    · cases hs
    · split at hs
      · cases hs
      · cases hs
        rcases Nat.eq_zero_or_pos (s.candidates.length + (new.filter e.registered).length) with h0 | h0
        · refine .inr (.inl ⟨new, rfl, ?_, List.length_eq_zero_iff.1 (by omega)⟩)
          have hf : new.filter e.registered = [] := List.length_eq_zero_iff.1 (by omega)
          intro a ha
          have := List.filter_eq_nil_iff.1 hf a ha
          simpa using this
        · exact .inl h0
  | setDesired n => cases hs; exact .inl h1
  | setBond n =>
    simp only [step, setBond, Option.some.injEq] at hs
    split at hs
    · subst hs
      rcases Nat.eq_zero_or_pos ((s.candidates.dropWhile fun c => decide (c.2 < n)).length + s.invulnerables.length) with h0 | h0
      · refine .inr (.inr ⟨n, rfl, List.length_eq_zero_iff.1 (by omega), ?_⟩)
        have hd : (s.candidates.dropWhile fun c => decide (c.2 < n)) = [] := List.length_eq_zero_iff.1 (by omega)
        intro c hc
        have ht := List.takeWhile_append_dropWhile (p := fun c : A × Nat => decide (c.2 < n)) (l := s.candidates)
        rw [hd, List.append_nil] at ht
        have := List.all_takeWhile (p := fun c : A × Nat => decide (c.2 < n)) (l := s.candidates)
        rw [ht, List.all_eq_true] at this
        simpa using this c hc
      · left
        simp only [St.eligible]
        rw [(kickAll_same _ _).1]
        exact h0
    · subst hs; exact .inl h1
  | addInvulnerable who =>
    left
    simp only [step, addInvulnerable] at hs
    split at hs
    · cases hs
    · simp only [Option.some.injEq] at hs
      subst hs
      cases hr : removeCandidate { s with invulnerables := who :: s.invulnerables } who false with
      | none => simp only [St.eligible, Option.getD, List.length_cons]; omega
      | some s1 =>
        have := (same_remove hr).1
        simp only [St.eligible, Option.getD, this, List.length_cons]
        omega
  | removeInvulnerable who =>
    left
    simp only [step, removeInvulnerable] at hs
    split at hs
    · cases hs
    · rename_i hc
      cases hs
      have hl := List.length_erase (a := who) (l := s.invulnerables)
      rw [if_pos (by by_contra hh; exact hc (.inr (by simpa using hh)))] at hl
      have : minEligible = 1 := rfl
      simp only [St.eligible] at hc ⊢
      omega
  | register who =>
    left
    simp only [step, register] at hs
    split at hs
    · cases hs
    · split at hs
      · cases hs
      · cases hs
        simp only [St.eligible, List.length_cons]
        omega
  | leave who =>
    left
    simp only [step, leave] at hs
    split at hs
    · cases hs
    · have := eligible_remove hi hs
      have : minEligible = 1 := rfl
      omega
  | updateBond who n =>
    left
    have key : ∀ l : List (A × Nat), 1 ≤ (placed who n l).length := by
      intro l; rw [(placed_perm who n l).length_eq]; simp
    simp only [step, updateBond] at hs
    split at hs
    · cases hs
    · split at hs
      · cases hs
      · split at hs
        · split at hs
          · cases hs
          · cases hs; have := key (without who s.candidates); simp only [St.eligible]; omega
        · split at hs
          · cases hs; have := key (without who s.candidates); simp only [St.eligible]; omega
          · cases hs
  | takeSlot who n target =>
    left
    simp only [step, takeSlot] at hs
    split at hs
    · cases hs
    · split at hs
      · cases hs
      · split at hs
        · cases hs
        · split at hs
          · cases hs
          · cases hs
            have : 1 ≤ (placed who n (without target s.candidates)).length := by
              rw [(placed_perm who n _).length_eq]; simp
            simp only [St.eligible]; omega
  | author who => cases hs; exact .inl h1
  | block => cases hs; exact .inl h1
  | session =>
    left
    cases hs
    have : ∀ (l : List A) (s : St A), Inv s → 1 ≤ s.eligible → 1 ≤ (l.foldl (kickOne e) s).eligible := by
      intro l
      induction l with
      | nil => exact fun s _ h => h
      | cons w l ih =>
        intro s hi h
        rw [List.foldl_cons]
        refine ih _ (inv_kickOne e w hi) ?_
        rcases kickOne_cases e s w with hk | ⟨f, hk, hc⟩
        · rwa [hk]
        · have h2 := eligible_remove hi hk
          have hm : minEligible = 1 := rfl
          rcases hc with hc | hc
          · have := (same_remove hk).1
            have h3 := List.length_pos_of_mem hc
            simp only [St.eligible, this]
            omega
          · omega
    exact this _ s hi h1

/-- **C159**, what holds: somebody is chosen exactly if there is an invulnerable, or a candidate while one is desired. -/
theorem C159_chosen_partial (s : St A) : assemble s ≠ [] ↔ s.invulnerables ≠ [] ∨ (s.candidates ≠ [] ∧ s.desired ≠ 0) := by
  rw [← List.length_pos_iff, ← List.length_pos_iff, ← List.length_pos_iff, (C158_count s).2]
  omega

/-! ## Examples -/

/-- Two invulnerables and three candidates with different bonds, of which one takes the place of another, and a session in
which a candidate that made no block is kicked. -/
example : ∃ s : St Nat, Reach (genesis [1, 2] 5) s ∧ s.candidates = [(5, 9)] ∧ s.reserved 3 = 0 ∧ s.reserved 5 = 9 ∧
    assemble { s with desired := 3 } = [1, 2, 5] := by
  let e : Env Nat := ⟨fun _ => true, fun _ _ => true, 0⟩
  let e' : Env Nat := ⟨fun _ => true, fun _ _ => true, 1⟩
  have h1 := Reach.step (e := e) (op := .updateBond 3 7) (.step (e := e) (op := .register 4)
      (.step (e := e) (op := .register 3) (.start (g := genesis [1, 2] 5)) rfl) rfl) rfl
  have h2 := Reach.step (e := e) (op := .block) (.step (e := e) (op := .block) (.step (e := e) (op := .block) h1 rfl) rfl) rfl
  have h3 := Reach.step (e := e) (op := .block) (.step (e := e) (op := .block) (.step (e := e) (op := .block) h2 rfl) rfl) rfl
  refine ⟨_, .step (e := e') (op := .session) (.step (e := e') (op := .takeSlot 5 9 4) h3 rfl) rfl, ?_, ?_, ?_, ?_⟩
  all_goals decide

end Verif.Runtime.Collators
