import Verif.Runtime.Serving
import Verif.Runtime.CollatorTheorems
import Verif.Runtime.SessionTheorems

/-! # Lemmas for C193 and C194 -/

namespace Verif.Runtime.Collators

variable {A : Type} [DecidableEq A]

/-! ## How many there are -/

/-- The limits of the lists. Part of the transition system around the code (outside /repo). -/
structure Few (s : St A) : Prop where
  inv : s.invulnerables.length ≤ maxInvulnerables
  cand : s.candidates.length ≤ maxCandidates

theorem few_remove {s s' : St A} {w : A} {f : Bool} (hs : Few s) (h : removeCandidate s w f = some s') : Few s' := by
  unfold removeCandidate at h
  split at h
  · cases h
  · cases h
    exact ⟨hs.inv, Nat.le_trans (without_sub _ _).length_le hs.cand⟩

theorem few_getD {s : St A} {w : A} {f : Bool} (hs : Few s) : Few ((removeCandidate s w f).getD s) := by
  cases h : removeCandidate s w f with
  | none => exact hs
  | some s' => exact few_remove hs h

theorem without_lt {l : List (A × Nat)} {w : A} (hm : w ∈ l.map Prod.fst) : (without w l).length + 1 ≤ l.length := by
  induction l with
  | nil => cases hm
  | cons c l ih =>
    unfold without at ih ⊢
    rw [List.filter_cons]
    by_cases h : c.1 = w
    · rw [if_neg (by simp [h]), List.length_cons]
      have : (l.filter fun c => decide (c.1 ≠ w)).length ≤ l.length := List.length_filter_le _ _
      omega
    · rw [if_pos (by simp [h]), List.length_cons, List.length_cons]
      rw [List.map_cons] at hm
      rcases List.mem_cons.1 hm with h1 | h1
      · exact absurd h1.symm h
      · have := ih h1
        omega

omit [DecidableEq A] in
theorem placed_length (w : A) (n : Nat) (l : List (A × Nat)) : (placed w n l).length = l.length + 1 := by
  rw [(placed_perm w n l).length_eq, List.length_cons]

theorem depositOf_mem {s : St A} {w : A} {d : Nat} (h : s.depositOf w = some d) : w ∈ s.candidates.map Prod.fst :=
  List.mem_map.2 ⟨_, lookup_mem h, rfl⟩

theorem few_kickOne {e : Env A} {s : St A} (hs : Few s) (w : A) : Few (kickOne e s w) := by
  rcases kickOne_cases e s w with h | ⟨f, h, _⟩
  · rw [h]; exact hs
  · exact few_remove hs h

theorem few_step {e : Env A} {s s' : St A} {op : Op A} (hs : Few s) (h : step e s op = some s') : Few s' := by
  cases op with
  | setInvulnerables new =>
    simp only [step, setInvulnerables] at h
    split at h
    · cases h
    · split at h
      · cases h
      · rename_i h1
        cases h
        exact ⟨Nat.le_trans (List.length_filter_le _ _) (by omega), hs.cand⟩
  | setDesired n => cases h; exact ⟨hs.inv, hs.cand⟩
  | setBond n =>
    simp only [step, setBond, Option.some.injEq] at h
    have hk : ∀ (l : List (A × Nat)) (s : St A), (kickAll s l).invulnerables = s.invulnerables := by
      intro l
      induction l with
      | nil => exact fun _ => rfl
      | cons c l ih => intro s; rw [kickAll, ih]
    split at h
    · subst h
      exact ⟨by simp only [hk]; exact hs.inv, Nat.le_trans (List.dropWhile_sublist _).length_le hs.cand⟩
    · subst h; exact ⟨hs.inv, hs.cand⟩
  | addInvulnerable who =>
    simp only [step, addInvulnerable] at h
    split at h
    · cases h
    · rename_i h1
      simp only [not_or] at h1
      cases h
      exact few_getD ⟨by simp only [List.length_cons]; omega, hs.cand⟩
  | removeInvulnerable who =>
    simp only [step, removeInvulnerable] at h
    split at h
    · cases h
    · cases h; exact ⟨Nat.le_trans List.erase_sublist.length_le hs.inv, hs.cand⟩
  | register who =>
    simp only [step, register] at h
    split at h
    · cases h
    · rename_i h1
      simp only [not_or] at h1
      split at h
      · cases h
      · cases h; exact ⟨hs.inv, by simp only [List.length_cons]; omega⟩
  | leave who =>
    simp only [step, leave] at h
    split at h
    · cases h
    · exact few_remove hs h
  | updateBond who n =>
    simp only [step, updateBond] at h
    split at h
    · cases h
    · split at h
      · cases h
      · rename_i hd
        have hl : (placed who n (without who s.candidates)).length ≤ maxCandidates := by
          rw [placed_length]; exact Nat.le_trans (without_lt (depositOf_mem hd)) hs.cand
        split at h
        · split at h
          · cases h
          · cases h; exact ⟨hs.inv, hl⟩
        · split at h
          · cases h; exact ⟨hs.inv, hl⟩
          · cases h
  | takeSlot who n target =>
    simp only [step, takeSlot] at h
    split at h
    · cases h
    · split at h
      · cases h
      · rename_i hd
        split at h
        · cases h
        · split at h
          · cases h
          · cases h
            refine ⟨hs.inv, ?_⟩
            simp only [placed_length]
            exact Nat.le_trans (without_lt (depositOf_mem hd)) hs.cand
  | author who => cases h; exact ⟨hs.inv, hs.cand⟩
  | block => cases h; exact ⟨hs.inv, hs.cand⟩
  | session =>
    cases h
    show Few ((s.candidates.map Prod.fst).foldl (kickOne e) s)
    generalize s.candidates.map Prod.fst = l
    induction l generalizing s with
    | nil => exact hs
    | cons w l ih => exact ih (few_kickOne hs w)

/-! ## The record of the last block -/

theorem names_remove {s s' : St A} {w a : A} {f : Bool} (h : removeCandidate s w f = some s')
    (hm : a ∈ s'.candidates.map Prod.fst) : a ∈ s.candidates.map Prod.fst ∧ s'.last a = s.last a := by
  have hw : a ≠ w := by
    rintro rfl
    unfold removeCandidate at h
    split at h
    · cases h
    · cases h; exact not_mem_without _ _ hm
  refine ⟨?_, (same_remove h).2.2 a hw⟩
  unfold removeCandidate at h
  split at h
  · cases h
  · cases h; exact ((without_sub _ _).map _).mem hm

theorem names_placed {w t a : A} {n : Nat} {l : List (A × Nat)} (hm : a ∈ (placed w n (without t l)).map Prod.fst) :
    a = w ∨ (a ∈ l.map Prod.fst ∧ a ≠ t) := by
  have := ((placed_perm w n (without t l)).map Prod.fst).mem_iff.1 hm
  rw [List.map_cons] at this
  rcases List.mem_cons.1 this with h | h
  · exact .inl h
  · right
    obtain ⟨c, hc, rfl⟩ := List.mem_map.1 h
    obtain ⟨h1, h2⟩ := mem_without.1 hc
    exact ⟨List.mem_map.2 ⟨c, h1, rfl⟩, h2⟩

theorem kickAll_last {a : A} (l : List (A × Nat)) : ∀ s : St A, a ∉ l.map Prod.fst → (kickAll s l).last a = s.last a := by
  induction l with
  | nil => exact fun _ _ => rfl
  | cons c l ih =>
    intro s hm
    rw [List.map_cons, List.mem_cons, not_or] at hm
    rw [kickAll, ih _ hm.2]
    exact if_neg hm.1

theorem now_step {e : Env A} {s s' : St A} {op : Op A} (h : step e s op = some s') (hb : op ≠ .block) : s'.now = s.now := by
  have hr : ∀ {s s' : St A} {w : A} {f : Bool}, removeCandidate s w f = some s' → s'.now = s.now :=
    fun h => (same_remove h).2.1
  cases op with
  | setInvulnerables new =>
    simp only [step, setInvulnerables] at h
    split at h
    · cases h
    · split at h
      · cases h
      · cases h; rfl
  | setDesired n => cases h; rfl
  | setBond n =>
    simp only [step, setBond, Option.some.injEq] at h
    have hk : ∀ (l : List (A × Nat)) (s : St A), (kickAll s l).now = s.now := by
      intro l
      induction l with
      | nil => exact fun _ => rfl
      | cons c l ih => intro s; rw [kickAll, ih]
    split at h
    · subst h; exact hk _ _
    · subst h; rfl
  | addInvulnerable who =>
    simp only [step, addInvulnerable] at h
    split at h
    · cases h
    · cases h
      cases hr' : removeCandidate { s with invulnerables := who :: s.invulnerables } who false with
      | none => rfl
      | some s1 => exact (same_remove hr').2.1
  | removeInvulnerable who =>
    simp only [step, removeInvulnerable] at h
    split at h
    · cases h
    · cases h; rfl
  | register who =>
    simp only [step, register] at h
    split at h
    · cases h
    · split at h
      · cases h
      · cases h; rfl
  | leave who =>
    simp only [step, leave] at h
    split at h
    · cases h
    · exact hr h
  | updateBond who n =>
    simp only [step, updateBond] at h
    split at h
    · cases h
    · split at h
      · cases h
      · split at h
        · split at h
          · cases h
          · cases h; rfl
        · split at h
          · cases h; rfl
          · cases h
  | takeSlot who n target =>
    simp only [step, takeSlot] at h
    split at h
    · cases h
    · split at h
      · cases h
      · split at h
        · cases h
        · split at h
          · cases h
          · cases h; rfl
  | author who => cases h; rfl
  | block => exact absurd rfl hb
  | session =>
    cases h
    show ((s.candidates.map Prod.fst).foldl (kickOne e) s).now = s.now
    generalize s.candidates.map Prod.fst = l
    induction l generalizing s with
    | nil => rfl
    | cons w l ih =>
      rw [List.foldl_cons, ih]
      rcases kickOne_cases e s w with h | ⟨f, h, _⟩
      · rw [h]
      · exact hr h

/-- The record of a candidate's last block after a step: the one before, or six hours from now if the step made them a
candidate, or now if they made the block. -/
theorem last_step {e : Env A} {s s' : St A} {op : Op A} (hi : Inv s) (h : step e s op = some s') {a : A}
    (hm : a ∈ s'.candidates.map Prod.fst) :
    (a ∈ s.candidates.map Prod.fst ∧ s'.last a = s.last a) ∨ s'.last a = s.now + period e.hour ∨
      (op = .author a ∧ s'.last a = s.now) := by
  cases op with
  | setInvulnerables new =>
    simp only [step, setInvulnerables] at h
    split at h
    · cases h
    · split at h
      · cases h
      · cases h; exact .inl ⟨hm, rfl⟩
  | setDesired n => cases h; exact .inl ⟨hm, rfl⟩
  | setBond n =>
    simp only [step, setBond, Option.some.injEq] at h
    split at h
    · subst h
      have hm : a ∈ (s.candidates.dropWhile fun c => decide (c.2 < n)).map Prod.fst := hm
      have hn := hi.nodup
      rw [← List.takeWhile_append_dropWhile (p := fun c : A × Nat => decide (c.2 < n)) (l := s.candidates),
        List.map_append, List.nodup_append] at hn
      refine .inl ⟨((List.dropWhile_sublist _).map _).mem hm, kickAll_last _ _ ?_⟩
      exact fun h1 => hn.2.2 a h1 a hm rfl
    · subst h; exact .inl ⟨hm, rfl⟩
  | addInvulnerable who =>
    simp only [step, addInvulnerable] at h
    split at h
    · cases h
    · cases h
      cases hr : removeCandidate { s with invulnerables := who :: s.invulnerables } who false with
      | none => rw [hr] at hm; exact .inl ⟨hm, rfl⟩
      | some s1 =>
        rw [hr] at hm
        have := names_remove hr hm
        exact .inl this
  | removeInvulnerable who =>
    simp only [step, removeInvulnerable] at h
    split at h
    · cases h
    · cases h; exact .inl ⟨hm, rfl⟩
  | register who =>
    simp only [step, register] at h
    split at h
    · cases h
    · split at h
      · cases h
      · cases h
        simp only [List.map_cons, List.mem_cons] at hm
        by_cases hw : a = who
        · exact .inr (.inl (if_pos hw))
        · exact .inl ⟨hm.resolve_left hw, if_neg hw⟩
  | leave who =>
    simp only [step, leave] at h
    split at h
    · cases h
    · exact .inl (names_remove h hm)
  | updateBond who n =>
    have hmem : ∀ d, s.depositOf who = some d → a ∈ (placed who n (without who s.candidates)).map Prod.fst →
        a ∈ s.candidates.map Prod.fst := by
      intro d hd hm
      rcases names_placed hm with h | h
      · rw [h]; exact depositOf_mem hd
      · exact h.1
    simp only [step, updateBond] at h
    split at h
    · cases h
    · split at h
      · cases h
      · rename_i hd
        split at h
        · split at h
          · cases h
          · cases h; exact .inl ⟨hmem _ hd hm, rfl⟩
        · split at h
          · cases h; exact .inl ⟨hmem _ hd hm, rfl⟩
          · cases h
  | takeSlot who n target =>
    simp only [step, takeSlot] at h
    split at h
    · cases h
    · split at h
      · cases h
      · split at h
        · cases h
        · split at h
          · cases h
          · cases h
            by_cases hw : a = who
            · exact .inr (.inl (if_pos hw))
            · obtain ⟨h1, h2⟩ := (names_placed hm).resolve_left hw
              refine .inl ⟨h1, ?_⟩
              show put (put s.last target 0) who _ a = _
              rw [put, if_neg hw, put, if_neg h2]
  | author who =>
    cases h
    by_cases hw : a = who
    · subst hw; exact .inr (.inr ⟨rfl, if_pos rfl⟩)
    · exact .inl ⟨hm, if_neg hw⟩
  | block => cases h; exact .inl ⟨hm, rfl⟩
  | session =>
    cases h
    left
    have : ∀ (l : List A) (s : St A), a ∈ (l.foldl (kickOne e) s).candidates.map Prod.fst →
        a ∈ s.candidates.map Prod.fst ∧ (l.foldl (kickOne e) s).last a = s.last a := by
      intro l
      induction l with
      | nil => exact fun s h => ⟨h, rfl⟩
      | cons w l ih =>
        intro s h
        rw [List.foldl_cons] at h ⊢
        obtain ⟨h1, h2⟩ := ih _ h
        rcases kickOne_cases e s w with hk | ⟨f, hk, _⟩
        · rw [hk] at h1; rw [h2, hk]; exact ⟨h1, rfl⟩
        · obtain ⟨h3, h4⟩ := names_remove hk h1
          exact ⟨h3, h2.trans h4⟩
    exact this _ _ hm

end Verif.Runtime.Collators

namespace Verif.Runtime.Serving

variable {A K : Type} [DecidableEq A] [DecidableEq K]

theorem run_append (hour : Nat) (l : List (A × K)) (bond : Nat) (bs : List (Blk A K)) (b : Blk A K) :
    run hour l bond (bs ++ [b]) = (run hour l bond bs).bind fun s => execute hour s b := by simp [run]

/-- pallet_collator_selection after the author of the block is noted. Part of the transition system around the code (outside
/repo). -/
def noted (b : Blk A K) (s : St A K) : Collators.St A :=
  match Sessions.findAuthor s.sess b.slot with
  | some a => Collators.noteAuthor { s.coll with now := s.coll.now + 1 } a
  | none => { s.coll with now := s.coll.now + 1 }

omit [DecidableEq K] in
theorem hooks_eq (hour : Nat) (b : Blk A K) (s : St A K) :
    (hooks hour b s).coll =
      (if (s.sess.number + 1) % Collators.period hour = 0 then
        Collators.kickStale ⟨fun a => (s.sess.keys a).isSome, fun _ _ => false, hour⟩ (noted b s) else noted b s) ∧
    (hooks hour b s).sess = Sessions.order.foldl (Sessions.init (Collators.period hour)
      ⟨b.slot, b.signer, Collators.assemble (hooks hour b s).coll, []⟩) { s.sess with number := s.sess.number + 1 } := by
  have hf : Sessions.findAuthor { s.sess with number := s.sess.number + 1 } b.slot = Sessions.findAuthor s.sess b.slot := rfl
  by_cases h : (s.sess.number + 1) % Collators.period hour = 0
  · constructor
    · simp [hooks, Sessions.order, init, Sessions.ends, h, noted, hf, env]
      rfl
    · simp [hooks, Sessions.order, init, Sessions.init, Sessions.ends, h]
  · constructor
    · simp [hooks, Sessions.order, init, Sessions.ends, h, noted, hf]
      rfl
    · simp [hooks, Sessions.order, init, Sessions.init, Sessions.ends, h]

/-- The calls about keys among transactions. Specification only, no code behind it (outside /repo). -/
def keyCalls (txs : List (Tx A K)) : List (Sessions.Call A K) :=
  txs.filterMap fun t => match t with
    | .keys c => some c
    | .coll _ _ => none

theorem txs_sess (hour : Nat) (txs : List (Tx A K)) : ∀ s : St A K,
    (txs.foldl (tx hour) s).sess = (keyCalls txs).foldl Sessions.call s.sess := by
  induction txs with
  | nil => exact fun _ => rfl
  | cons t txs ih =>
    intro s
    rw [List.foldl_cons, ih]
    cases t with
    | keys c => rfl
    | coll can op =>
      simp only [tx, keyCalls, List.filterMap_cons]
      split <;> rfl

/-- The block as Runtime/Sessions sees it. Part of the transition system around the code (outside /repo). -/
def seen (hour : Nat) (s : St A K) (b : Blk A K) : Sessions.Blk A K :=
  ⟨b.slot, b.signer, Collators.assemble (hooks hour b s).coll, keyCalls b.txs⟩

theorem execute_sess {hour : Nat} {s s' : St A K} {b : Blk A K} (h : execute hour s b = some s') :
    Sessions.execute (Collators.period hour) s.sess (seen hour s b) = some s'.sess := by
  unfold execute at h
  obtain ⟨h1, h2⟩ := Option.ite_none_right_eq_some.1 h
  simp only [Option.some.injEq] at h2
  subst h2
  refine (if_pos h1).trans ?_
  simp only [txs_sess, (hooks_eq hour b s).2]
  rfl

/-- What holds of pallet_collator_selection before a block, and after its author is noted, and is kept by all but that,
holds after the hooks and after the block. -/
theorem execute_coll {hour : Nat} {s s' : St A K} {b : Blk A K} (h : execute hour s b = some s') {P : Collators.St A → Prop}
    (hP : ∀ (e : Collators.Env A) op c c', e.hour = hour → op ≠ .block → (∀ x, op ≠ .author x) → P c →
      Collators.step e c op = some c' → P c') (h0 : P (noted b s)) : P (hooks hour b s).coll ∧ P s'.coll := by
  have hk : P (hooks hour b s).coll := by
    rw [(hooks_eq hour b s).1]
    split
    · exact hP ⟨fun a => (s.sess.keys a).isSome, fun _ _ => false, hour⟩ .session _ _ rfl (fun h => nomatch h)
        (fun _ h => nomatch h) h0 rfl
    · exact h0
  refine ⟨hk, ?_⟩
  unfold execute at h
  obtain ⟨_, h2⟩ := Option.ite_none_right_eq_some.1 h
  simp only [Option.some.injEq] at h2
  subst h2
  show P (b.txs.foldl (tx hour) (hooks hour b s)).coll
  generalize hooks hour b s = t at hk
  generalize b.txs = txs
  induction txs generalizing t with
  | nil => exact hk
  | cons x txs ih =>
    rw [List.foldl_cons]
    apply ih
    cases x with
    | keys c => exact hk
    | coll can op =>
      simp only [tx]
      split
      · rename_i hc
        cases hs : Collators.step (env hour t can) t.coll op with
        | none => exact hk
        | some c' =>
          refine hP (env hour t can) op _ _ rfl ?_ ?_ hk hs
          · rintro rfl; cases hc
          · rintro x rfl; cases hc
      · exact hk

/-- The same for what is kept by every step. -/
theorem execute_steps {hour : Nat} {s s' : St A K} {b : Blk A K} (h : execute hour s b = some s') {P : Collators.St A → Prop}
    (hP : ∀ (e : Collators.Env A) op c c', P c → Collators.step e c op = some c' → P c') (h0 : P s.coll) :
    P (noted b s) ∧ P (hooks hour b s).coll ∧ P s'.coll := by
  have hn : P (noted b s) := by
    have h1 : P { s.coll with now := s.coll.now + 1 } :=
      hP ⟨fun _ => false, fun _ _ => false, 0⟩ .block _ _ h0 rfl
    unfold noted
    split
    · exact hP ⟨fun _ => false, fun _ _ => false, 0⟩ (.author _) _ _ h1 rfl
    · exact h1
  exact ⟨hn, execute_coll h (fun e op c c' _ _ _ => hP e op c c') hn⟩

theorem run_take {hour : Nat} {l : List (A × K)} {bond : Nat} (bs : List (Blk A K)) {s : St A K}
    (h : run hour l bond bs = some s) {i : Nat} {b : Blk A K} (hb : bs[i]? = some b) :
    ∃ s0 s1, run hour l bond (bs.take i) = some s0 ∧ execute hour s0 b = some s1 ∧ run hour l bond (bs.take (i + 1)) = some s1 := by
  induction bs using List.reverseRecOn generalizing s with
  | nil => cases hb
  | append_singleton bs x ih =>
    have h' := h
    rw [run_append, Option.bind_eq_some_iff] at h
    obtain ⟨sp, hp, he⟩ := h
    obtain ⟨hi, hg⟩ := List.getElem?_eq_some_iff.1 hb
    rw [List.length_append, List.length_singleton] at hi
    by_cases hc : i < bs.length
    · rw [List.getElem?_append_left hc] at hb
      rw [List.take_append_of_le_length (by omega), List.take_append_of_le_length (by omega)]
      exact ih hp hb
    · have : i = bs.length := by omega
      subst this
      rw [List.getElem?_append_right (Nat.le_refl _)] at hb
      simp only [Nat.sub_self, List.getElem?_cons_zero, Option.some.injEq] at hb
      subst hb
      refine ⟨sp, s, by rw [List.take_left']; exact hp; rfl, he, ?_⟩
      rw [List.take_of_length_le (by simp)]
      exact h'

/-- A chain as Runtime/Sessions sees it. -/
theorem run_sess {hour : Nat} {l : List (A × K)} {bond : Nat} (bs : List (Blk A K)) : ∀ {s : St A K},
    run hour l bond bs = some s → ∃ bs' : List (Sessions.Blk A K), bs'.length = bs.length ∧
      Sessions.run (Collators.period hour) l bs' = some s.sess ∧
      ∀ i b', bs'[i]? = some b' → ∃ b s0, bs[i]? = some b ∧ run hour l bond (bs.take i) = some s0 ∧
        b' = seen hour s0 b ∧ Sessions.run (Collators.period hour) l (bs'.take i) = some s0.sess := by
  induction bs using List.reverseRecOn with
  | nil =>
    intro s h
    simp only [run, List.foldl_nil, Option.some.injEq] at h
    subst h
    exact ⟨[], rfl, rfl, fun i b' h => by cases h⟩
  | append_singleton bs x ih =>
    intro s h
    rw [run_append, Option.bind_eq_some_iff] at h
    obtain ⟨sp, hp, he⟩ := h
    obtain ⟨bs', h1, h2, h3⟩ := ih hp
    refine ⟨bs' ++ [seen hour sp x], by simp [h1], ?_, ?_⟩
    · rw [Sessions.run_append, h2]; exact execute_sess he
    · intro i b' hb
      obtain ⟨hi, _⟩ := List.getElem?_eq_some_iff.1 hb
      rw [List.length_append, List.length_singleton] at hi
      by_cases hc : i < bs'.length
      · rw [List.getElem?_append_left hc] at hb
        obtain ⟨b, s0, q1, q2, q3, q4⟩ := h3 i b' hb
        refine ⟨b, s0, Sessions.get_pre q1, ?_, q3, ?_⟩
        · rw [List.take_append_of_le_length (by omega)]; exact q2
        · rw [List.take_append_of_le_length (by omega)]; exact q4
      · have : i = bs'.length := by omega
        subst this
        rw [List.getElem?_append_right (Nat.le_refl _)] at hb
        simp only [Nat.sub_self, List.getElem?_cons_zero, Option.some.injEq] at hb
        refine ⟨x, sp, by rw [h1, List.getElem?_append_right (Nat.le_refl _)]; simp, ?_, hb.symm, ?_⟩
        · rw [h1, List.take_left']; exact hp; rfl
        · rw [List.take_left']; exact h2; rfl

/-- What holds of pallet_collator_selection after every chain. -/
structure Fine (n : Nat) (g c : Collators.St A) : Prop where
  reach : Collators.Reach g c
  few : Collators.Few c
  now : c.now = n

omit [DecidableEq K] in
theorem noted_now (b : Blk A K) (s : St A K) : (noted b s).now = s.coll.now + 1 := by
  unfold noted; split <;> rfl

theorem fine_execute {hour n : Nat} {g : Collators.St A} {s s' : St A K} {b : Blk A K} (h : execute hour s b = some s')
    (h0 : Fine n g s.coll) : Fine (n + 1) g (noted b s) ∧ Fine (n + 1) g (hooks hour b s).coll ∧ Fine (n + 1) g s'.coll := by
  obtain ⟨r1, r2, r3⟩ := execute_steps h (P := Collators.Reach g) (fun e op c c' hc hs => .step hc hs) h0.reach
  obtain ⟨f1, f2, f3⟩ := execute_steps h (P := Collators.Few) (fun e op c c' hc hs => Collators.few_step hc hs) h0.few
  have hn : (noted b s).now = n + 1 := by rw [noted_now, h0.now]
  obtain ⟨n2, n3⟩ := execute_coll h (P := fun c => c.now = n + 1)
    (fun e op c c' _ hb _ hc hs => (Collators.now_step hs hb).trans hc) hn
  exact ⟨⟨r1, f1, hn⟩, ⟨r2, f2, n2⟩, ⟨r3, f3, n3⟩⟩

theorem fine {hour : Nat} {l : List (A × K)} (hl : l.length ≤ Collators.maxInvulnerables) {bond : Nat} (bs : List (Blk A K)) :
    ∀ {s : St A K}, run hour l bond bs = some s →
      Fine bs.length (Collators.genesis (l.map Prod.fst) bond) s.coll ∧ s.sess.number = bs.length := by
  induction bs using List.reverseRecOn with
  | nil =>
    intro s h
    simp only [run, List.foldl_nil, Option.some.injEq] at h
    subst h
    exact ⟨⟨.start, ⟨by simpa [genesis, Collators.genesis] using hl, Nat.zero_le _⟩, rfl⟩, rfl⟩
  | append_singleton bs x ih =>
    intro s h
    rw [run_append, Option.bind_eq_some_iff] at h
    obtain ⟨sp, hp, he⟩ := h
    obtain ⟨h1, h2⟩ := ih hp
    rw [List.length_append, List.length_singleton]
    exact ⟨(fine_execute he h1).2.2, by rw [(Sessions.execute_some (execute_sess he)).2.1, h2]⟩

theorem few_assemble {c : Collators.St A} (h : Collators.Few c) : (Collators.assemble c).length ≤ 1100 := by
  have h1 := h.inv
  have h2 := h.cand
  rw [(Collators.C158_count c).2]
  simp only [Collators.maxInvulnerables, Collators.maxCandidates] at h1 h2
  omega

end Verif.Runtime.Serving
