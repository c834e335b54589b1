import Verif.Runtime.ServingLemmas

/-! # C193, C194: who makes blocks, and who loses their place for not making any -/

namespace Verif.Runtime.Collators

variable {A : Type} [DecidableEq A]

/-- The bonds of a state count for an account: it is invulnerable, or a candidate with a bond, reserved of it, that fewer
candidates exceed than are desired. Specification only, no code behind it (outside /repo). -/
def HighBond (c : St A) (a : A) : Prop :=
  a ∈ c.invulnerables ∨ ∃ d, (a, d) ∈ c.candidates ∧ c.reserved a = d ∧ c.bond ≤ d ∧
    (c.candidates.filter fun x => decide (d < x.2)).length < c.desired

/-- No tie is against the account either: those with at least its bond, itself included, are no more than desired.
Specification only, no code behind it (outside /repo). -/
def ClearBond (c : St A) (a : A) : Prop :=
  a ∈ c.invulnerables ∨ ∃ d, (a, d) ∈ c.candidates ∧ (c.candidates.filter fun x => decide (d ≤ x.2)).length ≤ c.desired

theorem highBond_of {g c : St A} {inv : List A} {bond : Nat} (hg : g = genesis inv bond) (h : Reach g c) {a : A}
    (ha : a ∈ assemble c) : HighBond c a := by
  subst hg
  have hi := inv_reach h
  have hb := (C157_bonds h).2.1
  unfold assemble at ha
  rcases List.mem_append.1 ha with ha | ha
  · exact .inl ha
  · obtain ⟨⟨a', d⟩, hm, rfl⟩ := List.mem_map.1 ha
    have hc : (a', d) ∈ c.candidates := List.mem_reverse.1 (List.mem_of_mem_take hm)
    refine .inr ⟨d, hc, (hb _ _ hc).1, (hb _ _ hc).2, ?_⟩
    obtain ⟨i, hi1, hi2⟩ := List.getElem_of_mem hm
    rw [List.length_take] at hi1
    rw [List.getElem_take] at hi2
    have hs : c.candidates.reverse.Pairwise fun x y => y.2 ≤ x.2 := by
      rw [List.pairwise_reverse]; exact hi.sorted
    rw [← List.length_reverse, ← List.filter_reverse]
    generalize c.candidates.reverse = r at *
    have hr := List.take_append_drop i r
    have hd : ∀ x ∈ r.drop i, x.2 ≤ d := by
      intro x hx
      obtain ⟨k, hk, rfl⟩ := List.getElem_of_mem hx
      rw [List.getElem_drop]
      by_cases h0 : k = 0
      · subst h0; simp [hi2]
      · have := List.pairwise_iff_getElem.1 hs i (i + k) (by omega) (by rw [List.length_drop] at hk; omega) (by omega)
        rw [hi2] at this; exact this
    have hz : (r.drop i).filter (fun x => decide (d < x.2)) = [] :=
      List.filter_eq_nil_iff.2 (fun x hx => by have := hd x hx; simp; omega)
    rw [← hr, List.filter_append, List.length_append, hz]
    have := List.length_filter_le (fun x : A × Nat => decide (d < x.2)) (r.take i)
    rw [List.length_take] at this
    simp only [List.length_nil]
    omega

theorem chosen_of_clear {c : St A} (hi : Inv c) {a : A} (ha : ClearBond c a) : a ∈ assemble c := by
  unfold assemble
  rcases ha with ha | ⟨d, hm, hl⟩
  · exact List.mem_append_left _ ha
  · refine List.mem_append_right _ (List.mem_map.2 ⟨(a, d), ?_, rfl⟩)
    have hs : c.candidates.reverse.Pairwise fun x y => y.2 ≤ x.2 := by
      rw [List.pairwise_reverse]; exact hi.sorted
    have hm := List.mem_reverse.2 hm
    rw [← List.length_reverse, ← List.filter_reverse] at hl
    generalize c.candidates.reverse = r at *
    obtain ⟨i, hi1, hi2⟩ := List.getElem_of_mem hm
    have ht : ∀ x ∈ r.take (i + 1), d ≤ x.2 := by
      intro x hx
      obtain ⟨k, hk, rfl⟩ := List.getElem_of_mem hx
      rw [List.length_take] at hk
      rw [List.getElem_take]
      by_cases h0 : k = i
      · subst h0; rw [hi2]
      · have := List.pairwise_iff_getElem.1 hs k i (by omega) hi1 (by omega)
        rw [hi2] at this; exact this
    rw [← List.take_append_drop (i + 1) r, List.filter_append, List.length_append,
      List.filter_eq_self.2 (fun x hx => by simpa using ht x hx), List.length_take] at hl
    rw [List.mem_take_iff_getElem]
    exact ⟨i, by omega, hi2⟩

/-- Becoming invulnerable takes session keys, and a call that says so. -/
theorem inv_enters {s s' : St A} {e : Env A} {op : Op A} (hs : step e s op = some s') {a : A} (hn : a ∉ s.invulnerables)
    (hm : a ∈ s'.invulnerables) :
    (op = .addInvulnerable a ∨ ∃ new, op = .setInvulnerables new ∧ a ∈ new) ∧ e.registered a = true := by
  have hr : ∀ {s s' : St A} {w : A} {f : Bool}, removeCandidate s w f = some s' → s'.invulnerables = s.invulnerables :=
    fun h => (same_remove h).1
  cases op with
  | setInvulnerables new =>
    simp only [step, setInvulnerables] at hs
    split at hs
    · cases hs
    · split at hs
      · cases hs
      · cases hs
        obtain ⟨h1, h2⟩ := List.mem_filter.1 hm
        exact ⟨.inr ⟨new, rfl, h1⟩, h2⟩
  | setDesired n => cases hs; exact absurd hm hn
  | setBond n =>
    simp only [step, setBond, Option.some.injEq] at hs
    have hk : ∀ (l : List (A × Nat)) (s : St A), (kickAll s l).invulnerables = s.invulnerables := by
      intro l
      induction l with
      | nil => exact fun _ => rfl
      | cons c l ih => exact fun s => ih _
    split at hs
    · subst hs
      have hm : a ∈ (kickAll s _).invulnerables := hm
      rw [hk] at hm; exact absurd hm hn
    · subst hs; exact absurd hm hn
  | addInvulnerable who =>
    simp only [step, addInvulnerable] at hs
    split at hs
    · cases hs
    · rename_i hc
      simp only [Option.some.injEq] at hs
      subst hs
      have hm : a ∈ who :: s.invulnerables := by
        cases h : removeCandidate { s with invulnerables := who :: s.invulnerables } who false with
        | none => rw [h] at hm; exact hm
        | some s1 =>
          rw [h] at hm
          have hm : a ∈ s1.invulnerables := hm
          rw [hr h] at hm; exact hm
      obtain rfl := (List.mem_cons.1 hm).resolve_right hn
      exact ⟨.inl rfl, by simpa using fun h => hc (.inl h)⟩
  | removeInvulnerable who =>
    simp only [step, removeInvulnerable] at hs
    split at hs
    · cases hs
    · cases hs; exact absurd (List.mem_of_mem_erase hm) hn
  | register who =>
    simp only [step, register] at hs
    split at hs
    · cases hs
    · split at hs
      · cases hs
      · cases hs; exact absurd hm hn
  | leave who =>
    simp only [step, leave] at hs
    split at hs
    · cases hs
    · rw [hr hs] at hm; exact absurd hm hn
  | updateBond who n =>
    simp only [step, updateBond] at hs
    split at hs
    · cases hs
    · split at hs
      · cases hs
      · split at hs
        · split at hs
          · cases hs
          · cases hs; exact absurd hm hn
        · split at hs
          · cases hs; exact absurd hm hn
          · cases hs
  | takeSlot who n target =>
    simp only [step, takeSlot] at hs
    split at hs
    · cases hs
    · split at hs
      · cases hs
      · split at hs
        · cases hs
        · split at hs
          · cases hs
          · cases hs; exact absurd hm hn
  | author who => cases hs; exact absurd hm hn
  | block => cases hs; exact absurd hm hn
  | session =>
    cases hs
    have hk : ∀ (l : List A) (s : St A), (l.foldl (kickOne e) s).invulnerables = s.invulnerables := by
      intro l
      induction l with
      | nil => exact fun _ => rfl
      | cons w l ih =>
        intro s
        rw [List.foldl_cons, ih]
        rcases kickOne_cases e s w with h | ⟨f, h, _⟩
        · rw [h]
        · exact hr h
    have hm : a ∈ ((s.candidates.map Prod.fst).foldl (kickOne e) s).invulnerables := hm
    rw [hk] at hm
    exact absurd hm hn

end Verif.Runtime.Collators

namespace Verif.Runtime.Serving

open Collators (period HighBond ClearBond)

variable {A K : Type} [DecidableEq A] [DecidableEq K]

/-! ## C193 -/

/-- With `j * period` up to and without `(j + 1) * period` blocks made, those who serve are the ones chosen when block
`(j - 1) * period` began who had keys before it. -/
theorem serves {hour : Nat} (hh : 0 < hour) {l : List (A × K)} (hl : l.length ≤ 100) {bond : Nat} {bs : List (Blk A K)}
    {s : St A K} (h : run hour l bond bs = some s) {j : Nat} (hj : 2 ≤ j) (h1 : j * period hour ≤ bs.length)
    (h2 : bs.length < (j + 1) * period hour) :
    ∃ b s0, bs[(j - 1) * period hour - 1]? = some b ∧ run hour l bond (bs.take ((j - 1) * period hour - 1)) = some s0 ∧
      Collators.Reach (Collators.genesis (l.map Prod.fst) bond) (hooks hour b s0).coll ∧
      s.sess.validators = (Collators.assemble (hooks hour b s0).coll).filter (fun a => (s0.sess.keys a).isSome) ∧
      (s.sess.validators ≠ [] → s.sess.authorities.length = s.sess.validators.length ∧
        ∀ (i : Nat) (a : A), s.sess.validators[i]? = some a → s.sess.authorities[i]? = s0.sess.keys a) := by
  have hp : 0 < period hour := by unfold period; omega
  obtain ⟨bs', q1, q2, q3⟩ := run_sess bs h
  have hfine : ∀ i b s0, bs[i]? = some b → run hour l bond (bs.take i) = some s0 →
      Collators.Reach (Collators.genesis (l.map Prod.fst) bond) (hooks hour b s0).coll ∧
      (Collators.assemble (hooks hour b s0).coll).length ≤ 1100 := by
    intro i b s0 hb h0
    obtain ⟨s0', s1, r1, r2, _⟩ := run_take bs h hb
    rw [h0] at r1; cases r1
    have := (fine_execute r2 (fine (Nat.le_trans hl (by decide)) _ h0).1).2.1
    exact ⟨this.reach, few_assemble this.few⟩
  obtain ⟨b', s0', t1, t2, t3, t4⟩ := Sessions.C171_term hp q2 hj (by rw [q1]; exact h1) (by rw [q1]; exact h2) (by
    intro b' hb'
    obtain ⟨i, hi⟩ := List.getElem?_of_mem hb'
    obtain ⟨b, s0, r1, r2, r3, _⟩ := q3 i b' hi
    rw [r3]
    exact (hfine i b s0 r1 r2).2)
  obtain ⟨b, s0, r1, r2, r3, r4⟩ := q3 _ b' t1
  rw [t2] at r4
  cases r4
  subst r3
  exact ⟨b, s0, r1, r2, (hfine _ b s0 r1 r2).1, t3, t4⟩

/-- **C193.** Whoever is taken for the author of a block, from the third session on, had session keys when the session before
the last one ended, and was invulnerable then, or a candidate with a bond that fewer candidates exceeded than were desired;
and that bond was reserved. -/
theorem C193_author {hour : Nat} (hh : 0 < hour) {l : List (A × K)} (hl : l.length ≤ 100) {bond : Nat} {bs : List (Blk A K)}
    {b : Blk A K} {s : St A K} (h : run hour l bond (bs ++ [b]) = some s) {a : A} (ha : s.sess.author = some a)
    (hlen : 2 * period hour ≤ bs.length) :
    ∃ b0 s0, bs[(bs.length / period hour - 1) * period hour - 1]? = some b0 ∧
      run hour l bond (bs.take ((bs.length / period hour - 1) * period hour - 1)) = some s0 ∧
      (s0.sess.keys a).isSome ∧ HighBond (hooks hour b0 s0).coll a := by
  have hp : 0 < period hour := by unfold period; omega
  rw [run_append, Option.bind_eq_some_iff] at h
  obtain ⟨sp, hsp, he⟩ := h
  obtain ⟨b0, s0, r1, r2, r3, r4, _⟩ := serves hh hl hsp (j := bs.length / period hour)
    ((Nat.le_div_iff_mul_le hp).2 hlen) (Nat.div_mul_le_self _ _) (by
      have := Nat.lt_div_mul_add (a := bs.length) hp
      rw [Nat.add_mul]; omega)
  refine ⟨b0, s0, r1, r2, ?_⟩
  have e3 := (Sessions.execute_some (execute_sess he)).2.2.1
  rw [ha] at e3
  have hm := List.mem_of_getElem? e3.symm
  rw [r4, List.mem_filter] at hm
  exact ⟨hm.2, Collators.highBond_of rfl r3 hm.1⟩

/-- **C193.** Every invulnerable, and every candidate whose bond no tie or higher bond puts behind the desired number, who has
session keys, serves in the session after the next: they have a turn, with the key they had registered then, in one of every
as many slots as there are authorities. -/
theorem C193_turn {hour : Nat} (hh : 0 < hour) {l : List (A × K)} (hl : l.length ≤ 100) {bond : Nat} {bs : List (Blk A K)}
    {s : St A K} (h : run hour l bond bs = some s) {j : Nat} (hj : 2 ≤ j) (h1 : j * period hour ≤ bs.length)
    (h2 : bs.length < (j + 1) * period hour) {b0 : Blk A K} {s0 : St A K}
    (hb : bs[(j - 1) * period hour - 1]? = some b0)
    (h0 : run hour l bond (bs.take ((j - 1) * period hour - 1)) = some s0) {a : A} {k : K} (hk : s0.sess.keys a = some k)
    (hc : ClearBond (hooks hour b0 s0).coll a) :
    ∃ i, i < s.sess.authorities.length ∧ s.sess.authorities[i]? = some k ∧
      ∀ slot, slot % s.sess.authorities.length = i → Sessions.findAuthor s.sess slot = some a := by
  obtain ⟨b0', s0', r1, r2, r3, r4, r5⟩ := serves hh hl h hj h1 h2
  rw [hb] at r1; cases r1
  rw [h0] at r2; cases r2
  have hm : a ∈ s.sess.validators := by
    rw [r4, List.mem_filter]
    exact ⟨Collators.chosen_of_clear (Collators.inv_reach r3) hc, by rw [hk]; rfl⟩
  obtain ⟨e1, e2⟩ := r5 (List.ne_nil_of_mem hm)
  obtain ⟨i, hi⟩ := List.getElem?_of_mem hm
  have hlt := (List.getElem?_eq_some_iff.1 hi).1
  refine ⟨i, by rw [e1]; exact hlt, by rw [e2 i a hi, hk], ?_⟩
  intro slot hs
  unfold Sessions.findAuthor
  rw [hs, hi]

/-- Somebody who may come to make blocks: invulnerable, or a candidate. Specification only, no code behind it (outside
/repo). -/
def InLine (s : St A K) (a : A) : Prop := a ∈ s.coll.invulnerables ∨ a ∈ s.coll.candidates.map Prod.fst

/-- A transaction that asks for an account to be in line: their own call to become a candidate or to take the place of one,
or the administration's to make them invulnerable. Specification only, no code behind it (outside /repo). -/
def AsksFor (a : A) : Tx A K → Prop
  | .coll _ (.register x) => x = a
  | .coll _ (.takeSlot x _ _) => x = a
  | .coll _ (.addInvulnerable x) => x = a
  | .coll _ (.setInvulnerables new) => a ∈ new
  | _ => False

theorem tx_enters {hour : Nat} {s : St A K} {t : Tx A K} {a : A} (hn : ¬ InLine s a) (hm : InLine (tx hour s t) a) :
    (s.sess.keys a).isSome ∧ AsksFor a t := by
  cases t with
  | keys c => exact absurd hm hn
  | coll can op =>
    unfold tx at hm
    dsimp only at hm
    split at hm
    · cases hs : Collators.step (env hour s can) s.coll op with
      | none => rw [hs] at hm; exact absurd hm hn
      | some c' =>
        rw [hs] at hm
        have hn1 : a ∉ s.coll.invulnerables := fun h => hn (.inl h)
        have hn2 : a ∉ s.coll.candidates.map Prod.fst := fun h => hn (.inr h)
        rcases hm with hm | hm
        · obtain ⟨h1, h2⟩ := Collators.inv_enters hs hn1 hm
          refine ⟨h2, ?_⟩
          rcases h1 with rfl | ⟨new, rfl, h1⟩
          · rfl
          · exact h1
        · obtain ⟨h1, h2, _⟩ := Collators.C158_enters hs a hn2 hm
          refine ⟨h2, ?_⟩
          rcases h1 with rfl | ⟨n, t, rfl⟩ <;> rfl
    · exact absurd hm hn

omit [DecidableEq K] in
theorem hooks_inLine {hour : Nat} {b : Blk A K} {s : St A K} {a : A} (h : InLine (hooks hour b s) a) : InLine s a := by
  have hno : a ∈ (noted b s).invulnerables ∨ a ∈ (noted b s).candidates.map Prod.fst → InLine s a := by
    unfold noted
    split <;> exact id
  unfold InLine at h
  rw [(hooks_eq hour b s).1] at h
  split at h
  · obtain ⟨e, he⟩ : ∃ e : Collators.Env A, e = ⟨fun a => (s.sess.keys a).isSome, fun _ _ => false, hour⟩ := ⟨_, rfl⟩
    rw [← he] at h
    have hk : Collators.step e (noted b s) .session = some (Collators.kickStale e (noted b s)) := rfl
    by_contra hc
    rcases h with h | h
    · obtain ⟨h1 | ⟨_, h1, _⟩, _⟩ := Collators.inv_enters hk (fun h => hc (hno (.inl h))) h <;> cases h1
    · obtain ⟨h1 | ⟨_, _, h1⟩, _⟩ := Collators.C158_enters hk a (fun h => hc (hno (.inr h))) h <;> cases h1
  · exact hno h

theorem txs_enter {hour : Nat} {a : A} (txs : List (Tx A K)) (s : St A K) (hm : InLine (txs.foldl (tx hour) s) a) :
    InLine s a ∨ ∃ before t after, txs = before ++ t :: after ∧ AsksFor a t ∧
      ((before.foldl (tx hour) s).sess.keys a).isSome := by
  induction txs using List.reverseRecOn with
  | nil => exact .inl hm
  | append_singleton txs t ih =>
    rw [List.foldl_append, List.foldl_cons, List.foldl_nil] at hm
    by_cases hc : InLine (txs.foldl (tx hour) s) a
    · rcases ih hc with h | ⟨before, t', after, h1, h2⟩
      · exact .inl h
      · exact .inr ⟨before, t', after ++ [t], by rw [h1]; simp, h2⟩
    · obtain ⟨h1, h2⟩ := tx_enters hc hm
      exact .inr ⟨txs, t, [], rfl, h2, h1⟩

/-- **C193.** Nobody is invulnerable or a candidate who was not a collator from the start, or was put in line by a transaction
of some block, their own or the administration's, at a moment when they had session keys. -/
theorem C193_in_line {hour : Nat} {l : List (A × K)} {bond : Nat} {bs : List (Blk A K)} {s : St A K}
    (h : run hour l bond bs = some s) {a : A} (ha : InLine s a) :
    a ∈ l.map Prod.fst ∨ ∃ k b s0 before t after, bs[k]? = some b ∧ run hour l bond (bs.take k) = some s0 ∧
      b.txs = before ++ t :: after ∧ AsksFor a t ∧ ((before.foldl (tx hour) (hooks hour b s0)).sess.keys a).isSome := by
  induction bs using List.reverseRecOn generalizing s with
  | nil =>
    simp only [run, List.foldl_nil, Option.some.injEq] at h
    subst h
    exact .inl (ha.resolve_right (fun h => by cases h))
  | append_singleton bs x ih =>
    rw [run_append, Option.bind_eq_some_iff] at h
    obtain ⟨sp, hp, he⟩ := h
    unfold execute at he
    obtain ⟨_, h2⟩ := Option.ite_none_right_eq_some.1 he
    simp only [Option.some.injEq] at h2
    subst h2
    rcases txs_enter x.txs (hooks hour x sp) ha with h | ⟨before, t, after, h1, h2⟩
    · rcases ih hp (hooks_inLine h) with h | ⟨k, b, s0, q⟩
      · exact .inl h
      · obtain ⟨before, t, after, q1, q2, q3⟩ := q
        have := (List.getElem?_eq_some_iff.1 q1).1
        exact .inr ⟨k, b, s0, before, t, after, Sessions.get_pre q1,
          by rw [List.take_append_of_le_length (by omega)]; exact q2, q3⟩
    · exact .inr ⟨bs.length, x, sp, before, t, after, by simp, by simpa using hp, h1, h2⟩

/-! ## C194 -/

/-- A transaction after which a candidate with bond `d` may be without their place: they leave or change their bond, the least
bond becomes higher than theirs, they are made invulnerable, or somebody offers more for their very place. Specification only,
no code behind it (outside /repo). -/
def Displaces (a : A) (d : Nat) : Tx A K → Prop
  | .coll _ (.leave x) => x = a
  | .coll _ (.updateBond x _) => x = a
  | .coll _ (.setBond n) => d < n
  | .coll _ (.addInvulnerable x) => x = a
  | .coll _ (.takeSlot _ n x) => x = a ∧ d < n
  | _ => False

/-- **C194.** For idleness nobody loses their place but when a session ends: the start of any other block drops nobody, and a
candidate that the transactions of a block displace has left, changed the bond, been outbid or been made invulnerable by one
of them. -/
theorem C194_calls_partial {hour : Nat} {l : List (A × K)} (hl : l.length ≤ 100) {bond : Nat} {bs : List (Blk A K)}
    {s s' : St A K} (h : run hour l bond bs = some s) {b : Blk A K} (he : execute hour s b = some s') {a : A} {d : Nat} :
    ((a, d) ∈ s.coll.candidates → (bs.length + 1) % period hour ≠ 0 → (a, d) ∈ (hooks hour b s).coll.candidates) ∧
    ((a, d) ∈ (hooks hour b s).coll.candidates → (a, d) ∉ s'.coll.candidates → ∃ t ∈ b.txs, Displaces a d t) := by
  have hf := fine (Nat.le_trans hl (by decide)) _ h
  constructor
  · intro hm hp
    rw [(hooks_eq hour b s).1, hf.2, if_neg hp]
    unfold noted
    split <;> exact hm
  · intro hm hd
    have hr := (fine_execute he hf.1).2.1.reach
    unfold execute at he
    obtain ⟨_, h2⟩ := Option.ite_none_right_eq_some.1 he
    simp only [Option.some.injEq] at h2
    subst h2
    have hd : (a, d) ∉ (b.txs.foldl (tx hour) (hooks hour b s)).coll.candidates := hd
    generalize hooks hour b s = t at hm hd hr
    generalize b.txs = txs at hd
    induction txs generalizing t with
    | nil => exact absurd hm hd
    | cons x txs ih =>
      rw [List.foldl_cons] at hd
      have key : (tx hour t x).coll = t.coll ∨ ∃ can op, x = .coll can op ∧ isCall op = true ∧
          Collators.step (env hour t can) t.coll op = some (tx hour t x).coll := by
        cases x with
        | keys c => exact .inl rfl
        | coll can op =>
          simp only [tx]
          split
          · rename_i hc
            cases hs : Collators.step (env hour t can) t.coll op with
            | none => exact .inl rfl
            | some c' => exact .inr ⟨can, op, rfl, hc, hs⟩
          · exact .inl rfl
      have next : (a, d) ∈ (tx hour t x).coll.candidates →
          Collators.Reach (Collators.genesis (l.map Prod.fst) bond) (tx hour t x).coll →
          ∃ t ∈ x :: txs, Displaces a d t := by
        intro h1 h2
        obtain ⟨y, hy, hY⟩ := ih _ h1 h2 hd
        exact ⟨y, List.mem_cons_of_mem _ hy, hY⟩
      rcases key with h1 | ⟨can, op, rfl, hc, hs⟩
      · exact next (h1 ▸ hm) (h1 ▸ hr)
      · have hit : Displaces (K := K) a d (.coll can op) → ∃ t ∈ Tx.coll can op :: txs, Displaces a d t :=
          fun h => ⟨_, List.mem_cons_self, h⟩
        rcases Collators.C158_kept hr hs a d hm with h1 | rfl | ⟨n, rfl⟩ | ⟨n, rfl, h1⟩ | rfl | ⟨w, n, rfl, h1⟩ | ⟨rfl, _⟩
        · exact next h1 (.step hr hs)
        · exact hit rfl
        · exact hit rfl
        · exact hit h1
        · exact hit rfl
        · exact hit ⟨rfl, h1⟩
        · cases hc

/-- As far as a candidate is concerned, nothing lowers the record of their last block below a number that is not in the
future. -/
theorem mark_step {k : Nat} {a : A} (e : Collators.Env A) (op : Collators.Op A) (c c' : Collators.St A)
    (hb : op ≠ .block)
    (hc : Collators.Inv c ∧ k ≤ c.now ∧ (a ∈ c.candidates.map Prod.fst → k ≤ c.last a))
    (hs : Collators.step e c op = some c') :
    Collators.Inv c' ∧ k ≤ c'.now ∧ (a ∈ c'.candidates.map Prod.fst → k ≤ c'.last a) := by
  refine ⟨Collators.inv_step hc.1 hs, by rw [Collators.now_step hs hb]; exact hc.2.1, ?_⟩
  intro hm
  rcases Collators.last_step hc.1 hs hm with ⟨h1, h2⟩ | h | ⟨_, h⟩
  · rw [h2]; exact hc.2.2 h1
  · rw [h]; have := hc.2.1; omega
  · rw [h]; exact hc.2.1

omit [DecidableEq K] in
theorem noted_author {b : Blk A K} {s : St A K} {a : A} (h : Sessions.findAuthor s.sess b.slot = some a) :
    (noted b s).last a = s.coll.now + 1 := by
  unfold noted
  rw [h]
  exact if_pos rfl

omit [DecidableEq K] in
theorem noted_same (b : Blk A K) (s : St A K) : (noted b s).candidates = s.coll.candidates ∧
    (noted b s).invulnerables = s.coll.invulnerables ∧
    ∀ a, Sessions.findAuthor s.sess b.slot ≠ some a → (noted b s).last a = s.coll.last a := by
  unfold noted
  split
  · rename_i x hx
    refine ⟨rfl, rfl, fun a ha => ?_⟩
    exact if_neg (by rintro rfl; exact ha hx)
  · exact ⟨rfl, rfl, fun _ _ => rfl⟩

/-- What holds of pallet_collator_selection after one block and is kept by every later one, holds at the end. -/
theorem later {hour : Nat} {l : List (A × K)} {bond : Nat} {k : Nat} {P : Nat → Collators.St A → Prop}
    (bs : List (Blk A K)) : ∀ {s : St A K}, run hour l bond bs = some s → k ≤ bs.length →
    (∀ sk, run hour l bond (bs.take k) = some sk → P k sk.coll) →
    (∀ n b s0 s1, k ≤ n → bs[n]? = some b → run hour l bond (bs.take n) = some s0 → execute hour s0 b = some s1 →
      P n s0.coll → P (n + 1) s1.coll) → P bs.length s.coll := by
  induction bs using List.reverseRecOn with
  | nil =>
    intro s h hk h0 _
    have : k = 0 := by simpa using hk
    subst this
    exact h0 s h
  | append_singleton bs x ih =>
    intro s h hk h0 hs
    by_cases hc : k = (bs ++ [x]).length
    · have := h0 s (by rw [hc, List.take_length]; exact h)
      rw [hc] at this; exact this
    · have h' := h
      rw [run_append, Option.bind_eq_some_iff] at h
      obtain ⟨sp, hp, he⟩ := h
      rw [List.length_append, List.length_singleton] at hk hc ⊢
      have hk' : k ≤ bs.length := by omega
      refine hs bs.length x sp s hk' (by simp) (by simpa using hp) he ?_
      refine ih hp hk' ?_ ?_
      · intro sk hsk
        exact h0 sk (by rw [List.take_append_of_le_length hk']; exact hsk)
      · intro n b s0 s1 hn hb hr hx
        have hlt := (List.getElem?_eq_some_iff.1 hb).1
        exact hs n b s0 s1 hn (Sessions.get_pre hb) (by rw [List.take_append_of_le_length (by omega)]; exact hr) hx

/-- A candidate that the start of a block drops, and who was not invulnerable, has their last block at least six hours
back. -/
theorem dropped {hour : Nat} {b : Blk A K} {s : St A K} {a : A} {d : Nat} (hm : (a, d) ∈ s.coll.candidates)
    (hi : a ∉ s.coll.invulnerables) (hd : (a, d) ∉ (hooks hour b s).coll.candidates) :
    (s.sess.number + 1) % period hour = 0 ∧ period hour ≤ s.coll.now + 1 - (noted b s).last a := by
  rw [(hooks_eq hour b s).1] at hd
  obtain ⟨n1, n2, _⟩ := noted_same b s
  split at hd
  · rename_i hp
    refine ⟨hp, ?_⟩
    have h1 := Collators.kept_session ⟨fun a => (s.sess.keys a).isSome, fun _ _ => false, hour⟩
      ((noted b s).candidates.map Prod.fst) (noted b s) (by rw [n1]; exact hm)
    rcases h1 with h1 | h1 | h1
    · exact absurd h1 hd
    · rw [n2] at h1; exact absurd h1 hi
    · rw [noted_now] at h1; exact h1
  · rw [n1] at hd; exact absurd hm hd

/-- **C194.** Who has made a block within the last six hours does not lose their place as a candidate when a session ends:
`a` is the author of block `k`, and the block after `bs` comes less than six hours after it. -/
theorem C194_active_partial {hour : Nat} {l : List (A × K)} (hl : l.length ≤ 100) {bond : Nat} {bs : List (Blk A K)}
    {s s' : St A K} (h : run hour l bond bs = some s) {b : Blk A K} (he : execute hour s b = some s')
    {k : Nat} (hk : 1 ≤ k) (hkn : k ≤ bs.length) {sk : St A K} (hsk : run hour l bond (bs.take k) = some sk) {a : A}
    (ha : sk.sess.author = some a) (hn : bs.length + 1 < k + 6 * hour) {d : Nat} (hm : (a, d) ∈ s.coll.candidates)
    (hi : a ∉ s.coll.invulnerables) : (a, d) ∈ (hooks hour b s).coll.candidates := by
  have hl' : l.length ≤ Collators.maxInvulnerables := Nat.le_trans hl (by decide)
  have hp : period hour = 6 * hour := rfl
  rw [← hp] at hn
  by_contra hd
  obtain ⟨_, hper⟩ := dropped hm hi hd
  have key : Collators.Inv s.coll ∧ k ≤ s.coll.now ∧ (a ∈ s.coll.candidates.map Prod.fst → k ≤ s.coll.last a) := by
    refine later (k := k) (P := fun _ c => Collators.Inv c ∧ k ≤ c.now ∧ (a ∈ c.candidates.map Prod.fst → k ≤ c.last a))
      bs h hkn ?_ ?_
    · intro sk' hsk'
      rw [hsk] at hsk'; cases hsk'
      obtain ⟨b1, hb1⟩ : ∃ b1, bs[k - 1]? = some b1 := ⟨bs[k - 1], List.getElem?_eq_getElem (by omega)⟩
      obtain ⟨s0, s1, r1, r2, r3⟩ := run_take bs h hb1
      rw [show k - 1 + 1 = k by omega, hsk] at r3
      cases r3
      obtain ⟨f1, f2⟩ := fine hl' _ r1
      rw [List.length_take, Nat.min_eq_left (by omega)] at f1 f2
      have e3 := (Sessions.execute_some (execute_sess r2)).2.2.1
      rw [ha] at e3
      have hN := (fine_execute r2 f1).1
      refine (execute_coll r2 (fun e op c c' _ hb _ hc hs => mark_step e op c c' hb hc hs) ?_).2
      refine ⟨Collators.inv_reach hN.reach, by rw [hN.now]; omega, fun _ => ?_⟩
      rw [noted_author e3.symm, f1.now]; omega
    · intro n b1 s0 s1 hkn' hb1 hr hx hP
      obtain ⟨f1, _⟩ := fine hl' _ hr
      have hlt := (List.getElem?_eq_some_iff.1 hb1).1
      rw [List.length_take, Nat.min_eq_left (by omega)] at f1
      have hN := (fine_execute hx f1).1
      refine (execute_coll hx (fun e op c c' _ hb _ hc hs => mark_step e op c c' hb hc hs) ?_).2
      refine ⟨Collators.inv_reach hN.reach, by rw [hN.now]; omega, fun hc => ?_⟩
      obtain ⟨n1, n2, n3⟩ := noted_same b1 s0
      rw [n1] at hc
      by_cases hau : Sessions.findAuthor s0.sess b1.slot = some a
      · rw [noted_author hau, f1.now]; omega
      · rw [n3 a hau]; exact hP.2.2 hc
  have hlast : k ≤ (noted b s).last a := by
    by_cases hau : Sessions.findAuthor s.sess b.slot = some a
    · rw [noted_author hau]; omega
    · rw [(noted_same b s).2.2 a hau]; exact key.2.2 (List.mem_map.2 ⟨_, hm, rfl⟩)
  rw [(fine hl' _ h).1.now] at hper
  omega

/-- **C194.** Who became a candidate in block `t`, stayed one, and made no block since, is not dropped for that before twelve
hours have passed. -/
theorem C194_grace_partial {hour : Nat} {l : List (A × K)} (hl : l.length ≤ 100) {bond : Nat} {bs : List (Blk A K)}
    {s s' : St A K} (h : run hour l bond bs = some s) {b : Blk A K} (he : execute hour s b = some s') {t : Nat}
    (ht : 1 ≤ t) (htn : t ≤ bs.length) {a : A}
    (hbefore : ∀ st, run hour l bond (bs.take (t - 1)) = some st → a ∉ st.coll.candidates.map Prod.fst)
    (hidle : ∀ k sk, t < k → k ≤ bs.length → run hour l bond (bs.take k) = some sk → sk.sess.author ≠ some a)
    (hnow : s'.sess.author ≠ some a) {d : Nat} (hm : (a, d) ∈ s.coll.candidates) (hi : a ∉ s.coll.invulnerables)
    (hd : (a, d) ∉ (hooks hour b s).coll.candidates) :
    (bs.length + 1) % (6 * hour) = 0 ∧ t + 12 * hour ≤ bs.length + 1 := by
  have hp : period hour = 6 * hour := rfl
  rw [← hp, show t + 12 * hour = t + 2 * period hour by omega]
  have hl' : l.length ≤ Collators.maxInvulnerables := Nat.le_trans hl (by decide)
  obtain ⟨hend, hper⟩ := dropped hm hi hd
  have hfs := fine hl' _ h
  rw [hfs.2] at hend
  refine ⟨hend, ?_⟩
  have hstep : ∀ (e : Collators.Env A) op c c', e.hour = hour → op ≠ .block → (∀ x, op ≠ .author x) →
      (Collators.Inv c ∧ t ≤ c.now ∧ (a ∈ c.candidates.map Prod.fst → t + period hour ≤ c.last a)) →
      Collators.step e c op = some c' →
      Collators.Inv c' ∧ t ≤ c'.now ∧ (a ∈ c'.candidates.map Prod.fst → t + period hour ≤ c'.last a) := by
    intro e op c c' hh hb hau hc hs
    refine ⟨Collators.inv_step hc.1 hs, by rw [Collators.now_step hs hb]; exact hc.2.1, ?_⟩
    intro hm
    rcases Collators.last_step hc.1 hs hm with ⟨h1, h2⟩ | h | ⟨h1, _⟩
    · rw [h2]; exact hc.2.2 h1
    · rw [h, hh]; have := hc.2.1; omega
    · exact absurd h1 (hau a)
  have key : Collators.Inv s.coll ∧ t ≤ s.coll.now ∧ (a ∈ s.coll.candidates.map Prod.fst → t + period hour ≤ s.coll.last a) := by
    refine later (k := t) (P := fun _ c => Collators.Inv c ∧ t ≤ c.now ∧
      (a ∈ c.candidates.map Prod.fst → t + period hour ≤ c.last a)) bs h htn ?_ ?_
    · intro sk hsk
      obtain ⟨b1, hb1⟩ : ∃ b1, bs[t - 1]? = some b1 := ⟨bs[t - 1], List.getElem?_eq_getElem (by omega)⟩
      obtain ⟨s0, s1, r1, r2, r3⟩ := run_take bs h hb1
      rw [show t - 1 + 1 = t by omega, hsk] at r3
      cases r3
      obtain ⟨f1, f2⟩ := fine hl' _ r1
      rw [List.length_take, Nat.min_eq_left (by omega)] at f1 f2
      have hN := (fine_execute r2 f1).1
      refine (execute_coll r2 hstep ?_).2
      refine ⟨Collators.inv_reach hN.reach, by rw [hN.now]; omega, fun hc => ?_⟩
      rw [(noted_same b1 s0).1] at hc
      exact absurd hc (hbefore s0 r1)
    · intro n b1 s0 s1 hkn' hb1 hr hx hP
      obtain ⟨f1, _⟩ := fine hl' _ hr
      have hlt := (List.getElem?_eq_some_iff.1 hb1).1
      rw [List.length_take, Nat.min_eq_left (by omega)] at f1
      have hN := (fine_execute hx f1).1
      obtain ⟨_, s2, _, r2, r3⟩ := run_take bs h hb1
      refine (execute_coll hx hstep ?_).2
      refine ⟨Collators.inv_reach hN.reach, by rw [hN.now]; omega, fun hc => ?_⟩
      obtain ⟨n1, n2, n3⟩ := noted_same b1 s0
      rw [n1] at hc
      have hau : Sessions.findAuthor s0.sess b1.slot ≠ some a := by
        obtain ⟨s0', s1', g1, g2, g3⟩ := run_take bs h hb1
        rw [hr] at g1; cases g1
        rw [hx] at g2; cases g2
        have := hidle (n + 1) s1 (by omega) (by omega) g3
        rwa [(Sessions.execute_some (execute_sess hx)).2.2.1] at this
      rw [n3 a hau]; exact hP.2.2 hc
  have hau : Sessions.findAuthor s.sess b.slot ≠ some a := by
    rwa [(Sessions.execute_some (execute_sess he)).2.2.1] at hnow
  rw [(noted_same b s).2.2 a hau, hfs.1.now] at hper
  have := key.2.2 (List.mem_map.2 ⟨_, hm, rfl⟩)
  omega

/-- **C194.** Who became a candidate in a block in which no session ended, stayed one, and made no block until they were
dropped, could have made blocks for a whole session before, if they were chosen at the first opportunity: they served, from
the end of the second session after becoming a candidate to the end of the third, and were dropped no sooner than that. -/
theorem C194_chance_partial {hour : Nat} (hh : 0 < hour) {l : List (A × K)} (hl : l.length ≤ 100) {bond : Nat}
    {bs : List (Blk A K)} {s s' : St A K} (h : run hour l bond bs = some s) {b : Blk A K} (he : execute hour s b = some s')
    {t : Nat} (htn : t ≤ bs.length) (hmid : t % period hour ≠ 0) {a : A}
    (hbefore : ∀ st, run hour l bond (bs.take (t - 1)) = some st → a ∉ st.coll.candidates.map Prod.fst)
    (hidle : ∀ k sk, t < k → k ≤ bs.length → run hour l bond (bs.take k) = some sk → sk.sess.author ≠ some a)
    (hnow : s'.sess.author ≠ some a) {d : Nat} (hm : (a, d) ∈ s.coll.candidates) (hi : a ∉ s.coll.invulnerables)
    (hd : (a, d) ∉ (hooks hour b s).coll.candidates)
    {b0 : Blk A K} {s0 : St A K} (hb0 : bs[(t / period hour + 1) * period hour - 1]? = some b0)
    (hs0 : run hour l bond (bs.take ((t / period hour + 1) * period hour - 1)) = some s0)
    (hkeys : (s0.sess.keys a).isSome) (hc : ClearBond (hooks hour b0 s0).coll a) :
    (t / period hour + 3) * period hour ≤ bs.length + 1 ∧
    ∀ m sm, (t / period hour + 2) * period hour ≤ m → m < (t / period hour + 3) * period hour →
      run hour l bond (bs.take m) = some sm → a ∈ sm.sess.validators := by
  have hp : 0 < period hour := by unfold period; omega
  have ht : 1 ≤ t := by
    rcases Nat.eq_zero_or_pos t with h0 | h0
    · subst h0; simp at hmid
    · exact h0
  obtain ⟨g1, g2⟩ := C194_grace_partial hl h he ht htn hbefore hidle hnow hm hi hd
  rw [show 6 * hour = period hour from rfl] at g1
  rw [show t + 12 * hour = t + 2 * period hour by unfold period; omega] at g2
  have hdm := Nat.div_add_mod t (period hour)
  have hlate : (t / period hour + 3) * period hour ≤ bs.length + 1 := by
    obtain ⟨q, hq⟩ := Nat.dvd_of_mod_eq_zero g1
    rw [hq] at g2 ⊢
    rw [Nat.mul_comm]
    apply Nat.mul_le_mul_left
    by_contra hlt
    have h2 : q ≤ t / period hour + 2 := by omega
    have h3 := Nat.mul_le_mul_left (period hour) h2
    rw [Nat.mul_add] at h3
    omega
  refine ⟨hlate, ?_⟩
  intro m sm hm1 hm2 hsm
  clear hdm g2 g1 hmid
  generalize t / period hour = q at *
  have hml : m ≤ bs.length := by omega
  have hlen : (bs.take m).length = m := by rw [List.length_take, Nat.min_eq_left hml]
  have hle : (q + 1) * period hour ≤ m := Nat.le_trans (Nat.mul_le_mul_right _ (by omega)) hm1
  have hpos : 1 ≤ (q + 1) * period hour := Nat.mul_pos (by omega) hp
  obtain ⟨b0', s0', r1, r2, r3, r4, r5⟩ := serves hh hl hsm (j := q + 2) (by omega)
    (by rw [hlen]; exact hm1) (by rw [hlen]; exact hm2)
  rw [show q + 2 - 1 = q + 1 by omega] at r1 r2
  rw [List.getElem?_take_of_lt (by omega), hb0] at r1
  cases r1
  rw [List.take_take, Nat.min_eq_left (by omega), hs0] at r2
  cases r2
  rw [r4, List.mem_filter]
  exact ⟨Collators.chosen_of_clear (Collators.inv_reach r3) hc, hkeys⟩

/-! ### False of the runtime -/

/-- Collators with keys at genesis: 1 and 2. Example (outside /repo). -/
def two : List (Nat × Nat) := [(1, 10), (2, 20)]

/-- Blocks sealed in turn by 1 and 2. Example (outside /repo). -/
def plain (n : Nat) : Blk Nat Nat := ⟨n, if n % 2 = 0 then 10 else 20, []⟩

/-- With an hour of one block, so that sessions have six: five candidates are wanted, 3 registers keys in block 1, and
becomes a candidate in block `t`. Example (outside /repo). -/
def joining (t n : Nat) : Blk Nat Nat :=
  { plain n with txs :=
      (if n = 1 then [.keys (.setKeys 3 30), .coll (fun _ _ => true) (.setDesired 5)] else []) ++
      if n = t then [.coll (fun _ _ => true) (.register 3)] else [] }

/-- **C194**, false of the runtime: `KickThreshold` is one session, and a candidate begins with a record of one session
ahead. Who registers in a block in which a session ends, and is chosen when the next one ends, is dropped when the one after
ends, twelve hours later, in the very block in which they begin to serve. -/
theorem C194_no_chance_fails : ∃ (bs : List (Blk Nat Nat)) (b : Blk Nat Nat) (s s' : St Nat Nat),
    run 1 two 7 bs = some s ∧ execute 1 s b = some s' ∧ (3, 7) ∈ s.coll.candidates ∧ 3 ∉ s.coll.invulnerables ∧
    (3, 7) ∉ (hooks 1 b s).coll.candidates ∧ 3 ∈ s'.sess.validators ∧
    (∀ k ≤ bs.length, ∀ sk, run 1 two 7 (bs.take k) = some sk → 3 ∉ sk.sess.validators) := by
  have h1 : (run 1 two 7 ((List.range' 1 17).map (joining 6))).isSome := by decide +kernel
  obtain ⟨s, hs⟩ := Option.isSome_iff_exists.1 h1
  have h2 : ((run 1 two 7 ((List.range' 1 17).map (joining 6))).bind fun s => execute 1 s (joining 6 18)).isSome := by
    decide +kernel
  rw [hs] at h2
  obtain ⟨s', hs'⟩ := Option.isSome_iff_exists.1 h2
  have hs' : execute 1 s (joining 6 18) = some s' := hs'
  have h3 : (run 1 two 7 ((List.range' 1 17).map (joining 6))).all (fun s => decide ((3, 7) ∈ s.coll.candidates ∧
      3 ∉ s.coll.invulnerables ∧ (3, 7) ∉ (hooks 1 (joining 6 18) s).coll.candidates)) := by decide +kernel
  rw [hs] at h3
  simp only [Option.all_some, decide_eq_true_eq] at h3
  have h4 : ((run 1 two 7 ((List.range' 1 17).map (joining 6))).bind fun s => execute 1 s (joining 6 18)).all
      (fun s => decide (3 ∈ s.sess.validators)) := by decide +kernel
  rw [hs, Option.bind_some, hs'] at h4
  have h5 : ∀ k ≤ 17, (run 1 two 7 (((List.range' 1 17).map (joining 6)).take k)).all
      (fun s => decide (3 ∉ s.sess.validators)) := by decide +kernel
  refine ⟨_, _, s, s', hs, hs', h3.1, h3.2.1, h3.2.2, by simpa using h4, ?_⟩
  intro k hk sk hsk
  have := h5 k (by simpa using hk)
  rw [hsk] at this
  simpa using this

/-- **C194**, false of the runtime: a candidate who is never chosen, because fewer are wanted, is dropped all the same, as
idle. Nobody is wanted here, and 3 registers in the middle of a session. -/
theorem C194_unwanted_fails : ∃ (bs : List (Blk Nat Nat)) (b : Blk Nat Nat) (s : St Nat Nat),
    run 1 two 7 bs = some s ∧ (execute 1 s b).isSome ∧ (3, 7) ∈ s.coll.candidates ∧ 3 ∉ s.coll.invulnerables ∧
    (3, 7) ∉ (hooks 1 b s).coll.candidates ∧
    (∀ k ≤ bs.length, ∀ sk, run 1 two 7 (bs.take k) = some sk → sk.coll.desired = 0 ∧ 3 ∉ sk.sess.validators) := by
  have hx : ∀ f : Nat → Blk Nat Nat, f = (fun n => { plain n with txs :=
      (if n = 3 then [.keys (.setKeys 3 30), .coll (fun _ _ => true) (.register 3)] else []) }) →
      (run 1 two 7 ((List.range' 1 17).map f)).any (fun s => decide ((execute 1 s (f 18)).isSome ∧
        (3, 7) ∈ s.coll.candidates ∧ 3 ∉ s.coll.invulnerables ∧ (3, 7) ∉ (hooks 1 (f 18) s).coll.candidates)) ∧
      ∀ k ≤ 17, (run 1 two 7 (((List.range' 1 17).map f).take k)).all
        (fun s => decide (s.coll.desired = 0 ∧ 3 ∉ s.sess.validators)) := by
    rintro f rfl
    constructor <;> decide +kernel
  obtain ⟨h1, h2⟩ := hx _ rfl
  rw [Option.any_eq_true] at h1
  obtain ⟨s, hs, h1⟩ := h1
  simp only [decide_eq_true_eq] at h1
  refine ⟨_, _, s, hs, h1.1, h1.2.1, h1.2.2.1, h1.2.2.2, ?_⟩
  intro k hk sk hsk
  have := h2 k (by simpa using hk)
  rw [hsk] at this
  simpa using this

/-! ### Examples -/

-- C193: 3 is chosen in block 6 (registered in block 3), serves from block 12 on, and makes blocks
example : (run 1 two 7 ((List.range' 1 12).map (joining 3))).any
    fun s => decide (s.sess.validators = [1, 2, 3] ∧ s.sess.authorities = [10, 20, 30]) := by decide +kernel
example : (run 1 two 7 ((List.range' 1 12).map (joining 3) ++ [⟨14, 30, []⟩])).any
    fun s => decide (s.sess.author = some 3 ∧ s.coll.last 3 = 13) := by decide +kernel
-- C193: 3 is in line after block 3, and was not before
example : (run 1 two 7 ((List.range' 1 3).map (joining 3))).any
    fun s => decide (3 ∈ s.coll.candidates.map Prod.fst ∧ 3 ∉ two.map Prod.fst) := by decide +kernel
-- C193: who has no keys is not put in line by asking
example : (run 1 two 7 ([plain 1, { plain 2 with txs :=
      [.coll (fun _ _ => true) (.register 4), .coll (fun _ _ => true) (.setInvulnerables [1, 4])] }])).any
    fun s => decide (s.coll.candidates = [] ∧ s.coll.invulnerables = [1]) := by decide +kernel
-- C194: 3 leaves in block 4
example : (run 1 two 7 ((List.range' 1 3).map (joining 3))).any fun s =>
    decide ((3, 7) ∈ (hooks 1 (plain 4) s).coll.candidates) &&
    (execute 1 s { plain 4 with txs := [.coll (fun _ _ => true) (.leave 3)] }).any
      fun s' => decide ((3, 7) ∉ s'.coll.candidates) := by decide +kernel
-- C194: who made block 13 is kept at the end of the session, block 18, and dropped at the next, block 24
example : (run 1 two 7 ((List.range' 1 12).map (joining 3) ++ [⟨14, 30, []⟩] ++
      (List.range' 15 5).map fun n => ⟨n, if n % 3 = 0 then 10 else if n % 3 = 1 then 20 else 30, []⟩)).any
    fun s => decide (s.coll.candidates = [(3, 7)] ∧ s.sess.number = 18) := by decide +kernel
-- C194: who lets all their turns pass is dropped at the end of the session they served in, block 18
example : (run 1 two 7 ((List.range' 1 12).map (joining 3) ++
      [⟨15, 10, []⟩, ⟨16, 20, []⟩, ⟨18, 10, []⟩, ⟨19, 20, []⟩, ⟨21, 10, []⟩])).any
    fun s => decide (3 ∈ s.sess.validators ∧ (3, 7) ∈ s.coll.candidates ∧ 3 ∉ s.coll.invulnerables ∧
      (execute 1 s ⟨22, 20, []⟩).isSome ∧ (3, 7) ∉ (hooks 1 ⟨22, 20, []⟩ s).coll.candidates) := by decide +kernel
-- C193, C194: the bond of 3 counts when block 6 begins
example : (run 1 two 7 ((List.range' 1 5).map (joining 3))).any fun s => decide ((s.sess.keys 3).isSome ∧
    (3, 7) ∈ (hooks 1 (joining 3 6) s).coll.candidates ∧
    ((hooks 1 (joining 3 6) s).coll.candidates.filter fun x => decide (7 ≤ x.2)).length ≤
      (hooks 1 (joining 3 6) s).coll.desired) := by decide +kernel

end Verif.Runtime.Serving
