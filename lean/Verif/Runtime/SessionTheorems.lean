import Verif.Runtime.Sessions
import Mathlib.Data.List.Induction
import Mathlib.Algebra.Order.Group.Nat
import Mathlib.Data.Nat.Basic

/-! # Sessions and the authors of blocks: theorems (C170, C171) -/

namespace Verif.Runtime.Sessions

set_option linter.unusedSectionVars false

variable {A K : Type} [DecidableEq A] [DecidableEq K]

theorem run_append (p : Nat) (l : List (A × K)) (bs : List (Blk A K)) (b : Blk A K) :
    run p l (bs ++ [b]) = (run p l bs).bind fun s => execute p s b := by simp [run]

/-- What calls leave alone. Part of the transition system around the code (outside /repo). -/
structure Same (s s' : St A K) : Prop where
  number : s'.number = s.number
  validators : s'.validators = s.validators
  queued : s'.queued = s.queued
  changed : s'.changed = s.changed
  authorities : s'.authorities = s.authorities
  author : s'.author = s.author

theorem same_call (s : St A K) (c : Call A K) : Same s (call s c) := by
  cases c with
  | setKeys who key => simp only [call]; split <;> exact ⟨rfl, rfl, rfl, rfl, rfl, rfl⟩
  | purgeKeys who => simp only [call]; split <;> exact ⟨rfl, rfl, rfl, rfl, rfl, rfl⟩

theorem same_calls (cs : List (Call A K)) : ∀ s : St A K, Same s (cs.foldl call s) := by
  induction cs with
  | nil => exact fun _ => ⟨rfl, rfl, rfl, rfl, rfl, rfl⟩
  | cons c cs ih =>
    intro s
    have h1 := same_call s c
    have h2 := ih (call s c)
    rw [List.foldl_cons]
    exact ⟨h2.1.trans h1.1, h2.2.trans h1.2, h2.3.trans h1.3, h2.4.trans h1.4, h2.5.trans h1.5, h2.6.trans h1.6⟩

theorem execute_some {p : Nat} {s s' : St A K} {b : Blk A K} (h : execute p s b = some s') :
    s.sealers[b.slot % s.authorities.length]? = some b.signer ∧ s'.number = s.number + 1 ∧
    s'.author = s.validators[b.slot % s.authorities.length]? ∧ s'.sealers = s'.authorities ∧
    if (s.number + 1) % p = 0 then
      s'.validators = s.queued.map Prod.fst ∧ s'.queued = withKeys s.keys b.chosen ∧ s'.changed = true ∧
      s'.authorities = onNewSession s.changed s.authorities (s.queued.map Prod.snd)
    else s'.validators = s.validators ∧ s'.queued = s.queued ∧ s'.changed = s.changed ∧ s'.authorities = s.authorities := by
  unfold execute at h
  obtain ⟨h1, h2⟩ := Option.ite_none_right_eq_some.1 h
  simp only [Option.some.injEq] at h2
  subst h2
  refine ⟨h1, ?_⟩
  have hc := same_calls b.calls (order.foldl (init p b) { s with number := s.number + 1 })
  simp only [finalize]
  rw [hc.number, hc.validators, hc.queued, hc.changed, hc.authorities, hc.author]
  simp only [order, List.foldl_cons, List.foldl_nil, init, ends]
  by_cases h3 : (s.number + 1) % p = 0
  · simp only [h3, decide_true, if_true]
    simp [rotate, findAuthor]
  · simp only [h3, decide_false, Bool.false_eq_true, if_false]
    simp [findAuthor]

/-- At some moment of the chain the key was the registered key of the account, and of no other. Specification only, no
code behind it (outside /repo). -/
def Registered (p : Nat) (l : List (A × K)) (bs : List (Blk A K)) (a : A) (k : K) : Prop :=
  ∃ pre s, pre <+: bs ∧ run p l pre = some s ∧ s.keys a = some k ∧ ∀ x, s.keys x = some k → x = a

theorem Registered.more {p : Nat} {l : List (A × K)} {bs : List (Blk A K)} {a : A} {k : K} (h : Registered p l bs a k)
    (b : Blk A K) : Registered p l (bs ++ [b]) a k := by
  obtain ⟨pre, s, h1, h2⟩ := h
  exact ⟨pre, s, h1.trans (List.prefix_append _ _), h2⟩

/-- Keys and their owners agree. Part of the transition system around the code (outside /repo). -/
def Owned (s : St A K) : Prop := ∀ a k, s.keys a = some k ↔ s.owner k = some a

theorem owned_call {s : St A K} (h : Owned s) (c : Call A K) : Owned (call s c) := by
  cases c with
  | setKeys who key =>
    simp only [call]
    split
    · rename_i h1
      intro a k
      simp only [put]
      by_cases h2 : a = who
      · subst h2
        simp only [if_true, Option.some.injEq]
        by_cases h3 : k = key
        · simp [h3]
        · rw [if_neg h3]
          constructor
          · exact fun h4 => absurd h4.symm h3
          · intro h4
            exfalso
            cases h5 : s.keys a with
            | none =>
              rw [h5] at h4
              have := (h a k).2 h4
              rw [h5] at this; exact absurd this (by simp)
            | some old =>
              rw [h5] at h4
              simp only [put] at h4
              split at h4
              · exact absurd h4 (by simp)
              · rename_i h6
                have := (h a k).2 h4
                rw [h5, Option.some.injEq] at this
                exact h6 this.symm
      · rw [if_neg h2]
        by_cases h3 : k = key
        · subst h3
          simp only [if_true, Option.some.injEq]
          constructor
          · intro h4
            have := (h a k).1 h4
            rcases h1 with h1 | h1 <;> rw [h1] at this
            · exact absurd this (by simp)
            · simpa using this
          · exact fun h4 => absurd h4.symm h2
        · rw [if_neg h3]
          cases h5 : s.keys who with
          | none => exact h a k
          | some old =>
            simp only [put]
            split
            · rename_i h6
              subst h6
              constructor
              · intro h7
                have h8 := (h a k).1 h7
                rw [(h who k).1 h5, Option.some.injEq] at h8
                exact absurd h8.symm h2
              · exact fun h7 => absurd h7 (by simp)
            · exact h a k
    · exact h
  | purgeKeys who =>
    simp only [call]
    split
    · rename_i old h1
      intro a k
      simp only [put]
      by_cases h2 : a = who
      · subst h2
        simp only [if_true]
        constructor
        · exact fun h3 => absurd h3 (by simp)
        · intro h3
          split at h3
          · exact absurd h3 (by simp)
          · rename_i h4
            have := (h a k).2 h3
            rw [h1, Option.some.injEq] at this
            exact absurd this.symm h4
      · rw [if_neg h2]
        split
        · rename_i h3
          subst h3
          constructor
          · intro h4
            have h5 := (h a k).1 h4
            rw [(h who k).1 h1, Option.some.injEq] at h5
            exact absurd h5.symm h2
          · exact fun h4 => absurd h4 (by simp)
        · exact h a k
    · exact h

theorem owned_calls (cs : List (Call A K)) : ∀ {s : St A K}, Owned s → Owned (cs.foldl call s) := by
  induction cs with
  | nil => exact fun h => h
  | cons c cs ih => exact fun h => ih (owned_call h c)

theorem owned_execute {p : Nat} {s s' : St A K} {b : Blk A K} (h : Owned s) (he : execute p s b = some s') : Owned s' := by
  unfold execute at he
  obtain ⟨_, h2⟩ := Option.ite_none_right_eq_some.1 he
  simp only [Option.some.injEq] at h2
  subst h2
  have : Owned (order.foldl (init p b) { s with number := s.number + 1 }) := by
    simp only [order, List.foldl_cons, List.foldl_nil, init]
    split <;> exact h
  exact owned_calls b.calls this

theorem lookup_iff {X Y : Type} [DecidableEq X] {l : List (X × Y)} (hn : (l.map Prod.fst).Nodup) (x : X) (y : Y) :
    l.lookup x = some y ↔ (x, y) ∈ l := by
  induction l with
  | nil => simp
  | cons e l ih =>
    obtain ⟨u, v⟩ := e
    simp only [List.map_cons, List.nodup_cons] at hn
    rw [List.lookup_cons]
    by_cases h : x = u
    · subst h
      simp only [beq_self_eq_true, Option.some.injEq, List.mem_cons, Prod.mk.injEq, true_and]
      constructor
      · exact fun h => .inl h.symm
      · rintro (h | h)
        · exact h.symm
        · exact absurd (List.mem_map.2 ⟨_, h, rfl⟩) hn.1
    · rw [show (x == u) = false by simpa using h]
      simp only [List.mem_cons, Prod.mk.injEq, h, false_and, false_or]
      exact ih hn.2

theorem owned_genesis {l : List (A × K)} (h1 : (l.map Prod.fst).Nodup) (h2 : (l.map Prod.snd).Nodup) :
    Owned (genesis l) := by
  intro a k
  simp only [genesis]
  rw [lookup_iff h1, lookup_iff (by simpa [List.map_map, Function.comp_def] using h2)]
  simp [List.mem_map]

/-- What is true of a chain after its blocks. Part of the transition system around the code (outside /repo). -/
structure Good (p : Nat) (l : List (A × K)) (bs : List (Blk A K)) (s : St A K) : Prop where
  number : s.number = bs.length
  sealers : s.sealers = s.authorities
  owned : Owned s
  aligned : ∃ m : List (A × K), s.authorities <+: m.map Prod.snd ∧ s.authorities ≠ [] ∧
    (s.validators = m.map Prod.fst ∨ s.validators = []) ∧ ∀ a k, (a, k) ∈ m → Registered p l bs a k
  queued : ∀ a k, (a, k) ∈ s.queued → Registered p l bs a k
  first : s.changed = false → s.queued = l ∧ s.validators = l.map Prod.fst ∧ s.authorities = l.map Prod.snd

theorem mem_withKeys {keys : A → Option K} {chosen : List A} {a : A} {k : K} (h : (a, k) ∈ withKeys keys chosen) :
    a ∈ chosen ∧ keys a = some k := by
  simp only [withKeys, List.mem_filterMap, Option.map_eq_some_iff, Prod.mk.injEq] at h
  obtain ⟨x, h1, y, h2, rfl, rfl⟩ := h
  exact ⟨h1, h2⟩

theorem good {p : Nat} {l : List (A × K)} (hl : l ≠ []) (h1 : (l.map Prod.fst).Nodup) (h2 : (l.map Prod.snd).Nodup) :
    ∀ (bs : List (Blk A K)) (s : St A K), run p l bs = some s → Good p l bs s := by
  intro bs
  induction bs using List.reverseRecOn with
  | nil =>
    intro s h
    simp only [run, List.foldl_nil, Option.some.injEq] at h
    subst h
    have ho := owned_genesis h1 h2
    have hreg : ∀ a k, (a, k) ∈ l → Registered p l [] a k := by
      intro a k hm
      have hk : (genesis l).keys a = some k := (lookup_iff h1 a k).2 hm
      refine ⟨[], genesis l, List.prefix_refl _, rfl, hk, fun x hx => ?_⟩
      have h3 := (ho x k).1 hx
      rw [(ho a k).1 hk, Option.some.injEq] at h3
      exact h3.symm
    exact ⟨rfl, rfl, ho, ⟨l, List.prefix_refl _, by simpa [genesis] using hl, .inl rfl, hreg⟩, hreg,
      fun _ => ⟨rfl, rfl, rfl⟩⟩
  | append_singleton bs b ih =>
    intro s' h
    rw [run_append, Option.bind_eq_some_iff] at h
    obtain ⟨s, hs, h⟩ := h
    have g := ih s hs
    obtain ⟨e1, e2, e3, e4, e5⟩ := execute_some h
    have hown := owned_execute g.owned h
    split at e5
    · obtain ⟨e6, e7, e8, e9⟩ := e5
      refine ⟨by simp [e2, g.number], e4, hown, ?_, ?_, ?_⟩
      · cases hc : s.changed with
        | false =>
          obtain ⟨m, m1, m2, m3, m4⟩ := g.aligned
          have hf := g.first hc
          rw [hc] at e9
          simp only [onNewSession, Bool.false_eq_true, if_false] at e9
          refine ⟨m, e9 ▸ m1, e9 ▸ m2, ?_, fun a k hm => (m4 a k hm).more b⟩
          rw [e6, hf.1, ← hf.2.1]; exact m3
        | true =>
          rw [hc] at e9
          simp only [onNewSession, if_true] at e9
          split at e9
          · rename_i he
            have hq : s.queued = [] := by
              rw [List.take_eq_nil_iff] at he
              rcases he with he | he
              · exact absurd he (by decide)
              · simpa using he
            obtain ⟨m, m1, m2, _, m4⟩ := g.aligned
            exact ⟨m, e9 ▸ m1, e9 ▸ m2, .inr (by rw [e6, hq]; rfl), fun a k hm => (m4 a k hm).more b⟩
          · rename_i he
            exact ⟨s.queued, e9 ▸ List.take_prefix _ _, e9 ▸ he, .inl e6, fun a k hm => (g.queued a k hm).more b⟩
      · intro a k hm
        rw [e7] at hm
        obtain ⟨_, hk⟩ := mem_withKeys hm
        refine ⟨bs, s, List.prefix_append _ _, hs, hk, fun x hx => ?_⟩
        have h3 := (g.owned x k).1 hx
        rw [(g.owned a k).1 hk, Option.some.injEq] at h3
        exact h3.symm
      · intro h3; rw [e8] at h3; exact absurd h3 (by simp)
    · obtain ⟨e6, e7, e8, e9⟩ := e5
      obtain ⟨m, m1, m2, m3, m4⟩ := g.aligned
      refine ⟨by simp [e2, g.number], e4, hown, ⟨m, e9 ▸ m1, e9 ▸ m2, e6 ▸ m3, fun a k hm => (m4 a k hm).more b⟩, ?_, ?_⟩
      · intro a k hm
        rw [e7] at hm
        exact (g.queued a k hm).more b
      · intro h3
        rw [e7, e6, e9]
        exact g.first (e8 ▸ h3)

/-! ## C170 -/

/-- C170: who is taken for the author of a block is the account whose key sealed it: at some earlier moment that key was
registered for that account and for no other. -/
theorem C170_author {p : Nat} {l : List (A × K)} (hl : l ≠ []) (h1 : (l.map Prod.fst).Nodup)
    (h2 : (l.map Prod.snd).Nodup) {bs : List (Blk A K)} {b : Blk A K} {s : St A K} (h : run p l (bs ++ [b]) = some s)
    {a : A} (ha : s.author = some a) : Registered p l bs a b.signer := by
  rw [run_append, Option.bind_eq_some_iff] at h
  obtain ⟨s0, hs, h⟩ := h
  have g := good hl h1 h2 bs s0 hs
  obtain ⟨e1, _, e3, _, _⟩ := execute_some h
  obtain ⟨m, ⟨t, mt⟩, m2, m3, m4⟩ := g.aligned
  rw [g.sealers] at e1
  rw [e3] at ha
  rcases m3 with m3 | m3
  · have h3 : (m.map Prod.snd)[b.slot % s0.authorities.length]? = some b.signer := by
      rw [← mt, List.getElem?_append_left]
      · exact e1
      · exact (List.getElem?_eq_some_iff.1 e1).1
    rw [m3] at ha
    rw [List.getElem?_map, Option.map_eq_some_iff] at ha h3
    obtain ⟨x, hx, rfl⟩ := ha
    obtain ⟨y, hy, hyk⟩ := h3
    rw [hx, Option.some.injEq] at hy
    subst hy
    rw [← hyk]
    exact m4 x.1 x.2 (List.mem_of_getElem? hx)
  · rw [m3] at ha
    exact absurd ha (by simp)

/-- C170: a block has an author, unless the last session change found nobody. -/
theorem C170_some {p : Nat} {l : List (A × K)} (hl : l ≠ []) (h1 : (l.map Prod.fst).Nodup)
    (h2 : (l.map Prod.snd).Nodup) {bs : List (Blk A K)} {b : Blk A K} {s s' : St A K} (hs : run p l bs = some s)
    (h : execute p s b = some s') : s'.author = none ↔ s.validators = [] := by
  have g := good hl h1 h2 bs s hs
  obtain ⟨e1, _, e3, _, _⟩ := execute_some h
  obtain ⟨m, ⟨t, mt⟩, m2, m3, m4⟩ := g.aligned
  rw [e3]
  constructor
  · intro h3
    rcases m3 with m3 | m3
    · exfalso
      rw [List.getElem?_eq_none_iff, m3, List.length_map] at h3
      have h4 : s.authorities.length ≤ m.length := by
        have := congrArg List.length mt
        simp at this; omega
      have h5 := Nat.mod_lt b.slot (List.length_pos_iff.2 m2)
      omega
    · exact m3
  · intro h3; rw [h3]; simp

/-! ## C171 -/

/-- Where the validators and the queue come from: with `n` blocks, the last change of the session was in block
`n / p * p`. Part of the transition system around the code (outside /repo). -/
structure Terms (p : Nat) (l : List (A × K)) (bs : List (Blk A K)) (s : St A K) : Prop where
  number : s.number = bs.length
  changed : s.changed = decide (p ≤ bs.length)
  early : bs.length < p → s.queued = l
  queue : p ≤ bs.length → ∃ b s0, bs[bs.length / p * p - 1]? = some b ∧
    run p l (bs.take (bs.length / p * p - 1)) = some s0 ∧ s.queued = withKeys s0.keys b.chosen
  start : bs.length < 2 * p → s.validators = l.map Prod.fst ∧ s.authorities = l.map Prod.snd
  term : 2 * p ≤ bs.length → ∃ b s0, bs[(bs.length / p - 1) * p - 1]? = some b ∧
    run p l (bs.take ((bs.length / p - 1) * p - 1)) = some s0 ∧
    s.validators = (withKeys s0.keys b.chosen).map Prod.fst ∧
    (withKeys s0.keys b.chosen ≠ [] → s.authorities = ((withKeys s0.keys b.chosen).map Prod.snd).take maxAuthorities)

theorem get_pre {X : Type} {bs : List X} {x b : X} {i : Nat} (h : bs[i]? = some x) : (bs ++ [b])[i]? = some x := by
  rw [List.getElem?_append_left (List.getElem?_eq_some_iff.1 h).1]; exact h

theorem take_pre {X : Type} {bs : List X} {b : X} {i : Nat} (h : i ≤ bs.length) : (bs ++ [b]).take i = bs.take i := by
  rw [List.take_append_of_le_length h]

theorem terms {p : Nat} (hp : 0 < p) {l : List (A × K)} :
    ∀ (bs : List (Blk A K)) (s : St A K), run p l bs = some s → Terms p l bs s := by
  intro bs
  induction bs using List.reverseRecOn with
  | nil =>
    intro s h
    simp only [run, List.foldl_nil, Option.some.injEq] at h
    subst h
    exact ⟨rfl, by simp [genesis]; omega, fun _ => rfl, by intro h; simp at h; omega, fun _ => ⟨rfl, rfl⟩,
      by intro h; simp at h; omega⟩
  | append_singleton bs b ih =>
    intro s' h
    rw [run_append, Option.bind_eq_some_iff] at h
    obtain ⟨s, hs, h⟩ := h
    have g := ih s hs
    obtain ⟨e1, e2, e3, e4, e5⟩ := execute_some h
    have hlen : (bs ++ [b]).length = bs.length + 1 := by simp
    have hdiv := Nat.succ_div (a := bs.length) (b := p)
    have hmul := Nat.div_mul_le_self bs.length p
    rw [g.number] at e5
    split at e5
    · rename_i hz
      rw [if_pos (Nat.dvd_of_mod_eq_zero hz)] at hdiv
      have hfull : (bs.length + 1) / p * p = bs.length + 1 := Nat.div_mul_cancel (Nat.dvd_of_mod_eq_zero hz)
      obtain ⟨e6, e7, e8, e9⟩ := e5
      have hge : p ≤ bs.length + 1 := Nat.le_of_dvd (by omega) (Nat.dvd_of_mod_eq_zero hz)
      refine ⟨by simp [e2, g.number], by rw [e8, hlen]; simp [hge], by rw [hlen]; omega, ?_, ?_, ?_⟩
      · intro _
        refine ⟨b, s, ?_, ?_, e7⟩
        · rw [hlen, hfull]; simp
        · rw [hlen, hfull, show bs.length + 1 - 1 = bs.length by omega, take_pre (Nat.le_refl _), List.take_length]; exact hs
      · intro h3
        rw [hlen] at h3
        have h4 : bs.length < p := by
          rw [hdiv] at hfull
          by_contra h5
          have h6 : 1 ≤ bs.length / p := (Nat.one_le_div_iff hp).2 (by omega)
          have h7 : (bs.length / p + 1) * p ≥ 2 * p := Nat.mul_le_mul_right _ (by omega)
          omega
        rw [e6, e9, g.early h4, g.changed]
        simp only [onNewSession, show ¬ p ≤ bs.length by omega, decide_false, Bool.false_eq_true, if_false]
        exact ⟨trivial, (g.start (by omega)).2⟩
      · intro h3
        rw [hlen] at h3 ⊢
        have h4 : p ≤ bs.length := by omega
        obtain ⟨b0, s0, q1, q2, q3⟩ := g.queue h4
        rw [hdiv, Nat.add_sub_cancel]
        refine ⟨b0, s0, get_pre q1, by rw [take_pre (by omega)]; exact q2, by rw [e6, q3], ?_⟩
        intro h5
        rw [e9, g.changed, q3]
        simp only [onNewSession, h4, decide_true, if_true]
        rw [if_neg]
        rw [List.take_eq_nil_iff]
        rintro (h6 | h6)
        · exact absurd h6 (by decide)
        · exact h5 (by simpa using h6)
    · rename_i hz
      replace hdiv : (bs.length + 1) / p = bs.length / p := by
        rw [hdiv, if_neg (fun h => hz (Nat.mod_eq_zero_of_dvd h)), Nat.add_zero]
      obtain ⟨e6, e7, e8, e9⟩ := e5
      have hp1 : p ≠ bs.length + 1 := by
        intro h3; apply hz; rw [← h3]; exact Nat.mod_self p
      have hp2 : 2 * p ≠ bs.length + 1 := by
        intro h3; apply hz; rw [← h3]; exact Nat.mul_mod_left 2 p
      refine ⟨by simp [e2, g.number], ?_, ?_, ?_, ?_, ?_⟩
      · rw [e8, hlen, g.changed]
        congr 1
        rw [eq_iff_iff]; omega
      · rw [hlen, e7]; intro h3; exact g.early (by omega)
      · rw [hlen, e7, hdiv]
        intro h3
        obtain ⟨b0, s0, q1, q2, q3⟩ := g.queue (by omega)
        exact ⟨b0, s0, get_pre q1, by rw [take_pre (by omega)]; exact q2, q3⟩
      · rw [hlen, e6, e9]; intro h3; exact g.start (by omega)
      · rw [hlen, e6, e9, hdiv]
        intro h3
        obtain ⟨b0, s0, q1, q2, q3, q4⟩ := g.term (by omega)
        refine ⟨b0, s0, get_pre q1, ?_, q3, q4⟩
        rw [take_pre]
        · exact q2
        · have : (bs.length / p - 1) * p ≤ bs.length / p * p := Nat.mul_le_mul_right _ (Nat.sub_le _ _)
          omega

theorem withKeys_fst (keys : A → Option K) (chosen : List A) :
    (withKeys keys chosen).map Prod.fst = chosen.filter fun a => (keys a).isSome := by
  induction chosen with
  | nil => rfl
  | cons a l ih =>
    simp only [withKeys, List.filterMap_cons, List.filter_cons] at ih ⊢
    cases h : keys a with
    | none => simpa using ih
    | some k => simpa using ih

theorem withKeys_get {keys : A → Option K} {chosen : List A} {i : Nat} {a : A}
    (h : ((withKeys keys chosen).map Prod.fst)[i]? = some a) : ((withKeys keys chosen).map Prod.snd)[i]? = keys a := by
  rw [List.getElem?_map, Option.map_eq_some_iff] at h
  obtain ⟨x, hx, rfl⟩ := h
  rw [List.getElem?_map, hx, (mem_withKeys (a := x.1) (k := x.2) (List.mem_of_getElem? hx)).2]
  rfl

/-- C171: whom collator selection chooses when a session ends serves from the end of the next session on, for one
session. With `j * p` up to and without `(j + 1) * p` blocks made, the validators are those chosen in block `(j - 1) * p`
who had keys before that block, and, if there are any, they take turns with those keys. -/
theorem C171_term {p : Nat} (hp : 0 < p) {l : List (A × K)} {bs : List (Blk A K)} {s : St A K} (h : run p l bs = some s)
    {j : Nat} (hj : 2 ≤ j) (h1 : j * p ≤ bs.length) (h2 : bs.length < (j + 1) * p)
    (hc : ∀ b ∈ bs, b.chosen.length ≤ 1100) :
    ∃ b s0, bs[(j - 1) * p - 1]? = some b ∧ run p l (bs.take ((j - 1) * p - 1)) = some s0 ∧
      s.validators = (b.chosen.filter fun a => (s0.keys a).isSome) ∧
      (s.validators ≠ [] → s.authorities.length = s.validators.length ∧
        ∀ (i : Nat) (a : A), s.validators[i]? = some a → s.authorities[i]? = s0.keys a) := by
  have hdiv : bs.length / p = j := Nat.div_eq_of_lt_le h1 h2
  obtain ⟨b, s0, q1, q2, q3, q4⟩ := (terms hp bs s h).term (by have := Nat.mul_le_mul_right p hj; omega)
  rw [hdiv] at q1 q2
  refine ⟨b, s0, q1, q2, by rw [q3, withKeys_fst], ?_⟩
  intro h3
  rw [q3] at h3 ⊢
  have h4 : s.authorities = (withKeys s0.keys b.chosen).map Prod.snd := by
    rw [q4 (by intro h5; rw [h5] at h3; exact h3 rfl), List.take_of_length_le]
    have h5 := hc b (List.mem_of_getElem? q1)
    have h6 : (withKeys s0.keys b.chosen).length ≤ b.chosen.length := List.length_filterMap_le _ _
    simp only [List.length_map, maxAuthorities]; omega
  rw [h4]
  exact ⟨by simp, fun i a ha => withKeys_get ha⟩

/-- C171: until the second change of the session the collators of genesis serve. -/
theorem C171_first {p : Nat} (hp : 0 < p) {l : List (A × K)} {bs : List (Blk A K)} {s : St A K} (h : run p l bs = some s)
    (h1 : bs.length < 2 * p) : s.validators = l.map Prod.fst ∧ s.authorities = l.map Prod.snd :=
  (terms hp bs s h).start h1

/-- C171: if nobody serves, then those who took turns before go on doing so. -/
theorem C171_nobody {p : Nat} {b : Blk A K} {s s' : St A K}
    (hb : execute p s b = some s') (hn : s'.validators = []) : s'.authorities = s.authorities := by
  obtain ⟨_, _, _, _, e5⟩ := execute_some hb
  split at e5
  · obtain ⟨e6, _, _, e9⟩ := e5
    rw [hn] at e6
    have hq : s.queued = [] := by simpa using e6.symm
    rw [e9, hq]
    simp only [onNewSession, List.map_nil, List.take_nil, if_true]
    split <;> rfl
  · exact e5.2.2.2

/-- C171: a block of a slot is sealed by one authority, and in as many slots in a row as there are authorities, each has
its turn once. -/
theorem C171_turns {p : Nat} {l : List (A × K)} (hl : l ≠ []) (h1 : (l.map Prod.fst).Nodup) (h2 : (l.map Prod.snd).Nodup)
    {bs : List (Blk A K)} {s : St A K} (h : run p l bs = some s) :
    (∀ b, (∃ s', execute p s b = some s') ↔ s.authorities[b.slot % s.authorities.length]? = some b.signer) ∧
    ∀ t i, i < s.authorities.length → ∃ u, (t ≤ u ∧ u < t + s.authorities.length ∧ u % s.authorities.length = i) ∧
      ∀ v, t ≤ v → v < t + s.authorities.length → v % s.authorities.length = i → v = u := by
  have g := good hl h1 h2 bs s h
  constructor
  · intro b
    rw [← g.sealers, show s.sealers.length = s.authorities.length by rw [g.sealers]]
    constructor
    · rintro ⟨s', hb⟩
      exact (execute_some hb).1
    · intro hb
      exact ⟨_, if_pos hb⟩
  · intro t i hi
    generalize s.authorities.length = n at hi
    have hd := Nat.div_add_mod t n
    have hm := Nat.mod_lt t (show 0 < n by omega)
    by_cases hc : t % n ≤ i
    · refine ⟨n * (t / n) + i, ⟨by omega, by omega, by rw [Nat.mul_add_mod, Nat.mod_eq_of_lt hi]⟩, ?_⟩
      intro v hv1 hv2 hv3
      have hv := Nat.div_add_mod v n
      have h5 : v / n = t / n := by
        apply Nat.div_eq_of_lt_le
        · rw [Nat.mul_comm]; omega
        · by_contra h6
          have h7 : (t / n + 1) ≤ v / n := (Nat.le_div_iff_mul_le (by omega)).2 (by omega)
          have h8 : n * (t / n + 1) ≤ n * (v / n) := Nat.mul_le_mul_left _ h7
          rw [Nat.mul_add] at h8
          omega
      rw [h5] at hv; omega
    · refine ⟨n * (t / n + 1) + i, ⟨by rw [Nat.mul_add]; omega, by rw [Nat.mul_add]; omega,
        by rw [Nat.mul_add_mod, Nat.mod_eq_of_lt hi]⟩, ?_⟩
      intro v hv1 hv2 hv3
      have hv := Nat.div_add_mod v n
      have h5 : v / n = t / n + 1 := by
        have h6 : t / n ≤ v / n := Nat.div_le_div_right hv1
        have h7 : v / n ≠ t / n := by
          intro h8; rw [h8] at hv; omega
        have h8 : v / n < t / n + 2 := by
          rw [Nat.div_lt_iff_lt_mul (by omega), Nat.mul_comm, Nat.mul_add]; omega
        omega
      rw [h5] at hv; omega

/-- With three blocks in a session: 1 and 2 start with the keys 10 and 20; 3 registers the key 30 and is chosen with 2 in
block 3; 2 changes its key to 21 in block 4. Nobody is chosen in block 6. Example for non-vacuity (outside /repo). -/
def chain : List (Blk Nat Nat) :=
  [⟨100, 10, [], [.setKeys 3 30, .setKeys 4 10]⟩, ⟨101, 20, [], []⟩, ⟨103, 20, [3, 2, 4], []⟩, ⟨104, 10, [], [.setKeys 2 21]⟩,
   ⟨105, 20, [], [.purgeKeys 1, .setKeys 4 10]⟩, ⟨106, 10, [], []⟩, ⟨107, 20, [], []⟩, ⟨108, 30, [], []⟩, ⟨109, 20, [4], []⟩,
   ⟨110, 30, [], []⟩]

example : (run 3 [(1, 10), (2, 20)] (chain.take 6)).any fun s => decide (s.author = some 1 ∧ s.validators = [3, 2] ∧
    s.authorities = [30, 20] ∧ s.keys 4 = some 10 ∧ s.keys 2 = some 21 ∧ s.owner 20 = none) := by decide +kernel
example : (run 3 [(1, 10), (2, 20)] (chain.take 7)).any fun s => decide (s.author = some 2) := by decide +kernel
example : (run 3 [(1, 10), (2, 20)] (chain.take 8)).any fun s => decide (s.author = some 3) := by decide +kernel
-- the change in block 9 finds nobody: the two go on, without being taken for authors
example : (run 3 [(1, 10), (2, 20)] chain).any fun s => decide (s.author = none ∧ s.validators = [] ∧
    s.authorities = [30, 20] ∧ s.queued = [(4, 10)]) := by decide +kernel
-- a seal out of turn
example : (run 3 [(1, 10), (2, 20)] (chain.take 7 ++ [⟨108, 20, [], []⟩])).isNone := by decide +kernel

end Verif.Runtime.Sessions
