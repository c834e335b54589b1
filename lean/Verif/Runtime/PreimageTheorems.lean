import Mathlib.Tactic.Common
import Mathlib.Data.List.Nodup
import Mathlib.Data.List.Count
import Mathlib.Algebra.BigOperators.Group.List.Basic
import Verif.Runtime.Preimages

/-!
# C166, C167: deposits for preimages, and whether the call of a proposal is there when it is due
-/

namespace Verif.Runtime.Preimages

set_option linter.unusedSectionVars false

variable {A H : Type} [DecidableEq A] [DecidableEq H]

/-- The ticket for a hash: who has a deposit for it, and how much. Specification only, no code behind it (outside /repo). -/
def St.ticket (s : St A H) (h : H) : Option (A × Nat) := (s.status h).bind Status.ticket

/-! ## C166: deposits -/

theorem put_at {K V : Type} [DecidableEq K] (f : K → V) (a : K) (v : V) (x : K) : put f a v x = if x = a then v else f x := rfl

theorem put_same {K V : Type} [DecidableEq K] (f : K → V) (a : K) (v : V) : put f a v a = v := if_pos rfl

theorem ticket_put {s s' : St A H} {h : H} {v : Option (Status A)} (e : s'.status = put s.status h v) :
    s'.ticket = put s.ticket h (v.bind Status.ticket) := by
  funext x
  simp only [St.ticket, e, put_at]
  split <;> rfl

theorem put_id {K V : Type} [DecidableEq K] {f : K → V} {a : K} {v : V} (h : f a = v) : put f a v = f := by
  funext x
  rw [put_at]
  split
  · rename_i e; rw [e, h]
  · rfl

/-- Bytes are kept exactly with their length, and tickets are for bytes that are there. Specification only, no code behind it
(outside /repo). -/
structure Sound (s : St A H) : Prop where
  unreq : ∀ h t l, s.status h = some (.unrequested t l) → s.stored h = true
  req : ∀ h t n l, s.status h = some (.requested t n (some l)) → s.stored h = true
  bare : ∀ h t n, s.status h = some (.requested t n none) → s.stored h = false ∧ t = none
  none : ∀ h, s.status h = none → s.stored h = false

theorem sound_put {s s' : St A H} (hs : Sound s) {h : H} {v : Option (Status A)} {b : Bool}
    (e : s'.status = put s.status h v) (eb : s'.stored = put s.stored h b)
    (hv : (∃ t l, v = some (.unrequested t l) ∧ b = true) ∨ (∃ t n l, v = some (.requested t n (some l)) ∧ b = true) ∨
      (∃ n, v = some (.requested none n none) ∧ b = false) ∨ v = none ∧ b = false) : Sound s' := by
  refine ⟨fun x t l hx => ?_, fun x t n l hx => ?_, fun x t n hx => ?_, fun x hx => ?_⟩ <;>
    rw [e, put_at] at hx <;> rw [eb, put_at] <;> split at hx
  · rename_i hh
    rw [if_pos hh]
    rcases hv with ⟨_, _, rfl, rfl⟩ | ⟨_, _, _, rfl, rfl⟩ | ⟨_, rfl, rfl⟩ | ⟨rfl, rfl⟩ <;> simp_all
  · rename_i hh
    rw [if_neg hh]
    exact hs.unreq x t l hx
  · rename_i hh
    rw [if_pos hh]
    rcases hv with ⟨_, _, rfl, rfl⟩ | ⟨_, _, _, rfl, rfl⟩ | ⟨_, rfl, rfl⟩ | ⟨rfl, rfl⟩ <;> simp_all
  · rename_i hh
    rw [if_neg hh]
    exact hs.req x t n l hx
  · rename_i hh
    rw [if_pos hh]
    rcases hv with ⟨_, _, rfl, rfl⟩ | ⟨_, _, _, rfl, rfl⟩ | ⟨_, rfl, rfl⟩ | ⟨rfl, rfl⟩ <;> simp_all
  · rename_i hh
    rw [if_neg hh]
    exact hs.bare x t n hx
  · rename_i hh
    rw [if_pos hh]
    rcases hv with ⟨_, _, rfl, rfl⟩ | ⟨_, _, _, rfl, rfl⟩ | ⟨_, rfl, rfl⟩ | ⟨rfl, rfl⟩ <;> simp_all
  · rename_i hh
    rw [if_neg hh]
    exact hs.none x hx

theorem sound_same {s s' : St A H} (hs : Sound s) (e : s'.status = s.status) (eb : s'.stored = s.stored) : Sound s' := by
  refine ⟨fun x t l hx => ?_, fun x t n l hx => ?_, fun x t n hx => ?_, fun x hx => ?_⟩ <;> rw [e] at hx <;> rw [eb]
  · exact hs.unreq x t l hx
  · exact hs.req x t n l hx
  · exact hs.bare x t n hx
  · exact hs.none x hx

/-- How often a status says its hash is requested. Specification only, no code behind it (outside /repo). -/
def countOf : Option (Status A) → Nat
  | some (.requested _ n _) => n
  | _ => 0

/-- How often a hash is requested. Specification only, no code behind it (outside /repo). -/
def St.count (s : St A H) (h : H) : Nat := countOf (s.status h)

theorem count_put {s s' : St A H} {h : H} {v : Option (Status A)} (e : s'.status = put s.status h v) (x : H) :
    s'.count x = if x = h then countOf v else s.count x := by
  unfold St.count
  rw [e, put_at]
  by_cases hx : x = h
  · rw [if_pos hx, if_pos hx]
  · rw [if_neg hx, if_neg hx]

/-- All that requesting does. -/
theorem request_spec {s : St A H} (hs : Sound s) (h : H) : Sound (request s h) ∧
    (request s h).ticket = s.ticket ∧ (request s h).held = s.held ∧ (request s h).stored = s.stored ∧
      (request s h).proposals = s.proposals ∧
      (request s h).tasks = s.tasks ∧ (request s h).made = s.made ∧ (request s h).lost = s.lost ∧
      ∀ x, (request s h).count x = if x = h then min (s.count h + 1) u32Max else s.count x := by
  unfold request
  split
  · rename_i e
    refine ⟨sound_put hs rfl (put_id (hs.none h e)).symm (.inr (.inr (.inl ⟨1, rfl, rfl⟩))),
      (ticket_put rfl).trans (put_id (by simp [St.ticket, e, Status.ticket])), rfl, rfl, rfl, rfl, rfl, rfl, fun x => ?_⟩
    rw [count_put rfl x]
    simp only [St.count, e, countOf]
    rfl
  · rename_i t n l e
    refine ⟨?_,
      (ticket_put rfl).trans (put_id (by simp [St.ticket, e, Status.ticket])), rfl, rfl, rfl, rfl, rfl, rfl, fun x => ?_⟩
    · cases l with
      | none =>
        obtain ⟨hb, rfl⟩ := hs.bare h t n e
        exact sound_put hs rfl (put_id hb).symm (.inr (.inr (.inl ⟨_, rfl, rfl⟩)))
      | some l => exact sound_put hs rfl (put_id (hs.req h t n l e)).symm (.inr (.inl ⟨_, _, _, rfl, rfl⟩))
    · rw [count_put rfl x]
      simp only [St.count, e, countOf]
  · rename_i t l e
    refine ⟨sound_put hs rfl (put_id (hs.unreq h t l e)).symm (.inr (.inl ⟨_, _, _, rfl, rfl⟩)),
      (ticket_put rfl).trans (put_id (by simp [St.ticket, e, Status.ticket])), rfl, rfl, rfl, rfl, rfl, rfl, fun x => ?_⟩
    rw [count_put rfl x]
    simp only [St.count, e, countOf]
    rfl

/-- All that withdrawing a request does. -/
theorem unrequest_spec {s s' : St A H} (hs : Sound s) {h : H} (e : unrequest s h = some s') : Sound s' ∧
    s'.ticket = s.ticket ∧ s'.held = s.held ∧ s'.proposals = s.proposals ∧ s'.tasks = s.tasks ∧ s'.made = s.made ∧
      s'.lost = s.lost ∧
      (∀ x, s'.count x = if x = h then s.count h - 1 else s.count x) ∧
      ∀ x, s.stored x = true → x ≠ h ∨ 1 < s.count h → s'.stored x = true := by
  unfold unrequest at e
  split at e
  · rename_i t n l hst
    have hc : s.count h = n := by simp [St.count, hst, countOf]
    split at e
    · rename_i hn
      cases e
      refine ⟨?_, (ticket_put rfl).trans (put_id (by simp [St.ticket, hst, Status.ticket])), rfl, rfl, rfl, rfl, rfl,
        fun x => ?_, fun x hx _ => hx⟩
      · cases l with
        | none =>
          obtain ⟨hb, rfl⟩ := hs.bare h t n hst
          exact sound_put hs rfl (put_id hb).symm (.inr (.inr (.inl ⟨_, rfl, rfl⟩)))
        | some l => exact sound_put hs rfl (put_id (hs.req h t n l hst)).symm (.inr (.inl ⟨_, _, _, rfl, rfl⟩))
      · rw [hc, count_put rfl x]
        rfl
    · rename_i hn
      have h0 : n - 1 = 0 := by omega
      split at e
      · cases e
        obtain ⟨hb, rfl⟩ := hs.bare h t n hst
        refine ⟨sound_put hs rfl (put_id hb).symm (.inr (.inr (.inr ⟨rfl, rfl⟩))),
          (ticket_put rfl).trans (put_id (by simp [St.ticket, hst, Status.ticket])), rfl, rfl, rfl, rfl, rfl,
          fun x => ?_, fun x hx _ => hx⟩
        rw [hc, h0, count_put rfl x]
        rfl
      · cases e
        refine ⟨sound_put hs rfl rfl (.inr (.inr (.inr ⟨rfl, rfl⟩))),
          (ticket_put rfl).trans (put_id (by simp [St.ticket, hst, Status.ticket])), rfl, rfl, rfl, rfl, rfl,
          fun x => ?_, fun x hx hor => ?_⟩
        · rw [hc, h0, count_put rfl x]
          rfl
        · dsimp only
          rw [put_at]
          split
          · rename_i hh
            rcases hor with h1 | h1
            · exact absurd hh h1
            · omega
          · exact hx
      · cases e
        rename_i l t
        refine ⟨sound_put hs rfl (put_id (hs.req h _ n l hst)).symm (.inl ⟨_, _, rfl, rfl⟩),
          (ticket_put rfl).trans (put_id (by simp [St.ticket, hst, Status.ticket])), rfl, rfl, rfl, rfl, rfl,
          fun x => ?_, fun x hx _ => hx⟩
        rw [hc, h0, count_put rfl x]
        rfl
  · cases e

/-- What happens to tickets and what is held. Specification only, no code behind it (outside /repo). -/
inductive Change (c : Cfg H) (s s' : St A H) : Op A H → Prop
  | none (op : Op A H) : s'.ticket = s.ticket → s'.held = s.held → Change c s s' op
  | taken (a : A) (h : H) : s.ticket h = none → s'.ticket = put s.ticket h (some (a, price c.cents (c.size h))) →
    s'.held = put s.held a (s.held a + price c.cents (c.size h)) → Change c s s' (.note (some a) h)
  | given (who : Option A) (a : A) (n : Nat) (h : H) : s.ticket h = some (a, n) → s'.ticket = put s.ticket h none →
    s'.held = put s.held a (s.held a - n) → who = Option.none ∨ who = some a → Change c s s' (.unnote who h)

theorem place_spec {s : St A H} (hs : Sound s) (h : H) (len : Nat) : Sound (place s h len) ∧
    (place s h len).ticket = s.ticket ∧ (place s h len).held = s.held ∧ (place s h len).stored = s.stored ∧
    (place s h len).tasks = (h, len) :: s.tasks ∧ (place s h len).made = s.made ∧ (place s h len).lost = s.lost ∧
    ∀ x, (place s h len).count x = if x = h then min (s.count h + 1) u32Max else s.count x := by
  obtain ⟨h1, h2, h3, h4, _, h5, h6, h7, h8⟩ := request_spec (s := { s with tasks := (h, len) :: s.tasks }) (sound_same hs rfl rfl) h
  exact ⟨h1, h2, h3, h4, h5, h6, h7, h8⟩

theorem unplace_spec {s : St A H} (hs : Sound s) (h : H) (len : Nat) : Sound (unplace s h len) ∧
    (unplace s h len).ticket = s.ticket ∧ (unplace s h len).held = s.held ∧
    (unplace s h len).tasks = s.tasks.erase (h, len) ∧ (unplace s h len).made = s.made ∧ (unplace s h len).lost = s.lost ∧
    (∀ x, (unplace s h len).count x = if x = h then s.count h - 1 else s.count x) ∧
    ∀ x, s.stored x = true → x ≠ h ∨ 1 < s.count h → (unplace s h len).stored x = true := by
  have hs1 : Sound { s with tasks := s.tasks.erase (h, len) } := sound_same hs rfl rfl
  unfold unplace
  dsimp only
  cases e : unrequest { s with tasks := s.tasks.erase (h, len) } h with
  | some s' =>
    obtain ⟨h1, h2, h3, _, h4, h5, h6, h7, h8⟩ := unrequest_spec hs1 e
    exact ⟨h1, h2, h3, h4, h5, h6, h7, h8⟩
  | none =>
    refine ⟨hs1, rfl, rfl, rfl, rfl, rfl, fun x => ?_, fun x hx _ => hx⟩
    rw [Option.getD_none]
    have h0 : s.count h = 0 := by
      unfold unrequest at e
      dsimp only at e
      split at e
      · split at e
        · cases e
        · split at e <;> cases e
      · rename_i hne
        unfold St.count countOf
        split
        · rename_i t n l hst
          exact absurd hst (hne t n l)
        · rfl
    by_cases hx : x = h
    · subst hx
      rw [if_pos rfl, h0]
      exact h0
    · rw [if_neg hx]
      rfl

theorem step_change {c : Cfg H} {can : A → Nat → Bool} {s s' : St A H} {op : Op A H} (hs : Sound s)
    (h : step c can s op = some s') : Sound s' ∧ Change c s s' op := by
  cases op with
  | note who x =>
    simp only [step, note] at h
    split at h
    · cases h
    split at h
    · rename_i t n l hst
      cases h
      exact ⟨sound_put hs rfl rfl (.inr (.inl ⟨_, _, _, rfl, rfl⟩)),
        .none _ ((ticket_put rfl).trans (put_id (by simp [St.ticket, hst, Status.ticket]))) rfl⟩
    · cases h
    · rename_i t l hst
      cases h
      exact ⟨sound_put hs rfl rfl (.inr (.inl ⟨_, _, _, rfl, rfl⟩)),
        .none _ ((ticket_put rfl).trans (put_id (by simp [St.ticket, hst, Status.ticket]))) rfl⟩
    · rename_i hst
      cases h
      exact ⟨sound_put hs rfl rfl (.inr (.inl ⟨_, _, _, rfl, rfl⟩)),
        .none _ ((ticket_put rfl).trans (put_id (by simp [St.ticket, hst, Status.ticket]))) rfl⟩
    · rename_i a hst
      split at h
      · cases h
        exact ⟨sound_put hs rfl rfl (.inl ⟨_, _, rfl, rfl⟩),
          .taken a x (by simp [St.ticket, hst])
            (ticket_put (v := some (.unrequested (a, price c.cents (c.size x)) (c.size x))) rfl) rfl⟩
      · cases h
  | unnote who x =>
    simp only [step, unnote] at h
    split at h
    · cases h
    · rename_i t n l hst
      split at h
      · rename_i hw
        cases h
        refine ⟨?_, .given who t.1 t.2 x (by simp [St.ticket, hst, Status.ticket])
          (ticket_put (v := some (.requested none n l)) rfl) rfl hw⟩
        cases l with
        | none => exact absurd (hs.bare x _ n hst).2 (by simp)
        | some l => exact sound_put hs rfl (put_id (hs.req x _ n l hst)).symm (.inr (.inl ⟨_, _, _, rfl, rfl⟩))
      · cases h
    · split at h
      · obtain ⟨h1, h2, h3, _⟩ := unrequest_spec hs h
        exact ⟨h1, .none _ h2 h3⟩
      · cases h
    · rename_i t l hst
      split at h
      · rename_i hw
        cases h
        exact ⟨sound_put hs rfl rfl (.inr (.inr (.inr ⟨rfl, rfl⟩))),
          .given who t.1 t.2 x (by simp [St.ticket, hst, Status.ticket]) (ticket_put (v := none) rfl) rfl hw⟩
      · cases h
  | request x =>
    cases h
    obtain ⟨h1, h2, h3, _⟩ := request_spec hs x
    exact ⟨h1, .none _ h2 h3⟩
  | unrequest x =>
    obtain ⟨h1, h2, h3, _⟩ := unrequest_spec hs h
    exact ⟨h1, .none _ h2 h3⟩
  | submit x n =>
    simp only [step] at h
    split at h
    · cases h
    · cases h
      exact ⟨sound_same hs rfl rfl, .none _ rfl rfl⟩
  | drop x n =>
    simp only [step] at h
    split at h
    · cases h
      exact ⟨sound_same hs rfl rfl, .none _ rfl rfl⟩
    · cases h
  | approve x n =>
    simp only [step] at h
    split at h
    · cases h
      obtain ⟨h1, h2, h3, _⟩ := place_spec (s := { s with proposals := s.proposals.erase (x, n) }) (sound_same hs rfl rfl) x n
      exact ⟨h1, .none _ h2 h3⟩
    · cases h
  | schedule x n =>
    cases h
    obtain ⟨h1, h2, h3, _⟩ := place_spec hs x n
    exact ⟨h1, .none _ h2 h3⟩
  | cancel x n =>
    simp only [step] at h
    split at h
    · cases h
      obtain ⟨h1, h2, h3, _⟩ := unplace_spec hs x n
      exact ⟨h1, .none _ h2 h3⟩
    · cases h
  | run x n =>
    simp only [step] at h
    split at h
    · split at h
      · cases h
        obtain ⟨h1, h2, h3, _⟩ := unplace_spec (s := { s with made := (x, n) :: s.made }) (sound_same hs rfl rfl) x n
        exact ⟨h1, .none _ h2 h3⟩
      · cases h
        obtain ⟨h1, h2, h3, _⟩ := unplace_spec (s := { s with lost := (x, n) :: s.lost }) (sound_same hs rfl rfl) x n
        exact ⟨h1, .none _ h2 h3⟩
    · cases h

theorem sound_empty : Sound (empty : St A H) :=
  ⟨fun _ _ _ h => (nomatch h), fun _ _ _ _ h => (nomatch h), fun _ _ _ h => (nomatch h), fun _ _ => rfl⟩

/-- Exactly what is held is accounted for. Specification only, no code behind it (outside /repo). -/
structure Exact (c : Cfg H) (s : St A H) : Prop where
  amount : ∀ h a n, s.ticket h = some (a, n) → n = price c.cents (c.size h)
  sum : ∀ a, ∃ l : List H, l.Nodup ∧ (∀ h, h ∈ l ↔ ∃ n, s.ticket h = some (a, n)) ∧
    s.held a = (l.map fun h => price c.cents (c.size h)).sum

theorem exact_change {c : Cfg H} {s s' : St A H} {op : Op A H} (hi : Exact c s) (hc : Change c s s' op) : Exact c s' := by
  cases hc with
  | none _ h1 h2 =>
    refine ⟨fun h a n e => hi.amount h a n (by rwa [h1] at e), fun a => ?_⟩
    rw [h1, h2]
    exact hi.sum a
  | taken b x h1 h2 h3 =>
    refine ⟨fun h a n e => ?_, fun a => ?_⟩
    · rw [h2, put_at] at e
      split at e
      · rename_i hh
        subst hh
        cases e
        rfl
      · exact hi.amount h a n e
    · obtain ⟨l, hn, hm, hsum⟩ := hi.sum a
      by_cases ha : a = b
      · subst ha
        have hx : x ∉ l := fun hx => by
          obtain ⟨n, hx⟩ := (hm x).1 hx
          rw [h1] at hx; cases hx
        refine ⟨x :: l, List.nodup_cons.2 ⟨hx, hn⟩, fun h => ?_, ?_⟩
        · rw [h2, put_at, List.mem_cons]
          by_cases hh : h = x
          · subst hh
            simp
          · rw [if_neg hh, ← hm h]
            simp [hh]
        · rw [h3, put_same, hsum, List.map_cons, List.sum_cons, Nat.add_comm]
      · refine ⟨l, hn, fun h => ?_, ?_⟩
        · rw [hm h, h2, put_at]
          by_cases hh : h = x
          · subst hh
            rw [if_pos rfl, h1]
            simp [Ne.symm ha]
          · rw [if_neg hh]
        · rw [h3, put_at, if_neg ha, hsum]
  | given who b n x h1 h2 h3 _ =>
    refine ⟨fun h a m e => ?_, fun a => ?_⟩
    · rw [h2, put_at] at e
      split at e
      · cases e
      · exact hi.amount h a m e
    · obtain ⟨l, hn, hm, hsum⟩ := hi.sum a
      by_cases ha : a = b
      · subst ha
        have hx : x ∈ l := (hm x).2 ⟨n, h1⟩
        refine ⟨l.erase x, hn.erase x, fun h => ?_, ?_⟩
        · rw [h2, put_at, hn.mem_erase_iff]
          by_cases hh : h = x
          · subst hh
            simp
          · rw [if_neg hh, ← hm h]
            simp [hh]
        · rw [h3, put_same, hsum, hi.amount x a n h1, ← List.sum_map_erase (f := fun h => price c.cents (c.size h)) hx]
          omega
      · refine ⟨l, hn, fun h => ?_, ?_⟩
        · rw [hm h, h2, put_at]
          by_cases hh : h = x
          · subst hh
            rw [if_pos rfl, h1]
            simp [Ne.symm ha]
          · rw [if_neg hh]
        · rw [h3, put_at, if_neg ha, hsum]

theorem exact_steps {c : Cfg H} {s s' : St A H} {ops : List (Op A H)} (h : Steps c s ops s') (hs : Sound s) (hi : Exact c s) :
    Sound s' ∧ Exact c s' := by
  induction h with
  | nil => exact ⟨hs, hi⟩
  | cons h _ ih =>
    obtain ⟨h1, h2⟩ := step_change hs h
    exact ih h1 (exact_change hi h2)

theorem exact_empty (c : Cfg H) : Exact c (empty : St A H) :=
  ⟨fun _ _ _ h => (nomatch h), fun _ => ⟨[], List.nodup_nil, fun _ => ⟨fun x => (nomatch x), fun ⟨_, x⟩ => (nomatch x)⟩, rfl⟩⟩

/-- **C166.** In every history, what is held of an account for preimages is exactly the sum of the deposits for the
preimages it has a ticket for: the deposit for two entries and 64 bytes, and that for each byte of the preimage. No preimage is
counted twice. -/
theorem C166_exact (c : Cfg H) (ops : List (Op A H)) (s : St A H) (h : Steps c empty ops s) (a : A) :
    ∃ l : List H, l.Nodup ∧ (∀ x, x ∈ l ↔ ∃ n, s.ticket x = some (a, n)) ∧
      s.held a = (l.map fun x => deposit c.cents 2 64 + deposit c.cents 0 1 * c.size x).sum :=
  (exact_steps h sound_empty (exact_empty c)).2.sum a

/-- **C166.** Only the account itself, by noting bytes that nobody has a ticket for, gets a ticket and raises what is held of it;
and only it, or root, gives the ticket back and lowers what is held. -/
theorem C166_only (c : Cfg H) (ops : List (Op A H)) (s s' : St A H) (can : A → Nat → Bool) (op : Op A H)
    (h : Steps c empty ops s) (hop : step c can s op = some s') (a : A) :
    (s.held a < s'.held a → ∃ x, op = .note (some a) x ∧ s.ticket x = none ∧
      s'.held a = s.held a + (deposit c.cents 2 64 + deposit c.cents 0 1 * c.size x) ∧ ∃ n, s'.ticket x = some (a, n)) ∧
    (s'.held a < s.held a → ∃ x, (op = .unnote (some a) x ∨ op = .unnote none x) ∧ (∃ n, s.ticket x = some (a, n)) ∧
      s'.ticket x = none) := by
  obtain ⟨hsd, hex⟩ := exact_steps h sound_empty (exact_empty c)
  obtain ⟨_, hc⟩ := step_change hsd hop
  cases hc with
  | none _ h1 h2 => rw [h2]; exact ⟨fun h => absurd h (Nat.lt_irrefl _), fun h => absurd h (Nat.lt_irrefl _)⟩
  | taken b x h1 h2 h3 =>
    by_cases ha : a = b
    · subst ha
      refine ⟨fun _ => ⟨x, rfl, h1, by rw [h3, put_same]; rfl, _, by rw [h2, put_same]⟩, fun hlt => ?_⟩
      rw [h3, put_same] at hlt
      omega
    · rw [h3, put_at, if_neg ha]
      exact ⟨fun h => absurd h (Nat.lt_irrefl _), fun h => absurd h (Nat.lt_irrefl _)⟩
  | given who b n x h1 h2 h3 hw =>
    by_cases ha : a = b
    · subst ha
      refine ⟨fun hlt => ?_, fun _ => ⟨x, ?_, ⟨n, h1⟩, by rw [h2, put_same]⟩⟩
      · rw [h3, put_same] at hlt
        omega
      · rcases hw with rfl | rfl
        · exact .inr rfl
        · exact .inl rfl
    · rw [h3, put_at, if_neg ha]
      exact ⟨fun h => absurd h (Nat.lt_irrefl _), fun h => absurd h (Nat.lt_irrefl _)⟩

theorem le_sum {l : List Nat} {n : Nat} (h : n ∈ l) : n ≤ l.sum := by
  induction l with
  | nil => cases h
  | cons m l ih =>
    rw [List.sum_cons]
    rcases List.mem_cons.1 h with rfl | h
    · exact Nat.le_add_right ..
    · exact (ih h).trans (Nat.le_add_left ..)

/-- **C166.** Who has a ticket can give it back at any time, whether the bytes are still wanted or not, and gets all of the
deposit. -/
theorem C166_back (c : Cfg H) (ops : List (Op A H)) (s : St A H) (can : A → Nat → Bool) (h : Steps c empty ops s) (a : A)
    (x : H) (n : Nat) (ht : s.ticket x = some (a, n)) :
    ∃ s', step c can s (.unnote (some a) x) = some s' ∧
      s.held a = s'.held a + (deposit c.cents 2 64 + deposit c.cents 0 1 * c.size x) ∧
      (∀ b, b ≠ a → s'.held b = s.held b) ∧ s'.ticket x = none := by
  obtain ⟨hsd, hex⟩ := exact_steps h sound_empty (exact_empty c)
  have hn := hex.amount x a n ht
  have hle : price c.cents (c.size x) ≤ s.held a := by
    obtain ⟨l, _, hm, hsum⟩ := hex.sum a
    rw [hsum]
    exact le_sum (List.mem_map.2 ⟨x, (hm x).2 ⟨n, ht⟩, rfl⟩)
  have hsome : ∃ s', step c can s (.unnote (some a) x) = some s' := by
    simp only [step, unnote]
    unfold St.ticket at ht
    cases hst : s.status x with
    | none => rw [hst] at ht; cases ht
    | some st =>
      rw [hst] at ht
      cases st with
      | unrequested t l =>
        have : t = (a, n) := by simpa [Status.ticket] using ht
        subst this
        exact ⟨_, if_pos (.inr rfl)⟩
      | requested t k l =>
        have : t = some (a, n) := by simpa [Status.ticket] using ht
        subst this
        exact ⟨_, if_pos (.inr rfl)⟩
  obtain ⟨s', hs'⟩ := hsome
  refine ⟨s', hs', ?_⟩
  obtain ⟨_, hc⟩ := step_change hsd hs'
  have hcase : s'.ticket = put s.ticket x none ∧ s'.held = put s.held a (s.held a - n) := by
    cases hc with
    | none _ h1 h2 =>
      exfalso
      have hx : s'.ticket x = none := by
        simp only [step, unnote] at hs'
        unfold St.ticket at ht
        cases hst : s.status x with
        | none => rw [hst] at ht; cases ht
        | some st =>
          rw [hst] at hs' ht
          cases st with
          | unrequested t l =>
            dsimp only at hs'
            split at hs'
            · cases hs'
              simp [St.ticket, put_same]
            · cases hs'
          | requested t k l =>
            have : t = some (a, n) := by simpa [Status.ticket] using ht
            subst this
            dsimp only at hs'
            split at hs'
            · cases hs'
              simp [St.ticket, put_same, Status.ticket]
            · cases hs'
      rw [h1, ht] at hx
      cases hx
    | given who b m _ h1 h2 h3 hw =>
      rw [ht] at h1
      cases h1
      exact ⟨h2, h3⟩
  obtain ⟨h2, h3⟩ := hcase
  refine ⟨?_, fun b hb => by rw [h3, put_at, if_neg hb], by rw [h2, put_same]⟩
  rw [h3, put_same, hn]
  exact (Nat.sub_add_cancel hle).symm

/-- **C166.** Noting what was asked for, by the scheduler or by root, is free. -/
theorem C166_free (c : Cfg H) (s s' : St A H) (can : A → Nat → Bool) (who : Option A) (x : H) (t : Option (A × Nat)) (n : Nat)
    (l : Option Nat) (hst : s.status x = some (.requested t n l)) (h : step c can s (.note who x) = some s') :
    s'.held = s.held ∧ s'.stored x = true := by
  simp only [step, note] at h
  split at h
  · cases h
  · rw [hst] at h
    cases h
    exact ⟨rfl, put_same _ _ _⟩

/-! ## C167: the call of a proposal is there when it is due -/

/-- How many tasks wait for a hash. Specification only, no code behind it (outside /repo). -/
def St.waiting (s : St A H) (h : H) : Nat := s.tasks.countP fun t => decide (t.1 = h)

theorem waiting_cons {s s' : St A H} {h : H} {n : Nat} (e : s'.tasks = (h, n) :: s.tasks) (x : H) :
    s'.waiting x = if x = h then s.waiting x + 1 else s.waiting x := by
  unfold St.waiting
  rw [e, List.countP_cons]
  by_cases hx : x = h
  · simp [hx]
  · simp [hx, Ne.symm hx]

theorem waiting_erase {s s' : St A H} {h : H} {n : Nat} (hm : (h, n) ∈ s.tasks) (e : s'.tasks = s.tasks.erase (h, n)) (x : H) :
    s.waiting x = if x = h then s'.waiting x + 1 else s'.waiting x := by
  unfold St.waiting
  rw [e, (List.perm_cons_erase hm).countP_eq, List.countP_cons]
  by_cases hx : x = h
  · simp [hx]
  · simp [hx, Ne.symm hx]

/-- What holds for one hash as long as root does not withdraw requests for it. Specification only, no code behind it (outside
/repo). -/
structure Wanted (s : St A H) (h : H) (k : Nat) : Prop where
  sound : Sound s
  few : s.count h ≤ k
  enough : s.waiting h ≤ s.count h

theorem place_wanted {s : St A H} {h : H} {k : Nat} (hi : Wanted s h k) (hk : k < u32Max) (x : H) (n : Nat) :
    Wanted (place s x n) h (k + 1) := by
  obtain ⟨h1, _, _, _, ht, _, _, hc⟩ := place_spec hi.sound x n
  refine ⟨h1, ?_, ?_⟩
  · rw [hc]
    have := hi.few
    split
    · rename_i e; subst e; omega
    · omega
  · rw [hc, waiting_cons ht]
    have := hi.few
    have := hi.enough
    split
    · rename_i e; subst e; omega
    · omega

theorem unplace_wanted {s : St A H} {h : H} {k : Nat} (hi : Wanted s h k) (x : H) (n : Nat) (hm : (x, n) ∈ s.tasks) :
    Wanted (unplace s x n) h (k + 1) ∧ (s.stored h = true → 0 < (unplace s x n).waiting h → (unplace s x n).stored h = true) := by
  obtain ⟨h1, _, _, ht, _, _, hc, hst⟩ := unplace_spec hi.sound x n
  have hw := waiting_erase hm ht h
  have h2 := hi.few
  have h3 := hi.enough
  refine ⟨⟨h1, ?_, ?_⟩, fun hs hp => hst h hs ?_⟩
  · rw [hc]
    split
    · rename_i e; subst e; omega
    · omega
  · rw [hc]
    split at hw
    · rename_i e; subst e; rw [if_pos rfl]; omega
    · rename_i e; rw [if_neg e]; omega
  · by_cases e : h = x
    · subst e
      rw [if_pos rfl] at hw
      exact .inr (by omega)
    · exact .inl e

theorem wanted_same {s s' : St A H} {h : H} {k : Nat} (hi : Wanted s h k) (e1 : s'.status = s.status) (e2 : s'.stored = s.stored)
    (e3 : s'.tasks = s.tasks) : Wanted s' h k := by
  refine ⟨sound_same hi.sound e1 e2, ?_, ?_⟩
  · have := hi.few
    unfold St.count at this ⊢
    rwa [e1]
  · have := hi.enough
    unfold St.count St.waiting at this ⊢
    rwa [e1, e3]

theorem wanted_put {s s' : St A H} {h x : H} {v : Option (Status A)} {k : Nat} (hi : Wanted s h k) (hs : Sound s')
    (e1 : s'.status = put s.status x v) (e3 : s'.tasks = s.tasks) (hv : h = x → s.count h ≤ countOf v ∧ countOf v ≤ k + 1) :
    Wanted s' h (k + 1) := by
  have hc := count_put e1 h
  have hw : s'.waiting h = s.waiting h := by unfold St.waiting; rw [e3]
  have := hi.few
  have := hi.enough
  refine ⟨hs, ?_, ?_⟩ <;> rw [hc] <;> split
  · rename_i e; exact (hv e).2
  · omega
  · rename_i e; rw [hw]; have := hv e; omega
  · omega

theorem wanted_step {c : Cfg H} {can : A → Nat → Bool} {s s' : St A H} {op : Op A H} {h : H} {k : Nat} (hi : Wanted s h k)
    (hk : k < u32Max) (hop : step c can s op = some s') (h1 : op ≠ .unrequest h) (h2 : op ≠ .unnote none h) :
    Wanted s' h (k + 1) ∧ (s.stored h = true → 0 < s'.waiting h → s'.stored h = true) := by
  have hsd := (step_change hi.sound hop).1
  have hfew := hi.few
  have hen := hi.enough
  cases op with
  | note who x =>
    have hstored : ∀ b, (put s.stored x true) b = false → s.stored b = false := by
      intro b hb
      rw [put_at] at hb
      split at hb
      · cases hb
      · exact hb
    have hst : s'.stored = put s.stored x true := by
      simp only [step, note] at hop
      split at hop
      · cases hop
      split at hop
      · cases hop; rfl
      · cases hop
      · cases hop; rfl
      · cases hop; rfl
      · split at hop
        · cases hop; rfl
        · cases hop
    refine ⟨?_, fun hs _ => ?_⟩
    · simp only [step, note] at hop
      split at hop
      · cases hop
      split at hop
      · rename_i t n l hx
        cases hop
        refine wanted_put hi hsd rfl rfl fun e => ?_
        subst e
        unfold St.count at hfew ⊢
        rw [hx] at hfew ⊢
        simp only [countOf] at hfew ⊢
        omega
      · cases hop
      · rename_i t l hx
        cases hop
        refine wanted_put hi hsd rfl rfl fun e => ?_
        subst e
        unfold St.count
        rw [hx]
        simp only [countOf]
        omega
      · rename_i hx
        cases hop
        refine wanted_put hi hsd rfl rfl fun e => ?_
        subst e
        unfold St.count
        rw [hx]
        simp only [countOf]
        omega
      · rename_i a hx
        split at hop
        · cases hop
          refine wanted_put hi hsd rfl rfl fun e => ?_
          subst e
          unfold St.count
          rw [hx]
          simp only [countOf]
          omega
        · cases hop
    · rw [hst]
      cases hb : put s.stored x true h with
      | true => rfl
      | false => rw [hstored h hb] at hs; cases hs
  | unnote who x =>
    simp only [step, unnote] at hop
    split at hop
    · cases hop
    · rename_i t n l hx
      split at hop
      · cases hop
        refine ⟨wanted_put hi hsd rfl rfl fun e => ?_, fun hs _ => hs⟩
        subst e
        unfold St.count at hfew ⊢
        rw [hx] at hfew ⊢
        simp only [countOf] at hfew ⊢
        omega
      · cases hop
    · rename_i n l hx
      split at hop
      · rename_i hw
        subst hw
        have hne : h ≠ x := fun e => h2 (by rw [e])
        obtain ⟨q1, q2, q3, q4, q5, q6, q7, q8, q9⟩ := unrequest_spec hi.sound hop
        have hw : s'.waiting h = s.waiting h := by unfold St.waiting; rw [q5]
        have hc : s'.count h = s.count h := by rw [q8, if_neg hne]
        exact ⟨⟨q1, by omega, by omega⟩, fun hs _ => q9 h hs (.inl hne)⟩
      · cases hop
    · rename_i t l hx
      split at hop
      · cases hop
        have h0 : h = x → s.count h = 0 := fun e => by
          subst e
          unfold St.count
          rw [hx]
          rfl
        refine ⟨wanted_put hi hsd rfl rfl fun e => ⟨by rw [h0 e]; exact Nat.zero_le _, Nat.zero_le _⟩, fun hs hp => ?_⟩
        by_cases e : h = x
        · have := h0 e
          have hp : 0 < s.waiting h := hp
          omega
        · show put s.stored x false h = true
          rw [put_at, if_neg e]
          exact hs
      · cases hop
  | request x =>
    cases hop
    obtain ⟨q1, q2, q3, q4, q5, q6, q7, q8, q9⟩ := request_spec hi.sound x
    have hw : (request s x).waiting h = s.waiting h := by unfold St.waiting; rw [q6]
    refine ⟨⟨q1, ?_, ?_⟩, fun hs _ => by rw [q4]; exact hs⟩ <;> rw [q9] <;> split
    · rename_i e; subst e; omega
    · omega
    · rename_i e; subst e; omega
    · omega
  | unrequest x =>
    have hne : h ≠ x := fun e => h1 (by rw [e])
    obtain ⟨q1, q2, q3, q4, q5, q6, q7, q8, q9⟩ := unrequest_spec hi.sound hop
    have hw : s'.waiting h = s.waiting h := by unfold St.waiting; rw [q5]
    have hc : s'.count h = s.count h := by rw [q8, if_neg hne]
    exact ⟨⟨q1, by omega, by omega⟩, fun hs _ => q9 h hs (.inl hne)⟩
  | submit x n =>
    simp only [step] at hop
    split at hop
    · cases hop
    · cases hop
      exact ⟨⟨hsd, Nat.le_succ_of_le hfew, hen⟩, fun hs _ => hs⟩
  | drop x n =>
    simp only [step] at hop
    split at hop
    · cases hop
      exact ⟨⟨hsd, Nat.le_succ_of_le hfew, hen⟩, fun hs _ => hs⟩
    · cases hop
  | approve x n =>
    simp only [step] at hop
    split at hop
    · cases hop
      have hi' : Wanted { s with proposals := s.proposals.erase (x, n) } h k := wanted_same hi rfl rfl rfl
      refine ⟨place_wanted hi' hk x n, fun hs _ => ?_⟩
      rw [(place_spec hi'.sound x n).2.2.2.1]
      exact hs
    · cases hop
  | schedule x n =>
    cases hop
    refine ⟨place_wanted hi hk x n, fun hs _ => ?_⟩
    rw [(place_spec hi.sound x n).2.2.2.1]
    exact hs
  | cancel x n =>
    simp only [step] at hop
    split at hop
    · rename_i hm
      cases hop
      exact unplace_wanted hi x n hm
    · cases hop
  | run x n =>
    simp only [step] at hop
    split at hop
    · rename_i hm
      split at hop
      · cases hop
        exact unplace_wanted (s := { s with made := (x, n) :: s.made }) (wanted_same hi rfl rfl rfl) x n hm
      · cases hop
        exact unplace_wanted (s := { s with lost := (x, n) :: s.lost }) (wanted_same hi rfl rfl rfl) x n hm
    · cases hop

theorem tasks_step {c : Cfg H} {can : A → Nat → Bool} {s s' : St A H} {op : Op A H} (hs : Sound s) {t : H × Nat}
    (ht : t ∈ s.tasks) (hop : step c can s op = some s') (h1 : op ≠ .run t.1 t.2) (h2 : op ≠ .cancel t.1 t.2) : t ∈ s'.tasks := by
  cases op with
  | note who x =>
    simp only [step, note] at hop
    split at hop
    · cases hop
    split at hop
    · cases hop; exact ht
    · cases hop
    · cases hop; exact ht
    · cases hop; exact ht
    · split at hop
      · cases hop; exact ht
      · cases hop
  | unnote who x =>
    simp only [step, unnote] at hop
    split at hop
    · cases hop
    · split at hop
      · cases hop; exact ht
      · cases hop
    · split at hop
      · rw [(unrequest_spec hs hop).2.2.2.2.1]; exact ht
      · cases hop
    · split at hop
      · cases hop; exact ht
      · cases hop
  | request x => cases hop; rw [(request_spec hs x).2.2.2.2.2.1]; exact ht
  | unrequest x => rw [(unrequest_spec hs hop).2.2.2.2.1]; exact ht
  | submit x n =>
    simp only [step] at hop
    split at hop
    · cases hop
    · cases hop; exact ht
  | drop x n =>
    simp only [step] at hop
    split at hop
    · cases hop; exact ht
    · cases hop
  | approve x n =>
    simp only [step] at hop
    split at hop
    · cases hop
      rw [(place_spec (s := { s with proposals := s.proposals.erase (x, n) }) (sound_same hs rfl rfl) x n).2.2.2.2.1]
      exact List.mem_cons_of_mem _ ht
    · cases hop
  | schedule x n =>
    cases hop
    rw [(place_spec hs x n).2.2.2.2.1]
    exact List.mem_cons_of_mem _ ht
  | cancel x n =>
    simp only [step] at hop
    split at hop
    · cases hop
      rw [(unplace_spec hs x n).2.2.2.1]
      exact (List.mem_erase_of_ne fun e => h2 (by rw [e])).2 ht
    · cases hop
  | run x n =>
    simp only [step] at hop
    split at hop
    · split at hop
      · cases hop
        rw [(unplace_spec (s := { s with made := (x, n) :: s.made }) (sound_same hs rfl rfl) x n).2.2.2.1]
        exact (List.mem_erase_of_ne fun e => h1 (by rw [e])).2 ht
      · cases hop
        rw [(unplace_spec (s := { s with lost := (x, n) :: s.lost }) (sound_same hs rfl rfl) x n).2.2.2.1]
        exact (List.mem_erase_of_ne fun e => h1 (by rw [e])).2 ht
    · cases hop

theorem wanted_steps {c : Cfg H} {s s' : St A H} {ops : List (Op A H)} (h : Steps c s ops s') {x : H} {k : Nat}
    (hi : Wanted s x k) (hk : k + ops.length ≤ u32Max) (hr : ∀ op ∈ ops, op ≠ .unrequest x ∧ op ≠ .unnote none x) :
    Wanted s' x (k + ops.length) := by
  induction h generalizing k with
  | nil => exact hi
  | @cons s s' s'' can op ops h _ ih =>
    rw [List.length_cons] at hk
    have h1 := hr op (List.mem_cons_self ..)
    have := ih (wanted_step hi (by omega) h h1.1 h1.2).1 (by omega) fun o ho => hr o (List.mem_cons_of_mem _ ho)
    rw [List.length_cons]
    rwa [show k + (ops.length + 1) = k + 1 + ops.length by omega]

theorem waiting_pos {s : St A H} {h : H} {n : Nat} (hm : (h, n) ∈ s.tasks) : 0 < s.waiting h :=
  List.countP_pos_iff.2 ⟨(h, n), hm, by simp⟩

theorem kept_steps {c : Cfg H} {s s' : St A H} {ops : List (Op A H)} (h : Steps c s ops s') {x : H} {n k : Nat}
    (hi : Wanted s x k) (hk : k + ops.length ≤ u32Max) (hr : ∀ op ∈ ops, op ≠ .unrequest x ∧ op ≠ .unnote none x)
    (ht : (x, n) ∈ s.tasks) (hs : s.stored x = true) (hc : .cancel x n ∉ ops) (hu : .run x n ∉ ops) :
    (x, n) ∈ s'.tasks ∧ s'.stored x = true := by
  induction h generalizing k with
  | nil => exact ⟨ht, hs⟩
  | @cons s s' s'' can op ops h _ ih =>
    rw [List.length_cons] at hk
    have h1 := hr op (List.mem_cons_self ..)
    have ht' : (x, n) ∈ s'.tasks := tasks_step hi.sound ht h (fun e => hu (by rw [e]; exact List.mem_cons_self ..))
      fun e => hc (by rw [e]; exact List.mem_cons_self ..)
    obtain ⟨hi', hst⟩ := wanted_step hi (by omega) h h1.1 h1.2
    exact ih hi' (by omega) (fun o ho => hr o (List.mem_cons_of_mem _ ho)) ht' (hst hs (waiting_pos ht'))
      (fun h => hc (List.mem_cons_of_mem _ h)) fun h => hu (List.mem_cons_of_mem _ h)

theorem wanted_empty (h : H) : Wanted (empty : St A H) h 0 := ⟨sound_empty, Nat.le_refl _, Nat.le_refl _⟩

/-- **C167** (partial: it is enough that the bytes are there when the proposal is approved, or later, but not when it is
submitted). If the bytes of a scheduled call are there at some time, and the length given is the right one, then whatever
anybody but root does afterwards, they are still there when the task is due, and the call is made. -/
theorem C167_partial (c : Cfg H) (before ops : List (Op A H)) (s s' : St A H) (x : H) (h : Steps c empty before s)
    (ht : (x, c.size x) ∈ s.tasks) (hs : s.stored x = true) (h' : Steps c s ops s')
    (hroot : ∀ op ∈ before ++ ops, op ≠ .unrequest x ∧ op ≠ .unnote none x) (hlen : (before ++ ops).length < 2 ^ 32)
    (hc : .cancel x (c.size x) ∉ ops) (hu : .run x (c.size x) ∉ ops) (can : A → Nat → Bool) :
    ∃ s'', step c can s' (.run x (c.size x)) = some s'' ∧ s''.made = (x, c.size x) :: s'.made ∧ s''.lost = s'.lost := by
  rw [List.length_append] at hlen
  have hk : before.length + ops.length ≤ u32Max := Nat.le_pred_of_lt hlen
  have hi := wanted_steps h (wanted_empty x) (by omega) fun o ho => hroot o (List.mem_append_left _ ho)
  rw [Nat.zero_add] at hi
  obtain ⟨ht', hs'⟩ := kept_steps h' hi hk (fun o ho => hroot o (List.mem_append_right _ ho)) ht hs hc hu
  have hsd := (exact_steps h' hi.sound (exact_steps h sound_empty (exact_empty c)).2).1
  refine ⟨_, by
    simp only [step]
    rw [if_pos ht', if_pos (by simp [available, hs'])], ?_⟩
  obtain ⟨_, _, _, _, h5, h6, _⟩ :=
    unplace_spec (s := { s' with made := (x, c.size x) :: s'.made }) (sound_same hsd rfl rfl) x (c.size x)
  exact ⟨h5, h6⟩

/-- **C167.** Until the task is due, anybody can supply the bytes of a scheduled call, and it costs no deposit. -/
theorem C167_supply (c : Cfg H) (before : List (Op A H)) (s : St A H) (x : H) (n : Nat) (h : Steps c empty before s)
    (ht : (x, n) ∈ s.tasks) (hroot : ∀ op ∈ before, op ≠ .unrequest x ∧ op ≠ .unnote none x) (hlen : before.length < 2 ^ 32)
    (hsize : c.size x ≤ 4 * 1024 * 1024) (can : A → Nat → Bool) (a : A) :
    ∃ s', step c can s (.note (some a) x) = some s' ∧ s'.stored x = true ∧ s'.held = s.held ∧ (x, n) ∈ s'.tasks := by
  have hk : before.length ≤ u32Max := Nat.le_pred_of_lt hlen
  have hi := wanted_steps h (wanted_empty x) (by omega) hroot
  have hp := waiting_pos ht
  have hc : 0 < s.count x := Nat.lt_of_lt_of_le hp hi.enough
  have hst : ∃ t m l, s.status x = some (.requested t m l) := by
    unfold St.count countOf at hc
    split at hc
    · rename_i t m l e
      exact ⟨t, m, l, e⟩
    · omega
  obtain ⟨t, m, l, hst⟩ := hst
  have hsome : ∃ s', step c can s (.note (some a) x) = some s' := by
    have hsz : ¬ maxSize < c.size x := Nat.not_lt.2 hsize
    simp only [step, note]
    rw [if_neg hsz, hst]
    exact ⟨_, rfl⟩
  obtain ⟨s', hs'⟩ := hsome
  obtain ⟨h1, h2⟩ := C166_free c s s' can (some a) x t m l hst hs'
  exact ⟨s', hs', h2, h1, tasks_step hi.sound ht hs' (by simp) (by simp)⟩

/-- Carry out some calls. Specification only, no code behind it (outside /repo). -/
def execute (c : Cfg H) (can : A → Nat → Bool) : St A H → List (Op A H) → Option (St A H)
  | s, [] => some s
  | s, op :: ops => (step c can s op).bind fun s' => execute c can s' ops

theorem execute_steps {c : Cfg H} {can : A → Nat → Bool} {s s' : St A H} {ops : List (Op A H)}
    (h : execute c can s ops = some s') : Steps c s ops s' := by
  induction ops generalizing s with
  | nil => cases h; exact .nil
  | cons op ops ih =>
    obtain ⟨s1, h1, h2⟩ := Option.bind_eq_some_iff.1 h
    exact .cons h1 (ih h2)

/-- Find the end of a history. -/
theorem found {c : Cfg H} {can : A → Nat → Bool} {ops : List (Op A H)} {P : St A H → Bool} {s : St A H}
    (h : (execute c can s ops).any P = true) : ∃ s', Steps c s ops s' ∧ P s' = true := by
  cases e : execute c can s ops with
  | none => rw [e] at h; cases h
  | some s' =>
    rw [e] at h
    exact ⟨s', execute_steps e, h⟩

/-- Units of Kreivo, and calls of 200 bytes. Example for non-vacuity (outside /repo). -/
def cfg1 : Cfg Nat := ⟨1000000, fun _ => 200⟩

/-- **C167 fails**: that the bytes are there when the proposal is submitted is not enough. A referendum does not ask for them:
whoever noted them can take them back, with the deposit, before the proposal is approved. Then the approved proposal is
scheduled, found without bytes, and given up. -/
theorem C167_fails : ¬ ∀ (c : Cfg Nat) (before ops : List (Op Nat Nat)) (s s' : St Nat Nat) (x : Nat),
    Steps c empty before s → s.stored x = true → (x, c.size x) ∈ s.proposals → Steps c s ops s' →
    (∀ op ∈ before ++ ops, op ≠ .unrequest x ∧ op ≠ .unnote none x ∧ op ≠ .cancel x (c.size x)) →
    (x, c.size x) ∉ s'.lost := by
  intro hall
  obtain ⟨s, h1, hp⟩ := found (c := cfg1) (can := fun _ _ => true) (s := empty) (ops := [.note (some 1) 7, .submit 7 200])
    (P := fun s : St Nat Nat => s.stored 7 && decide ((7, 200) ∈ s.proposals) &&
      (execute cfg1 (fun _ _ => true) s [.unnote (some 1) 7, .approve 7 200, .run 7 200]).any
        fun s' : St Nat Nat => decide ((7, 200) ∈ s'.lost)) (by decide +kernel)
  simp only [Bool.and_eq_true, decide_eq_true_eq] at hp
  obtain ⟨s', h2, hl⟩ := found hp.2
  exact hall cfg1 _ _ s s' 7 h1 hp.1.1 hp.1.2 h2 (by decide +kernel) (of_decide_eq_true hl)

/-- What C166 and C167 ask for happens: bytes are noted and paid for, the proposal approved, the deposit taken back while the
call waits, and the call made. Example for non-vacuity (outside /repo). -/
example : ∃ s s' : St Nat Nat, Steps cfg1 empty [.note (some 1) 7, .submit 7 200, .approve 7 200] s ∧ s.held 1 ≠ 0 ∧
    (7, 200) ∈ s.tasks ∧ s.stored 7 = true ∧ Steps cfg1 s [.unnote (some 1) 7] s' ∧ s'.held 1 = 0 ∧ s'.stored 7 = true := by
  obtain ⟨s, h1, hp⟩ := found (c := cfg1) (can := fun _ _ => true) (s := (empty : St Nat Nat))
    (ops := [.note (some 1) 7, .submit 7 200, .approve 7 200])
    (P := fun s : St Nat Nat => decide (s.held 1 ≠ 0) && decide ((7, 200) ∈ s.tasks) && s.stored 7 &&
      (execute cfg1 (fun _ _ => true) s [.unnote (some 1) 7]).any fun s' : St Nat Nat => decide (s'.held 1 = 0) && s'.stored 7)
    (by decide +kernel)
  simp only [Bool.and_eq_true, decide_eq_true_eq] at hp
  obtain ⟨s', h2, hl⟩ := found hp.2
  simp only [Bool.and_eq_true, decide_eq_true_eq] at hl
  exact ⟨s, s', h1, hp.1.1.1, hp.1.1.2, hp.1.2, h2, hl.1, hl.2⟩

/-- Only a run adds to the calls made: the call of a task, whose bytes are there and as long as the task says. -/
theorem step_made {c : Cfg H} {can : A → Nat → Bool} {s s' : St A H} {op : Op A H} (h : step c can s op = some s') :
    s'.made = s.made ∨ ∃ x, op = .run x (c.size x) ∧ (x, c.size x) ∈ s.tasks ∧ s.stored x = true ∧
      s'.made = (x, c.size x) :: s.made := by
  have hq (s : St A H) (x : H) : (request s x).made = s.made := by unfold request; split <;> rfl
  have hu (s s' : St A H) (x : H) (h : unrequest s x = some s') : s'.made = s.made := by
    unfold unrequest at h
    repeat' split at h
    all_goals cases h
    all_goals rfl
  have hp (s : St A H) (x : H) (n : Nat) : (unplace s x n).made = s.made := by
    unfold unplace
    cases hx : unrequest { s with tasks := s.tasks.erase (x, n) } x with
    | none => simp [hx]
    | some s' => simpa [hx] using hu _ _ _ hx
  cases op with
  | note who x =>
    simp only [step, note] at h
    repeat' split at h
    all_goals cases h
    all_goals exact .inl rfl
  | unnote who x =>
    simp only [step, unnote] at h
    repeat' split at h
    all_goals first
      | exact .inl (hu _ _ _ h)
      | (cases h; done)
      | (cases h; exact .inl rfl)
  | request x => cases h; exact .inl (hq _ _)
  | unrequest x => exact .inl (hu _ _ _ h)
  | submit x n => simp only [step] at h; split at h <;> cases h; exact .inl rfl
  | drop x n => simp only [step] at h; split at h <;> cases h; exact .inl rfl
  | approve x n => simp only [step] at h; split at h <;> cases h; exact .inl (hq _ _)
  | schedule x n => cases h; exact .inl (hq _ _)
  | cancel x n => simp only [step] at h; split at h <;> cases h; exact .inl (hp _ _ _)
  | run x n =>
    simp only [step] at h
    split at h
    · rename_i ht
      split at h
      · rename_i ha
        cases h
        simp only [available, Bool.and_eq_true, decide_eq_true_eq] at ha
        obtain ⟨hs, rfl⟩ := ha
        exact .inr ⟨x, rfl, ht, hs, hp _ _ _⟩
      · cases h
        exact .inl (hp _ _ _)
    · cases h

/-- **C167.** A call is made only when a task for it is due, its bytes are there, and they are as long as was said when it was
proposed. -/
theorem C167_only (c : Cfg H) (ops : List (Op A H)) (s s' : St A H) (can : A → Nat → Bool) (op : Op A H) (x : H) (n : Nat)
    (_h : Steps c empty ops s) (hop : step c can s op = some s') (hm : (x, n) ∈ s'.made) (hn : (x, n) ∉ s.made) :
    op = .run x n ∧ (x, n) ∈ s.tasks ∧ s.stored x = true ∧ n = c.size x := by
  rcases step_made hop with he | ⟨y, rfl, ht, hs, he⟩
  · rw [he] at hm
    exact absurd hm hn
  · rw [he, List.mem_cons] at hm
    rcases hm with hm | hm
    · cases hm
      exact ⟨rfl, ht, hs, rfl⟩
    · exact absurd hm hn

/-- A call is made and C167_only speaks of it. Example for non-vacuity (outside /repo). -/
example : ∃ s s' : St Nat Nat, Steps cfg1 empty [.note (some 1) 7, .submit 7 200, .approve 7 200] s ∧
    step cfg1 (fun _ _ => true) s (.run 7 200) = some s' ∧ (7, 200) ∈ s'.made ∧ (7, 200) ∉ s.made := by
  obtain ⟨s, h1, hp⟩ := found (c := cfg1) (can := fun _ _ => true) (s := (empty : St Nat Nat))
    (ops := [.note (some 1) 7, .submit 7 200, .approve 7 200])
    (P := fun s : St Nat Nat => decide ((7, 200) ∉ s.made) &&
      (step cfg1 (fun _ _ => true) s (.run 7 200)).any fun s' : St Nat Nat => decide ((7, 200) ∈ s'.made))
    (by decide +kernel)
  simp only [Bool.and_eq_true, decide_eq_true_eq, Option.any_eq_true] at hp
  obtain ⟨s', h2, hl⟩ := hp.2
  exact ⟨s, s', h1, h2, hl, hp.1⟩

end Verif.Runtime.Preimages
