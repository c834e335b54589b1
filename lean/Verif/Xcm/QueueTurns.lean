import Mathlib.Data.List.Nodup
import Mathlib.Data.List.Perm.Subperm
import Verif.Xcm.QueueTheorems

/-
C174: every chain gets its turn. The queues of all chains stand in a ring
(`pallet_message_queue`, outside /repo, configured at runtime/kreivo/src/lib.rs 298-323); each block
serves the queue at the head first, with the whole service weight, and moves the head on.

Simplified: what a block does after serving the first queue is left open: it may serve any queues, in
any order, with any weight, and messages may arrive; the real loop is one of these. No queue is
paused.
-/

set_option linter.unusedSectionVars false

namespace Verif.Xcm.Queue

variable {M : Type} {O : Type} [DecidableEq O]

/-- All queues and the ring of those to be served, its head first. Outside /repo; used at
runtime/kreivo/src/lib.rs 302-323. -/
structure Sys (O M : Type) where
  queue : O → St M
  ring : List O

/-- No chain sent anything yet. Outside /repo; used at runtime/kreivo/src/lib.rs 302-323. -/
def Sys.init : Sys O M := ⟨fun _ => .init, []⟩

/-- Something happens to the queue of a chain; the queue enters the ring at its end if it is ready
now (`ready_ring_knit`), and leaves it if it no longer is (`ready_ring_unknit`). Outside /repo; used
at runtime/kreivo/src/lib.rs 302-323. -/
def touch (i : Info M) (c : Costs) (s : Sys O M) (e : O × Op M) : Sys O M :=
  let q := step i c (s.queue e.1) e.2
  { queue := fun o => if o = e.1 then q else s.queue o
    ring :=
      if (s.queue e.1).book.ready = q.book.ready then s.ring
      else if q.book.ready then s.ring ++ [e.1] else s.ring.erase e.1 }

/-- `on_initialize` up to the first queue: `bump_service_head` and `service_queue`; outside /repo;
used at runtime/kreivo/src/lib.rs 302-323. -/
def head (i : Info M) (c : Costs) (s : Sys O M) : Sys O M :=
  match s.ring with
  | [] => s
  | h :: t => touch i c { s with ring := t ++ [h] } (h, .serve (c.service - c.bump))

/-- A block: the first queue is served, then anything happens to any queues. Outside /repo; used at
runtime/kreivo/src/lib.rs 302-323. -/
def block (i : Info M) (c : Costs) (s : Sys O M) (es : List (O × Op M)) : Sys O M :=
  es.foldl (touch i c) (head i c s)

/-- A chain of blocks. Part of the transition system around the code (outside /repo). -/
def chain (i : Info M) (c : Costs) (bs : List (List (O × Op M))) (s : Sys O M) : Sys O M :=
  bs.foldl (block i c) s

/-- What every chain of blocks keeps. Part of the transition system around the code (outside
/repo). -/
structure SysOk (i : Info M) (c : Costs) (s : Sys O M) : Prop where
  good : ∀ o, Good i c (s.queue o)
  nodup : s.ring.Nodup
  ring : ∀ o, o ∈ s.ring ↔ (s.queue o).book.ready = true

theorem touch_ok {i : Info M} {c : Costs} {s : Sys O M} (h : SysOk i c s) (e : O × Op M) :
    SysOk i c (touch i c s e) := by
  have hg : ∀ o, Good i c ((touch i c s e).queue o) := by
    intro o
    simp only [touch]
    split
    · exact good_step (h.good _) _
    · exact h.good o
  have hr := h.ring e.1
  refine ⟨hg, ?_, ?_⟩
  · simp only [touch]
    split
    · exact h.nodup
    · rename_i hne
      split
      · rename_i hq
        have : e.1 ∉ s.ring := by
          rw [hr]
          intro hc
          exact hne (by rw [hc, hq])
        rw [List.nodup_append]
        refine ⟨h.nodup, by simp, fun a ha b hb => ?_⟩
        rw [List.mem_singleton] at hb
        subst hb
        rintro rfl
        exact this ha
      · exact h.nodup.erase _
  · intro o
    simp only [touch]
    by_cases ho : o = e.1
    · subst ho
      rw [if_pos rfl]
      split
      · rename_i heq
        rw [hr, heq]
      · rename_i hne
        split
        · rename_i hq
          simp [hq]
        · rename_i hq
          rw [h.nodup.mem_erase_iff]
          simp [hq]
    · rw [if_neg ho]
      have := h.ring o
      split
      · exact this
      · split
        · simp [ho, this]
        · rw [h.nodup.mem_erase_iff]
          simp [ho, this]

theorem touches_ok {i : Info M} {c : Costs} (es : List (O × Op M)) {s : Sys O M} (h : SysOk i c s) :
    SysOk i c (es.foldl (touch i c) s) := by
  induction es generalizing s with
  | nil => exact h
  | cons e es ih => exact ih (touch_ok h e)

theorem rotate_ok {i : Info M} {c : Costs} {s : Sys O M} (h : SysOk i c s) {a : O} {t : List O}
    (hr : s.ring = a :: t) : SysOk i c { s with ring := t ++ [a] } := by
  have hn := h.nodup
  rw [hr] at hn
  refine ⟨h.good, ?_, fun o => ?_⟩
  · exact (List.perm_append_singleton a t).nodup_iff.2 hn
  · rw [← h.ring o, hr]
    exact (List.perm_append_singleton a t).mem_iff

theorem head_ok {i : Info M} {c : Costs} {s : Sys O M} (h : SysOk i c s) : SysOk i c (head i c s) := by
  unfold head
  split
  · exact h
  · rename_i a t hr
    exact touch_ok (rotate_ok h hr) _

theorem block_ok {i : Info M} {c : Costs} {s : Sys O M} (h : SysOk i c s) (es : List (O × Op M)) :
    SysOk i c (block i c s es) := touches_ok es (head_ok h)

theorem chain_ok {i : Info M} {c : Costs} (bs : List (List (O × Op M))) {s : Sys O M}
    (h : SysOk i c s) : SysOk i c (chain i c bs s) := by
  induction bs generalizing s with
  | nil => exact h
  | cons b bs ih => exact ih (block_ok h b)

theorem init_ok (i : Info M) (c : Costs) : SysOk i c (Sys.init : Sys O M) :=
  ⟨fun _ => good_init i c, List.nodup_nil, fun o => by simp [Sys.init, St.init, Book.empty]⟩

section progress

variable {i : Info M} {c : Costs}

/-- The first page of a book still has a message waiting. Specification only, no code behind it
(outside /repo). -/
def Live (b : Book M) : Prop := b.start < b.stop ∧ restO (b.pages b.start) ≠ []

theorem page_rest {b : Book M} (h : BookOk i c b) (w : Nat) :
    (page i c b w).2.2.2.map Prod.fst ++ restO ((page i c b w).1.pages b.start) =
      restO (b.pages b.start) := by
  unfold page
  split
  · simp
  · split
    · simp
    · rename_i p hp
      obtain ⟨hpo, -, -⟩ := h.page _ p hp
      obtain ⟨a1, a2, -⟩ := items_ok (i := i) (c := c) (p.items.length + 1) p (w - c.page) hpo
      simp only
      generalize items i c (p.items.length + 1) p (w - c.page) = r at *
      split
      · rename_i h0
        simp only [put_same, restO]
        rw [hp]
        rw [rest_of_zero a1 h0] at a2
        exact a2
      · simp only [put_same, restO]
        rw [hp]
        exact a2

theorem waiting_live {b : Book M} (h : Live b) : waiting b ≠ [] := by
  unfold waiting
  obtain ⟨n, hn⟩ : ∃ n, b.stop - b.start = n + 1 := ⟨b.stop - b.start - 1, by have := h.1; omega⟩
  rw [hn, waitingFrom]
  intro hc
  exact h.2 (List.append_eq_nil_iff.1 hc).1

theorem waiting_lt {b : Book M} (h : waiting b ≠ []) : b.start < b.stop := by
  by_contra hc
  apply h
  unfold waiting
  rw [show b.stop - b.start = 0 by omega]
  rfl

/-- While no turn comes, a live first page stays. -/
theorem pages_live {b : Book M} (h : BookOk i c b) (hl : Live b) (n w : Nat)
    (h0 : (pages i c n b w).2.2 = []) : Live (pages i c n b w).1 := by
  cases n with
  | zero => exact hl
  | succ n =>
    have hr := page_rest h w
    obtain ⟨p1, p2, p3, p4, p5, p6, p7, p8⟩ := page_ok h hl.1 w
    unfold pages at h0 ⊢
    simp only at h0 ⊢
    split at h0
    · rename_i hf
      have h1 := (List.append_eq_nil_iff.1 h0).1
      rw [h1, List.map_nil, List.nil_append] at hr
      exact absurd (hr ▸ p8 hf) hl.2
    · rename_i hf
      rw [if_neg hf]
      rw [h0, List.map_nil, List.nil_append] at hr
      exact ⟨by rw [p2, p3]; exact hl.1, by rw [p2, hr]; exact hl.2⟩

theorem serve_live {b : Book M} (h : BookOk i c b) (hl : Live b) (w : Nat)
    (h0 : (serve i c b w).2.2 = []) : Live (serve i c b w).1 := by
  unfold serve at h0 ⊢
  split
  · exact hl
  · rename_i hw
    rw [if_neg hw] at h0
    have := pages_live h hl _ _ h0
    simp only
    split
    · exact this
    · exact this

/-- With the weight for one message, a live first page makes a turn. -/
theorem items_turn {p : Page M} (h : PageOk i c p) (hr : rest p ≠ []) (n w : Nat)
    (hw : c.item + c.limit ≤ w) : (items i c (n + 1) p w).2.2.2 ≠ [] := by
  unfold items
  split
  · rename_i h0
    exact absurd (rest_of_zero h h0) hr
  · split
    · omega
    · split
      · rename_i hn
        exact absurd (rest_nil.2 (List.getElem?_eq_none_iff.1 hn)) hr
      · rename_i m fl hx
        split
        · rename_i w' ha
          unfold attempt at ha
          split at ha
          · simp at ha
          · split at ha
            · simp at ha
            · split at ha
              · simp at ha
              · omega
        · simp
        · simp

/-- Served with the whole weight, a live first page makes a turn. -/
theorem serve_turn {b : Book M} (h : BookOk i c b) (hl : Live b) (w : Nat)
    (hw : c.queue + c.page + c.item + c.limit ≤ w) : (serve i c b w).2.2 ≠ [] := by
  unfold serve
  rw [if_neg (by omega)]
  simp only
  obtain ⟨n, hn⟩ : ∃ n, b.stop - b.start = n + 1 := ⟨b.stop - b.start - 1, by have := hl.1; omega⟩
  rw [hn]
  have hp : (page i c b (w - c.queue)).2.2.2 ≠ [] := by
    unfold page
    rw [if_neg (by omega)]
    split
    · rename_i hp
      exact absurd (by rw [hp]; rfl) hl.2
    · rename_i p hp
      have hr : rest p ≠ [] := by
        have := hl.2
        rw [hp] at this
        exact this
      exact items_turn (h.page _ p hp).1 hr _ _ (by omega)
  unfold pages
  simp only
  split
  · intro hc
    exact hp (List.append_eq_nil_iff.1 hc).1
  · exact hp

/-- Served with the whole weight, a queue whose first page is done with, but not empty, comes to a
live page, or makes a turn. -/
theorem serve_next {b : Book M} (h : BookOk i c b) (hne : waiting b ≠ []) (w : Nat)
    (hw : c.queue + c.page + c.item + c.limit ≤ w) (h0 : (serve i c b w).2.2 = []) :
    Live (serve i c b w).1 := by
  have hlt := waiting_lt hne
  by_cases hl : restO (b.pages b.start) = []
  · unfold serve at h0 ⊢
    rw [if_neg (by omega)] at h0 ⊢
    simp only at h0 ⊢
    obtain ⟨n, hn⟩ : ∃ n, b.stop - b.start = n + 1 := ⟨b.stop - b.start - 1, by omega⟩
    have hfin : (page i c b (w - c.queue)).2.1 = true := by
      unfold page
      rw [if_neg (by omega)]
      split
      · rfl
      · rename_i p hp
        rw [hp] at hl
        simp only
        unfold items
        split
        · rfl
        · split
          · omega
          · split
            · rfl
            · rename_i m fl hx
              have := rest_nil.1 hl
              have := (List.getElem?_eq_some_iff.1 hx).1
              omega
    have hr := page_rest h (w - c.queue)
    obtain ⟨p1, p2, p3, p4, p5, p6, p7, p8⟩ := page_ok h hlt (w - c.queue)
    have hlive : Live (pages i c (b.stop - b.start) b (w - c.queue)).1 := by
      rw [hn] at h0 ⊢
      unfold pages at h0 ⊢
      simp only [hfin, if_true] at h0 ⊢
      obtain ⟨h1, h2⟩ := List.append_eq_nil_iff.1 h0
      have hz := p8 hfin
      obtain ⟨a1, a2, a3⟩ := advance_ok p1 (by rw [p2, p3]; exact hlt) (by rw [p2]; exact hz)
      rw [h1, List.map_nil, List.nil_append] at p5
      have hne' : waiting (page i c b (w - c.queue)).1.turn ≠ [] := by rw [a2, p5]; exact hne
      have hlt' := waiting_lt hne'
      refine pages_live a1 ⟨hlt', ?_⟩ _ _ h2
      obtain ⟨p, hp, hp0, hpi⟩ := p1.fresh ((page i c b (w - c.queue)).1.start + 1)
        (Nat.lt_succ_self _) hlt'
      show restO ((page i c b (w - c.queue)).1.pages ((page i c b (w - c.queue)).1.start + 1)) ≠ []
      rw [hp]
      show rest p ≠ []
      rw [Ne, rest_nil, hp0]
      intro hc
      exact hpi (List.length_eq_zero_iff.1 (Nat.le_zero.1 hc))
    split
    · exact hlive
    · exact hlive
  · exact absurd h0 (serve_turn h ⟨hlt, hl⟩ w hw)

theorem enqueue_live {b : Book M} (hl : Live b) (m : M) : Live (enqueue i b m) := by
  have hlt := hl.1
  unfold enqueue
  simp only
  have hfr : Live { b with
      pages := put b.pages b.stop (some (.of m)), stop := b.stop + 1, count := b.count + 1,
      ready := true } :=
    ⟨Nat.lt_succ_of_lt hlt, by simp only; rw [put_ne _ _ (by omega)]; exact hl.2⟩
  rw [if_pos hlt]
  split
  · rename_i p hp
    split
    · rename_i q hq
      refine ⟨hlt, ?_⟩
      simp only
      by_cases hs : b.start = b.stop - 1
      · rw [← hs, put_same]
        unfold Page.append at hq
        split at hq
        · simp at hq
        · simp only [Option.some.injEq] at hq
          subst hq
          have := hl.2
          rw [hs, hp] at this
          simp only [restO, Ne, rest_nil] at this ⊢
          simp only [List.length_append, List.length_singleton]
          omega
      · rw [put_ne _ _ hs]
        exact hl.2
    · exact hfr
  · exact hfr

theorem foldl_live (ms : List M) {b : Book M} (hl : Live b) : Live (ms.foldl (enqueue i) b) := by
  induction ms generalizing b with
  | nil => exact hl
  | cons m ms ih => exact ih (enqueue_live hl m)

/-- Turns are never taken back. -/
theorem step_turns (s : St M) (o : Op M) : s.turns <+: (step i c s o).turns ∧
    s.sent <+: (step i c s o).sent := by
  cases o with
  | arrive ms => exact ⟨List.prefix_rfl, List.prefix_append _ _⟩
  | descend ms => exact ⟨List.prefix_rfl, List.prefix_append _ _⟩
  | serve w => exact ⟨List.prefix_append _ _, List.prefix_rfl⟩
  | heavy k j w =>
    simp only [step]
    split <;> exact ⟨List.prefix_rfl, List.prefix_rfl⟩
  | reap k =>
    simp only [step]
    split <;> exact ⟨List.prefix_rfl, List.prefix_rfl⟩

/-- While no turn comes, a live first page stays, whatever happens. -/
theorem step_live {s : St M} (h : Good i c s) (hl : Live s.book) (o : Op M)
    (h0 : (step i c s o).turns = s.turns) : Live (step i c s o).book := by
  cases o with
  | arrive ms =>
    show Live (arrive i s.book ms).1
    rw [(arrive_foldl ms s.book).1]
    exact foldl_live _ hl
  | descend ms => exact foldl_live _ hl
  | serve w =>
    have h0 : s.turns ++ (serve i c s.book w).2.2 = s.turns := h0
    exact serve_live h.book hl w (List.append_right_eq_self.1 h0)
  | heavy k j w =>
    have hw : waiting (step i c s (.heavy k j w)).book = waiting s.book ∧
        (step i c s (.heavy k j w)).book.start = s.book.start ∧
        restO ((step i c s (.heavy k j w)).book.pages s.book.start) =
          restO (s.book.pages s.book.start) ∧
        (step i c s (.heavy k j w)).book.stop = s.book.stop := by
      simp only [step]
      split
      · exact ⟨rfl, rfl, rfl, rfl⟩
      · rename_i b m hh
        obtain ⟨a1, a2, -, -⟩ := heavy_ok h.book hh
        have hs : b.start = s.book.start ∧ b.stop = s.book.stop ∧
            waitingFrom b.pages (s.book.start + 1) (s.book.stop - s.book.start - 1) =
            waitingFrom s.book.pages (s.book.start + 1) (s.book.stop - s.book.start - 1) := by
          unfold heavy at hh
          split at hh
          · simp at hh
          · split at hh
            · simp at hh
            · split at hh
              · simp at hh
              · rename_i hpos
                have hpos := not_not.1 hpos
                have hke : k ≤ s.book.start := by rcases hpos with hk | ⟨hk, -⟩ <;> omega
                split at hh
                · simp at hh
                · split at hh
                  · simp only [Option.some.injEq, Prod.mk.injEq] at hh
                    obtain ⟨hb, -⟩ := hh
                    split at hb
                    · subst hb
                      exact ⟨rfl, rfl, waitingFrom_congr _ _ _ _ (fun j h1 _ => by
                        simp only; rw [put_ne _ _ (by omega)])⟩
                    · subst hb
                      exact ⟨rfl, rfl, waitingFrom_congr _ _ _ _ (fun j h1 _ => by
                        simp only; rw [put_ne _ _ (by omega)])⟩
                  · simp at hh
        obtain ⟨hs1, hs2, hs3⟩ := hs
        refine ⟨a2, hs1, ?_, hs2⟩
        have hlt := hl.1
        obtain ⟨n, hn⟩ : ∃ n, s.book.stop - s.book.start = n + 1 :=
          ⟨s.book.stop - s.book.start - 1, by omega⟩
        unfold waiting at a2
        rw [hs1, hs2, hn, waitingFrom, waitingFrom] at a2
        rw [hn] at hs3
        rw [show n + 1 - 1 = n by omega] at hs3
        rw [hs3] at a2
        exact List.append_cancel_right a2
    exact ⟨by rw [hw.2.1, hw.2.2.2]; exact hl.1, by rw [hw.2.1, hw.2.2.1]; exact hl.2⟩
  | reap k =>
    simp only [step]
    split
    · exact hl
    · rename_i b p hh
      obtain ⟨-, -, -, hk, -, -⟩ := reap_ok h.book hh
      unfold reap at hh
      split at hh
      · simp at hh
      · split at hh
        · simp only [Option.some.injEq, Prod.mk.injEq] at hh
          obtain ⟨rfl, -⟩ := hh
          exact ⟨hl.1, by simp only; rw [put_ne _ _ (by omega)]; exact hl.2⟩
        · simp at hh

/-- While no turn comes, what waits stays. -/
theorem step_waits {s : St M} (h : Good i c s) (hne : waiting s.book ≠ []) (o : Op M)
    (h0 : (step i c s o).turns = s.turns) : waiting (step i c s o).book ≠ [] := by
  have h1 := (good_step h o).order
  rw [h0] at h1
  obtain ⟨l, hl⟩ := (step_turns (i := i) (c := c) s o).2
  rw [← hl, ← h.order, List.append_assoc] at h1
  rw [List.append_cancel_left h1]
  intro hc
  exact hne (List.append_eq_nil_iff.1 hc).1

end progress

section fair

variable {i : Info M} {c : Costs}

theorem prefix_eq_of_length {A : Type} {l l' : List A} (h : l <+: l') (hl : l'.length ≤ l.length) :
    l' = l := (h.eq_of_length_le hl).symm

/-- Turns are never taken back. -/
theorem touch_turns (s : Sys O M) (e : O × Op M) (o : O) :
    (s.queue o).turns <+: ((touch i c s e).queue o).turns := by
  simp only [touch]
  split
  · rename_i h
    subst h
    exact (step_turns _ _).1
  · exact List.prefix_rfl

theorem touches_turns (es : List (O × Op M)) (s : Sys O M) (o : O) :
    (s.queue o).turns <+: ((es.foldl (touch i c) s).queue o).turns := by
  induction es generalizing s with
  | nil => exact List.prefix_rfl
  | cons e es ih => exact (touch_turns s e o).trans (ih _)

theorem head_turns (s : Sys O M) (o : O) : (s.queue o).turns <+: ((head i c s).queue o).turns := by
  unfold head
  split
  · exact List.prefix_rfl
  · exact touch_turns _ _ _

theorem block_turns (s : Sys O M) (es : List (O × Op M)) (o : O) :
    (s.queue o).turns <+: ((block i c s es).queue o).turns :=
  (head_turns s o).trans (touches_turns es _ o)

theorem chain_turns (bs : List (List (O × Op M))) (s : Sys O M) (o : O) :
    (s.queue o).turns <+: ((chain i c bs s).queue o).turns := by
  induction bs generalizing s with
  | nil => exact List.prefix_rfl
  | cons b bs ih => exact (block_turns s b o).trans (ih _)

theorem touch_sent (s : Sys O M) (e : O × Op M) (o : O) :
    (s.queue o).sent <+: ((touch i c s e).queue o).sent := by
  simp only [touch]
  split
  · rename_i h
    subst h
    exact (step_turns _ _).2
  · exact List.prefix_rfl

theorem block_sent (s : Sys O M) (es : List (O × Op M)) (o : O) :
    (s.queue o).sent <+: ((block i c s es).queue o).sent := by
  have h1 : (s.queue o).sent <+: ((head i c s).queue o).sent := by
    unfold head
    split
    · exact List.prefix_rfl
    · exact touch_sent _ _ _
  refine h1.trans ?_
  unfold block
  generalize head i c s = s'
  induction es generalizing s' with
  | nil => exact List.prefix_rfl
  | cons e es ih => exact (touch_sent s' e o).trans (ih _)

theorem chain_sent (bs : List (List (O × Op M))) (s : Sys O M) (o : O) :
    (s.queue o).sent <+: ((chain i c bs s).queue o).sent := by
  induction bs generalizing s with
  | nil => exact List.prefix_rfl
  | cons b bs ih => exact (block_sent s b o).trans (ih _)

/-- A queue with messages waiting is in the ring. -/
theorem in_ring {s : Sys O M} (h : SysOk i c s) {o : O} (hne : waiting (s.queue o).book ≠ []) :
    o ∈ s.ring := (h.ring o).2 ((h.good o).book.ready (waiting_lt hne))

/-- While no turn of a queue comes, anything that happens leaves it waiting, keeps a live first page,
and does not move it back in the ring. -/
theorem touch_keep {s : Sys O M} (h : SysOk i c s) (e : O × Op M) (o : O)
    (hne : waiting (s.queue o).book ≠ [])
    (h0 : ((touch i c s e).queue o).turns = (s.queue o).turns) :
    waiting ((touch i c s e).queue o).book ≠ [] ∧
    (Live (s.queue o).book → Live ((touch i c s e).queue o).book) ∧
    (touch i c s e).ring.idxOf o ≤ s.ring.idxOf o := by
  have hin := in_ring h hne
  have hq : waiting ((touch i c s e).queue o).book ≠ [] ∧
      (Live (s.queue o).book → Live ((touch i c s e).queue o).book) := by
    simp only [touch] at h0 ⊢
    split
    · rename_i ho
      subst ho
      rw [if_pos rfl] at h0
      exact ⟨step_waits (h.good _) hne _ h0, fun hl => step_live (h.good _) hl _ h0⟩
    · exact ⟨hne, id⟩
  refine ⟨hq.1, hq.2, ?_⟩
  have hin' := in_ring (touch_ok h e) hq.1
  by_cases ho : o = e.1
  · subst ho
    have h1 := (h.ring e.1).1 hin
    have h2 := ((touch_ok h e).ring e.1).1 hin'
    have h3 : (step i c (s.queue e.1) e.2).book.ready = true := by
      simpa [touch] using h2
    simp only [touch, h1, h3, if_true]
    exact Nat.le_refl _
  · simp only [touch]
    split
    · exact Nat.le_refl _
    · split
      · rw [List.idxOf_append_of_mem hin]
        exact Nat.le_refl _
      · generalize s.ring = l at hin
        clear * - ho hin
        induction l with
        | nil => simp
        | cons a l ih =>
          by_cases hae : a = e.1
          · subst hae
            rw [List.erase_cons_head, List.idxOf_cons_ne _ (fun hc => ho hc.symm)]
            exact Nat.le_succ _
          · rw [List.erase_cons_tail (by simpa using hae)]
            by_cases hao : a = o
            · subst hao
              simp
            · rw [List.idxOf_cons_ne _ hao, List.idxOf_cons_ne _ hao]
              have : o ∈ l := by
                rcases List.mem_cons.1 hin with rfl | h
                · exact absurd rfl hao
                · exact h
              exact Nat.succ_le_succ (ih this)

theorem touches_keep (es : List (O × Op M)) {s : Sys O M} (h : SysOk i c s) (o : O)
    (hne : waiting (s.queue o).book ≠ [])
    (h0 : ((es.foldl (touch i c) s).queue o).turns = (s.queue o).turns) :
    waiting ((es.foldl (touch i c) s).queue o).book ≠ [] ∧
    (Live (s.queue o).book → Live ((es.foldl (touch i c) s).queue o).book) ∧
    (es.foldl (touch i c) s).ring.idxOf o ≤ s.ring.idxOf o := by
  induction es generalizing s with
  | nil => exact ⟨hne, id, Nat.le_refl _⟩
  | cons e es ih =>
    have h1 := touch_turns (i := i) (c := c) s e o
    have h2 := touches_turns (i := i) (c := c) es (touch i c s e) o
    have h3 : ((touch i c s e).queue o).turns = (s.queue o).turns :=
      prefix_eq_of_length h1 (by
        have := h2.length_le
        rw [List.foldl_cons] at h0
        rw [h0] at this
        exact this)
    obtain ⟨a1, a2, a3⟩ := touch_keep h e o hne h3
    obtain ⟨b1, b2, b3⟩ := ih (touch_ok h e) a1 (by rw [h3]; exact h0)
    exact ⟨b1, fun hl => b2 (a2 hl), Nat.le_trans b3 a3⟩

/-- A block in which a queue with messages waiting makes no turn: the queue moves on in the ring; if
it was at the head its first page is live afterwards, and was not before. -/
theorem block_keep (hc : c.overhead ≤ c.service) {s : Sys O M} (h : SysOk i c s)
    (es : List (O × Op M)) (o : O) (hne : waiting (s.queue o).book ≠ [])
    (h0 : ((block i c s es).queue o).turns = (s.queue o).turns) :
    waiting ((block i c s es).queue o).book ≠ [] ∧
    (Live (s.queue o).book → Live ((block i c s es).queue o).book ∧ 0 < s.ring.idxOf o) ∧
    (0 < s.ring.idxOf o → (block i c s es).ring.idxOf o < s.ring.idxOf o) ∧
    (s.ring.idxOf o = 0 → Live ((block i c s es).queue o).book) := by
  have hin := in_ring h hne
  have h1 := head_turns (i := i) (c := c) s o
  have h2 := touches_turns (i := i) (c := c) es (head i c s) o
  have h3 : ((head i c s).queue o).turns = (s.queue o).turns :=
    prefix_eq_of_length h1 (by
      have := h2.length_le
      rw [show es.foldl (touch i c) (head i c s) = block i c s es from rfl, h0] at this
      exact this)
  have hho := head_ok (i := i) (c := c) h
  have hcost : c.queue + c.page + c.item + c.limit ≤ c.service - c.bump := by
    simp only [Costs.limit, Costs.overhead] at hc ⊢
    omega
  -- the head
  have hhead : waiting ((head i c s).queue o).book ≠ [] ∧
      (Live (s.queue o).book → Live ((head i c s).queue o).book ∧ 0 < s.ring.idxOf o) ∧
      (0 < s.ring.idxOf o → (head i c s).ring.idxOf o < s.ring.idxOf o) ∧
      (s.ring.idxOf o = 0 → Live ((head i c s).queue o).book) := by
    cases hr : s.ring with
    | nil => rw [hr] at hin; simp at hin
    | cons a t =>
      have hhd : head i c s =
          touch i c { s with ring := t ++ [a] } (a, .serve (c.service - c.bump)) := by
        unfold head
        rw [hr]
      have hrot := rotate_ok h hr
      rw [hhd] at h3 ⊢
      obtain ⟨k1, k2, k3⟩ := touch_keep (s := { s with ring := t ++ [a] }) hrot
        (a, .serve (c.service - c.bump)) o hne h3
      by_cases hao : a = o
      · subst hao
        have hq : (touch i c { s with ring := t ++ [a] } (a, Op.serve (c.service - c.bump))).queue a =
            step i c (s.queue a) (.serve (c.service - c.bump)) := by simp [touch]
        rw [hq] at h3
        have hlog : (serve i c (s.queue a).book (c.service - c.bump)).2.2 = [] :=
          List.append_right_eq_self.1 h3
        refine ⟨k1, fun hl => ?_, fun hpos => ?_, fun _ => ?_⟩
        · exact absurd hlog (serve_turn (h.good a).book hl _ hcost)
        · simp at hpos
        · rw [hq]
          exact serve_next (h.good a).book hne _ hcost hlog
      · have hidx : (a :: t).idxOf o = t.idxOf o + 1 := List.idxOf_cons_ne _ hao
        have hmt : o ∈ t := by
          rw [hr] at hin
          rcases List.mem_cons.1 hin with rfl | h
          · exact absurd rfl hao
          · exact h
        simp only at k3
        rw [List.idxOf_append_of_mem hmt] at k3
        refine ⟨k1, fun hl => ⟨k2 hl, by rw [hidx]; omega⟩, fun _ => by rw [hidx]; omega,
          fun hz => by rw [hidx] at hz; omega⟩
  obtain ⟨a1, a2, a3, a4⟩ := hhead
  obtain ⟨b1, b2, b3⟩ := touches_keep es hho o a1 (by rw [h3]; exact h0)
  exact ⟨b1, fun hl => ⟨b2 (a2 hl).1, (a2 hl).2⟩, fun hp => Nat.lt_of_le_of_lt b3 (a3 hp),
    fun hz => b2 (a4 hz)⟩

theorem turns_split {s : Sys O M} {b : List (O × Op M)} {bs : List (List (O × Op M))} {o : O}
    (h0 : ((chain i c (b :: bs) s).queue o).turns = (s.queue o).turns) :
    ((block i c s b).queue o).turns = (s.queue o).turns ∧
      ((chain i c bs (block i c s b)).queue o).turns = ((block i c s b).queue o).turns := by
  have h1 := block_turns (i := i) (c := c) s b o
  have h2 := chain_turns (i := i) (c := c) bs (block i c s b) o
  have h3 : ((block i c s b).queue o).turns = (s.queue o).turns :=
    prefix_eq_of_length h1 (by
      have := h2.length_le
      rw [show chain i c bs (block i c s b) = chain i c (b :: bs) s from rfl, h0] at this
      exact this)
  exact ⟨h3, by rw [h3]; exact h0⟩

/-- A live queue makes a turn before as many blocks have passed as stand before it. -/
theorem live_turn (hc : c.overhead ≤ c.service) : ∀ (bs : List (List (O × Op M))) {s : Sys O M}
    (_ : SysOk i c s) (o : O) (_ : Live (s.queue o).book) (_ : s.ring.idxOf o < bs.length),
    ((chain i c bs s).queue o).turns ≠ (s.queue o).turns
  | [], s, _, o, _, hlen => by simp at hlen
  | b :: bs, s, h, o, hl, hlen => by
    intro h0
    obtain ⟨h1, h2⟩ := turns_split h0
    obtain ⟨a1, a2, a3, a4⟩ := block_keep hc h b o (waiting_live hl) h1
    obtain ⟨l1, l2⟩ := a2 hl
    exact live_turn hc bs (block_ok h b) o l1 (by
      have := a3 l2
      simp only [List.length_cons] at hlen
      omega) h2

theorem ring_length {s : Sys O M} (h : SysOk i c s) (chains : List O) (hall : ∀ o, o ∈ chains) :
    s.ring.length ≤ chains.length :=
  (List.subperm_of_subset h.nodup (fun o _ => hall o)).length_le

/-- A queue with messages waiting makes a turn within twice as many blocks as there are chains. -/
theorem some_turn (hc : c.overhead ≤ c.service) (chains : List O) (hall : ∀ o, o ∈ chains) :
    ∀ (bs : List (List (O × Op M))) {s : Sys O M} (_ : SysOk i c s) (o : O)
    (_ : waiting (s.queue o).book ≠ [])
    (_ : s.ring.idxOf o + 1 + chains.length ≤ bs.length),
    ((chain i c bs s).queue o).turns ≠ (s.queue o).turns
  | [], s, _, o, _, hlen => by simp at hlen
  | b :: bs, s, h, o, hne, hlen => by
    intro h0
    obtain ⟨h1, h2⟩ := turns_split h0
    obtain ⟨a1, a2, a3, a4⟩ := block_keep hc h b o hne h1
    simp only [List.length_cons] at hlen
    by_cases hz : s.ring.idxOf o = 0
    · have hl := a4 hz
      have hb := block_ok h b
      have hin := in_ring hb a1
      have := List.idxOf_lt_length_iff.2 hin
      have := ring_length hb chains hall
      exact live_turn hc bs hb o hl (by omega) h2
    · have := a3 (by omega)
      exact some_turn hc chains hall bs (block_ok h b) o a1 (by omega) h2

theorem many_turns (hc : c.overhead ≤ c.service) (chains : List O) (hall : ∀ o, o ∈ chains) :
    ∀ (n : Nat) (bs : List (List (O × Op M))) {s : Sys O M} (_ : SysOk i c s) (o : O)
    (_ : n * (2 * chains.length) ≤ bs.length),
    (s.queue o).turns.length + n ≤ ((chain i c bs s).queue o).turns.length ∨
      (s.queue o).sent.length ≤ ((chain i c bs s).queue o).turns.length
  | 0, bs, s, h, o, _ => Or.inl (chain_turns bs s o).length_le
  | n + 1, bs, s, h, o, hlen => by
    have hmono := (chain_turns (i := i) (c := c) bs s o).length_le
    by_cases hne : waiting (s.queue o).book = []
    · right
      have := (h.good o).order
      rw [hne, List.append_nil] at this
      rw [← this, List.length_map]
      exact hmono
    · have hl1 : 2 * chains.length ≤ bs.length := by
        refine Nat.le_trans ?_ hlen
        rw [Nat.add_mul, Nat.one_mul]
        exact Nat.le_add_left _ _
      have hsplit : chain i c bs s =
          chain i c (bs.drop (2 * chains.length)) (chain i c (bs.take (2 * chains.length)) s) := by
        unfold chain
        rw [← List.foldl_append, List.take_append_drop]
      have hin := in_ring h hne
      have hi := List.idxOf_lt_length_iff.2 hin
      have hr := ring_length h chains hall
      have ht := some_turn hc chains hall (bs.take (2 * chains.length)) h o hne (by
        rw [List.length_take]
        omega)
      have hp := chain_turns (i := i) (c := c) (bs.take (2 * chains.length)) s o
      have hlt : (s.queue o).turns.length <
          ((chain i c (bs.take (2 * chains.length)) s).queue o).turns.length := by
        by_contra hcn
        exact ht (prefix_eq_of_length hp (by omega))
      have := many_turns hc chains hall n (bs.drop (2 * chains.length))
        (chain_ok (bs.take (2 * chains.length)) h) o (by
          rw [List.length_drop]
          rw [Nat.add_mul, Nat.one_mul] at hlen
          omega)
      rw [← hsplit] at this
      have hs := (chain_sent (i := i) (c := c) (bs.take (2 * chains.length)) s o).length_le
      rcases this with h1 | h1
      · left; omega
      · right; omega

end fair

/-- C174. Every message gets its turn, whatever the other chains send: if `n` chains can send, the
message with `d` messages of its own chain before it has had its turn after `2 * n * (d + 1)` blocks.
If the message is light enough for a block it is then done, not set aside. -/
theorem C174_turn (i : Info M) (c : Costs) (hc : c.overhead ≤ c.service) (chains : List O)
    (hall : ∀ o, o ∈ chains) (past future : List (List (O × Op M))) (o : O) (d : Nat) (m : M)
    (hm : (waiting ((chain i c past Sys.init).queue o).book)[d]? = some m)
    (hlen : 2 * chains.length * (d + 1) ≤ future.length) :
    ∃ done, ((chain i c (past ++ future) Sys.init).queue o).turns[
        ((chain i c past Sys.init).queue o).turns.length + d]? = some (m, done) ∧
      (light i c m = true → done = true) := by
  have h := chain_ok (i := i) (c := c) past (init_ok (O := O) i c)
  have hap : chain i c (past ++ future) (Sys.init : Sys O M) =
      chain i c future (chain i c past Sys.init) := by
    unfold chain
    rw [List.foldl_append]
  rw [hap]
  generalize chain i c past (Sys.init : Sys O M) = s at *
  have hg := h.good o
  have hg' := (chain_ok (i := i) (c := c) future h).good o
  have hsent : (s.queue o).sent[(s.queue o).turns.length + d]? = some m := by
    rw [← hg.order, List.getElem?_append_right (by rw [List.length_map]; omega), List.length_map,
      Nat.add_sub_cancel_left]
    exact hm
  have hlt := (List.getElem?_eq_some_iff.1 hsent).1
  have hn := many_turns hc chains hall (d + 1) future h o (by
    rw [Nat.mul_comm]; exact hlen)
  have hlt' : (s.queue o).turns.length + d < ((chain i c future s).queue o).turns.length := by
    rcases hn with h1 | h1 <;> omega
  have hsent' : ((chain i c future s).queue o).sent[(s.queue o).turns.length + d]? = some m := by
    obtain ⟨l, hl⟩ := chain_sent (i := i) (c := c) future s o
    rw [← hl, List.getElem?_append_left hlt]
    exact hsent
  rw [← hg'.order, List.getElem?_append_left (by rw [List.length_map]; exact hlt'),
    List.getElem?_map, List.getElem?_eq_getElem hlt', Option.map_some, Option.some.injEq] at hsent'
  refine ⟨(((chain i c future s).queue o).turns[(s.queue o).turns.length + d]).2, ?_, ?_⟩
  · rw [List.getElem?_eq_getElem hlt', ← hsent']
  · intro hl
    by_contra hd
    have := hg'.aside _ (List.getElem_mem hlt') (by simpa using hd)
    rw [hsent', hl] at this
    simp at this

/-- C174. The queue of a chain with messages waiting is in the ring of queues to be served, and no
queue is in it twice. -/
theorem C174_ring (i : Info M) (c : Costs) (bs : List (List (O × Op M))) (o : O)
    (h : waiting ((chain i c bs Sys.init).queue o).book ≠ []) :
    (chain i c bs (Sys.init : Sys O M)).ring.count o = 1 := by
  have hk := chain_ok (i := i) (c := c) bs (init_ok (O := O) i c)
  exact List.count_eq_one_of_mem hk.nodup (in_ring hk h)

/-- Two chains; the first sends many messages before the second sends one. Example for non-vacuity
(outside /repo). -/
def busy : List (List (Bool × Op Nat)) := [[(true, .arrive (List.replicate 9 90)), (false, .arrive [80])]]

example : (waiting ((chain plain costs busy Sys.init).queue false).book)[0]? = some 80 ∧
    costs.overhead ≤ costs.service := by decide

example : ((chain plain costs (busy ++ [[], []]) Sys.init).queue false).turns = [(80, true)] ∧
    ((chain plain costs (busy ++ [[], []]) Sys.init).queue true).turns = [(90, true)] := by decide

end Verif.Xcm.Queue
