import Verif.Xcm.QueueLemmas

/-
C172: the messages of a chain are executed in the order they were sent, none twice and none lost
except those too heavy for any block.
C173: which messages of other chains are taken at all.
-/

set_option linter.unusedSectionVars false

namespace Verif.Xcm.Queue

variable {M : Type}

/-- What can happen to the queue of one chain: messages of another chain or of the relay chain
arrive, the queue is served with some weight, somebody has a message that was set aside executed, or
has an old page forgotten. Part of the transition system around the code (outside /repo). -/
inductive Op (M : Type)
  | arrive (ms : List M)
  | descend (ms : List M)
  | serve (weight : Nat)
  | heavy (page index weight : Nat)
  | reap (page : Nat)

/-- The queue of one chain with its history: the messages taken, the messages whose turn came, each
with whether it was then done, the messages done in the order they were, and the messages forgotten.
Part of the transition system around the code (outside /repo). -/
structure St (M : Type) where
  book : Book M
  sent : List M
  turns : List (M × Bool)
  done : List M
  forgotten : List M

/-- Nothing happened yet. Part of the transition system around the code (outside /repo). -/
def St.init : St M := ⟨.empty, [], [], [], []⟩

/-- One step. Part of the transition system around the code (outside /repo). -/
def step (i : Info M) (c : Costs) (s : St M) : Op M → St M
  | .arrive ms =>
    let r := arrive i s.book ms
    { s with book := r.1, sent := s.sent ++ r.2 }
  | .descend ms =>
    { s with book := descend i s.book ms, sent := s.sent ++ ms.filter fun m => i.size m ≤ maxLen }
  | .serve w =>
    let r := serve i c s.book w
    { s with book := r.1, turns := s.turns ++ r.2.2, done := s.done ++ doneIn r.2.2 }
  | .heavy k j w =>
    match heavy i s.book k j w with
    | none => s
    | some (b, m) => { s with book := b, done := s.done ++ [m] }
  | .reap k =>
    match reap s.book k with
    | none => s
    | some (b, p) => { s with book := b, forgotten := s.forgotten ++ skipped p }

/-- Any history. Part of the transition system around the code (outside /repo). -/
def run (i : Info M) (c : Costs) (ops : List (Op M)) : St M := ops.foldl (step i c) .init

/-- What every history keeps. Part of the transition system around the code (outside /repo). -/
structure Good (i : Info M) (c : Costs) (s : St M) : Prop where
  book : BookOk i c s.book
  order : s.turns.map Prod.fst ++ waiting s.book = s.sent
  aside : ∀ x ∈ s.turns, x.2 = false → light i c x.1 = false
  light : s.done.filter (light i c) = (s.turns.map Prod.fst).filter (light i c)
  all : ∀ [DecidableEq M] (m : M), (s.turns.map Prod.fst).count m =
    s.done.count m + (setAside s.book).count m + s.forgotten.count m
  heavy : ∀ m ∈ s.forgotten, Queue.light i c m = false

theorem log_split [DecidableEq M] (log : List (M × Bool)) (m : M) :
    (log.map Prod.fst).count m = (doneIn log).count m + (asideIn log).count m := by
  induction log with
  | nil => rfl
  | cons x log ih =>
    obtain ⟨a, d⟩ := x
    cases d <;> simp [doneIn, asideIn, List.count_cons] at ih ⊢ <;> omega

theorem log_light {i : Info M} {c : Costs} (log : List (M × Bool))
    (h : ∀ x ∈ log, x.2 = false → light i c x.1 = false) :
    (doneIn log).filter (light i c) = (log.map Prod.fst).filter (light i c) := by
  induction log with
  | nil => rfl
  | cons x log ih =>
    obtain ⟨a, d⟩ := x
    have ih := ih (fun y hy => h y (List.mem_cons_of_mem _ hy))
    simp only [doneIn] at ih ⊢
    cases d with
    | false =>
      have := h (a, false) List.mem_cons_self rfl
      simp only at this
      simp [this, ih]
    | true => simp [List.filter_cons, ih]

theorem skipped_heavy {i : Info M} {c : Costs} {b : Book M} {k : Nat} {p : Page M}
    (h : BookOk i c b) (hp : b.pages k = some p) : ∀ m ∈ skipped p, light i c m = false :=
  (h.page k p hp).1.heavy

theorem good_step {i : Info M} {c : Costs} {s : St M} (h : Good i c s) (o : Op M) :
    Good i c (step i c s o) := by
  cases o with
  | arrive ms =>
    obtain ⟨h1, -⟩ := arrive_foldl (i := i) ms s.book
    obtain ⟨a1, a2, a3⟩ := foldl_enqueue_ok (arrive i s.book ms).2 h.book
    rw [← h1] at a1 a2 a3
    refine ⟨a1, ?_, h.aside, h.light, ?_, h.heavy⟩
    · show _ ++ waiting (arrive i s.book ms).1 = s.sent ++ (arrive i s.book ms).2
      rw [a2, ← List.append_assoc, show (step i c s (.arrive ms)).turns = s.turns from rfl, h.order]
    · intro _ m
      show (s.turns.map Prod.fst).count m = s.done.count m +
        (setAside (arrive i s.book ms).1).count m + s.forgotten.count m
      rw [a3]
      exact h.all m
  | descend ms =>
    obtain ⟨a1, a2, a3⟩ := foldl_enqueue_ok (ms.filter fun m => i.size m ≤ maxLen) h.book
    refine ⟨a1, ?_, h.aside, h.light, ?_, h.heavy⟩
    · show s.turns.map Prod.fst ++ waiting (descend i s.book ms) =
        s.sent ++ ms.filter fun m => i.size m ≤ maxLen
      rw [descend, a2, ← List.append_assoc, h.order]
    · intro _ m
      show (s.turns.map Prod.fst).count m = s.done.count m +
        (setAside (descend i s.book ms)).count m + s.forgotten.count m
      rw [descend, a3]
      exact h.all m
  | serve w =>
    obtain ⟨a1, a2, a3, a4⟩ := serve_ok h.book w
    refine ⟨a1, ?_, ?_, ?_, ?_, h.heavy⟩
    · show (s.turns ++ (serve i c s.book w).2.2).map Prod.fst ++ waiting (serve i c s.book w).1 =
        s.sent
      rw [List.map_append, List.append_assoc, a2, h.order]
    · intro x hx hx2
      rcases List.mem_append.1 hx with hx | hx
      · exact h.aside x hx hx2
      · exact a4 x hx hx2
    · show (s.done ++ doneIn (serve i c s.book w).2.2).filter _ =
        ((s.turns ++ (serve i c s.book w).2.2).map Prod.fst).filter _
      rw [List.map_append, List.filter_append, List.filter_append, h.light, log_light _ a4]
    · intro _ m
      show ((s.turns ++ (serve i c s.book w).2.2).map Prod.fst).count m =
        (s.done ++ doneIn (serve i c s.book w).2.2).count m +
          (setAside (serve i c s.book w).1).count m + s.forgotten.count m
      rw [List.map_append, List.count_append, List.count_append, a3 m, h.all m, log_split]
      omega
  | heavy k j w =>
    simp only [step]
    split
    · exact h
    · rename_i b m hh
      obtain ⟨a1, a2, a3, a4⟩ := heavy_ok h.book hh
      refine ⟨a1, by simp only; rw [a2]; exact h.order, h.aside, ?_, ?_, h.heavy⟩
      · simp only
        rw [List.filter_append, h.light]
        simp [a3]
      · intro _ x
        simp only
        rw [List.count_append, h.all x]
        have := a4 x
        omega
  | reap k =>
    simp only [step]
    split
    · exact h
    · rename_i b p hh
      obtain ⟨a1, a2, a3, a4, a5, a6⟩ := reap_ok h.book hh
      refine ⟨a1, by simp only; rw [a2]; exact h.order, h.aside, h.light, ?_, ?_⟩
      · intro _ x
        simp only
        rw [List.count_append, h.all x]
        have := a6 x
        omega
      · intro m hm
        rcases List.mem_append.1 hm with hm | hm
        · exact h.heavy m hm
        · exact skipped_heavy h.book a3 m hm

theorem good_init (i : Info M) (c : Costs) : Good i c (St.init : St M) :=
  ⟨empty_ok, rfl, fun _ h => (by simp [St.init] at h), rfl, fun m => by simp [St.init, setAside,
    asides, Book.empty], fun _ h => by simp [St.init] at h⟩

theorem good_run (i : Info M) (c : Costs) (ops : List (Op M)) : Good i c (run i c ops) := by
  unfold run
  have : ∀ (ops : List (Op M)) (s : St M), Good i c s → Good i c (ops.foldl (step i c) s) := by
    intro ops
    induction ops with
    | nil => exact fun _ h => h
    | cons o ops ih => exact fun s h => ih _ (good_step h o)
  exact this ops _ (good_init i c)

/-- C172. Whatever happens, the messages of a chain come to their turn in the order they were taken:
those whose turn came, followed by those still waiting, are all that were taken. -/
theorem C172_turns (i : Info M) (c : Costs) (ops : List (Op M)) :
    (run i c ops).turns.map Prod.fst ++ waiting (run i c ops).book = (run i c ops).sent :=
  (good_run i c ops).order

/-- C172. The messages a block has room for are done in the order they were taken, none left out:
those done, followed by those still waiting, are all that were taken. -/
theorem C172_order (i : Info M) (c : Costs) (ops : List (Op M)) :
    (run i c ops).done.filter (light i c) ++ (waiting (run i c ops).book).filter (light i c) =
      (run i c ops).sent.filter (light i c) := by
  have h := good_run i c ops
  rw [h.light, ← List.filter_append, h.order]

/-- C172. Nothing is lost or done twice: the messages taken are, each as often as it was taken, those
done, those waiting, those set aside and those forgotten. -/
theorem C172_all (i : Info M) (c : Costs) (ops : List (Op M)) :
    (run i c ops).sent.Perm ((run i c ops).done ++ waiting (run i c ops).book ++
      setAside (run i c ops).book ++ (run i c ops).forgotten) := by
  classical
  have h := good_run i c ops
  rw [List.perm_iff_count]
  intro m
  rw [← h.order]
  simp only [List.count_append]
  rw [h.all m]
  omega

/-- C172. Only messages too heavy for any block are set aside or forgotten. -/
theorem C172_heavy (i : Info M) (c : Costs) (ops : List (Op M)) (m : M)
    (h : m ∈ setAside (run i c ops).book ∨ m ∈ (run i c ops).forgotten) :
    ∃ w, i.need m = some w ∧ c.limit < w := by
  have hg := good_run i c ops
  have hl : light i c m = false := by
    rcases h with h | h
    · unfold setAside at h
      generalize (run i c ops).book.stop = n at h
      induction n with
      | zero => simp [asides] at h
      | succ n ih =>
        simp only [asides, List.mem_append] at h
        rcases h with h | h
        · exact ih h
        · cases hp : (run i c ops).book.pages n with
          | none => rw [hp] at h; simp [skippedO] at h
          | some p =>
            rw [hp] at h
            exact skipped_heavy hg.book hp m h
    · exact hg.heavy m h
  unfold light at hl
  split at hl
  · simp at hl
  · rename_i w hw
    exact ⟨w, hw, by simpa using hl⟩

/-- C172. A page with messages that were set aside is forgotten only by a call, and only when
more than eight pages are kept just for such messages; messages that wait for their turn are never forgotten. -/
theorem C172_forget (i : Info M) (c : Costs) (ops : List (Op M)) (o : Op M)
    (h : (step i c (run i c ops) o).forgotten ≠ (run i c ops).forgotten) :
    (∃ k, o = .reap k) ∧ 8 < stored (run i c ops).book.pages (run i c ops).book.start ∧
      waiting (step i c (run i c ops) o).book = waiting (run i c ops).book := by
  have hg := good_run i c ops
  cases o with
  | arrive ms => exact absurd rfl h
  | descend ms => exact absurd rfl h
  | serve w => exact absurd rfl h
  | heavy k j w =>
    simp only [step] at h
    split at h <;> exact absurd rfl h
  | reap k =>
    refine ⟨⟨k, rfl⟩, ?_⟩
    simp only [step] at h ⊢
    split at h
    · exact absurd rfl h
    · rename_i b p hh
      obtain ⟨a1, a2, a3, a4, a5, a6⟩ := reap_ok hg.book hh
      exact ⟨a5 (fun hc => h (by simp [hc])), a2⟩

/-- C172. A message that was set aside is done as soon as somebody pays for the weight it needs. -/
theorem C172_paid (i : Info M) (c : Costs) (ops : List (Op M)) (m : M)
    (h : m ∈ setAside (run i c ops).book) : ∃ k j, ∀ w n, i.need m = some n → n ≤ w →
      (step i c (run i c ops) (.heavy k j w)).done = (run i c ops).done ++ [m] := by
  have hg := good_run i c ops
  generalize hs : run i c ops = s at *
  have hex : ∃ k p, s.book.pages k = some p ∧ m ∈ skipped p := by
    unfold setAside at h
    generalize s.book.stop = n at h
    induction n with
    | zero => simp [asides] at h
    | succ n ih =>
      simp only [asides, List.mem_append] at h
      rcases h with h | h
      · exact ih h
      · cases hp : s.book.pages n with
        | none => rw [hp] at h; simp [skippedO] at h
        | some p => rw [hp] at h; exact ⟨n, p, hp, h⟩
  obtain ⟨k, p, hp, hm⟩ := hex
  simp only [skipped, List.mem_map, List.mem_filter] at hm
  obtain ⟨⟨m', fl⟩, ⟨hmem, hfl⟩, rfl⟩ := hm
  have hfl : fl = false := by simpa using hfl
  subst hfl
  obtain ⟨j, hj⟩ := List.mem_iff_getElem?.1 hmem
  have hjf : j < p.first ∧ p.items[j]? = some (m', false) := by
    rw [List.getElem?_take] at hj
    split at hj
    · rename_i hlt
      exact ⟨hlt, hj⟩
    · simp at hj
  refine ⟨k, j, fun w n hn hw => ?_⟩
  have hk : k < s.book.start ∨ (k = s.book.start ∧ j < p.first) := by
    obtain ⟨-, hks, -⟩ := hg.book.page k p hp
    by_cases h1 : k < s.book.start
    · exact Or.inl h1
    · by_cases h2 : k = s.book.start
      · exact Or.inr ⟨h2, hjf.1⟩
      · obtain ⟨q, hq, hq0, -⟩ := hg.book.fresh k (by omega) hks
        rw [hp] at hq
        cases hq
        omega
  simp only [step, heavy, hp, hjf.2, attempt, hn, if_pos hw, hk]
  simp

/-- Messages by number: message `n` is `n` bytes long and needs weight `n`. Example for non-vacuity
(outside /repo). -/
def plain : Info Nat := ⟨id, some, id⟩

/-- Weights for the examples: messages up to weight 95 are executed by the queue. Example for
non-vacuity (outside /repo). -/
def costs : Costs := ⟨1, 1, 1, 1, 1, 100⟩

/-- Five messages, one of them too heavy. Example for non-vacuity (outside /repo). -/
def history : List (Op Nat) :=
  [.arrive [60, 50, 300], .serve 100, .descend [70], .serve 100, .serve 100, .heavy 0 2 300]

example : (run plain costs history).sent = [60, 50, 300, 70] := by decide
example : (run plain costs history).turns = [(60, true), (50, true), (300, false), (70, true)] := by
  decide
example : (run plain costs history).done = [60, 50, 70, 300] := by decide
example : 300 ∈ setAside (run plain costs (history.take 5)).book := by decide

/-- C173. A page of messages of another chain is taken up to the first message that cannot be. -/
theorem C173_prefix (i : Info M) (b : Book M) (ms : List M) : (arrive i b ms).2 <+: ms :=
  (arrive_foldl ms b).2

theorem enqueue_stop (i : Info M) (b : Book M) (m : M) :
    (enqueue i b m).start = b.start ∧ (enqueue i b m).stop ≤ b.stop + 1 ∧
      b.stop ≤ (enqueue i b m).stop := by
  unfold enqueue
  simp only
  split
  · split
    · split
      · exact ⟨rfl, Nat.le_succ _, Nat.le_refl _⟩
      · exact ⟨rfl, Nat.le_refl _, Nat.le_succ _⟩
    · exact ⟨rfl, Nat.le_refl _, Nat.le_succ _⟩
  · exact ⟨rfl, Nat.le_refl _, Nat.le_succ _⟩

/-- C173, the part that holds. All the messages of a page are taken if none is longer than 65531
bytes and, even if each filled a page of the queue, at most 48 pages would wait. -/
theorem C173_taken_partial (i : Info M) : ∀ (ms : List M) (b : Book M),
    (∀ m ∈ ms, i.size m ≤ 65531) → b.stop - b.start + ms.length ≤ 48 → (arrive i b ms).2 = ms
  | [], _, _, _ => rfl
  | m :: ms, b, hs, hl => by
    have ht : takes i b m = true := by
      simp only [takes, Bool.and_eq_true, decide_eq_true_eq]
      refine ⟨hs m List.mem_cons_self, ?_⟩
      simp only [List.length_cons] at hl
      simp only [dropThreshold]
      omega
    obtain ⟨h1, h2, -⟩ := enqueue_stop i b m
    unfold arrive
    rw [if_pos ht]
    simp only
    rw [C173_taken_partial i ms (enqueue i b m) (fun x hx => hs x (List.mem_cons_of_mem _ hx))
      (by simp only [List.length_cons] at hl; omega)]

example : (arrive plain (Book.empty : Book Nat) [65531, 65531, 3]).2 = [65531, 65531, 3] :=
  C173_taken_partial plain _ _ (by decide) (by decide)

/-- C173. No message longer than 65531 bytes is ever taken, and with it the rest of its page is
dropped. -/
theorem C173_long (i : Info M) (b : Book M) (ms : List M) (m : M) (rest : List M)
    (h : 65531 < i.size m) : (arrive i b (ms ++ m :: rest)).2 <+: ms := by
  induction ms generalizing b with
  | nil =>
    have : takes i b m = false := by
      simp only [takes, Bool.and_eq_false_iff, decide_eq_false_iff_not]
      exact Or.inl (by simp only [maxLen, heapSize, header]; omega)
    simp [arrive, this]
  | cons a ms ih =>
    simp only [List.cons_append, arrive]
    split
    · exact (List.prefix_cons_inj a).2 (ih _)
    · exact List.nil_prefix

/-- C173 fails: a message a channel carries, in a page the queue of outgoing messages would hold, is
dropped on arrival, and a short message behind it too, although nothing is waiting. 102400 bytes is the longest message of most
channels according to the comment on `MaxPageSize`, runtime/kreivo/src/lib.rs 368-373. -/
theorem C173_fails : ¬ ∀ (i : Info Nat) (ms : List Nat), (ms.map i.size).sum ≤ 102400 →
    (arrive i Book.empty ms).2 = ms := by
  intro h
  have := h plain [65532, 10] (by decide)
  exact absurd this (by decide)

/-- C173 fails for chains that send without waiting, too: with 48 pages waiting, a message of one
byte is dropped. -/
theorem C173_full_fails (i : Info M) (b : Book M) (m : M) (h : b.stop - b.start = 48) :
    (arrive i b [m]).2 = [] := by
  have : takes i b m = false := by
    simp only [takes, Bool.and_eq_false_iff, decide_eq_false_iff_not]
    exact Or.inr (by simp only [dropThreshold]; omega)
  simp [arrive, this]

example : (run plain costs [.arrive (List.replicate 48 65531)]).book.stop -
    (run plain costs [.arrive (List.replicate 48 65531)]).book.start = 48 := by decide +kernel

/-- C173. A message of the relay chain is dropped exactly if it is longer than 65531 bytes; the others
are all taken, in their order. -/
theorem C173_relay (i : Info M) (c : Costs) (ops : List (Op M)) (ms : List M) :
    waiting (step i c (run i c ops) (.descend ms)).book =
      waiting (run i c ops).book ++ ms.filter fun m => i.size m ≤ 65531 :=
  (foldl_enqueue_ok (ms.filter fun m => i.size m ≤ maxLen) (good_run i c ops).book).2.1

end Verif.Xcm.Queue
