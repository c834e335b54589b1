import Verif.Runtime.Scheduler
import Verif.Runtime.BlockTheorems

/-!
# Lemmas about the service of scheduled tasks
-/

namespace Verif.Runtime

open Verif

/-! ## Service -/

theorem fits_iff {limit u w : Weight} :
    fits limit u w = true ↔ u.refTime + w.refTime ≤ limit.refTime ∧ u.proofSize + w.proofSize ≤ limit.proofSize := by
  simp [fits]

theorem consume_fits {limit u w : Weight} (h : fits limit u w = true) : consume limit u w = u.plus w := by
  simp [consume, h]

theorem consume_le {limit u w : Weight} (h : Weight.Le u limit) : Weight.Le (consume limit u w) limit := by
  unfold consume
  split
  · rename_i h1
    rw [fits_iff] at h1
    exact h1
  · exact h

/-- The tasks that ran and those kept are the tasks there were. -/
theorem serveTasks_perm (limit : Weight) (ts : List Item) (u : Weight) (e : Nat) :
    ((serveTasks limit ts u e).ran ++ (serveTasks limit ts u e).kept).Perm ts := by
  induction ts generalizing u e with
  | nil => exact List.Perm.refl _
  | cons t ts ih =>
    unfold serveTasks
    dsimp only
    split
    · split
      · split
        · exact (ih _ _).cons t
        · exact List.perm_middle.trans ((ih _ _).cons t)
      · exact List.perm_middle.trans ((ih _ _).cons t)
    · exact List.Perm.refl _

/-- If everything that is set aside fits, every task whose call is to be had runs, and nothing else is left. -/
theorem serveTasks_all (limit : Weight) (ts : List Item) (u : Weight) (e : Nat)
    (hr : ∀ t ∈ ts, t.ready = true) (ha : ∀ t ∈ ts, Weight.Le t.actual t.cost)
    (h : Weight.Le (u.plus (need ts)) limit) :
    (serveTasks limit ts u e).ran = ts ∧ (serveTasks limit ts u e).kept = [] ∧
      (serveTasks limit ts u e).postponed = false := by
  induction ts generalizing u e with
  | nil => exact ⟨rfl, rfl, rfl⟩
  | cons t ts ih =>
    unfold need at h
    unfold Weight.Le Weight.plus at h
    dsimp only at h
    have h1 : fits limit u t.base = true := by rw [fits_iff]; omega
    have h2 : fits limit (u.plus t.base) t.cost = true := by rw [fits_iff]; unfold Weight.plus; dsimp only; omega
    have h3 := ha t List.mem_cons_self
    unfold Weight.Le at h3
    have h4 : fits limit (u.plus t.base) t.actual = true := by
      rw [fits_iff]; unfold Weight.plus; dsimp only; omega
    unfold serveTasks
    rw [if_pos h1, if_pos (hr t List.mem_cons_self), if_pos h2]
    obtain ⟨i1, i2, i3⟩ := ih (consume limit (u.plus t.base) t.actual) (e + 1)
      (fun x hx => hr x (List.mem_cons_of_mem _ hx)) (fun x hx => ha x (List.mem_cons_of_mem _ hx)) (by
        rw [consume_fits h4]
        unfold Weight.Le Weight.plus
        dsimp only
        omega)
    exact ⟨congrArg (t :: ·) i1, i2, i3⟩

theorem need_perm {a b : List Item} (h : a.Perm b) : need a = need b := by
  induction h with
  | nil => rfl
  | cons x _ ih => simp only [need, ih]
  | swap x y l =>
    simp only [need, Weight.plus, Weight.mk.injEq]
    omega
  | trans _ _ i1 i2 => rw [i1, i2]

theorem ordered_perm (a : List Item) : (ordered a).Perm a := List.perm_insertionSort _ _

theorem cancelWeight_eq (n : Nat) : paymentWeight (.cancel n) = ⟨1184037000, 8518⟩ := by
  show measured 309037000 8518 7 7 = _
  decide +kernel

theorem schedulerMax_eq : schedulerMax = ⟨1600000000000, 4194304⟩ := by decide +kernel

theorem need_refunds (base exec : Weight) (names : List Nat) :
    need (names.map (refundItem base exec)) =
      ⟨names.length * (base.refTime + exec.refTime + 1184037000), names.length * (base.proofSize + exec.proofSize + 8518)⟩ := by
  induction names with
  | nil => simp [need]
  | cons n ns ih =>
    rw [List.map_cons, need, ih]
    simp only [refundItem, cancelWeight_eq, Weight.plus, List.length_cons, Nat.add_mul, Weight.mk.injEq]
    omega


/-! ## Delay -/

theorem serveTasks_executed (limit : Weight) (ts : List Item) (u : Weight) (e : Nat) :
    (serveTasks limit ts u e).executed = e + (serveTasks limit ts u e).ran.length := by
  induction ts generalizing u e with
  | nil => rfl
  | cons t ts ih =>
    unfold serveTasks
    dsimp only
    split
    · split
      · split
        · rw [ih, List.length_cons]; omega
        · exact ih _ _
      · exact ih _ _
    · rfl

theorem serveTasks_sublist (limit : Weight) (ts : List Item) (u : Weight) (e : Nat) :
    (serveTasks limit ts u e).kept.Sublist ts := by
  induction ts generalizing u e with
  | nil => exact List.Sublist.refl _
  | cons t ts ih =>
    unfold serveTasks
    dsimp only
    split
    · split
      · split
        · exact (ih _ _).cons t
        · exact (ih _ _).cons_cons t
      · exact (ih _ _).cons_cons t
    · exact List.Sublist.refl _

theorem sum_sublist {a b : List Item} (f : Item → Nat) (h : a.Sublist b) : (a.map f).sum ≤ (b.map f).sum := by
  induction h with
  | slnil => exact le_refl _
  | cons x _ ih => rw [List.map_cons, List.sum_cons]; omega
  | cons_cons x _ ih => rw [List.map_cons, List.sum_cons, List.map_cons, List.sum_cons]; omega

theorem sum_perm {a b : List Item} (f : Item → Nat) (h : a.Perm b) : (a.map f).sum = (b.map f).sum :=
  (h.map f).sum_eq

/-- If nothing has run, what is used is the handling of tasks. -/
theorem serveTasks_used (limit : Weight) (ts : List Item) (u : Weight) (e : Nat)
    (h : (serveTasks limit ts u e).executed = 0) :
    (serveTasks limit ts u e).used.refTime ≤ u.refTime + (ts.map fun x => x.base.refTime).sum ∧
      (serveTasks limit ts u e).used.proofSize ≤ u.proofSize + (ts.map fun x => x.base.proofSize).sum := by
  induction ts generalizing u e with
  | nil => exact ⟨le_refl _, le_refl _⟩
  | cons t ts ih =>
    rw [List.map_cons, List.sum_cons, List.map_cons, List.sum_cons]
    unfold serveTasks at h ⊢
    dsimp only at h ⊢
    split at h
    · rename_i h1
      rw [if_pos h1]
      split at h
      · rename_i h2
        rw [if_pos h2]
        split at h
        · rename_i h3
          rw [serveTasks_executed] at h
          omega
        · rename_i h3
          rw [if_neg h3]
          have := ih _ _ h
          unfold Weight.plus at this
          dsimp only at this
          unfold Weight.plus
          dsimp only
          omega
      · rename_i h2
        rw [if_neg h2]
        have := ih _ _ h
        unfold Weight.plus at this
        dsimp only at this
        unfold Weight.plus
        dsimp only
        omega
    · rename_i h1
      rw [if_neg h1]
      dsimp only
      omega

/-- A task that fits alone either runs, or is to be tried again in a block in which something else has run. -/
theorem serveTasks_mem (limit : Weight) (ts : List Item) (u : Weight) (e : Nat) (t : Item) (ht : t ∈ ts)
    (hr : t.ready = true)
    (h : e = 0 → u.refTime + (ts.map fun x => x.base.refTime).sum + t.cost.refTime ≤ limit.refTime ∧
      u.proofSize + (ts.map fun x => x.base.proofSize).sum + t.cost.proofSize ≤ limit.proofSize) :
    t ∈ (serveTasks limit ts u e).ran ∨
      (t ∈ (serveTasks limit ts u e).kept ∧ (serveTasks limit ts u e).postponed = true ∧
        0 < (serveTasks limit ts u e).executed) := by
  induction ts generalizing u e with
  | nil => cases ht
  | cons x ts ih =>
    simp only [List.map_cons, List.sum_cons] at h
    unfold serveTasks
    dsimp only
    by_cases h1 : fits limit u x.base = true
    · rw [if_pos h1]
      by_cases h2 : x.ready = true
      · rw [if_pos h2]
        by_cases h3 : fits limit (u.plus x.base) x.cost = true
        · rw [if_pos h3]
          dsimp only
          rcases List.mem_cons.1 ht with rfl | ht
          · exact Or.inl List.mem_cons_self
          · rcases ih (consume limit (u.plus x.base) x.actual) (e + 1) ht (by omega) with h4 | h4
            · exact Or.inl (List.mem_cons_of_mem _ h4)
            · exact Or.inr h4
        · rw [if_neg h3]
          dsimp only
          rcases List.mem_cons.1 ht with rfl | ht
          · right
            have he : 0 < e := by
              by_contra hc
              have := h (by omega)
              rw [fits_iff] at h3
              unfold Weight.plus at h3
              dsimp only at h3
              omega
            refine ⟨List.mem_cons_self, by simp [he], ?_⟩
            rw [serveTasks_executed]
            omega
          · rcases ih (u.plus x.base) e ht (by
              intro he
              have := h he
              unfold Weight.plus
              dsimp only
              omega) with h4 | ⟨h4, h5, h6⟩
            · exact Or.inl h4
            · exact Or.inr ⟨List.mem_cons_of_mem _ h4, by rw [h5]; rfl, h6⟩
      · rw [if_neg h2]
        dsimp only
        rcases List.mem_cons.1 ht with rfl | ht
        · exact absurd hr h2
        · rcases ih (u.plus x.base) e ht (by
            intro he
            have := h he
            unfold Weight.plus
            dsimp only
            omega) with h4 | ⟨h4, h5, h6⟩
          · exact Or.inl h4
          · exact Or.inr ⟨List.mem_cons_of_mem _ h4, h5, h6⟩
    · rw [if_neg h1]
      dsimp only
      right
      refine ⟨ht, rfl, ?_⟩
      by_contra hc
      have := h (by omega)
      rw [fits_iff] at h1
      omega

theorem load_nil (f : Item → Nat) (c : Nat) : load f c [] = 0 := rfl

theorem load_cons (f : Item → Nat) (c : Nat) (a : List Item) (l : List (List Item)) :
    load f c (a :: l) = c + (a.map f).sum + load f c l := rfl

theorem load_append (f : Item → Nat) (c : Nat) (a b : List (List Item)) : load f c (a ++ b) = load f c a + load f c b := by
  unfold load
  rw [List.map_append, List.sum_append]

theorem consume_upper (limit u w : Weight) :
    (consume limit u w).refTime ≤ u.refTime + w.refTime ∧ (consume limit u w).proofSize ≤ u.proofSize + w.proofSize := by
  unfold consume
  split
  · exact ⟨le_refl _, le_refl _⟩
  · exact ⟨Nat.le_add_right _ _, Nat.le_add_right _ _⟩

/-- Agendas are not longer than before: for every way of counting. Specification only, no code behind it (outside /repo). -/
def Smaller (p q : List (List Item)) : Prop := ∀ (f : Item → Nat) (c : Nat), load f c p ≤ load f c q

theorem kept_sum (limit : Weight) (a : List Item) (u : Weight) (e : Nat) (f : Item → Nat) :
    ((serveTasks limit (ordered a) u e).kept.map f).sum ≤ (a.map f).sum := by
  rw [← sum_perm f (ordered_perm a)]
  exact sum_sublist f (serveTasks_sublist _ _ _ _)

theorem kept_length (limit : Weight) (a : List Item) (u : Weight) (e : Nat) :
    (serveTasks limit (ordered a) u e).ran.length + (serveTasks limit (ordered a) u e).kept.length = a.length := by
  rw [← List.length_append, (serveTasks_perm limit (ordered a) u e).length_eq, (ordered_perm a).length_eq]

theorem load_one (p : List (List Item)) : load (fun _ => 1) 0 p = p.flatten.length := by
  induction p with
  | nil => rfl
  | cons a p ih => rw [load_cons, ih, List.flatten_cons, List.length_append]; simp

theorem sweep_mem (o : Overheads) (limit : Weight)
    (hm : ∀ k ≤ maxScheduled, Weight.Le (o.agenda k) (o.agenda maxScheduled)) (t : Item) (hr : t.ready = true)
    (pre : List (List Item)) (a : List Item) (post : List (List Item)) (ht : t ∈ a) (u : Weight) (e : Nat)
    (hl : ∀ b ∈ pre ++ [a], b.length ≤ maxScheduled)
    (h : e = 0 → u.refTime + load (fun x => x.base.refTime) (o.agenda maxScheduled).refTime (pre ++ [a]) +
        t.cost.refTime ≤ limit.refTime ∧
      u.proofSize + load (fun x => x.base.proofSize) (o.agenda maxScheduled).proofSize (pre ++ [a]) +
        t.cost.proofSize ≤ limit.proofSize) :
    t ∈ (sweep o limit (pre ++ a :: post) u e).ran ∨
      ∃ pre' a' post', (sweep o limit (pre ++ a :: post) u e).left = pre' ++ (a', false) :: post' ∧ t ∈ a' ∧
        (∀ b ∈ pre'.map Prod.fst ++ [a'], b.length ≤ maxScheduled) ∧
        Smaller (pre'.map Prod.fst ++ [a']) (pre ++ [a]) ∧
        (pre'.map Prod.fst ++ [a']).flatten.length + (if e = 0 then 1 else 0) ≤ (pre ++ [a]).flatten.length := by
  induction pre generalizing u e with
  | nil =>
    simp only [List.nil_append, load_cons, load_nil] at h hl ⊢
    have hla := hl a List.mem_cons_self
    have hma := hm a.length hla
    unfold Weight.Le at hma
    unfold sweep
    by_cases hf : fits limit u (o.agenda maxScheduled) = true
    · rw [if_pos hf]
      dsimp only
      have hc := consume_upper limit u (o.agenda a.length)
      rcases serveTasks_mem limit (ordered a) (consume limit u (o.agenda a.length)) e t
        ((ordered_perm a).mem_iff.2 ht) hr (by
          intro he
          have := h he
          rw [sum_perm _ (ordered_perm a), sum_perm _ (ordered_perm a)]
          omega) with h1 | ⟨h1, h2, h3⟩
      · exact Or.inl (List.mem_append_left _ h1)
      · right
        have hk := kept_length limit a (consume limit u (o.agenda a.length)) e
        rw [serveTasks_executed] at h3
        refine ⟨[], _, _, by rw [h2]; rfl, h1, ?_, ?_, ?_⟩
        · intro b hb
          rw [List.map_nil, List.nil_append, List.mem_singleton] at hb
          rw [hb]
          omega
        · intro f c
          simp only [List.map_nil, List.nil_append, load_cons, load_nil]
          have := kept_sum limit a (consume limit u (o.agenda a.length)) e f
          omega
        · simp only [List.map_nil, List.nil_append, List.flatten_cons, List.flatten_nil, List.append_nil]
          split <;> omega
    · rw [if_neg hf]
      right
      have he : e ≠ 0 := by
        intro hc
        have := h hc
        rw [fits_iff] at hf
        omega
      refine ⟨[], a, post.map fun b => (b, false), rfl, ht, by simpa using hla, fun f c => le_refl _, ?_⟩
      rw [if_neg he]
      exact le_refl _
  | cons b pre ih =>
    rw [List.cons_append, List.cons_append] at *
    simp only [load_cons] at h
    have hlb := hl b List.mem_cons_self
    have hmb := hm b.length hlb
    unfold Weight.Le at hmb
    unfold sweep
    by_cases hf : fits limit u (o.agenda maxScheduled) = true
    · rw [if_pos hf]
      dsimp only
      have hc := consume_upper limit u (o.agenda b.length)
      have hk := kept_length limit b (consume limit u (o.agenda b.length)) e
      have hx := serveTasks_executed limit (ordered b) (consume limit u (o.agenda b.length)) e
      rcases ih (serveTasks limit (ordered b) (consume limit u (o.agenda b.length)) e).used
        (serveTasks limit (ordered b) (consume limit u (o.agenda b.length)) e).executed
        (fun c hc => hl c (List.mem_cons_of_mem _ hc)) (by
          intro he
          have h0 : e = 0 := by omega
          have h1 := serveTasks_used limit _ _ _ he
          rw [sum_perm _ (ordered_perm b), sum_perm _ (ordered_perm b)] at h1
          have := h h0
          omega) with h1 | ⟨pre', a', post', h1, h2, h3, h4, h5⟩
      · exact Or.inl (List.mem_append_right _ h1)
      · right
        refine ⟨(_, _) :: pre', a', post', by rw [h1]; rfl, h2, ?_, ?_, ?_⟩
        · intro c hc
          rw [List.map_cons, List.cons_append] at hc
          rcases List.mem_cons.1 hc with rfl | hc
          · dsimp only
            omega
          · exact h3 c hc
        · intro f c
          rw [List.map_cons, List.cons_append, load_cons, load_cons]
          have := kept_sum limit b (consume limit u (o.agenda b.length)) e f
          have := h4 f c
          dsimp only
          omega
        · rw [List.map_cons, List.cons_append, List.flatten_cons, List.length_append, List.flatten_cons, List.length_append]
          dsimp only
          split at h5 <;> split <;> omega
    · rw [if_neg hf]
      right
      have he : e ≠ 0 := by
        intro hc
        have := h hc
        rw [fits_iff] at hf
        omega
      refine ⟨(b :: pre).map fun b => (b, false), a, post.map fun b => (b, false), ?_, ht, ?_, ?_, ?_⟩
      · simp
      · simpa using hl
      · intro f c
        rw [List.map_map, Function.comp_def, List.map_id']
        exact le_refl _
      · rw [if_neg he, List.map_map, Function.comp_def, List.map_id']
        exact le_refl _

theorem dropWhile_keep {α : Type} (l : List (α × Bool)) (x : α) (r : List (α × Bool)) :
    ∃ s, s <:+ l ∧ (l ++ (x, false) :: r).dropWhile Prod.snd = s ++ (x, false) :: r := by
  induction l with
  | nil => exact ⟨[], List.suffix_refl _, by simp⟩
  | cons y l ih =>
    by_cases hy : y.2 = true
    · obtain ⟨s, h1, h2⟩ := ih
      exact ⟨s, h1.trans (List.suffix_cons _ _), by rw [List.cons_append, List.dropWhile_cons, if_pos hy, h2]⟩
    · exact ⟨y :: l, List.suffix_refl _, by rw [List.cons_append, List.dropWhile_cons, if_neg hy]⟩

theorem serveBlock_mem (o : Overheads) (limit : Weight)
    (hm : ∀ k ≤ maxScheduled, Weight.Le (o.agenda k) (o.agenda maxScheduled)) (t : Item) (hr : t.ready = true)
    (pre : List (List Item)) (a : List Item) (post : List (List Item)) (ht : t ∈ a)
    (hl : ∀ b ∈ pre ++ [a], b.length ≤ maxScheduled) (h : FitsAlone o limit (pre ++ [a]) t) :
    t ∈ (serveBlock o limit (pre ++ a :: post)).1 ∨
      ∃ pre' a' post', (serveBlock o limit (pre ++ a :: post)).2 = pre' ++ a' :: post' ∧ t ∈ a' ∧
        (∀ b ∈ pre' ++ [a'], b.length ≤ maxScheduled) ∧ FitsAlone o limit (pre' ++ [a']) t ∧
        (pre' ++ [a']).flatten.length < (pre ++ [a]).flatten.length := by
  have h0 := h
  unfold FitsAlone at h
  have f1 : fits limit ⟨0, 0⟩ o.agendas = true := by rw [fits_iff]; dsimp only; omega
  have e1 : consume limit ⟨0, 0⟩ o.agendas = o.agendas := by
    rw [consume_fits f1]; unfold Weight.plus; simp
  unfold serveBlock
  rw [if_pos f1, e1]
  dsimp only
  rcases sweep_mem o limit hm t hr pre a post ht o.agendas 0 hl (fun _ => h) with h1 | ⟨p, a', q, h1, h2, h3, h4, h5⟩
  · exact Or.inl h1
  · right
    obtain ⟨s, hs, hd⟩ := dropWhile_keep p a' q
    rw [h1, hd]
    obtain ⟨d, rfl⟩ := hs
    rw [if_pos rfl] at h5
    rw [List.map_append, List.append_assoc] at h3 h4 h5
    refine ⟨s.map Prod.fst, a', q.map Prod.fst, by simp, h2,
      fun b hb => h3 b (List.mem_append_right _ hb), ?_, ?_⟩
    · have g1 := h4 (fun x => x.base.refTime) (o.agenda maxScheduled).refTime
      have g2 := h4 (fun x => x.base.proofSize) (o.agenda maxScheduled).proofSize
      rw [load_append] at g1 g2
      unfold FitsAlone
      omega
    · rw [List.flatten_append, List.length_append] at h5
      omega

theorem serveBlocks_mem (o : Overheads) (limit : Weight)
    (hm : ∀ k ≤ maxScheduled, Weight.Le (o.agenda k) (o.agenda maxScheduled)) (t : Item) (hr : t.ready = true)
    (n : Nat) (pre : List (List Item)) (a : List Item) (post : List (List Item)) (ht : t ∈ a)
    (hl : ∀ b ∈ pre ++ [a], b.length ≤ maxScheduled) (h : FitsAlone o limit (pre ++ [a]) t)
    (hn : (pre ++ [a]).flatten.length ≤ n) (news : List (List Item)) (hw : n ≤ news.length) :
    t ∈ (serveBlocks o limit (pre ++ a :: post) news).1 := by
  induction n generalizing pre a post news with
  | zero =>
    rw [List.flatten_append, List.length_append, List.flatten_cons, List.length_append] at hn
    have := List.length_pos_of_mem ht
    omega
  | succ n ih =>
    cases news with
    | nil => exact absurd hw (by simp)
    | cons b news =>
      unfold serveBlocks
      dsimp only
      rw [show pre ++ a :: post ++ [b] = pre ++ a :: (post ++ [b]) by simp]
      rw [List.length_cons] at hw
      rcases serveBlock_mem o limit hm t hr pre a (post ++ [b]) ht hl h with h1 | ⟨p, a', q, h1, h2, h3, h4, h5⟩
      · exact List.mem_append_left _ h1
      · apply List.mem_append_right
        rw [h1]
        exact ih p a' q h2 h3 h4 (by omega) news (by omega)

/-! ## Once -/

theorem sweep_perm (o : Overheads) (limit : Weight) (l : List (List Item)) (u : Weight) (e : Nat) :
    ((sweep o limit l u e).ran ++ ((sweep o limit l u e).left.map Prod.fst).flatten).Perm l.flatten := by
  induction l generalizing u e with
  | nil => exact List.Perm.refl _
  | cons a l ih =>
    unfold sweep
    split
    · dsimp only
      rw [List.map_cons, List.flatten_cons, List.flatten_cons]
      have h1 := (serveTasks_perm limit (ordered a) (consume limit u (o.agenda a.length)) e).trans (ordered_perm a)
      have h2 := ih (serveTasks limit (ordered a) (consume limit u (o.agenda a.length)) e).used
        (serveTasks limit (ordered a) (consume limit u (o.agenda a.length)) e).executed
      refine List.Perm.trans ?_ (h1.append h2)
      rw [List.append_assoc, List.append_assoc]
      refine List.Perm.append_left _ ?_
      rw [← List.append_assoc, ← List.append_assoc]
      exact List.Perm.append_right _ List.perm_append_comm
    · simp [Function.comp_def]

theorem serveBlock_sub (o : Overheads) (limit : Weight) (l : List (List Item)) :
    ((serveBlock o limit l).1 ++ (serveBlock o limit l).2.flatten).Subperm l.flatten := by
  unfold serveBlock
  split
  · dsimp only
    refine List.Subperm.trans ?_ (sweep_perm o limit l (consume limit ⟨0, 0⟩ o.agendas) 0).subperm
    refine List.Sublist.subperm (List.Sublist.append_left ?_ _)
    exact ((List.dropWhile_suffix _).sublist.map _).flatten
  · exact List.Subperm.refl _


/-! ## Share -/

theorem serveTasks_ready (limit : Weight) (ts : List Item) (u : Weight) (e : Nat) :
    ∀ t ∈ (serveTasks limit ts u e).ran, t ∈ ts ∧ t.ready = true := by
  induction ts generalizing u e with
  | nil => intro t ht; cases ht
  | cons x ts ih =>
    intro t ht
    unfold serveTasks at ht
    dsimp only at ht
    split at ht
    · split at ht
      · rename_i hr
        split at ht
        · rcases List.mem_cons.1 ht with rfl | ht
          · exact ⟨List.mem_cons_self, hr⟩
          · exact ⟨List.mem_cons_of_mem _ (ih _ _ t ht).1, (ih _ _ t ht).2⟩
        · exact ⟨List.mem_cons_of_mem _ (ih _ _ t ht).1, (ih _ _ t ht).2⟩
      · exact ⟨List.mem_cons_of_mem _ (ih _ _ t ht).1, (ih _ _ t ht).2⟩
    · cases ht

theorem serveTasks_share (limit : Weight) (ts : List Item) (u : Weight) (e : Nat) (hu : Weight.Le u limit)
    (ha : ∀ t ∈ ts, Weight.Le t.actual t.cost) :
    Weight.Le (u.plus (spent (serveTasks limit ts u e).ran)) (serveTasks limit ts u e).used ∧
      Weight.Le (serveTasks limit ts u e).used limit := by
  induction ts generalizing u e with
  | nil => exact ⟨⟨le_refl _, le_refl _⟩, hu⟩
  | cons t ts ih =>
    have hi := fun u e hu => ih u e hu (fun x hx => ha x (List.mem_cons_of_mem _ hx))
    unfold serveTasks
    dsimp only
    split
    · rename_i h1
      have h1' := fits_iff.1 h1
      have hp : Weight.Le (u.plus t.base) limit := h1'
      split
      · split
        · rename_i h3
          have h4 := ha t List.mem_cons_self
          have h5 : fits limit (u.plus t.base) t.actual = true := by
            rw [fits_iff] at h3 ⊢
            unfold Weight.Le at h4
            omega
          rw [consume_fits h5]
          have h6 := hi ((u.plus t.base).plus t.actual) (e + 1) (fits_iff.1 h5)
          unfold Weight.Le Weight.plus at h6
          dsimp only at h6
          unfold spent Weight.Le Weight.plus
          dsimp only
          omega
        · have h6 := hi (u.plus t.base) e hp
          unfold Weight.Le Weight.plus at h6
          dsimp only at h6
          unfold Weight.Le Weight.plus
          dsimp only
          omega
      · have h6 := hi (u.plus t.base) e hp
        unfold Weight.Le Weight.plus at h6
        dsimp only at h6
        unfold Weight.Le Weight.plus
        dsimp only
        omega
    · exact ⟨⟨le_refl _, le_refl _⟩, hu⟩

theorem spent_append (a b : List Item) : spent (a ++ b) = (spent a).plus (spent b) := by
  induction a with
  | nil => simp [spent, Weight.plus]
  | cons x a ih =>
    rw [List.cons_append, spent, spent, ih]
    simp only [Weight.plus, Weight.mk.injEq]
    omega

theorem sweep_share (o : Overheads) (limit : Weight) (l : List (List Item)) (u : Weight) (e : Nat)
    (hu : Weight.Le u limit) (ha : ∀ a ∈ l, ∀ t ∈ a, Weight.Le t.actual t.cost) :
    Weight.Le (u.plus (spent (sweep o limit l u e).ran)) limit ∧ ∀ t ∈ (sweep o limit l u e).ran, t.ready = true := by
  induction l generalizing u e with
  | nil => exact ⟨hu, fun t ht => by cases ht⟩
  | cons a l ih =>
    unfold sweep
    split
    · dsimp only
      have hc : Weight.Le (consume limit u (o.agenda a.length)) limit := consume_le hu
      have hg : u.refTime ≤ (consume limit u (o.agenda a.length)).refTime ∧
          u.proofSize ≤ (consume limit u (o.agenda a.length)).proofSize := by
        unfold consume
        split
        · exact ⟨Nat.le_add_right _ _, Nat.le_add_right _ _⟩
        · exact ⟨le_refl _, le_refl _⟩
      have h1 := serveTasks_share limit (ordered a) (consume limit u (o.agenda a.length)) e hc
        (fun t ht => ha a List.mem_cons_self t ((ordered_perm a).mem_iff.1 ht))
      have h2 := ih (serveTasks limit (ordered a) (consume limit u (o.agenda a.length)) e).used
        (serveTasks limit (ordered a) (consume limit u (o.agenda a.length)) e).executed h1.2
        (fun b hb => ha b (List.mem_cons_of_mem _ hb))
      constructor
      · rw [spent_append]
        have h3 := h1.1
        have h4 := h2.1
        unfold Weight.Le Weight.plus at h3 h4 ⊢
        dsimp only at h3 h4 ⊢
        omega
      · intro t ht
        rcases List.mem_append.1 ht with ht | ht
        · exact (serveTasks_ready _ _ _ _ t ht).2
        · exact h2.2 t ht
    · exact ⟨hu, fun t ht => by cases ht⟩

/-! ## Requests in a block -/

theorem requestProof_eq : (paymentWeight (.requestRefund 0)).proofSize = 159279 := by
  show (measured 80807000 159279 3 3).proofSize = _
  decide +kernel

theorem room_eq : schedulerMax.proofSize + queueMax.proofSize = 6029312 := by decide +kernel

theorem total_proof {u : Used} (h : Weight.Le u.total maxBlockWeight) :
    u.normal.proofSize + u.mandatory.proofSize ≤ 5242880 := by
  rw [maxBlock_eq] at h
  unfold Weight.Le Used.total Weight.satAdd at h
  dsimp only at h
  omega

theorem req_tx {n r K N P B s c : Nat} (h1 : n * P + s ≤ c) (h2 : r * P + K + (N + c - s) ≤ B) :
    (n + r) * P + K + N ≤ B := by
  rw [Nat.add_mul]
  omega

theorem req_hook {n k P w B : Nat} (h1 : n * P ≤ w) (h2 : k * P ≤ B) : (n + k) * P ≤ w + B := by
  rw [Nat.add_mul]
  omega

theorem requestsMade_txs (base : Weight) (K : Nat) (hK : K ≤ 6029312) (txs : List ((Class × Weight × Weight) × Nat))
    (hc : ∀ x ∈ txs, Carries (.tx x.1.1 x.1.2.1 x.1.2.2) x.2) (u : Used) (hm : K ≤ u.mandatory.proofSize)
    (hn : K + u.normal.proofSize ≤ 6029312) :
    requestsMade base u (txs.map fun x => (.tx x.1.1 x.1.2.1 x.1.2.2, x.2)) * 159279 + K + u.normal.proofSize ≤
      6029312 := by
  induction txs generalizing u with
  | nil =>
    rw [List.map_nil, requestsMade]
    omega
  | cons x txs ih =>
    obtain ⟨⟨c, cost, unspent⟩, n⟩ := x
    have hx := hc _ List.mem_cons_self
    unfold Carries at hx
    rw [requestProof_eq] at hx
    dsimp only at hx
    obtain ⟨hx1, hx2, hx3⟩ := hx
    have hi := ih (fun y hy => hc y (List.mem_cons_of_mem _ hy))
    rw [List.map_cons, requestsMade]
    dsimp only
    cases hw : checkWeight base u c cost with
    | none =>
      rw [show blockStep base u (.tx c cost unspent) = u by simp only [blockStep, hw]]
      have := hi u hm hn
      simp only [Option.isSome_none, Bool.false_eq_true, if_false, Nat.zero_add]
      exact this
    | some v =>
      rw [show blockStep base u (.tx c cost unspent) = v.set c (Weight.satSub (v.of c) unspent) by
        simp only [blockStep, hw]]
      simp only [Option.isSome_some, if_true]
      cases c with
      | normal =>
        obtain ⟨_, _, g3, _, rfl⟩ := (checkWeight_normal _ _ _ _).mp hw
        have hb : K + (u.normal.proofSize + cost.proofSize) ≤ 6029312 := by
          rcases g3 with g3 | g3
          · have := total_proof g3
            dsimp only at this
            omega
          · omega
        have := hi (Used.set { u with normal := ⟨u.normal.refTime + cost.refTime, u.normal.proofSize + cost.proofSize⟩ }
          .normal (Weight.satSub ⟨u.normal.refTime + cost.refTime, u.normal.proofSize + cost.proofSize⟩ unspent)) hm (by
            show K + (u.normal.proofSize + cost.proofSize - unspent.proofSize) ≤ _
            omega)
        unfold Used.set Weight.satSub at this
        dsimp only at this
        unfold Used.set Weight.satSub Used.of
        dsimp only
        exact req_tx hx1 this
      | operational =>
        obtain rfl := checkWeight_frame hw
        have hz : n = 0 := by
          by_contra h
          cases hx2 h
        have := hi (Used.set (Used.set u .operational (Weight.satAdd u.operational cost)) .operational
          (Weight.satSub (Weight.satAdd u.operational cost) unspent)) hm hn
        rw [hz, Nat.zero_add]
        simp only [Used.set, Used.of] at this ⊢
        omega
      | mandatory =>
        obtain rfl := checkWeight_frame hw
        have hz : n = 0 := by
          by_contra h
          cases hx2 h
        have := hi (Used.set (Used.set u .mandatory (Weight.satAdd u.mandatory cost)) .mandatory
          (Weight.satSub (Weight.satAdd u.mandatory cost) unspent)) (by
            show K ≤ min (2 ^ 64 - 1) (u.mandatory.proofSize + cost.proofSize) - unspent.proofSize
            omega) hn
        rw [hz, Nat.zero_add]
        simp only [Used.set, Used.of] at this ⊢
        omega

theorem requestsMade_hooks (base : Weight) (hooks : List (Weight × Nat)) (rest : List (BlockAct × Nat))
    (hc : ∀ x ∈ hooks, Carries (.hook x.1) x.2) (K : Nat) (u : Used) (hm : K ≤ u.mandatory.proofSize)
    (hk : K + hookLoad hooks ≤ 6029312) :
    ∃ (k : Nat) (v : Used), requestsMade base u (hooks.map (fun x => (.hook x.1, x.2)) ++ rest) = k + requestsMade base v rest ∧
      k * 159279 ≤ hookLoad hooks ∧ v.normal = u.normal ∧
      K + hookLoad hooks ≤ v.mandatory.proofSize := by
  induction hooks generalizing K u with
  | nil => exact ⟨0, u, by simp, by simp, rfl, hm⟩
  | cons x hooks ih =>
    obtain ⟨w, n⟩ := x
    have hx := hc _ List.mem_cons_self
    unfold Carries at hx
    rw [requestProof_eq] at hx
    dsimp only at hx
    have hi := ih (fun y hy => hc y (List.mem_cons_of_mem _ hy))
    by_cases hz : n = 0
    · rw [hookLoad, if_pos hz, Nat.zero_add] at hk ⊢
      obtain ⟨k, v, i1, i2, i3, i4⟩ := hi K (blockStep base u (.hook w)) (by
        show K ≤ min (2 ^ 64 - 1) (u.mandatory.proofSize + w.proofSize)
        omega) hk
      refine ⟨k, v, ?_, i2, i3, i4⟩
      rw [List.map_cons, List.cons_append, requestsMade]
      dsimp only
      rw [i1, hz, Nat.zero_add]
    · rw [hookLoad, if_neg hz] at hk ⊢
      obtain ⟨k, v, i1, i2, i3, i4⟩ := hi (K + w.proofSize) (blockStep base u (.hook w)) (by
        show K + w.proofSize ≤ min (2 ^ 64 - 1) (u.mandatory.proofSize + w.proofSize)
        omega) (by omega)
      refine ⟨n + k, v, ?_, req_hook hx i2, i3, by omega⟩
      rw [List.map_cons, List.cons_append, requestsMade]
      dsimp only
      rw [i1, Nat.add_assoc]

end Verif.Runtime
