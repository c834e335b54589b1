import Mathlib.Data.List.Basic
import Mathlib.Data.List.Perm.Basic
import Verif.Xcm.Queue

/-
Helper lemmas on the message queue: what is waiting and what is set aside, and how each step changes
it.
-/

set_option linter.unusedSectionVars false

namespace Verif.Xcm.Queue

variable {M : Type}

/-- The messages of a page the first pass has not dealt with. Specification only, no code behind it
(outside /repo). -/
def rest (p : Page M) : List M := (p.items.drop p.first).map Prod.fst

/-- The messages of a page that were set aside. Specification only, no code behind it (outside
/repo). -/
def skipped (p : Page M) : List M := ((p.items.take p.first).filter fun x => !x.2).map Prod.fst

/-- `rest` where there may be no page. Specification only, no code behind it (outside /repo). -/
def restO : Option (Page M) → List M
  | none => []
  | some p => rest p

/-- `skipped` where there may be no page. Specification only, no code behind it (outside /repo). -/
def skippedO : Option (Page M) → List M
  | none => []
  | some p => skipped p

/-- The messages waiting on `n` pages from page `k` on, first come first. Specification only, no
code behind it (outside /repo). -/
def waitingFrom (f : Nat → Option (Page M)) : Nat → Nat → List M
  | _, 0 => []
  | k, n + 1 => restO (f k) ++ waitingFrom f (k + 1) n

/-- The messages of a chain that wait for their turn. Specification only, no code behind it (outside
/repo). -/
def waiting (b : Book M) : List M := waitingFrom b.pages b.start (b.stop - b.start)

/-- The messages set aside on the first `n` pages. Specification only, no code behind it (outside
/repo). -/
def asides (f : Nat → Option (Page M)) : Nat → List M
  | 0 => []
  | n + 1 => asides f n ++ skippedO (f n)

/-- The messages of a chain that were set aside as too heavy and are still kept. Specification only,
no code behind it (outside /repo). -/
def setAside (b : Book M) : List M := asides b.pages b.stop

/-- How many of the first `n` pages are stored. Specification only, no code behind it (outside
/repo). -/
def stored (f : Nat → Option (Page M)) (n : Nat) : Nat := (List.range n).countP fun k => (f k).isSome

/-- Whether the queue can execute a message by itself. Specification only, no code behind it
(outside /repo). -/
def light (i : Info M) (c : Costs) (m : M) : Bool :=
  match i.need m with
  | none => true
  | some w => decide (w ≤ c.limit)

/-- A page as the steps keep it. Part of the transition system around the code (outside /repo). -/
structure PageOk (i : Info M) (c : Costs) (p : Page M) : Prop where
  le : p.first ≤ p.items.length
  fresh : ∀ (j : Nat) (x : M × Bool), p.first ≤ j → p.items[j]? = some x → x.2 = false
  left : p.remaining = p.items.countP fun x => !x.2
  heavy : ∀ m ∈ skipped p, light i c m = false

/-- A book as the steps keep it. Part of the transition system around the code (outside /repo). -/
structure BookOk (i : Info M) (c : Costs) (b : Book M) : Prop where
  le : b.start ≤ b.stop
  ready : b.start < b.stop → b.ready = true
  page : ∀ k p, b.pages k = some p → PageOk i c p ∧ k < b.stop ∧ (k < b.start → rest p = [])
  fresh : ∀ k, b.start < k → k < b.stop → ∃ p, b.pages k = some p ∧ p.first = 0 ∧ p.items ≠ []
  count : b.count = stored b.pages b.stop

section page

variable {i : Info M} {c : Costs}

theorem rest_nil {p : Page M} : rest p = [] ↔ p.items.length ≤ p.first := by
  simp [rest]

theorem rest_cons {p : Page M} {x : M × Bool} (h : p.items[p.first]? = some x) :
    rest p = x.1 :: (p.items.drop (p.first + 1)).map Prod.fst := by
  obtain ⟨hl, hx⟩ := List.getElem?_eq_some_iff.1 h
  simp only [rest]
  rw [List.drop_eq_getElem_cons hl, List.map_cons, hx]

/-- A page nothing of which remains has no message left. -/
theorem rest_of_zero {p : Page M} (h : PageOk i c p) (h0 : p.remaining = 0) : rest p = [] := by
  rw [rest_nil]
  by_contra hc
  have hl : p.first < p.items.length := by omega
  have hf := h.fresh p.first _ (Nat.le_refl _) (List.getElem?_eq_getElem hl)
  rw [h.left, List.countP_eq_zero] at h0
  have := h0 _ (List.getElem_mem hl)
  simp [hf] at this

theorem skipped_of_zero {p : Page M} (h : PageOk i c p) (h0 : p.remaining = 0) :
    skipped p = [] := by
  rw [h.left, List.countP_eq_zero] at h0
  simp only [skipped, List.map_eq_nil_iff, List.filter_eq_nil_iff]
  intro x hx
  exact h0 x (List.mem_of_mem_take hx)

theorem mark_items_fst (p : Page M) (k : Nat) :
    (p.mark k).items.map Prod.fst = p.items.map Prod.fst := by
  unfold Page.mark
  split
  · rename_i m hm
    obtain ⟨hl, hx⟩ := List.getElem?_eq_some_iff.1 hm
    simp only [List.map_set]
    apply List.ext_getElem? 
    intro j
    by_cases hj : k = j
    · subst hj
      simp [hl, hx]
    · simp [List.getElem?_set_ne hj]
  · rfl

theorem mark_first (p : Page M) (k : Nat) : (p.mark k).first = p.first := by
  unfold Page.mark
  split <;> rfl

theorem countP_set_aux {A : Type} (f : A → Bool) : ∀ (l : List A) (k : Nat) (x y : A),
    l[k]? = some x → f x = true → f y = false → (l.set k y).countP f = l.countP f - 1
      ∧ 0 < l.countP f
  | [], k, x, y, h, _, _ => by simp at h
  | a :: l, 0, x, y, h, hx, hy => by
    simp only [List.getElem?_cons_zero, Option.some.injEq] at h
    subst h
    simp [hx, hy]
  | a :: l, k + 1, x, y, h, hx, hy => by
    simp only [List.getElem?_cons_succ] at h
    obtain ⟨h1, h2⟩ := countP_set_aux f l k x y h hx hy
    simp only [List.set_cons_succ, List.countP_cons, h1]
    split <;> omega

theorem mark_left {p : Page M} {k : Nat} {m : M} (h : p.items[k]? = some (m, false))
    (hl : p.remaining = p.items.countP fun x => !x.2) :
    (p.mark k).remaining = (p.mark k).items.countP fun x => !x.2 := by
  unfold Page.mark
  rw [h]
  simp only
  rw [(countP_set_aux (fun x : M × Bool => !x.2) p.items k _ (m, true) h rfl rfl).1, hl]

theorem mark_items {p : Page M} {k : Nat} {m : M} (h : p.items[k]? = some (m, false)) :
    (p.mark k).items = p.items.set k (m, true) := by
  unfold Page.mark
  rw [h]

theorem take_set_of_le {A : Type} (l : List A) (k n : Nat) (a : A) (h : n ≤ k) :
    (l.set k a).take n = l.take n := by
  apply List.ext_getElem?
  intro j
  by_cases hj : j < n
  · simp [hj, List.getElem?_set_ne (show k ≠ j by omega)]
  · rw [List.getElem?_take, List.getElem?_take, if_neg hj, if_neg hj]

theorem drop_set_of_lt {A : Type} (l : List A) (k n : Nat) (a : A) (h : k < n) :
    (l.set k a).drop n = l.drop n := by
  apply List.ext_getElem?
  intro j
  simp [List.getElem?_drop, List.getElem?_set_ne (show k ≠ n + j by omega)]

/-- Passing over a message: it is done, or set aside. -/
theorem skip_ok {p : Page M} {x : M × Bool} (h : PageOk i c p) (hx : p.items[p.first]? = some x)
    (d : Bool) (hd : d = false → light i c x.1 = false) :
    PageOk i c (p.skip d) ∧ rest p = x.1 :: rest (p.skip d) ∧
      skipped (p.skip d) = skipped p ++ (if d then [] else [x.1]) ∧
      (p.skip d).first = p.first + 1 ∧ (p.skip d).items.length = p.items.length := by
  obtain ⟨hl, hxe⟩ := List.getElem?_eq_some_iff.1 hx
  have hf := h.fresh p.first x (Nat.le_refl _) hx
  obtain ⟨m, fl⟩ := x
  simp only at hf
  subst hf
  cases d with
  | false =>
    have hs : skipped (p.skip false) = skipped p ++ [m] := by
      simp only [Page.skip, skipped, Bool.false_eq_true, if_false]
      rw [List.take_add_one, hx]
      simp
    refine ⟨⟨?_, ?_, ?_, ?_⟩, ?_, by simpa using hs, rfl, rfl⟩
    · simp [Page.skip]; omega
    · intro j y hj hy
      simp only [Page.skip, Bool.false_eq_true, if_false] at hj hy
      exact h.fresh j y (by omega) hy
    · simpa [Page.skip] using h.left
    · intro a ha
      rw [hs, List.mem_append] at ha
      rcases ha with ha | ha
      · exact h.heavy a ha
      · rw [List.mem_singleton] at ha
        subst ha
        exact hd rfl
    · rw [rest_cons hx]
      rfl
  | true =>
    have hi : (p.skip true).items = p.items.set p.first (m, true) := by
      simp only [Page.skip, if_true]
      exact mark_items hx
    have hfst : (p.skip true).first = p.first + 1 := by
      simp [Page.skip, mark_first]
    have hs : skipped (p.skip true) = skipped p := by
      simp only [skipped, hi, hfst]
      rw [List.take_add_one, List.getElem?_set_self hl, take_set_of_le _ _ _ _ (Nat.le_refl _)]
      simp
    refine ⟨⟨?_, ?_, ?_, ?_⟩, ?_, by simpa using hs, hfst, by rw [hi]; simp⟩
    · rw [hi, hfst]; simp; omega
    · intro j y hj hy
      rw [hfst] at hj
      rw [hi, List.getElem?_set_ne (by omega)] at hy
      exact h.fresh j y (by omega) hy
    · have := mark_left hx h.left
      simpa [Page.skip] using this
    · rw [hs]; exact h.heavy
    · rw [rest_cons hx]
      simp only [rest, hi, hfst]
      rw [drop_set_of_lt _ _ _ _ (by omega)]

/-- The loop over a page. -/
theorem items_ok : ∀ (n : Nat) (p : Page M) (w : Nat), PageOk i c p →
    PageOk i c (items i c n p w).1 ∧
    ((items i c n p w).2.2.2.map Prod.fst) ++ rest (items i c n p w).1 = rest p ∧
    skipped (items i c n p w).1 = skipped p ++
      ((items i c n p w).2.2.2.filter fun x => !x.2).map Prod.fst ∧
    (∀ x ∈ (items i c n p w).2.2.2, x.2 = false → light i c x.1 = false) ∧
    (p.items.length < n + p.first → (items i c n p w).2.1 = true → rest (items i c n p w).1 = [])
  | 0, p, w, h => by
    simp only [items]
    refine ⟨h, by simp, by simp, by simp, fun hn _ => ?_⟩
    rw [rest_nil]
    omega
  | n + 1, p, w, h => by
    unfold items
    split
    · rename_i h0
      exact ⟨h, by simp, by simp, by simp, fun _ _ => rest_of_zero h h0⟩
    · split
      · exact ⟨h, by simp, by simp, by simp, fun _ hc => by simp at hc⟩
      · split
        · rename_i hn
          refine ⟨h, by simp, by simp, by simp, fun _ _ => ?_⟩
          rw [rest_nil]
          exact List.getElem?_eq_none_iff.1 hn
        · rename_i m fl hx
          split
          · exact ⟨h, by simp, by simp, by simp, fun _ hc => by simp at hc⟩
          · rename_i w' ha
            obtain ⟨a1, a2, a3, a4, a5⟩ := skip_ok h hx true (fun hc => by simp at hc)
            obtain ⟨b1, b2, b3, b4, b5⟩ := items_ok n (p.skip true) w' a1
            refine ⟨b1, ?_, ?_, ?_, ?_⟩
            · simp only [List.map_cons, List.cons_append, b2, a2]
            · simp only [b3, a3]; simp
            · intro x hx hx2
              rcases List.mem_cons.1 hx with rfl | hx
              · simp at hx2
              · exact b4 x hx hx2
            · intro hn hf
              exact b5 (by rw [a4, a5]; omega) hf
          · rename_i w' ha
            have hl : light i c m = false := by
              unfold attempt at ha
              unfold light
              split at ha
              · simp at ha
              · split at ha
                · simp at ha
                · split at ha
                  · rename_i q hq _ hlt
                    rw [hq]
                    simpa using hlt
                  · simp at ha
            obtain ⟨a1, a2, a3, a4, a5⟩ := skip_ok h hx false (fun _ => hl)
            obtain ⟨b1, b2, b3, b4, b5⟩ := items_ok n (p.skip false) w' a1
            refine ⟨b1, ?_, ?_, ?_, ?_⟩
            · simp only [List.map_cons, List.cons_append, b2, a2]
            · simp only [b3, a3]; simp
            · intro x hx hx2
              rcases List.mem_cons.1 hx with rfl | hx
              · exact hl
              · exact b4 x hx hx2
            · intro hn hf
              exact b5 (by rw [a4, a5]; omega) hf

end page

section book

variable {i : Info M} {c : Costs}

theorem waitingFrom_congr (f g : Nat → Option (Page M)) : ∀ n k,
    (∀ j, k ≤ j → j < k + n → restO (f j) = restO (g j)) → waitingFrom f k n = waitingFrom g k n
  | 0, _, _ => rfl
  | n + 1, k, h => by
    simp only [waitingFrom]
    rw [h k (Nat.le_refl _) (by omega), waitingFrom_congr f g n (k + 1)
      (fun j h1 h2 => h j (by omega) (by omega))]

theorem waitingFrom_snoc (f : Nat → Option (Page M)) : ∀ n k,
    waitingFrom f k (n + 1) = waitingFrom f k n ++ restO (f (k + n))
  | 0, k => by simp [waitingFrom]
  | n + 1, k => by
    rw [waitingFrom, waitingFrom_snoc f n (k + 1), waitingFrom, List.append_assoc]
    rw [show k + 1 + n = k + (n + 1) by omega]

theorem asides_congr (f g : Nat → Option (Page M)) : ∀ n,
    (∀ j, j < n → skippedO (f j) = skippedO (g j)) → asides f n = asides g n
  | 0, _ => rfl
  | n + 1, h => by
    simp only [asides]
    rw [asides_congr f g n (fun j hj => h j (by omega)), h n (by omega)]

theorem asides_count [DecidableEq M] (f g : Nat → Option (Page M)) (m : M) (k : Nat) : ∀ n, k < n →
    (∀ j, j ≠ k → skippedO (g j) = skippedO (f j)) →
    (asides g n).count m + (skippedO (f k)).count m =
      (asides f n).count m + (skippedO (g k)).count m
  | 0, h, _ => by omega
  | n + 1, h, hg => by
    simp only [asides, List.count_append]
    by_cases hk : k = n
    · subst hk
      rw [asides_congr g f k (fun j hj => hg j (by omega))]
      omega
    · have := asides_count f g m k n (by omega) hg
      rw [hg n (fun hc => hk hc.symm)]
      omega

theorem stored_congr (f g : Nat → Option (Page M)) (n : Nat)
    (h : ∀ j, j < n → (f j).isSome = (g j).isSome) : stored f n = stored g n := by
  unfold stored
  refine List.countP_congr (fun j hj => ?_)
  rw [h j (List.mem_range.1 hj)]

theorem stored_succ (f : Nat → Option (Page M)) (n : Nat) :
    stored f (n + 1) = stored f n + if (f n).isSome then 1 else 0 := by
  unfold stored
  rw [List.range_succ, List.countP_append]
  simp [List.countP_cons]

theorem stored_put (f : Nat → Option (Page M)) (k : Nat) (p : Page M) (o : Option (Page M))
    (hp : f k = some p) : ∀ n, k < n →
    stored (fun j => if j = k then o else f j) n = if o.isSome then stored f n else stored f n - 1
  | 0, h => absurd h (Nat.not_lt_zero _)
  | n + 1, h => by
    rw [stored_succ, stored_succ]
    by_cases hk : k = n
    · subst hk
      rw [stored_congr (fun j => if j = k then o else f j) f k (fun j hj => by
        simp [show j ≠ k by omega])]
      cases o <;> simp [hp]
    · rw [stored_put f k p o hp n (by omega)]
      have hnk : ¬ n = k := fun hc => hk hc.symm
      have hpos : 0 < stored f n := by
        unfold stored
        rw [List.countP_pos_iff]
        exact ⟨k, List.mem_range.2 (by omega), by simp [hp]⟩
      cases o <;> simp [hnk] <;> omega

theorem put_same (f : Nat → Option (Page M)) (k : Nat) (p : Option (Page M)) : put f k p k = p := by
  simp [put]

theorem put_ne (f : Nat → Option (Page M)) {k j : Nat} (p : Option (Page M)) (h : j ≠ k) :
    put f k p j = f j := by
  simp [put, h]

theorem empty_ok : BookOk i c (Book.empty : Book M) :=
  ⟨Nat.le_refl _, fun h => absurd h (Nat.lt_irrefl _), fun _ _ h => by simp [Book.empty] at h,
    fun k _ h => by simp [Book.empty] at h, rfl⟩

theorem of_ok (m : M) : PageOk i c (Page.of m) := by
  refine ⟨by simp [Page.of], ?_, by simp [Page.of], by simp [Page.of, skipped]⟩
  intro j x _ hx
  cases j with
  | zero => simp [Page.of] at hx; subst hx; rfl
  | succ j => simp [Page.of] at hx

theorem append_ok {p q : Page M} {m : M} (h : PageOk i c p) (ha : p.append i m = some q) :
    PageOk i c q ∧ rest q = rest p ++ [m] ∧ skipped q = skipped p ∧ q.first = p.first ∧
      q.items ≠ [] := by
  unfold Page.append at ha
  split at ha
  · simp at ha
  · simp only [Option.some.injEq] at ha
    subst ha
    have hs : skipped { p with items := p.items ++ [(m, false)], remaining := p.remaining + 1 } =
        skipped p := by
      simp only [skipped]
      rw [List.take_append_of_le_length h.le]
    refine ⟨⟨?_, ?_, ?_, ?_⟩, ?_, hs, rfl, by simp⟩
    · have := h.le
      simp; omega
    · intro j x hj hx
      simp only at hj hx
      by_cases hlt : j < p.items.length
      · rw [List.getElem?_append_left hlt] at hx
        exact h.fresh j x hj hx
      · rw [List.getElem?_append_right (by omega)] at hx
        cases hk : j - p.items.length with
        | zero => rw [hk] at hx; simp at hx; subst hx; rfl
        | succ _ => rw [hk] at hx; simp at hx
    · simp [h.left]
    · rw [hs]; exact h.heavy
    · simp only [rest]
      rw [List.drop_append_of_le_length h.le, List.map_append]
      rfl

theorem enqueue_fresh_ok {b : Book M} (h : BookOk i c b) (m : M) :
    let b' : Book M := { b with
      pages := put b.pages b.stop (some (.of m)), stop := b.stop + 1, count := b.count + 1,
      ready := true }
    BookOk i c b' ∧ waiting b' = waiting b ++ [m] ∧ setAside b' = setAside b := by
  intro b'
  have hno : ∀ j, j < b.stop → b'.pages j = b.pages j := fun j hj => put_ne _ _ (by omega)
  refine ⟨⟨?_, fun _ => rfl, ?_, ?_, ?_⟩, ?_, ?_⟩
  · exact Nat.le_succ_of_le h.le
  · intro k p hk
    by_cases hks : k = b.stop
    · subst hks
      rw [show b'.pages b.stop = some (.of m) from put_same _ _ _] at hk
      cases hk
      exact ⟨of_ok m, Nat.lt_succ_self _, fun hc => absurd h.le (Nat.not_le.2 hc)⟩
    · rw [show b'.pages k = b.pages k from put_ne _ _ hks] at hk
      obtain ⟨h1, h2, h3⟩ := h.page k p hk
      exact ⟨h1, Nat.lt_succ_of_lt h2, h3⟩
  · intro k h1 h2
    by_cases hks : k = b.stop
    · subst hks
      exact ⟨_, put_same _ _ _, rfl, by simp [Page.of]⟩
    · obtain ⟨p, hp⟩ := h.fresh k h1 (by have : k < b.stop + 1 := h2; omega)
      exact ⟨p, by rw [show b'.pages k = b.pages k from put_ne _ _ hks]; exact hp.1, hp.2⟩
  · show b.count + 1 = stored b'.pages (b.stop + 1)
    rw [stored_succ, show b'.pages b.stop = some (.of m) from put_same _ _ _,
      stored_congr b'.pages b.pages b.stop (fun j hj => by rw [hno j hj]), h.count]
    rfl
  · have hle := h.le
    have hst : b'.stop - b'.start = (b.stop - b.start) + 1 := by
      show b.stop + 1 - b.start = _
      omega
    unfold waiting
    rw [hst, waitingFrom_snoc]
    have he : b'.start + (b.stop - b.start) = b.stop := by
      show b.start + (b.stop - b.start) = _
      omega
    rw [he, show b'.pages b.stop = some (.of m) from put_same _ _ _]
    congr 1
    exact waitingFrom_congr _ _ _ _ (fun j h1 h2 => by
      rw [hno j (by have : j < b.start + (b.stop - b.start) := h2; omega)])
  · show asides b'.pages (b.stop + 1) = asides b.pages b.stop
    rw [asides, show b'.pages b.stop = some (.of m) from put_same _ _ _,
      asides_congr b'.pages b.pages b.stop (fun j hj => by rw [hno j hj])]
    simp [skippedO, skipped, Page.of]

/-- A message that arrives goes to the end of those waiting. -/
theorem enqueue_ok {b : Book M} (h : BookOk i c b) (m : M) :
    BookOk i c (enqueue i b m) ∧ waiting (enqueue i b m) = waiting b ++ [m] ∧
      setAside (enqueue i b m) = setAside b := by
  have hfr := enqueue_fresh_ok h m
  unfold enqueue
  simp only
  split
  · rename_i hlt
    split
    · rename_i p hp
      split
      · rename_i q hq
        obtain ⟨h1, h2, h3⟩ := h.page _ p hp
        obtain ⟨a1, a2, a3, a4, a5⟩ := append_ok h1 hq
        refine ⟨⟨h.le, fun _ => rfl, ?_, ?_, ?_⟩, ?_, ?_⟩
        · intro k r hk
          simp only at hk ⊢
          by_cases hks : k = b.stop - 1
          · subst hks
            rw [put_same] at hk
            cases hk
            exact ⟨a1, by omega, fun hc => by omega⟩
          · rw [put_ne _ _ hks] at hk
            exact h.page k r hk
        · intro k k1 k2
          simp only at k1 k2 ⊢
          obtain ⟨r, hr, hr1, hr2⟩ := h.fresh k k1 k2
          by_cases hks : k = b.stop - 1
          · subst hks
            rw [hp] at hr
            cases hr
            exact ⟨q, put_same _ _ _, by rw [a4]; exact hr1, a5⟩
          · exact ⟨r, by rw [put_ne _ _ hks]; exact hr, hr1, hr2⟩
        · show b.count = stored (put b.pages (b.stop - 1) (some q)) b.stop
          have := stored_put b.pages (b.stop - 1) p (some q) hp b.stop (by omega)
          rw [show put b.pages (b.stop - 1) (some q) =
            fun j => if j = b.stop - 1 then some q else b.pages j from rfl, this]
          exact h.count
        · unfold waiting
          simp only
          obtain ⟨n, hn⟩ : ∃ n, b.stop - b.start = n + 1 := ⟨b.stop - b.start - 1, by omega⟩
          rw [hn, waitingFrom_snoc, waitingFrom_snoc]
          have he : b.start + n = b.stop - 1 := by omega
          rw [he, put_same, hp]
          simp only [restO, a2]
          rw [waitingFrom_congr (put b.pages (b.stop - 1) (some q)) b.pages n b.start
            (fun j _ h2 => by rw [put_ne _ _ (by omega)]), List.append_assoc]
        · unfold setAside
          simp only
          refine asides_congr _ _ _ (fun j hj => ?_)
          by_cases hks : j = b.stop - 1
          · subst hks
            rw [put_same, hp]
            exact a3
          · rw [put_ne _ _ hks]
      · exact hfr
    · exact hfr
  · exact hfr

theorem foldl_enqueue_ok : ∀ (ms : List M) {b : Book M}, BookOk i c b →
    BookOk i c (ms.foldl (enqueue i) b) ∧ waiting (ms.foldl (enqueue i) b) = waiting b ++ ms ∧
      setAside (ms.foldl (enqueue i) b) = setAside b
  | [], b, h => ⟨h, by simp, rfl⟩
  | m :: ms, b, h => by
    obtain ⟨h1, h2, h3⟩ := enqueue_ok h m
    obtain ⟨g1, g2, g3⟩ := foldl_enqueue_ok ms h1
    exact ⟨g1, by rw [List.foldl_cons, g2, h2, List.append_assoc]; rfl, by
      rw [List.foldl_cons, g3, h3]⟩

theorem arrive_foldl : ∀ (ms : List M) (b : Book M),
    (arrive i b ms).1 = (arrive i b ms).2.foldl (enqueue i) b ∧ (arrive i b ms).2 <+: ms
  | [], b => ⟨rfl, List.nil_prefix⟩
  | m :: ms, b => by
    unfold arrive
    split
    · obtain ⟨h1, h2⟩ := arrive_foldl ms (enqueue i b m)
      exact ⟨h1, (List.prefix_cons_inj m).2 h2⟩
    · exact ⟨rfl, List.nil_prefix⟩

/-- The number of times a message is set aside in a log. Specification only, no code behind it
(outside /repo). -/
def asideIn (log : List (M × Bool)) : List M := (log.filter fun x => !x.2).map Prod.fst

/-- The messages a log calls done. Specification only, no code behind it (outside /repo). -/
def doneIn (log : List (M × Bool)) : List M := (log.filter fun x => x.2).map Prod.fst

theorem setPage_ok {b : Book M} (h : BookOk i c b) (hlt : b.start < b.stop) {p q : Page M}
    (hp : b.pages b.start = some p) (hq : PageOk i c q) {n : Nat} (o : Option (Page M))
    (ho : (o = none ∧ q.remaining = 0 ∧ n = b.count - 1) ∨ (o = some q ∧ n = b.count)) :
    let b' : Book M := { b with pages := put b.pages b.start o, count := n }
    BookOk i c b' ∧ restO (b'.pages b.start) = rest q ∧
      waiting b' = rest q ++ waitingFrom b.pages (b.start + 1) (b.stop - b.start - 1) ∧
      ∀ [DecidableEq M] (m : M), (setAside b').count m + (skipped p).count m =
        (setAside b).count m + (skipped q).count m := by
  intro b'
  have hs : b'.pages b.start = o := put_same _ _ _
  have hne : ∀ j, j ≠ b.start → b'.pages j = b.pages j := fun j hj => put_ne _ _ hj
  have hro : restO o = rest q := by
    rcases ho with ⟨rfl, h0, -⟩ | ⟨rfl, -⟩
    · exact (rest_of_zero hq h0).symm
    · rfl
  have hsk : skippedO o = skipped q := by
    rcases ho with ⟨rfl, h0, -⟩ | ⟨rfl, -⟩
    · exact (skipped_of_zero hq h0).symm
    · rfl
  refine ⟨⟨h.le, h.ready, ?_, ?_, ?_⟩, by rw [hs, hro], ?_, ?_⟩
  · intro k r hk
    by_cases hks : k = b.start
    · subst hks
      rw [hs] at hk
      rcases ho with ⟨rfl, _⟩ | ⟨rfl, _⟩
      · simp at hk
      · cases hk
        exact ⟨hq, hlt, fun hc => absurd hc (Nat.lt_irrefl _)⟩
    · rw [hne k hks] at hk
      exact h.page k r hk
  · intro k k1 k2
    rw [hne k (by have : b.start < k := k1; omega)]
    exact h.fresh k k1 k2
  · show n = stored (put b.pages b.start o) b.stop
    have := stored_put b.pages b.start p o hp b.stop hlt
    rw [show put b.pages b.start o = fun j => if j = b.start then o else b.pages j from rfl, this,
      ← h.count]
    rcases ho with ⟨rfl, _, rfl⟩ | ⟨rfl, rfl⟩ <;> rfl
  · unfold waiting
    obtain ⟨n, hn⟩ : ∃ n, b.stop - b.start = n + 1 := ⟨b.stop - b.start - 1, by omega⟩
    show waitingFrom b'.pages b.start (b.stop - b.start) = _
    rw [hn, waitingFrom, hs, hro, show n + 1 - 1 = n by omega]
    congr 1
    exact waitingFrom_congr _ _ _ _ (fun j h1 h2 => by rw [hne j (by omega)])
  · intro _ m
    have := asides_count b.pages b'.pages m b.start b.stop hlt (fun j hj => by rw [hne j hj])
    rw [hs, hsk, hp] at this
    exact this

/-- The step over one page. -/
theorem page_ok {b : Book M} (h : BookOk i c b) (hlt : b.start < b.stop) (w : Nat) :
    BookOk i c (page i c b w).1 ∧ (page i c b w).1.start = b.start ∧
    (page i c b w).1.stop = b.stop ∧ (page i c b w).1.ready = b.ready ∧
    (page i c b w).2.2.2.map Prod.fst ++ waiting (page i c b w).1 = waiting b ∧
    (∀ [DecidableEq M] (m : M), (setAside (page i c b w).1).count m =
      (setAside b).count m + (asideIn (page i c b w).2.2.2).count m) ∧
    (∀ x ∈ (page i c b w).2.2.2, x.2 = false → light i c x.1 = false) ∧
    ((page i c b w).2.1 = true → restO ((page i c b w).1.pages b.start) = []) := by
  unfold page
  split
  · exact ⟨h, rfl, rfl, rfl, by simp, by simp [asideIn], by simp, fun hc => by simp at hc⟩
  · split
    · rename_i hn
      refine ⟨h, rfl, rfl, rfl, by simp, by simp [asideIn], by simp, fun _ => ?_⟩
      rw [hn]
      rfl
    · rename_i p hp
      simp only
      obtain ⟨hpo, -, -⟩ := h.page _ p hp
      obtain ⟨a1, a2, a3, a4, a5⟩ := items_ok (i := i) (c := c) (p.items.length + 1) p (w - c.page) hpo
      generalize items i c (p.items.length + 1) p (w - c.page) = r at *
      have hw : waiting b = rest p ++ waitingFrom b.pages (b.start + 1) (b.stop - b.start - 1) := by
        unfold waiting
        obtain ⟨n, hn⟩ : ∃ n, b.stop - b.start = n + 1 := ⟨b.stop - b.start - 1, by omega⟩
        rw [hn, waitingFrom, hp, show n + 1 - 1 = n by omega]
        rfl
      split
      · rename_i h0
        obtain ⟨s1, s2, s3, s4⟩ := setPage_ok h hlt hp a1 (n := b.count - 1) none
          (Or.inl ⟨rfl, h0, rfl⟩)
        refine ⟨s1, rfl, rfl, rfl, ?_, ?_, a4, ?_⟩
        · rw [s3, ← List.append_assoc, a2, hw]
        · intro _ m
          have := s4 m
          rw [a3, List.count_append] at this
          simp only [asideIn]
          omega
        · intro hf
          rw [s2]
          exact a5 (by omega) hf
      · obtain ⟨s1, s2, s3, s4⟩ := setPage_ok h hlt hp a1 (n := b.count) (some r.1)
          (Or.inr ⟨rfl, rfl⟩)
        refine ⟨s1, rfl, rfl, rfl, ?_, ?_, a4, ?_⟩
        · rw [s3, ← List.append_assoc, a2, hw]
        · intro _ m
          have := s4 m
          rw [a3, List.count_append] at this
          simp only [asideIn]
          omega
        · intro hf
          rw [s2]
          exact a5 (by omega) hf

theorem asideIn_append (a b : List (M × Bool)) : asideIn (a ++ b) = asideIn a ++ asideIn b := by
  simp [asideIn]

theorem doneIn_append (a b : List (M × Bool)) : doneIn (a ++ b) = doneIn a ++ doneIn b := by
  simp [doneIn]

/-- A first page that is done with can be left behind. -/
theorem advance_ok {b : Book M} (h : BookOk i c b) (hlt : b.start < b.stop)
    (h0 : restO (b.pages b.start) = []) :
    BookOk i c b.turn ∧ waiting b.turn = waiting b ∧ setAside b.turn = setAside b := by
  refine ⟨⟨hlt, fun hc => h.ready hlt, ?_, ?_, h.count⟩, ?_, rfl⟩
  · intro k p hk
    obtain ⟨h1, h2, h3⟩ := h.page k p hk
    refine ⟨h1, h2, fun hc => ?_⟩
    by_cases hks : k = b.start
    · subst hks
      rw [show b.pages b.start = some p from hk] at h0
      exact h0
    · exact h3 (by have : k < b.start + 1 := hc; omega)
  · intro k k1 k2
    exact h.fresh k (by have : b.start + 1 < k := k1; omega) k2
  · unfold waiting
    obtain ⟨n, hn⟩ : ∃ n, b.stop - b.start = n + 1 := ⟨b.stop - b.start - 1, by omega⟩
    show waitingFrom b.pages (b.start + 1) (b.stop - (b.start + 1)) = _
    rw [hn, waitingFrom, h0, List.nil_append, show b.stop - (b.start + 1) = n by omega]

/-- The loop over pages. -/
theorem pages_ok : ∀ (n : Nat) {b : Book M} (w : Nat), BookOk i c b → b.stop - b.start = n →
    BookOk i c (pages i c n b w).1 ∧ (pages i c n b w).1.ready = b.ready ∧
    (pages i c n b w).1.stop = b.stop ∧ b.start ≤ (pages i c n b w).1.start ∧
    (pages i c n b w).2.2.map Prod.fst ++ waiting (pages i c n b w).1 = waiting b ∧
    (∀ [DecidableEq M] (m : M), (setAside (pages i c n b w).1).count m =
      (setAside b).count m + (asideIn (pages i c n b w).2.2).count m) ∧
    (∀ x ∈ (pages i c n b w).2.2, x.2 = false → light i c x.1 = false)
  | 0, b, w, h, _ => ⟨h, rfl, rfl, Nat.le_refl _, by simp [pages], by simp [asideIn, pages],
      by simp [pages]⟩
  | n + 1, b, w, h, hn => by
    have hlt : b.start < b.stop := by omega
    obtain ⟨p1, p2, p3, p4, p5, p6, p7, p8⟩ := page_ok h hlt w
    unfold pages
    simp only
    generalize page i c b w = r at *
    split
    · rename_i hr
      have h0 : restO (r.1.pages r.1.start) = [] := by rw [p2]; exact p8 hr
      obtain ⟨a1, a2, a3⟩ := advance_ok p1 (by rw [p2, p3]; exact hlt) h0
      obtain ⟨g1, g2, g3, g4, g5, g6, g7⟩ := pages_ok n (b := r.1.turn)
        r.2.2.1 a1 (by show r.1.stop - (r.1.start + 1) = n; rw [p2, p3]; omega)
      refine ⟨g1, by rw [g2]; exact p4, by rw [g3]; exact p3, ?_, ?_, ?_, ?_⟩
      · have : r.1.start + 1 ≤ _ := g4
        rw [p2] at this
        exact Nat.le_of_succ_le this
      · rw [List.map_append, List.append_assoc, g5, a2, p5]
      · intro _ m
        rw [g6 m, a3, p6 m, asideIn_append, List.count_append]
        omega
      · intro x hx hx2
        rcases List.mem_append.1 hx with hx | hx
        · exact p7 x hx hx2
        · exact g7 x hx hx2
    · exact ⟨p1, p4, p3, Nat.le_of_eq p2.symm, p5, p6, p7⟩

/-- Serving a queue. -/
theorem serve_ok {b : Book M} (h : BookOk i c b) (w : Nat) :
    BookOk i c (serve i c b w).1 ∧
    (serve i c b w).2.2.map Prod.fst ++ waiting (serve i c b w).1 = waiting b ∧
    (∀ [DecidableEq M] (m : M), (setAside (serve i c b w).1).count m =
      (setAside b).count m + (asideIn (serve i c b w).2.2).count m) ∧
    (∀ x ∈ (serve i c b w).2.2, x.2 = false → light i c x.1 = false) := by
  unfold serve
  split
  · exact ⟨h, by simp, by simp [asideIn], by simp⟩
  · simp only
    obtain ⟨p1, p2, p3, p4, p5, p6, p7⟩ := pages_ok (b.stop - b.start) (w - c.queue) h rfl
    generalize pages i c (b.stop - b.start) b (w - c.queue) = r at *
    split
    · rename_i hle
      exact ⟨⟨p1.le, fun hc => absurd hle (Nat.not_le.2 hc), p1.page, p1.fresh, p1.count⟩, p5, p6, p7⟩
    · exact ⟨p1, p5, p6, p7⟩

/-- Executing a message that was set aside. -/
theorem heavy_ok {b b' : Book M} {m : M} (h : BookOk i c b) {k j w : Nat}
    (hh : heavy i b k j w = some (b', m)) :
    BookOk i c b' ∧ waiting b' = waiting b ∧ light i c m = false ∧
    (∀ [DecidableEq M] (x : M), (setAside b').count x + [m].count x = (setAside b).count x) := by
  unfold heavy at hh
  split at hh
  · simp at hh
  · rename_i p hp
    split at hh
    · simp at hh
    · rename_i m' fl hx
      split at hh
      · simp at hh
      · rename_i hpos
        have hpos := not_not.1 hpos
        split at hh
        · simp at hh
        · rename_i hfl
          have hfl : fl = false := by simpa using hfl
          subst hfl
          obtain ⟨hpo, hks, hbef⟩ := h.page k p hp
          have hjf : j < p.first := by
            rcases hpos with hk | ⟨-, hj⟩
            · have := rest_nil.1 (hbef hk)
              have := (List.getElem?_eq_some_iff.1 hx).1
              omega
            · exact hj
          have hjl := (List.getElem?_eq_some_iff.1 hx).1
          have hmi := mark_items hx
          have hmf := mark_first p j
          -- the message is among those set aside
          have htake : (p.items.take p.first)[j]? = some (m', false) := by
            rw [List.getElem?_take]; simp [hjf, hx]
          have hmem : m' ∈ skipped p := by
            simp only [skipped, List.mem_map, List.mem_filter]
            exact ⟨(m', false), ⟨List.mem_of_getElem? htake, rfl⟩, rfl⟩
          have hlm := hpo.heavy m' hmem
          have hrest : rest (p.mark j) = rest p := by
            simp only [rest, hmi, hmf]
            rw [drop_set_of_lt _ _ _ _ hjf]
          have hcount : ∀ [DecidableEq M] (x : M), (skipped (p.mark j)).count x + [m'].count x =
              (skipped p).count x := by
            intro _ x
            simp only [skipped, hmi, hmf]
            rw [List.take_set]
            generalize p.items.take p.first = l at htake
            clear * - htake
            induction l generalizing j with
            | nil => simp at htake
            | cons a l ih =>
              cases j with
              | zero =>
                simp only [List.getElem?_cons_zero, Option.some.injEq] at htake
                subst htake
                simp [List.count_cons]
              | succ j =>
                simp only [List.getElem?_cons_succ] at htake
                have := ih htake
                simp only [List.set_cons_succ, List.filter_cons]
                split
                · simp only [List.map_cons, List.count_cons]
                  simp only [List.count_cons] at this
                  omega
                · exact this
          have hqo : PageOk i c (p.mark j) := by
            refine ⟨?_, ?_, mark_left hx hpo.left, ?_⟩
            · rw [hmi, hmf]; simpa using hpo.le
            · intro a x ha hxa
              rw [hmf] at ha
              rw [hmi, List.getElem?_set_ne (by omega)] at hxa
              exact hpo.fresh a x ha hxa
            · intro a ha
              classical
              have h1 := hcount a
              have h2 : 0 < (skipped (p.mark j)).count a := List.count_pos_iff.2 ha
              exact hpo.heavy a (List.count_pos_iff.1 (by omega))
          have hgen : ∀ (o : Option (Page M)) (n : Nat),
              ((o = none ∧ (p.mark j).remaining = 0 ∧ n = b.count - 1) ∨
                (o = some (p.mark j) ∧ n = b.count)) →
              BookOk i c { b with pages := put b.pages k o, count := n } ∧
              waiting { b with pages := put b.pages k o, count := n } = waiting b ∧
              (∀ [DecidableEq M] (x : M),
                (setAside { b with pages := put b.pages k o, count := n }).count x + [m'].count x =
                  (setAside b).count x) := by
            intro o n ho
            have hro : restO o = rest p := by
              rcases ho with ⟨rfl, h0, -⟩ | ⟨rfl, -⟩
              · rw [← hrest]; exact (rest_of_zero hqo h0).symm
              · exact hrest
            have hsk : skippedO o = skipped (p.mark j) := by
              rcases ho with ⟨rfl, h0, -⟩ | ⟨rfl, -⟩
              · exact (skipped_of_zero hqo h0).symm
              · rfl
            refine ⟨⟨h.le, h.ready, ?_, ?_, ?_⟩, ?_, ?_⟩
            · intro a r ha
              simp only at ha
              by_cases hak : a = k
              · subst hak
                rw [put_same] at ha
                rcases ho with ⟨rfl, _⟩ | ⟨rfl, _⟩
                · simp at ha
                · cases ha
                  exact ⟨hqo, hks, fun hc => by rw [hrest]; exact hbef hc⟩
              · rw [put_ne _ _ hak] at ha
                exact h.page a r ha
            · intro a a1 a2
              simp only at a1 a2 ⊢
              have hak : a ≠ k := by
                rintro rfl
                rcases hpos with hk | ⟨hk, -⟩ <;> omega
              rw [put_ne _ _ hak]
              exact h.fresh a a1 a2
            · show n = stored (put b.pages k o) b.stop
              have := stored_put b.pages k p o hp b.stop hks
              rw [show put b.pages k o = fun j => if j = k then o else b.pages j from rfl, this,
                ← h.count]
              rcases ho with ⟨rfl, _, rfl⟩ | ⟨rfl, rfl⟩ <;> rfl
            · unfold waiting
              refine waitingFrom_congr _ _ _ _ (fun a _ _ => ?_)
              simp only
              by_cases hak : a = k
              · subst hak
                rw [put_same, hro, hp]
                rfl
              · rw [put_ne _ _ hak]
            · intro _ x
              have := asides_count b.pages (put b.pages k o) x k b.stop hks
                (fun a ha => by rw [put_ne _ _ ha])
              rw [put_same, hsk, hp] at this
              have h2 := hcount x
              simp only [setAside, skippedO] at this ⊢
              omega
          split at hh
          · simp only [Option.some.injEq, Prod.mk.injEq] at hh
            obtain ⟨hb, rfl⟩ := hh
            split at hb
            · rename_i h0
              subst hb
              obtain ⟨g1, g2, g3⟩ := hgen none (b.count - 1) (Or.inl ⟨rfl, h0, rfl⟩)
              exact ⟨g1, g2, hlm, g3⟩
            · subst hb
              obtain ⟨g1, g2, g3⟩ := hgen (some (p.mark j)) b.count (Or.inr ⟨rfl, rfl⟩)
              exact ⟨g1, g2, hlm, g3⟩
          · simp at hh

theorem stored_add (f : Nat → Option (Page M)) (k : Nat) : ∀ n,
    (∀ j, k ≤ j → j < k + n → (f j).isSome) → stored f (k + n) = stored f k + n
  | 0, _ => rfl
  | n + 1, h => by
    rw [← Nat.add_assoc, stored_succ, stored_add f k n (fun j h1 h2 => h j h1 (by omega)),
      h (k + n) (by omega) (by omega)]
    simp
    omega

/-- The pages the test counts as old are at most those that are. -/
theorem stale_le {b : Book M} (h : BookOk i c b) : stale b ≤ stored b.pages b.start := by
  unfold stale
  by_cases hlt : b.start < b.stop
  · have h1 : stored b.pages (b.start + 1 + (b.stop - b.start - 1)) =
        stored b.pages (b.start + 1) + (b.stop - b.start - 1) :=
      stored_add _ _ _ (fun j j1 j2 => by
        obtain ⟨p, hp, -⟩ := h.fresh j (by omega) (by omega)
        simp [hp])
    rw [show b.start + 1 + (b.stop - b.start - 1) = b.stop by omega, stored_succ] at h1
    have h2 := h.count
    have h3 : (if (b.pages b.start).isSome then 1 else 0) ≤ 1 := by split <;> omega
    omega
  · have h1 := h.le
    have h2 := h.count
    rw [show b.stop = b.start by omega] at h2 ⊢
    omega

/-- Forgetting a page. -/
theorem reap_ok {b b' : Book M} {p : Page M} (h : BookOk i c b) {k : Nat}
    (hh : reap b k = some (b', p)) :
    BookOk i c b' ∧ waiting b' = waiting b ∧ b.pages k = some p ∧ k < b.start ∧
    (skipped p ≠ [] → maxStale < stored b.pages b.start) ∧
    (∀ [DecidableEq M] (x : M), (setAside b').count x + (skipped p).count x =
      (setAside b).count x) := by
  unfold reap at hh
  split at hh
  · simp at hh
  · rename_i q hq
    split at hh
    · rename_i hr
      simp only [Option.some.injEq, Prod.mk.injEq] at hh
      obtain ⟨rfl, rfl⟩ := hh
      simp only [reapable, Bool.and_eq_true, Bool.or_eq_true, decide_eq_true_eq] at hr
      obtain ⟨hk, hr⟩ := hr
      obtain ⟨hpo, hks, hbef⟩ := h.page k q hq
      refine ⟨⟨h.le, h.ready, ?_, ?_, ?_⟩, ?_, hq, hk, ?_, ?_⟩
      · intro a r ha
        simp only at ha
        by_cases hak : a = k
        · subst hak
          rw [put_same] at ha
          simp at ha
        · rw [put_ne _ _ hak] at ha
          exact h.page a r ha
      · intro a a1 a2
        simp only at a1 a2 ⊢
        rw [put_ne _ _ (by omega)]
        exact h.fresh a a1 a2
      · show b.count - 1 = stored (put b.pages k none) b.stop
        have := stored_put b.pages k q none hq b.stop hks
        rw [show put b.pages k none = fun j => if j = k then none else b.pages j from rfl, this,
          ← h.count]
        rfl
      · unfold waiting
        refine waitingFrom_congr _ _ _ _ (fun a h1 _ => ?_)
        simp only at h1 ⊢
        rw [put_ne _ _ (by omega)]
      · intro hne
        rcases hr with h0 | ⟨h1, -⟩
        · exact absurd (skipped_of_zero hpo h0) hne
        · have := stale_le h
          omega
      · intro _ x
        have := asides_count b.pages (put b.pages k none) x k b.stop hks
          (fun a ha => by rw [put_ne _ _ ha])
        rw [put_same, hq] at this
        simp only [skippedO, List.count_nil, Nat.add_zero] at this
        exact this
    · simp at hh

end book

end Verif.Xcm.Queue
