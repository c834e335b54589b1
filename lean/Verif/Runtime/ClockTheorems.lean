import Verif.Runtime.Clock
import Mathlib.Data.List.Induction

/-! # The clock of the chain: theorems (C168, C169) -/

namespace Verif.Runtime.Clock

/-- The block of a number: block 1 is the first of the list. Specification only, no code behind it (outside /repo). -/
def block (bs : List Blk) (n : Nat) : Option Blk := if n = 0 then none else bs[n - 1]?

theorem execute_some {R : Relay} {s s' : St} {b : Blk} (h : execute R s b = some s') :
    s.slot ≤ b.slot ∧ s.relay ≤ b.relay ∧ b.slot = R.slot b.relay ∧ b.time / 6000 = b.slot ∧
    (s.time = 0 ∨ s.time ≤ b.time) ∧
    s'.number = s.number + 1 ∧ s'.slot = b.slot ∧ s'.time = b.time ∧ s'.relay = b.relay ∧
    (∃ n, countBlock s.info b.slot = some (b.slot, n) ∧ n ≤ 2 ∧ s'.info = some (b.slot, n)) ∧
    ∃ rest, dropIncluded s.segment (R.included b.relay) = some rest ∧ s'.segment = rest ++ [s.number + 1] := by
  unfold execute at h
  simp only [Option.bind_eq_bind, Option.bind_eq_some_iff] at h
  obtain ⟨sl, h1, info, h2, h⟩ := h
  obtain ⟨h3, h⟩ := Option.ite_none_right_eq_some.1 h
  simp only [Option.bind_eq_some_iff] at h
  obtain ⟨rest, h4, t, h5, h6⟩ := h
  obtain ⟨h7, h8⟩ := Option.ite_none_right_eq_some.1 h1
  obtain ⟨h9, h10⟩ := Option.ite_none_right_eq_some.1 h5
  simp only [Option.some.injEq] at h6 h8 h10
  subst h6 h8 h10
  have h11 : info.1 = b.slot := by
    unfold countBlock at h2
    split at h2
    · simp only [Option.some.injEq] at h2; rw [← h2]
    · split at h2
      · simp only [Option.some.injEq] at h2; rw [← h2]; assumption
      · split at h2
        · simp only [Option.some.injEq] at h2; rw [← h2]
        · exact absurd h2 (by simp)
  obtain ⟨i1, i2⟩ := info
  simp only at h11
  subst h11
  simp only [relayAdvances, hook, Bool.and_eq_true, decide_eq_true_eq, velocity, relaySlotMillis, slotMillis] at h3
  simp only [slotMillis] at h9
  obtain ⟨h12, h13, h14⟩ := h3
  have h15 : b.slot = 6000 * R.slot b.relay / 6000 := of_decide_eq_true h13
  refine ⟨h7, h12, by omega, h9.2, ?_, rfl, rfl, rfl, rfl, ⟨i2, h2, by simpa using h14, rfl⟩, rest, h4, rfl⟩
  simpa [minimumPeriod] using h9.1

theorem run_append (R : Relay) (bs : List Blk) (b : Blk) : run R (bs ++ [b]) = (run R bs).bind fun s => execute R s b := by
  simp [run]

theorem run_none (R : Relay) (bs : List Blk) : bs.foldl (fun s b => s.bind fun s => execute R s b) (none : Option St) = none := by
  induction bs with
  | nil => rfl
  | cons b bs ih => simpa using ih

theorem run_prefix {R : Relay} {bs cs : List Blk} {s : St} (h : run R (bs ++ cs) = some s) : ∃ s', run R bs = some s' := by
  unfold run at h ⊢
  rw [List.foldl_append] at h
  cases h1 : bs.foldl (fun s b => s.bind fun s => execute R s b) (some genesis) with
  | none => rw [h1, run_none] at h; exact absurd h (by simp)
  | some s' => exact ⟨s', rfl⟩

/-- What is true of a chain after its blocks. Part of the transition system around the code (outside /repo). -/
structure Good (R : Relay) (bs : List Blk) (s : St) : Prop where
  number : s.number = bs.length
  last : ∀ b, block bs bs.length = some b → s.slot = b.slot ∧ s.time = b.time ∧ s.relay = b.relay
  each : ∀ (n : Nat) (b : Blk), block bs n = some b → b.slot = R.slot b.relay ∧ b.time / 6000 = b.slot
  ordered : ∀ (m n : Nat) (a b : Blk), block bs m = some a → block bs n = some b → m ≤ n →
    a.slot ≤ b.slot ∧ a.time ≤ b.time ∧ a.relay ≤ b.relay
  two : ∀ (n : Nat) (a b : Blk), block bs n = some a → block bs (n + 2) = some b → a.slot < b.slot
  info : ∀ b, block bs bs.length = some b → ∃ n, s.info = some (b.slot, n) ∧ 1 ≤ n ∧
    (2 ≤ n ↔ ∃ a, block bs (bs.length - 1) = some a ∧ a.slot = b.slot)
  zero : bs = [] → s = genesis

theorem block_append {bs : List Blk} {b x : Blk} {n : Nat} (h : block (bs ++ [b]) n = some x) :
    block bs n = some x ∧ n ≤ bs.length ∨ n = bs.length + 1 ∧ x = b := by
  unfold block at h ⊢
  split at h
  · exact absurd h (by simp)
  · rename_i h0
    rw [if_neg h0]
    by_cases hn : n - 1 < bs.length
    · rw [List.getElem?_append_left hn] at h
      exact .inl ⟨h, by omega⟩
    · rw [List.getElem?_append_right (by omega)] at h
      have := List.getElem?_eq_some_iff.1 h
      obtain ⟨h1, h2⟩ := this
      simp only [List.length_singleton] at h1
      refine .inr ⟨by omega, ?_⟩
      simp at h2; exact h2.symm

theorem block_le {bs : List Blk} {x : Blk} {n : Nat} (h : block bs n = some x) : 1 ≤ n ∧ n ≤ bs.length := by
  unfold block at h
  split at h
  · exact absurd h (by simp)
  · have := (List.getElem?_eq_some_iff.1 h).1
    omega

theorem block_last {bs : List Blk} (h : bs ≠ []) : ∃ b, block bs bs.length = some b := by
  have : 0 < bs.length := List.length_pos_iff.2 h
  exact ⟨bs[bs.length - 1], by rw [block, if_neg (by omega)]; exact List.getElem?_eq_getElem (by omega)⟩

theorem block_pre {bs : List Blk} {x : Blk} {b : Blk} {n : Nat} (h : block bs n = some x) :
    block (bs ++ [b]) n = some x := by
  have := block_le h
  unfold block at h ⊢
  rw [if_neg (by omega)] at h ⊢
  rw [List.getElem?_append_left (by omega)]; exact h

theorem good {R : Relay} : ∀ (bs : List Blk) (s : St), run R bs = some s → Good R bs s := by
  intro bs
  induction bs using List.reverseRecOn with
  | nil =>
    intro s h
    simp only [run, List.foldl_nil, Option.some.injEq] at h
    subst h
    constructor <;> intros <;> simp_all [block, genesis]
  | append_singleton bs b ih =>
    intro s' h
    rw [run_append, Option.bind_eq_some_iff] at h
    obtain ⟨s, hs, h⟩ := h
    have g := ih s hs
    obtain ⟨e1, e2, e3, e4, e5, e6, e7, e8, e9, ⟨k, e10, e11, e12⟩, _⟩ := execute_some h
    have before : ∀ (m : Nat) (a : Blk), block bs m = some a → a.slot ≤ b.slot ∧ a.time ≤ b.time ∧ a.relay ≤ b.relay := by
      intro m a ha
      have hm := block_le ha
      obtain ⟨l, hl⟩ := block_last (bs := bs) (by rintro rfl; simp at hm; omega)
      have hll := g.last l hl
      have ho := g.ordered m bs.length a l ha hl hm.2
      have hz := g.each m a ha
      refine ⟨by omega, ?_, by omega⟩
      rcases e5 with e5 | e5
      · omega
      · omega
    have lastb : ∀ x, block (bs ++ [b]) (bs ++ [b]).length = some x → x = b := by
      intro x hx
      rcases block_append hx with ⟨_, hn⟩ | ⟨_, hx⟩
      · simp at hn; omega
      · exact hx
    refine ⟨by simp [e6, g.number], ?_, ?_, ?_, ?_, ?_, by simp⟩
    · intro x hx
      rw [lastb x hx]; exact ⟨e7, e8, e9⟩
    · intro n x hx
      rcases block_append hx with ⟨hx, _⟩ | ⟨_, rfl⟩
      · exact g.each n x hx
      · exact ⟨e3, e4⟩
    · intro m n a c ha hc hmn
      rcases block_append hc with ⟨hc, hn⟩ | ⟨hn, rfl⟩
      · rcases block_append ha with ⟨ha, _⟩ | ⟨hm, _⟩
        · exact g.ordered m n a c ha hc hmn
        · omega
      · rcases block_append ha with ⟨ha, _⟩ | ⟨_, rfl⟩
        · exact before m a ha
        · exact ⟨Nat.le_refl _, Nat.le_refl _, Nat.le_refl _⟩
    · intro n a c ha hc
      rcases block_append hc with ⟨hc, hn⟩ | ⟨hn, rfl⟩
      · rcases block_append ha with ⟨ha, _⟩ | ⟨hm, _⟩
        · exact g.two n a c ha hc
        · omega
      · rcases block_append ha with ⟨ha, hm⟩ | ⟨hm, _⟩
        · have h1 := block_le ha
          obtain ⟨l, hl⟩ := block_last (bs := bs) (by rintro rfl; simp at h1; omega)
          obtain ⟨j, hj1, hj2, hj3⟩ := g.info l hl
          have hn1 : bs.length - 1 = n := by omega
          have hle := (before n a ha).1
          have h2 := g.ordered n bs.length a l ha hl hm
          have h3 := (before bs.length l hl).1
          by_contra hlt
          have hal : a.slot = l.slot := by omega
          have := hj3.2 ⟨a, by rw [hn1]; exact ha, hal⟩
          rw [hj1] at e10
          simp only [countBlock] at e10
          rw [if_pos (by omega)] at e10
          simp only [Option.some.injEq, Prod.mk.injEq] at e10
          omega
        · omega
    · intro x hx
      have hxb := lastb x hx
      subst hxb
      simp only [List.length_append, List.length_singleton, Nat.add_sub_cancel]
      refine ⟨k, e12, ?_⟩
      rcases List.eq_nil_or_concat bs with h0 | ⟨_, _, h0⟩
      · subst h0
        rw [g.zero rfl] at e10
        simp only [countBlock, genesis, Option.some.injEq, Prod.mk.injEq, true_and] at e10
        refine ⟨by omega, by omega, ?_⟩
        rintro ⟨a, ha, _⟩
        simp [block] at ha
      · obtain ⟨l, hl⟩ := block_last (bs := bs) (by rw [h0]; simp)
        obtain ⟨j, hj1, hj2, _⟩ := g.info l hl
        rw [hj1] at e10
        simp only [countBlock] at e10
        split at e10
        · simp only [Option.some.injEq, Prod.mk.injEq] at e10
          exact ⟨by omega, fun _ => ⟨l, block_pre hl, e10.1⟩, fun _ => by omega⟩
        · rename_i hne
          split at e10
          · simp only [Option.some.injEq, Prod.mk.injEq, true_and] at e10
            refine ⟨by omega, by omega, ?_⟩
            rintro ⟨a, ha, hax⟩
            rw [block_pre hl, Option.some.injEq] at ha
            subst ha
            exact absurd hax hne
          · simp at e10

/-- What is assumed of the relay chain: its slots increase from block to block, and with each of its blocks at most one
more block of Kreivo is included, for good. Specification only, no code behind it (outside /repo). -/
structure Steady (R : Relay) : Prop where
  slots : ∀ r, R.slot r < R.slot (r + 1)
  forward : ∀ r, R.included r ≤ R.included (r + 1)
  one : ∀ r, R.included (r + 1) ≤ R.included r + 1

/-- Blocks are built against relay blocks that can only have included their ancestors. Specification only, no code
behind it (outside /repo). -/
def Past (R : Relay) (bs : List Blk) : Prop := ∀ n b, block bs n = some b → R.included b.relay < n

theorem Steady.mono {R : Relay} (h : Steady R) {a b : Nat} (hab : a ≤ b) : R.included a ≤ R.included b := by
  obtain ⟨k, rfl⟩ := Nat.exists_eq_add_of_le hab
  clear hab
  induction k with
  | zero => exact Nat.le_refl _
  | succ k ih => exact Nat.le_trans ih (h.forward _)

theorem Steady.slow {R : Relay} (h : Steady R) (a k : Nat) :
    R.included (a + k) ≤ R.included a + k ∧ R.slot a + k ≤ R.slot (a + k) := by
  induction k with
  | zero => simp
  | succ k ih =>
    have h1 := h.one (a + k)
    have h2 := h.slots (a + k)
    rw [← Nat.add_assoc]
    omega

theorem drop_range (a k h : Nat) (ha : a ≤ h) (hk : h ≤ a + k) :
    (if h ∈ List.range' (a + 1) k then ((List.range' (a + 1) k).dropWhile fun n => decide (n ≠ h)).tail
      else List.range' (a + 1) k) = List.range' (h + 1) (a + k - h) := by
  induction k generalizing a with
  | zero =>
    have : h = a := by omega
    subst this; simp
  | succ k ih =>
    by_cases h1 : h = a
    · subst h1
      rw [if_neg (by simp [List.mem_range'_1]; omega)]
      congr 1; omega
    · rw [if_pos (by simp [List.mem_range'_1]; omega)]
      by_cases h2 : h = a + 1
      · subst h2
        simp only [List.range'_succ, List.dropWhile_cons, ne_eq, not_true_eq_false, decide_false, Bool.false_eq_true,
          if_false, List.tail_cons]
        congr 1; omega
      · have := ih (a + 1) (by omega) (by omega)
        rw [if_pos (by simp [List.mem_range'_1]; omega)] at this
        rw [List.range'_succ, List.dropWhile_cons, if_pos (by simp; omega), this]
        congr 1; omega

theorem segment_eq {R : Relay} (hR : Steady R) : ∀ (bs : List Blk) (s : St), run R bs = some s → Past R bs →
    ∃ a, a ≤ bs.length ∧ s.segment = List.range' (a + 1) (bs.length - a) ∧
      ∀ l, block bs bs.length = some l → a = R.included l.relay := by
  intro bs
  induction bs using List.reverseRecOn with
  | nil =>
    intro s h _
    simp only [run, List.foldl_nil, Option.some.injEq] at h
    subst h
    exact ⟨0, by simp [genesis, block]⟩
  | append_singleton bs b ih =>
    intro s' h hp
    rw [run_append, Option.bind_eq_some_iff] at h
    obtain ⟨s, hs, h⟩ := h
    have hlast : block (bs ++ [b]) (bs.length + 1) = some b := by
      rw [block, if_neg (by omega)]; simp
    obtain ⟨a, h1, h2, h3⟩ := ih s hs fun n x hx => hp n x (block_pre hx)
    obtain ⟨_, _, _, _, _, _, _, _, _, _, rest, h4, h5⟩ := execute_some h
    have g := good bs s hs
    have h6 : R.included b.relay ≤ bs.length := by have := hp _ _ hlast; omega
    have h7 : a ≤ R.included b.relay := by
      rcases List.eq_nil_or_concat bs with h0 | ⟨_, _, h0⟩
      · subst h0; simp at h1; omega
      · obtain ⟨l, hl⟩ := block_last (bs := bs) (by rw [h0]; simp)
        have h8 := (good _ s' (by rw [run_append, hs]; exact h)).ordered bs.length (bs.length + 1) l b (block_pre hl) hlast
          (by omega)
        rw [h3 l hl]
        exact hR.mono h8.2.2
    refine ⟨R.included b.relay, by simp; omega, ?_, ?_⟩
    · unfold dropIncluded at h4
      obtain ⟨_, h9⟩ := Option.ite_none_right_eq_some.1 h4
      rw [h2, drop_range a (bs.length - a) _ h7 (by omega), Option.some.injEq] at h9
      rw [h5, ← h9, g.number]
      have h10 : (bs ++ [b]).length - R.included b.relay = (a + (bs.length - a) - R.included b.relay) + 1 := by
        simp; omega
      rw [h10, List.range'_concat]
      congr 2; omega
    · intro l hl
      simp only [List.length_append, List.length_singleton, hlast, Option.some.injEq] at hl
      rw [hl]

theorem drop_eq {R : Relay} (hR : Steady R) {bs : List Blk} {s : St} (h : run R bs = some s) {b : Blk}
    (hp : Past R (bs ++ [b])) (hr : ∀ l, block bs bs.length = some l → l.relay ≤ b.relay) :
    dropIncluded s.segment (R.included b.relay) = if bs.length - R.included b.relay < 3 then
      some (List.range' (R.included b.relay + 1) (bs.length - R.included b.relay)) else none := by
  obtain ⟨a, h1, h2, h3⟩ := segment_eq hR bs s h fun n x hx => hp n x (block_pre hx)
  have h6 : R.included b.relay ≤ bs.length := by
    have := hp (bs.length + 1) b (by rw [block, if_neg (by omega)]; simp)
    omega
  have h7 : a ≤ R.included b.relay := by
    rcases List.eq_nil_or_concat bs with h0 | ⟨_, _, h0⟩
    · subst h0; simp at h1; omega
    · obtain ⟨l, hl⟩ := block_last (bs := bs) (by rw [h0]; simp)
      rw [h3 l hl]
      exact hR.mono (hr l hl)
  unfold dropIncluded
  have h8 : a + (bs.length - a) = bs.length := by omega
  simp only [h2, drop_range a (bs.length - a) _ h7 (by omega), h8, List.length_range', capacity]
  rfl

/-! ## C168 -/

/-- C168: the time never goes back, nor do slots or the relay block built against. -/
theorem C168_forward {R : Relay} {bs : List Blk} {s : St} (h : run R bs = some s) {m n : Nat} {a b : Blk}
    (ha : block bs m = some a) (hb : block bs n = some b) (hmn : m ≤ n) :
    a.time ≤ b.time ∧ a.slot ≤ b.slot ∧ a.relay ≤ b.relay := by
  have := (good bs s h).ordered m n a b ha hb hmn
  exact ⟨this.2.1, this.1, this.2.2⟩

/-- C168: the time of a block is within the six seconds of the relay chain's slot that it is built against. -/
theorem C168_relay {R : Relay} {bs : List Blk} {s : St} (h : run R bs = some s) {n : Nat} {b : Blk}
    (hb : block bs n = some b) : b.slot = R.slot b.relay ∧
      R.slot b.relay * 6000 ≤ b.time ∧ b.time < R.slot b.relay * 6000 + 6000 := by
  have := (good bs s h).each n b hb
  refine ⟨this.1, ?_, ?_⟩ <;> omega

/-- C168: no three blocks share a slot. -/
theorem C168_two {R : Relay} {bs : List Blk} {s : St} (h : run R bs = some s) {k m n : Nat} {a b c : Blk}
    (ha : block bs k = some a) (_hb : block bs m = some b) (hc : block bs n = some c) (hkm : k < m) (hmn : m < n) :
    a.slot < c.slot := by
  have g := good bs s h
  have hle := block_le hc
  have hk := block_le ha
  obtain ⟨x, hx⟩ : ∃ x, block bs (k + 2) = some x := by
    refine ⟨bs[k + 1]'(by omega), ?_⟩
    rw [block, if_neg (by omega)]; exact List.getElem?_eq_getElem (by omega)
  have h1 := g.two k a x ha hx
  have h2 := (g.ordered (k + 2) n x c hx hc (by omega)).1
  omega

/-- C168: the next block is accepted exactly if its slot is that of the relay block it is built against, its time is in
that slot, neither of the three goes back, at most one block of that slot came before, and at most two blocks are not
included. -/
theorem C168_accepted {R : Relay} (hR : Steady R) {bs : List Blk} {s : St} (h : run R bs = some s) (b : Blk)
    (hp : Past R (bs ++ [b])) :
    (∃ s', run R (bs ++ [b]) = some s') ↔
      b.slot = R.slot b.relay ∧ b.slot * 6000 ≤ b.time ∧ b.time < b.slot * 6000 + 6000 ∧
      (∀ l, block bs bs.length = some l → l.slot ≤ b.slot ∧ l.time ≤ b.time ∧ l.relay ≤ b.relay ∧
        ∀ a, block bs (bs.length - 1) = some a → ¬ (a.slot = b.slot ∧ l.slot = b.slot)) ∧
      bs.length - R.included b.relay ≤ 2 := by
  have g := good bs s h
  have hlast : block (bs ++ [b]) (bs.length + 1) = some b := by rw [block, if_neg (by omega)]; simp
  constructor
  · rintro ⟨s', h'⟩
    have g' := good _ s' h'
    have h1 := g'.each _ b hlast
    have h2 : ∀ l, block bs bs.length = some l → l.slot ≤ b.slot ∧ l.time ≤ b.time ∧ l.relay ≤ b.relay := fun l hl =>
      g'.ordered _ _ l b (block_pre hl) hlast (by omega)
    refine ⟨h1.1, by omega, by omega, ?_, ?_⟩
    · intro l hl
      refine ⟨(h2 l hl).1, (h2 l hl).2.1, (h2 l hl).2.2, ?_⟩
      rintro a ha ⟨h3, _⟩
      have h4 := block_le ha
      have := g'.two (bs.length - 1) a b (block_pre ha) (by rw [show bs.length - 1 + 2 = bs.length + 1 by omega]; exact hlast)
      omega
    · rw [run_append, h, Option.bind_some] at h'
      obtain ⟨_, _, _, _, _, _, _, _, _, _, rest, h4, _⟩ := execute_some h'
      rw [drop_eq hR h hp fun l hl => (h2 l hl).2.2] at h4
      have := (Option.ite_none_right_eq_some.1 h4).1
      omega
  · rintro ⟨h1, h2, h3, h4, h5⟩
    rw [run_append, h, Option.bind_some]
    have hd := drop_eq hR h hp fun l hl => (h4 l hl).2.2.1
    rw [if_pos (by omega)] at hd
    have hslot : s.slot ≤ b.slot ∧ s.relay ≤ b.relay ∧ (s.time = 0 ∨ s.time ≤ b.time) := by
      rcases List.eq_nil_or_concat bs with h0 | ⟨_, _, h0⟩
      · rw [g.zero h0]; simp [genesis]
      · obtain ⟨l, hl⟩ := block_last (bs := bs) (by rw [h0]; simp)
        have h6 := g.last l hl
        have h7 := h4 l hl
        refine ⟨by omega, by omega, .inr (by omega)⟩
    have hcount : ∃ n, countBlock s.info b.slot = some (b.slot, n) ∧ n ≤ 2 := by
      rcases List.eq_nil_or_concat bs with h0 | ⟨_, _, h0⟩
      · rw [g.zero h0]; exact ⟨1, rfl, by omega⟩
      · obtain ⟨l, hl⟩ := block_last (bs := bs) (by rw [h0]; simp)
        obtain ⟨n, h6, h7, h8⟩ := g.info l hl
        have h9 := h4 l hl
        rw [h6]
        simp only [countBlock]
        by_cases h10 : l.slot = b.slot
        · rw [if_pos h10]
          refine ⟨n + 1, by rw [h10], ?_⟩
          by_contra h11
          obtain ⟨a, ha, hal⟩ := h8.1 (by omega)
          exact h9.2.2.2 a ha ⟨by omega, h10⟩
        · rw [if_neg h10, if_pos (by omega)]
          exact ⟨1, rfl, by omega⟩
    obtain ⟨n, hc, hn⟩ := hcount
    have h6 : auraInit s b = some b.slot := if_pos hslot.1
    have h7 : (relayAdvances s.relay b.relay && hook (R.slot b.relay) b.slot n) = true := by
      simp only [relayAdvances, hook, Bool.and_eq_true, velocity, relaySlotMillis, slotMillis]
      exact ⟨decide_eq_true hslot.2.1, decide_eq_true (by omega), decide_eq_true (by simpa using hn)⟩
    have h8 : setTime s b.slot b.time = some b.time :=
      if_pos ⟨by simpa [minimumPeriod] using hslot.2.2, by simp only [slotMillis]; omega⟩
    unfold execute
    simp only [h6, hc, Option.bind_eq_bind, Option.bind_some, h7, if_true, hd, h8]
    exact ⟨_, rfl⟩

/-! ## C169 -/

/-- C169 in full: from a block to the one `n` blocks later pass at least `n` times six seconds. Specification only, no
code behind it (outside /repo). -/
def OnTime (bs : List Blk) : Prop := ∀ k n a b, block bs k = some a → block bs (k + n) = some b →
  a.time + n * 6000 ≤ b.time

/-- C169, what holds if the relay chain includes at most one block of Kreivo in each of its own: the time that passes
in `n` blocks is less than 18 seconds short of `n` times six seconds, however large `n` is. -/
theorem C169_steady_partial {R : Relay} (hR : Steady R) {bs : List Blk} {s : St} (h : run R bs = some s) (hp : Past R bs)
    {k n : Nat} {a b : Blk} (ha : block bs k = some a) (hb : block bs (k + n) = some b) :
    a.time + n * 6000 < b.time + 18000 := by
  have g := good bs s h
  have hn := block_le hb
  have ho := g.ordered k (k + n) a b ha hb (by omega)
  have h1 := hp k a ha
  -- the chain when the later block was made
  obtain ⟨s1, s2, hs1, hs2⟩ : ∃ s1 s2, run R (bs.take (k + n - 1)) = some s1 ∧
      run R (bs.take (k + n - 1) ++ [b]) = some s2 := by
    have hk := block_le ha
    have h2 : bs = (bs.take (k + n - 1) ++ [b]) ++ bs.drop (k + n) := by
      have h3 : bs[k + n - 1]? = some b := by rw [block, if_neg (by omega)] at hb; exact hb
      have h4 := List.take_add_one (l := bs) (i := k + n - 1)
      rw [h3, show k + n - 1 + 1 = k + n by omega] at h4
      rw [show (some b).toList = [b] from rfl] at h4
      rw [← h4, List.take_append_drop]
    obtain ⟨s2, hs2⟩ := run_prefix (h2 ▸ h)
    obtain ⟨s1, hs1⟩ := run_prefix hs2
    exact ⟨s1, s2, hs1, hs2⟩
  have hlen : (bs.take (k + n - 1)).length = k + n - 1 := by rw [List.length_take]; omega
  have hk := block_le ha
  have hpre : ∀ j x, block (bs.take (k + n - 1) ++ [b]) j = some x → block bs j = some x := by
    intro j x hx
    rcases block_append hx with ⟨hx, hj⟩ | ⟨hj, rfl⟩
    · have hj' := block_le hx
      rw [block, if_neg (by omega)] at hx ⊢
      rw [List.getElem?_take] at hx
      split at hx
      · exact hx
      · exact absurd hx (by simp)
    · rw [hj, hlen, show k + n - 1 + 1 = k + n by omega]; exact hb
  have h2 := ((C168_accepted hR hs1 b fun j x hx => hp j x (hpre j x hx)).1 ⟨s2, hs2⟩).2.2.2.2
  rw [hlen] at h2
  obtain ⟨d, hd⟩ := Nat.exists_eq_add_of_le ho.2.2
  have h3 := hR.slow a.relay d
  rw [← hd] at h3
  have h4 := g.each _ a ha
  have h5 := g.each _ b hb
  omega

/-- C169, what holds without any assumption about the relay chain: `2 * n` blocks take more than `n - 1` times six
seconds. -/
theorem C169_half_partial {R : Relay} {bs : List Blk} {s : St} (h : run R bs = some s)
    {k n : Nat} {a b : Blk} (ha : block bs k = some a) (hb : block bs (k + 2 * n) = some b) :
    a.time + n * 6000 < b.time + 6000 := by
  have g := good bs s h
  have key : ∀ n b, block bs (k + 2 * n) = some b → a.slot + n ≤ b.slot := by
    intro n
    induction n with
    | zero =>
      intro b hb
      rw [Nat.mul_zero, Nat.add_zero, ha, Option.some.injEq] at hb
      subst hb; omega
    | succ n ih =>
      intro b hb
      have hle := block_le hb
      have hk := block_le ha
      obtain ⟨x, hx⟩ : ∃ x, block bs (k + 2 * n) = some x := by
        refine ⟨bs[k + 2 * n - 1]'(by omega), ?_⟩
        rw [block, if_neg (by omega)]; exact List.getElem?_eq_getElem (by omega)
      have h1 := ih x hx
      have h2 := g.two _ x b hx (by rw [show k + 2 * n + 2 = k + 2 * (n + 1) by omega]; exact hb)
      omega
  have h1 := key n b hb
  have h2 := g.each _ a ha
  have h3 := g.each _ b hb
  omega

/-- A relay chain with a block in each slot that includes one block of Kreivo in each from the sixth on. Example for
non-vacuity (outside /repo). -/
def relayChain : Relay := ⟨fun r => r, fun r => r - 5⟩

theorem relayChain_steady : Steady relayChain :=
  ⟨fun r => by simp only [relayChain]; omega, fun r => by simp only [relayChain]; omega,
   fun r => by simp only [relayChain]; omega⟩

/-- Two blocks at the end of slot 5 and two at the beginning of slot 6. Example for non-vacuity (outside /repo). -/
def hasty : List Blk := [⟨5, 35999, 5⟩, ⟨5, 35999, 5⟩, ⟨6, 36000, 6⟩, ⟨6, 36000, 6⟩]

/-- The same chain with a block in each slot from then on. Example for non-vacuity (outside /repo). -/
def longer : List Blk := hasty ++ [⟨7, 42000, 7⟩, ⟨8, 48500, 8⟩, ⟨9, 54001, 9⟩]

example : (run relayChain longer).any fun s => decide (s.number = 7 ∧ s.time = 54001 ∧ s.segment = [5, 6, 7]) := by
  decide +kernel

-- a fifth block in slot 6, one that goes back, one whose time is not in its slot, one beside the relay chain and a
-- fourth block that is not included are not accepted
example : (run relayChain (hasty ++ [⟨6, 36000, 6⟩])).isNone ∧ (run relayChain (hasty ++ [⟨5, 35999, 5⟩])).isNone ∧
    (run relayChain (hasty ++ [⟨7, 41999, 7⟩])).isNone ∧ (run relayChain (hasty ++ [⟨8, 48000, 7⟩])).isNone ∧
    (run ⟨fun r => r, fun _ => 0⟩ (hasty ++ [⟨7, 42000, 7⟩])).isNone ∧
    (run ⟨fun r => r, fun _ => 0⟩ (hasty.take 3)).isSome ∧ (run ⟨fun r => r, fun _ => 0⟩ hasty).isNone := by decide +kernel

theorem hasty_past : Past relayChain hasty := by
  intro n b hb
  have := block_le hb
  obtain rfl | rfl | rfl | rfl : n = 1 ∨ n = 2 ∨ n = 3 ∨ n = 4 := by simp [hasty] at this; omega
  all_goals (simp [block, hasty] at hb; subst hb; simp [relayChain])

/-- C169 fails: three blocks can pass within a millisecond, even if the relay chain includes one of them in each of its
own (so the bound of `C169_steady_partial` cannot be improved). -/
theorem C169_fails : ∃ (R : Relay) (bs : List Blk) (s : St) (a b : Blk), Steady R ∧ run R bs = some s ∧ Past R bs ∧
    block bs 1 = some a ∧ block bs 4 = some b ∧ b.time = a.time + 1 ∧ ¬ OnTime bs := by
  obtain ⟨s, hs⟩ : ∃ s, run relayChain hasty = some s := Option.isSome_iff_exists.1 (by decide +kernel)
  refine ⟨relayChain, hasty, s, ⟨5, 35999, 5⟩, ⟨6, 36000, 6⟩, relayChain_steady, hs, hasty_past, rfl, rfl, rfl, ?_⟩
  intro h
  have := h 1 3 ⟨5, 35999, 5⟩ ⟨6, 36000, 6⟩ rfl rfl
  simp at this

/-- The time between the request and the deadline of a refund, 14400 blocks: at least a day less 18 seconds. Beside
`C169_steady_partial` with a number of blocks that occurs. -/
example {R : Relay} (hR : Steady R) {bs : List Blk} {s : St} (h : run R bs = some s) (hp : Past R bs) {k : Nat} {a b : Blk}
    (ha : block bs k = some a) (hb : block bs (k + 14400) = some b) : a.time + 24 * 60 * 60 * 1000 < b.time + 18000 := by
  have := C169_steady_partial hR h hp ha hb
  omega

/-- A block in each slot. Example for non-vacuity (outside /repo). -/
def regular (n : Nat) : List Blk := (List.range n).map fun i => ⟨i + 5, (i + 5) * 6000, i + 5⟩

theorem block_regular {n k : Nat} {b : Blk} (h : block (regular n) k = some b) :
    1 ≤ k ∧ b = ⟨k + 4, (k + 4) * 6000, k + 4⟩ := by
  have h1 := block_le h
  rw [block, if_neg (by omega)] at h
  simp only [regular, List.getElem?_map, Option.map_eq_some_iff] at h
  obtain ⟨i, h2, h3⟩ := h
  obtain ⟨h4, h5⟩ := List.getElem?_eq_some_iff.1 h2
  simp only [List.getElem_range] at h5
  refine ⟨h1.1, ?_⟩
  rw [← h3]
  simp only [Blk.mk.injEq]
  omega

theorem regular_block {n k : Nat} (h1 : 1 ≤ k) (h2 : k ≤ n) : block (regular n) k = some ⟨k + 4, (k + 4) * 6000, k + 4⟩ := by
  rw [block, if_neg (by omega)]
  simp only [regular, List.getElem?_map, Option.map_eq_some_iff]
  refine ⟨k - 1, by rw [List.getElem?_range (by omega)], ?_⟩
  simp only [Blk.mk.injEq]
  omega

theorem regular_past (n : Nat) : Past relayChain (regular n) := by
  intro k b hb
  obtain ⟨h1, rfl⟩ := block_regular hb
  simp only [relayChain]; omega

theorem regular_succ (n : Nat) : regular (n + 1) = regular n ++ [⟨n + 5, (n + 5) * 6000, n + 5⟩] := by
  simp [regular, List.range_succ]

/-- A chain of any length with a block in each slot, every one of them included in the next relay block. -/
theorem regular_runs : ∀ n, ∃ s, run relayChain (regular n) = some s
  | 0 => ⟨genesis, rfl⟩
  | n + 1 => by
    obtain ⟨s, hs⟩ := regular_runs n
    have hp := regular_past (n + 1)
    rw [regular_succ] at hp ⊢
    have hlen : (regular n).length = n := by simp [regular]
    refine (C168_accepted relayChain_steady hs _ hp).2 ⟨rfl, Nat.le_refl _, by simp only; omega, ?_, ?_⟩
    · intro l hl
      rw [hlen] at hl
      obtain ⟨h1, rfl⟩ := block_regular hl
      refine ⟨by simp only; omega, by simp only; omega, by simp only; omega, ?_⟩
      rintro a _ ⟨_, h2⟩
      simp only at h2; omega
    · rw [hlen]; simp only [relayChain]; omega

end Verif.Runtime.Clock
