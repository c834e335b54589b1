import Verif.Xcm.OutboundTheorems

/-
C177: no channel to another chain starves.
-/

set_option linter.unusedSectionVars false

namespace Verif.Xcm.Outbound

variable {M : Type}

/-- What may happen while a message to a chain waits: the chain does not ask to stop, the queue has no
signal for it, and in every block the relay chain reports room for a page and takes at least one
message. Specification only, no code behind it (outside /repo). -/
def Willing (d most : Nat) : Op M → Prop
  | .signal e => e ≠ d
  | .suspend e => e ≠ d
  | .block status limit => 1 ≤ limit ∧ ∃ now, status d = .ready now most ∧ min most maxPage < now
  | _ => True

/-- How many blocks end in a history. Specification only, no code behind it (outside /repo). -/
def blocks : List (Op M) → Nat
  | [] => 0
  | .block _ _ :: ops => 1 + blocks ops
  | _ :: ops => blocks ops

/-- The loop reaches a channel which has something to hand over, and hands it over; or it ends before,
having handed over all it may. -/
theorem visit_reach (size : M → Nat) (status : Nat → Status) (c : Chan M) (b : List (Chan M))
    (E : Nat × Left M → Prop) (h0 : visit size status 0 (c :: b) = (c :: b, []))
    (hn : ∀ n, n ≠ 0 → ∃ e, E e ∧ e ∈ (visit size status n (c :: b)).2) : ∀ (a : List (Chan M)) (n : Nat),
    (∃ e, E e ∧ e ∈ (visit size status n (a ++ c :: b)).2) ∨
    ∃ va, va.length = a.length ∧ (visit size status n (a ++ c :: b)).1 = va ++ c :: b ∧
      ((visit size status n (a ++ c :: b)).2.filter fun e => e.2.out).length = n ∧ n ≤ a.length := by
  intro a
  induction a with
  | nil =>
    intro n
    rw [List.nil_append]
    by_cases h : n = 0
    · subst h
      exact Or.inr ⟨[], rfl, by rw [h0]; rfl, by rw [h0]; rfl, by omega⟩
    · exact Or.inl (hn n h)
  | cons x a ih =>
    intro n
    have key : ∀ (k : Nat) (y : Chan M) (l : List (Nat × Left M)),
        k + (l.filter fun e => e.2.out).length = n → (l.filter fun e => e.2.out).length ≤ 1 →
        (∃ e, E e ∧ e ∈ l ++ (visit size status k (a ++ c :: b)).2) ∨
        ∃ va, va.length = (x :: a).length ∧ y :: (visit size status k (a ++ c :: b)).1 = va ++ c :: b ∧
          ((l ++ (visit size status k (a ++ c :: b)).2).filter fun e => e.2.out).length = n ∧
          n ≤ (x :: a).length := by
      intro k y l hk hl
      rcases ih k with ⟨e, h1, h2⟩ | ⟨va, e1, e2, e3, e4⟩
      · exact Or.inl ⟨e, h1, List.mem_append_right _ h2⟩
      · refine Or.inr ⟨y :: va, by simp [e1], by rw [e2]; rfl, ?_, ?_⟩
        · rw [List.filter_append, List.length_append, e3]
          omega
        · simp only [List.length_cons]
          omega
    rw [List.cons_append]
    unfold visit
    split
    · exact key n (.new x.dest) [(x.dest, .lost x.pages)] (by simp [Left.out]) (by simp [Left.out])
    · exact key n x [] (by simp) (by simp)
    · split
      · rename_i hn
        right
        exact ⟨x :: a, rfl, rfl, by simp [hn], by omega⟩
      · rename_i hn
        split
        · exact key (n - 1) { x with signal := false } [(x.dest, .signal)]
            (by simp [Left.out]; omega) (by simp [Left.out])
        · split
          · exact key n x [] (by simp) (by simp)
          · split
            · exact key n x [] (by simp) (by simp)
            · rename_i q qs hq
              split
              · split
                · exact key n { x with pages := qs } [(x.dest, .lost [q])]
                    (by simp [Left.out]) (by simp [Left.out])
                · exact key (n - 1) { x with pages := qs } [(x.dest, .sent q)]
                    (by simp [Left.out]; omega) (by simp [Left.out])
              · exact key n x [] (by simp) (by simp)

/-- A channel of some kind, behind so many others. Part of the transition system around the code
(outside /repo). -/
def Waits (cs : List (Chan M)) (P : Chan M → Prop) (k : Nat) : Prop :=
  ∃ a c b, cs = a ++ c :: b ∧ a.length = k ∧ P c

theorem waits_ensure {cs cs' : List (Chan M)} {e : Nat} {P : Chan M → Prop} {k : Nat}
    (h : Waits cs P k) (he : ensure cs e = some cs') : Waits cs' P k := by
  obtain ⟨a, c, b, rfl, h2⟩ := h
  have : ∃ l, cs' = (a ++ c :: b) ++ l := by
    unfold ensure at he
    split at he
    · simp only [Option.some.injEq] at he
      exact ⟨[], by simp [he]⟩
    · split at he
      · simp only [Option.some.injEq] at he
        exact ⟨_, he.symm⟩
      · simp at he
  obtain ⟨l, rfl⟩ := this
  exact ⟨a, c, b ++ l, by simp, h2⟩

theorem waits_change {cs : List (Chan M)} {e : Nat} {P : Chan M → Prop} {k : Nat} {f : Chan M → Chan M}
    (h : Waits cs P k) (hc : ∀ c, P c → c.dest = e → P (f c)) : Waits (change cs e f) P k := by
  obtain ⟨a, c, b, rfl, h2, h3⟩ := h
  by_cases hcd : c.dest = e
  · exact ⟨change a e f, f c, change b e f, by simp [change, hcd], by simp [change, h2], hc c h3 hcd⟩
  · exact ⟨change a e f, c, change b e f, by simp [change, hcd], by simp [change, h2], h3⟩

theorem waits_filter {cs : List (Chan M)} {P : Chan M → Prop} {k : Nat} {g : Chan M → Bool}
    (h : Waits cs P k) (hk : ∀ c : Chan M, P c → g c = true) :
    ∃ j ≤ k, Waits (cs.filter g) P j := by
  obtain ⟨a, c, b, rfl, h2, h3⟩ := h
  refine ⟨(a.filter g).length, h2 ▸ List.length_filter_le _ _, a.filter g, c, b.filter g, ?_, rfl, h3⟩
  rw [List.filter_append, List.filter_cons_of_pos (hk c h3)]

/-- A block: the channel hands something over, or comes nearer. -/
theorem waits_block {size : M → Nat} {s : St M} {P : Chan M → Prop} {k : Nat} (hg : Good s)
    (status : Nat → Status) (limit : Nat) (hlim : 1 ≤ limit) (E : Nat × Left M → Prop)
    (hP : ∀ c, P c → c.kept = true)
    (h0 : ∀ c b, P c → visit size status 0 (c :: b) = (c :: b, []))
    (hn : ∀ c ∈ s.chans, ∀ b n, P c → n ≠ 0 → ∃ e, E e ∧ e ∈ (visit size status n (c :: b)).2)
    (h : Waits s.chans P k) :
    (∃ e, E e ∧ e ∈ (visit size status limit s.chans).2) ∨
      ∃ j, Waits (step size s (.block status limit)).chans P j ∧ j + 1 ≤ k := by
  obtain ⟨a, c, b, hcs, h2, h3⟩ := h
  rcases visit_reach size status c b E (h0 c b h3)
    (fun n hne => hn c (by rw [hcs]; simp) b n h3 hne) a limit with
    ⟨e, he, hin⟩ | ⟨va, e1, e2, e3, e4⟩
  · exact Or.inl ⟨e, he, by rw [hcs]; exact hin⟩
  · right
    have hck : c.kept = true := hP c h3
    have hbk : b.filter Chan.kept = b := List.filter_eq_self.2 fun x hx =>
      hg.kept x (by rw [hcs]; simp [hx])
    have hkept : (va ++ c :: b).filter Chan.kept = va.filter Chan.kept ++ c :: b := by
      rw [List.filter_append, List.filter_cons_of_pos hck, hbk]
    have hva : (va.filter Chan.kept).length ≤ a.length := e1 ▸ List.length_filter_le _ _
    generalize hw : va.filter Chan.kept = w at *
    have hgo : (step size s (.block status limit)).chans =
        w.drop (limit - (a.length - w.length)) ++ c ::
          (b ++ w.take (limit - (a.length - w.length))) := by
      simp only [step, take, hcs, e2, e3, hkept]
      have hpr : (a ++ c :: b).length - (w ++ c :: b).length = a.length - w.length := by
        simp only [List.length_append, List.length_cons]
        omega
      rw [hpr, if_pos (by simp only [List.length_append, List.length_cons]; omega)]
      have hle : limit - (a.length - w.length) ≤ w.length := by omega
      rw [List.drop_append_of_le_length hle, List.take_append_of_le_length hle]
      simp
    refine ⟨(w.drop (limit - (a.length - w.length))).length, ⟨_, c, _, hgo, rfl, h3⟩, ?_⟩
    rw [List.length_drop]
    omega

theorem kept_of_pages (c : Chan M) (h : c.pages ≠ []) : c.kept = true := by
  unfold Chan.kept
  cases hc : c.pages with
  | nil => exact absurd hc h
  | cons _ _ => simp

/-- A channel with a page that begins with given messages, which can go. Part of the transition system
around the code (outside /repo). -/
def HasPage (d : Nat) (p : List M) (c : Chan M) : Prop :=
  c.dest = d ∧ c.suspended = false ∧ c.signal = false ∧ ∃ q qs, c.pages = q :: qs ∧ p <+: q

/-- One step of the wait: the page goes, or the channel still waits, no further back, and after a block
nearer. -/
theorem waits_step {size : M → Nat} {s : St M} {d most : Nat} {p : List M} {k : Nat} (hg : Good s)
    (hsm : ∀ p ∈ pagesOf s.chans d, bytes size p ≤ min most maxPage)
    (h : Waits s.chans (HasPage d p) k) (o : Op M) (ho : Willing d most o) :
    (∃ q, p <+: q ∧ (d, Left.sent q) ∈ (step size s o).log) ∨
    ∃ j, Waits (step size s o).chans (HasPage d p) j ∧ j + blocks [o] ≤ k := by
  cases o with
  | send e m opened =>
    right
    refine ⟨k, ?_, by simp [blocks]⟩
    simp only [step]
    split
    · exact h
    · rename_i cs hs
      simp only
      unfold send at hs
      split at hs
      · simp at hs
      · split at hs
        · simp at hs
        · rw [Option.map_eq_some_iff] at hs
          obtain ⟨cs1, h1, h2⟩ := hs
          subst h2
          refine waits_change (waits_ensure h h1) ?_
          intro c ⟨c0, c1, c2, q, qs, c3, c4⟩ _
          refine ⟨c0, c1, c2, ?_⟩
          simp only [c3]
          cases qs with
          | nil =>
            unfold append
            split
            · exact ⟨q, _, rfl, c4⟩
            · exact ⟨_, _, rfl, c4.trans (List.prefix_append _ _)⟩
          | cons r rs => exact ⟨q, _, rfl, c4⟩
  | signal e =>
    right
    refine ⟨k, ?_, by simp [blocks]⟩
    simp only [step, signal]
    split
    · exact h
    · rename_i cs hs
      exact waits_change (waits_ensure h hs) (fun c hc he => absurd (he.symm.trans hc.1) ho)
  | suspend e =>
    right
    refine ⟨k, ?_, by simp [blocks]⟩
    simp only [step, suspend]
    split
    · exact h
    · rename_i cs hs
      exact waits_change (waits_ensure h hs) (fun c hc he => absurd (he.symm.trans hc.1) ho)
  | resume e =>
    right
    have h1 : Waits (change s.chans e fun c => { c with suspended := false }) (HasPage d p) k :=
      waits_change h (fun c hc _ => ⟨hc.1, rfl, hc.2.2⟩)
    obtain ⟨j, hj, hw⟩ := waits_filter (g := fun c => c.dest != e || c.kept) h1 (by
      rintro c ⟨-, -, -, q, qs, hc, -⟩
      simp [kept_of_pages c (by simp [hc])])
    exact ⟨j, hw, by simpa [blocks] using hj⟩
  | block status limit =>
    obtain ⟨hlim, now, hst, hnow⟩ := ho
    have hb := waits_block (size := size) hg status limit hlim
      (fun e => ∃ q, p <+: q ∧ e = (d, Left.sent q)) (P := HasPage d p) (k := k) ?_ ?_ ?_ h
    rcases hb with ⟨e, ⟨q, hq, rfl⟩, hin⟩ | ⟨j, hj, hle⟩
    · exact Or.inl ⟨q, hq, List.mem_append_right _ hin⟩
    · exact Or.inr ⟨j, hj, by simpa [blocks] using hle⟩
    · rintro c ⟨-, -, -, q, qs, hc, -⟩
      exact kept_of_pages c (by simp [hc])
    · rintro c b ⟨rfl, -⟩
      unfold visit
      rw [hst]
      rfl
    · rintro c hc b n ⟨rfl, h4, h5, q, qs, h6, h7⟩ hn
      have hq : bytes size q ≤ min most maxPage := by
        refine hsm q ?_
        rw [pagesOf_mem hg.distinct hc, h6]
        exact List.mem_cons_self
      have h1 : bytes size q < now := by omega
      have h2 : ¬ most < bytes size q := by omega
      refine ⟨_, ⟨q, h7, rfl⟩, ?_⟩
      unfold visit
      rw [hst]
      simp only [if_neg hn, h5, h4, h6, Bool.false_eq_true, if_false, h1, if_true, h2]
      exact List.mem_cons_self
  | up m mo =>
    right
    refine ⟨k, ?_, by simp [blocks]⟩
    simp only [step]
    split <;> exact h
  | upBlock count room => exact Or.inr ⟨k, h, by simp [blocks]⟩

theorem step_log (size : M → Nat) (s : St M) (o : Op M) : ∃ l, (step size s o).log = s.log ++ l := by
  cases o with
  | send e m opened => simp only [step]; split <;> exact ⟨[], by simp⟩
  | signal e => exact ⟨[], by simp [step]⟩
  | suspend e => exact ⟨[], by simp [step]⟩
  | resume e => exact ⟨[], by simp [step]⟩
  | block status limit => exact ⟨_, rfl⟩
  | up m mo => simp only [step]; split <;> exact ⟨[], by simp⟩
  | upBlock count room => exact ⟨[], by simp [step]⟩

theorem foldl_log (size : M → Nat) : ∀ (ops : List (Op M)) (s : St M),
    ∃ l, (ops.foldl (step size) s).log = s.log ++ l
  | [], s => ⟨[], by simp⟩
  | o :: ops, s => by
    obtain ⟨l, hl⟩ := step_log size s o
    obtain ⟨l', hl'⟩ := foldl_log size ops (step size s o)
    exact ⟨l ++ l', by rw [List.foldl_cons, hl', hl, List.append_assoc]⟩

theorem blocks_cons (o : Op M) (ops : List (Op M)) : blocks (o :: ops) = blocks [o] + blocks ops := by
  cases o <;> simp [blocks]

theorem waits_run {size : M → Nat} {d most : Nat} {p : List M} : ∀ (ops : List (Op M)) (s : St M) (k : Nat),
    Good s → (∀ p ∈ pagesOf s.chans d, bytes size p ≤ min most maxPage) →
    (∀ ps, (d, Left.lost ps) ∉ s.log) → Waits s.chans (HasPage d p) k →
    (∀ o ∈ ops, Steady d most o ∧ Willing d most o) → k < blocks ops →
    ∃ q, p <+: q ∧ (d, Left.sent q) ∈ (ops.foldl (step size) s).log := by
  intro ops
  induction ops with
  | nil => intro s k _ _ _ _ _ hk; simp [blocks] at hk
  | cons o ops ih =>
    intro s k hg hsm hl hw ho hk
    rw [List.foldl_cons]
    rcases waits_step hg hsm hw o (ho o List.mem_cons_self).2 with ⟨q, h1, h2⟩ | ⟨j, hj, hle⟩
    · obtain ⟨l, hl⟩ := foldl_log size ops (step size s o)
      exact ⟨q, h1, by rw [hl]; exact List.mem_append_left _ h2⟩
    · obtain ⟨i1, i2⟩ := steady_step hg hsm hl o (ho o List.mem_cons_self).1
      refine ih _ j (good_step hg o) i1 i2 hj (fun x hx => ho x (List.mem_cons_of_mem _ hx)) ?_
      rw [blocks_cons] at hk
      omega

/-- C177, the part that holds. Whatever is sent to other chains: the oldest messages waiting for a chain
are handed over within 128 blocks, if the chain does not ask to stop, and the channel stays as it is with
room for a page and a byte more. -/
theorem C177_turn_partial (size : M → Nat) (d most : Nat) (ops more : List (Op M))
    (h : ∀ o ∈ ops, Steady d most o) (hm : ∀ o ∈ more, Steady d most o ∧ Willing d most o)
    (c : Chan M) (hc : c ∈ (run size ops).chans) (hd : c.dest = d) (hs : c.suspended = false)
    (hg : c.signal = false) (p : List M) (ps : List (List M)) (hp : c.pages = p :: ps)
    (hb : 128 ≤ blocks more) :
    ∃ q, p <+: q ∧ (d, Left.sent q) ∈ (run size (ops ++ more)).log := by
  obtain ⟨a, b, hab⟩ := List.append_of_mem hc
  have hgood := good_run size ops
  obtain ⟨s1, s2⟩ := steady_run size ops d most h
  have hlen : a.length < 128 := by
    have := hgood.few
    rw [hab] at this
    simp only [List.length_append, List.length_cons, maxChannels] at this
    omega
  have := waits_run more (run size ops) a.length hgood s1 s2
    ⟨a, c, b, hab, rfl, hd, hs, hg, p, ps, hp, List.prefix_refl p⟩ hm (by omega)
  unfold run at this ⊢
  rw [List.foldl_append]
  exact this

/-- A block in which every channel has room. Example for non-vacuity (outside /repo). -/
def roomy : Op Nat := .block (fun _ => .ready 100 40) 1

example : (∀ o ∈ ([.send 9 5 (some 40), .send 7 10 (some 40)] : List (Op Nat)), Steady 7 40 o) ∧
    (∀ o ∈ List.replicate 128 roomy, Steady 7 40 o ∧ Willing 7 40 o) ∧
    (⟨7, false, false, [[10]]⟩ : Chan Nat) ∈
      (run id ([.send 9 5 (some 40), .send 7 10 (some 40)] : List (Op Nat))).chans ∧
    blocks (List.replicate 128 roomy) = 128 := by
  refine ⟨?_, ?_, by decide, by decide +kernel⟩
  · intro o ho
    simp only [List.mem_cons, List.not_mem_nil, or_false] at ho
    rcases ho with rfl | rfl
    · intro h; simp at h
    · intro _; right; rfl
  · intro o ho
    rw [List.eq_of_mem_replicate ho]
    exact ⟨Or.inr ⟨100, rfl⟩, by decide, 100, rfl, by decide⟩

/-- C177 fails: on a channel that may hold no more bytes in all than one message may have, a page of
exactly that length is taken but never handed over, in however many blocks, and all behind it wait. -/
theorem C177_fails (n : Nat) :
    let s := run id (.send 7 39 (some 40) :: List.replicate n (.block (fun _ => .ready 40 40) 1))
    takenFor s.taken 7 = [39] ∧ s.log = [] ∧ pagesOf s.chans 7 = [[39]] := by
  have hb : ∀ s : St Nat, s.chans = [⟨7, false, false, [[39]]⟩] → s.log = [] →
      (step id s (.block (fun _ => .ready 40 40) 1)) = s := by
    intro s h1 h2
    obtain ⟨cs, t, l, u, ut, us⟩ := s
    simp only at h1 h2
    subst h1
    subst h2
    rfl
  have : ∀ n, run id (.send 7 39 (some 40) :: List.replicate n (.block (fun _ => .ready 40 40) 1)) =
      run id [.send 7 39 (some 40)] := by
    intro n
    induction n with
    | zero => rfl
    | succ n ih =>
      rw [List.replicate_succ', ← List.cons_append]
      unfold run at ih ⊢
      rw [List.foldl_append, ih]
      exact hb _ rfl rfl
  intro s
  have hs : s = run id [.send 7 39 (some 40)] := this n
  rw [hs]
  exact ⟨by decide, rfl, by decide⟩

/-! ### Requests to stop, and signals -/

/-- Nothing lets go of a request to stop: the chain does not ask to go on, and its channel is not
closed. Specification only, no code behind it (outside /repo). -/
def Holds (d : Nat) : Op M → Prop
  | .resume e => e ≠ d
  | .block status _ => status d ≠ .closed
  | _ => True

/-- The channel of a chain that asked to stop. Part of the transition system around the code (outside
/repo). -/
def IsStopped (d : Nat) (c : Chan M) : Prop := c.dest = d ∧ c.suspended = true

theorem waits_mem {cs : List (Chan M)} {P : Chan M → Prop} : (∃ k, Waits cs P k) ↔ ∃ c ∈ cs, P c := by
  constructor
  · rintro ⟨k, a, c, b, rfl, -, h⟩
    exact ⟨c, by simp, h⟩
  · rintro ⟨c, hc, h⟩
    obtain ⟨a, b, hab⟩ := List.append_of_mem hc
    exact ⟨a.length, a, c, b, hab, rfl, h⟩

theorem visit_stopped (size : M → Nat) (status : Nat → Status) (d : Nat) (hst : status d ≠ .closed) :
    ∀ (cs : List (Chan M)) (n : Nat), (∀ c ∈ cs, c.dest = d → c.suspended = true) →
    (∀ p, (d, Left.sent p) ∉ (visit size status n cs).2) ∧
    ∀ c ∈ cs, IsStopped d c → ∃ c' ∈ (visit size status n cs).1, IsStopped d c' := by
  intro cs
  induction cs with
  | nil => intro n _; simp [visit]
  | cons x cs ih =>
    intro n h
    have h' := fun c hc => h c (List.mem_cons_of_mem _ hc)
    have key : ∀ (k : Nat) (y : Chan M) (l : List (Nat × Left M)), (∀ p, (d, Left.sent p) ∉ l) →
        (IsStopped d x → IsStopped d y) →
        (∀ p, (d, Left.sent p) ∉ l ++ (visit size status k cs).2) ∧
        ∀ c ∈ x :: cs, IsStopped d c → ∃ c' ∈ y :: (visit size status k cs).1, IsStopped d c' := by
      intro k y l hl hy
      obtain ⟨i1, i2⟩ := ih k h'
      refine ⟨fun p hp => ?_, fun c hc hcs => ?_⟩
      · rcases List.mem_append.1 hp with hp | hp
        · exact hl p hp
        · exact i1 p hp
      · rcases List.mem_cons.1 hc with rfl | hc
        · exact ⟨y, by simp, hy hcs⟩
        · obtain ⟨c', h1, h2⟩ := i2 c hc hcs
          exact ⟨c', List.mem_cons_of_mem _ h1, h2⟩
    unfold visit
    split
    · rename_i hc
      exact key n (.new x.dest) [(x.dest, .lost x.pages)] (by simp) (fun hx => absurd hc (hx.1 ▸ hst))
    · exact key n x [] (by simp) id
    · split
      · exact ⟨by simp, fun c hc hcs => ⟨c, hc, hcs⟩⟩
      · split
        · exact key (n - 1) { x with signal := false } [(x.dest, .signal)] (by simp) id
        · split
          · exact key n x [] (by simp) id
          · rename_i hns
            have hxd : x.dest ≠ d := fun hx => hns (h x List.mem_cons_self hx)
            split
            · exact key n x [] (by simp) id
            · rename_i q qs hq
              split
              · split
                · exact key n { x with pages := qs } [(x.dest, .lost [q])] (by simp) id
                · exact key (n - 1) { x with pages := qs } [(x.dest, .sent q)]
                    (by simp [hxd.symm]) id
              · exact key n x [] (by simp) id

theorem stopped_step {size : M → Nat} {s : St M} {d : Nat} (hg : Good s)
    (h : ∃ c ∈ s.chans, IsStopped d c) (o : Op M) (ho : Holds d o) :
    (∃ c ∈ (step size s o).chans, IsStopped d c) ∧
    ∃ l, (step size s o).log = s.log ++ l ∧ ∀ p, (d, Left.sent p) ∉ l := by
  have same : ∀ s' : St M, s'.log = s.log → (∃ k, Waits s'.chans (IsStopped d) k) →
      (∃ c ∈ s'.chans, IsStopped d c) ∧ ∃ l, s'.log = s.log ++ l ∧ ∀ p, (d, Left.sent p) ∉ l :=
    fun s' h1 h2 => ⟨waits_mem.1 h2, [], by simp [h1], by simp⟩
  obtain ⟨k, hk⟩ := waits_mem.2 h
  cases o with
  | send e m opened =>
    simp only [step]
    split
    · exact same s rfl ⟨k, hk⟩
    · rename_i cs hs
      unfold send at hs
      split at hs
      · simp at hs
      · split at hs
        · simp at hs
        · rw [Option.map_eq_some_iff] at hs
          obtain ⟨cs1, h1, h2⟩ := hs
          subst h2
          refine same _ ?_ ?_
          · rfl
          · exact ⟨k, waits_change (waits_ensure hk h1) (fun c hc _ => hc)⟩
  | signal e =>
    refine same _ rfl ⟨k, ?_⟩
    simp only [step, signal]
    split
    · exact hk
    · rename_i cs hs
      exact waits_change (waits_ensure hk hs) (fun c hc _ => hc)
  | suspend e =>
    refine same _ rfl ⟨k, ?_⟩
    simp only [step, suspend]
    split
    · exact hk
    · rename_i cs hs
      exact waits_change (waits_ensure hk hs) (fun c hc _ => ⟨hc.1, rfl⟩)
  | resume e =>
    refine same _ rfl ?_
    have h1 : Waits (change s.chans e fun c => { c with suspended := false }) (IsStopped d) k :=
      waits_change hk (fun c hc he => absurd (he.symm.trans hc.1) ho)
    obtain ⟨j, hj, hw⟩ := waits_filter (g := fun c => c.dest != e || c.kept) h1 (by
      rintro c ⟨-, hc⟩
      simp [Chan.kept, hc])
    exact ⟨j, hw⟩
  | block status limit =>
    obtain ⟨c, hc, hcs⟩ := h
    have hall : ∀ x ∈ s.chans, x.dest = d → x.suspended = true := by
      intro x hx hxd
      have h1 := filter_one hg.distinct hc
      have h2 : x ∈ s.chans.filter fun y => y.dest = c.dest :=
        List.mem_filter.2 ⟨hx, by simp [hxd, hcs.1]⟩
      rw [h1, List.mem_singleton] at h2
      rw [h2]
      exact hcs.2
    obtain ⟨v1, v2⟩ := visit_stopped size status d ho s.chans limit hall
    obtain ⟨c', h1, h2⟩ := v2 c hc hcs
    have hk' : c' ∈ (visit size status limit s.chans).1.filter Chan.kept :=
      List.mem_filter.2 ⟨h1, by simp [Chan.kept, h2.2]⟩
    refine ⟨⟨c', ?_, h2⟩, _, rfl, v1⟩
    simp only [step, take]
    split
    · rw [List.mem_append, Or.comm, ← List.mem_append, List.take_append_drop]
      exact hk'
    · exact hk'
  | up m mo =>
    simp only [step]
    split
    · exact same s rfl ⟨k, hk⟩
    · exact same _ rfl ⟨k, hk⟩
  | upBlock count room => exact same _ rfl ⟨k, hk⟩

/-- C178, the part that holds. A chain that asked to stop gets no messages until it asks to go on or its
channel is closed, whatever happens in between; unless 128 other channels were in use when it asked. -/
theorem C178_stop_partial (size : M → Nat) (d : Nat) (ops more : List (Op M))
    (hfew : (∃ c ∈ (run size ops).chans, c.dest = d) ∨ (run size ops).chans.length < 128)
    (hm : ∀ o ∈ more, Holds d o) :
    ∃ l, (run size (ops ++ .suspend d :: more)).log = (run size ops).log ++ l ∧
      ∀ p, (d, Left.sent p) ∉ l := by
  have hg := good_run size ops
  have hstop : ∃ c ∈ (step size (run size ops) (.suspend d)).chans, IsStopped d c := by
    have : ∃ cs, ensure (run size ops).chans d = some cs ∧ ∃ c ∈ cs, c.dest = d := by
      unfold ensure
      rcases hfew with ⟨c, hc, hcd⟩ | hlt
      · exact ⟨_, if_pos (List.any_eq_true.2 ⟨c, hc, by simp [hcd]⟩), c, hc, hcd⟩
      · split
        · rename_i ha
          simp only [List.any_eq_true, decide_eq_true_eq] at ha
          exact ⟨_, rfl, ha⟩
        · exact ⟨_, if_pos hlt, .new d, by simp, rfl⟩
    obtain ⟨cs, h1, c, hc, hcd⟩ := this
    refine ⟨{ c with suspended := true }, ?_, hcd, rfl⟩
    simp only [step, suspend, h1]
    exact List.mem_map.2 ⟨c, hc, by simp [hcd]⟩
  have : ∀ (more : List (Op M)) (s : St M), Good s → (∃ c ∈ s.chans, IsStopped d c) →
      (∀ o ∈ more, Holds d o) → ∃ l, (more.foldl (step size) s).log = s.log ++ l ∧
        ∀ p, (d, Left.sent p) ∉ l := by
    intro more
    induction more with
    | nil => intro s _ _ _; exact ⟨[], by simp, by simp⟩
    | cons o more ih =>
      intro s hg hs ho
      obtain ⟨h1, l, h2, h3⟩ := stopped_step (size := size) hg hs o (ho o List.mem_cons_self)
      obtain ⟨l', h4, h5⟩ := ih _ (good_step hg o) h1 (fun x hx => ho x (List.mem_cons_of_mem _ hx))
      refine ⟨l ++ l', by rw [List.foldl_cons, h4, h2, List.append_assoc], fun p hp => ?_⟩
      rcases List.mem_append.1 hp with hp | hp
      · exact h3 p hp
      · exact h5 p hp
  have := this more _ (good_step hg (.suspend d)) hstop hm
  unfold run at this ⊢
  rw [List.foldl_append, List.foldl_cons]
  exact this

example : (run id ([.send 7 10 (some 40), .suspend 7, roomy, .resume 7, roomy] : List (Op Nat))).log.length
    = 1 ∧ (run id ([.send 7 10 (some 40), .suspend 7, roomy, roomy] : List (Op Nat))).log.length = 0 := by
  decide

/-- C178 fails: while 128 channels are in use, the request of another chain to stop is ignored; when one
of them is free again, messages to that chain are taken and handed over. -/
theorem C178_fails :
    let others : List (Op Nat) := (List.range 128).map fun e => .send (e + 100) 10 (some 40)
    (7, Left.sent [10]) ∈ (run id (others ++ [.suspend 7, roomy, .send 7 10 (some 40),
      .block (fun d => if d = 7 then .ready 100 40 else .full) 1])).log := by
  decide +kernel

/-- A channel with a signal. Part of the transition system around the code (outside /repo). -/
def HasSignal (d : Nat) (c : Chan M) : Prop := c.dest = d ∧ c.signal = true

/-- The channel of a chain is open and has room, and the block takes a message. Specification only, no
code behind it (outside /repo). -/
def Reached (d : Nat) : Op M → Prop
  | .block status limit => 1 ≤ limit ∧ ∃ now ever, status d = .ready now ever
  | _ => True

/-- A channel with a signal hands over that, and nothing else. -/
theorem visit_signal (size : M → Nat) (status : Nat → Status) (d : Nat) (hst : status d ≠ .closed) :
    ∀ (cs : List (Chan M)) (n : Nat), Distinct cs → (∀ c ∈ cs, c.dest = d → c.signal = true) →
    ((visit size status n cs).2.filter fun e => e.1 = d) = [] ∨
      ((visit size status n cs).2.filter fun e => e.1 = d) = [(d, .signal)] := by
  intro cs
  induction cs with
  | nil => intro n _ _; simp [visit]
  | cons x cs ih =>
    intro n hd h
    simp only [Distinct, List.map_cons, List.nodup_cons] at hd
    have h' := fun c hc => h c (List.mem_cons_of_mem _ hc)
    have skip : ∀ k (l : Left M), x.dest ≠ d →
        (((x.dest, l) :: (visit size status k cs).2).filter fun e => e.1 = d) = [] ∨
        (((x.dest, l) :: (visit size status k cs).2).filter fun e => e.1 = d) = [(d, .signal)] := by
      intro k l hne
      rw [List.filter_cons_of_neg (by simp [hne])]
      exact ih k hd.2 h'
    unfold visit
    split
    · rename_i hc
      exact skip n _ (fun he => hst (he ▸ hc))
    · exact ih n hd.2 h'
    · split
      · simp
      · split
        · by_cases hx : x.dest = d
          · right
            rw [List.filter_cons_of_pos (by simp [hx]), hx]
            congr 1
            rw [List.filter_eq_nil_iff]
            intro e he
            have := (visit_dest size status (n - 1) cs).2 e he
            simp only [decide_eq_true_eq]
            intro hed
            exact hd.1 (by rw [hx, ← hed]; exact this)
          · exact skip _ _ hx
        · rename_i hns
          have hx : x.dest ≠ d := fun he => hns (h x List.mem_cons_self he)
          split
          · exact ih n hd.2 h'
          · split
            · exact ih n hd.2 h'
            · split
              · split
                · exact skip _ _ hx
                · exact skip _ _ hx
              · exact ih n hd.2 h'

theorem signal_step {size : M → Nat} {s : St M} {d : Nat} {k : Nat} (hg : Good s)
    (h : Waits s.chans (HasSignal d) k) (o : Op M) (ho : Reached d o) :
    (∃ l, (step size s o).log = s.log ++ l ∧ (l.filter fun e => e.1 = d) = [(d, .signal)]) ∨
    (∃ l, (step size s o).log = s.log ++ l ∧ (l.filter fun e => e.1 = d) = []) ∧
    ∃ j, Waits (step size s o).chans (HasSignal d) j ∧ j + blocks [o] ≤ k := by
  cases o with
  | send e m opened =>
    refine Or.inr ⟨?_, k, ?_, by simp [blocks]⟩
    · simp only [step]
      first | (split <;> exact ⟨[], by simp, rfl⟩) | exact ⟨[], by simp, rfl⟩
    simp only [step]
    split
    · exact h
    · rename_i cs hs
      unfold send at hs
      split at hs
      · simp at hs
      · split at hs
        · simp at hs
        · rw [Option.map_eq_some_iff] at hs
          obtain ⟨cs1, h1, h2⟩ := hs
          subst h2
          exact waits_change (waits_ensure h h1) (fun c hc _ => hc)
  | signal e =>
    refine Or.inr ⟨?_, k, ?_, by simp [blocks]⟩
    · simp only [step]
      first | (split <;> exact ⟨[], by simp, rfl⟩) | exact ⟨[], by simp, rfl⟩
    simp only [step, signal]
    split
    · exact h
    · rename_i cs hs
      exact waits_change (waits_ensure h hs) (fun c hc _ => ⟨hc.1, rfl⟩)
  | suspend e =>
    refine Or.inr ⟨?_, k, ?_, by simp [blocks]⟩
    · simp only [step]
      first | (split <;> exact ⟨[], by simp, rfl⟩) | exact ⟨[], by simp, rfl⟩
    simp only [step, suspend]
    split
    · exact h
    · rename_i cs hs
      exact waits_change (waits_ensure h hs) (fun c hc _ => hc)
  | resume e =>
    refine Or.inr ?_
    have h1 : Waits (change s.chans e fun c => { c with suspended := false }) (HasSignal d) k :=
      waits_change h (fun c hc _ => hc)
    obtain ⟨j, hj, hw⟩ := waits_filter (g := fun c => c.dest != e || c.kept) h1 (by
      rintro c ⟨-, hc⟩
      simp [Chan.kept, hc])
    exact ⟨⟨[], by simp [step], rfl⟩, j, hw, by simpa [blocks] using hj⟩
  | block status limit =>
    obtain ⟨hlim, now, ever, hst⟩ := ho
    have only := visit_signal size status d (by rw [hst]; simp) s.chans limit hg.distinct (by
      intro x hx hxd
      obtain ⟨c, hc, hcd, hcs⟩ := waits_mem.1 ⟨k, h⟩
      have h1 := filter_one hg.distinct hc
      have h2 : x ∈ s.chans.filter fun y => y.dest = c.dest :=
        List.mem_filter.2 ⟨hx, by simp [hxd, hcd]⟩
      rw [h1, List.mem_singleton] at h2
      rw [h2]
      exact hcs)
    have hb := waits_block (size := size) hg status limit hlim
      (fun e => e = (d, Left.signal)) (P := HasSignal d) (k := k) ?_ ?_ ?_ h
    rcases hb with ⟨e, rfl, hin⟩ | ⟨j, hj, hle⟩
    · exact Or.inl ⟨_, rfl, only.resolve_left fun h0 => by
        have : (d, Left.signal) ∈ (visit size status limit s.chans).2.filter fun e => e.1 = d :=
          List.mem_filter.2 ⟨hin, by simp⟩
        rw [h0] at this
        simp at this⟩
    · rcases only with h0 | h1
      · exact Or.inr ⟨⟨_, rfl, h0⟩, j, hj, by simpa [blocks] using hle⟩
      · exact Or.inl ⟨_, rfl, h1⟩
    · rintro c ⟨-, hc⟩
      simp [Chan.kept, hc]
    · rintro c b ⟨rfl, -⟩
      unfold visit
      rw [hst]
      rfl
    · rintro c hc b n ⟨rfl, h4⟩ hn
      refine ⟨_, rfl, ?_⟩
      unfold visit
      rw [hst]
      simp only [if_neg hn, h4, if_true]
      exact List.mem_cons_self
  | up m mo =>
    refine Or.inr ⟨?_, k, ?_, by simp [blocks]⟩
    · simp only [step]
      first | (split <;> exact ⟨[], by simp, rfl⟩) | exact ⟨[], by simp, rfl⟩
    simp only [step]
    split <;> exact h
  | upBlock count room => exact Or.inr ⟨⟨[], by simp [step], rfl⟩, k, h, by simp [blocks]⟩

/-- C178. A signal (Kreivo asking a chain to stop or to go on) that found its channel goes out within 128
blocks, also to a chain that asked to stop, and before any page. -/
theorem C178_signal (size : M → Nat) (d : Nat) (ops more : List (Op M))
    (hfew : (∃ c ∈ (run size ops).chans, c.dest = d) ∨ (run size ops).chans.length < 128)
    (hm : ∀ o ∈ more, Reached d o) (hb : 128 ≤ blocks more) :
    ∃ l, (run size (ops ++ .signal d :: more)).log = (run size ops).log ++ l ∧
      (l.filter fun e => e.1 = d).head? = some (d, .signal) := by
  have hg := good_run size ops
  have hsig : ∃ c ∈ (step size (run size ops) (.signal d)).chans, HasSignal d c := by
    have : ∃ cs, ensure (run size ops).chans d = some cs ∧ ∃ c ∈ cs, c.dest = d := by
      unfold ensure
      rcases hfew with ⟨c, hc, hcd⟩ | hlt
      · exact ⟨_, if_pos (List.any_eq_true.2 ⟨c, hc, by simp [hcd]⟩), c, hc, hcd⟩
      · split
        · rename_i ha
          simp only [List.any_eq_true, decide_eq_true_eq] at ha
          exact ⟨_, rfl, ha⟩
        · exact ⟨_, if_pos hlt, .new d, by simp, rfl⟩
    obtain ⟨cs, h1, c, hc, hcd⟩ := this
    refine ⟨{ c with signal := true }, ?_, hcd, rfl⟩
    simp only [step, signal, h1]
    exact List.mem_map.2 ⟨c, hc, by simp [hcd]⟩
  have hg1 := good_step (size := size) hg (.signal d)
  obtain ⟨k, hk⟩ := waits_mem.2 hsig
  have hklt : k < 128 := by
    obtain ⟨a, c, b, hab, rfl, -⟩ := hk
    have := hg1.few
    rw [hab] at this
    simp only [List.length_append, List.length_cons, maxChannels] at this
    omega
  have : ∀ (more : List (Op M)) (s : St M) (k : Nat), Good s → Waits s.chans (HasSignal d) k →
      (∀ o ∈ more, Reached d o) → k < blocks more →
      ∃ l, (more.foldl (step size) s).log = s.log ++ l ∧
        (l.filter fun e => e.1 = d).head? = some (d, .signal) := by
    intro more
    induction more with
    | nil => intro s k _ _ _ hb; simp [blocks] at hb
    | cons o more ih =>
      intro s k hg hw ho hb
      rw [List.foldl_cons]
      rcases signal_step (size := size) hg hw o (ho o List.mem_cons_self) with
        ⟨l, h1, h2⟩ | ⟨⟨l, h1, h2⟩, j, h3, h4⟩
      · obtain ⟨l', h3⟩ := foldl_log size more (step size s o)
        exact ⟨l ++ l', by rw [h3, h1, List.append_assoc], by rw [List.filter_append, h2]; rfl⟩
      · obtain ⟨l', h5, h6⟩ := ih _ j (good_step hg o) h3
          (fun x hx => ho x (List.mem_cons_of_mem _ hx)) (by rw [blocks_cons] at hb; omega)
        exact ⟨l ++ l', by rw [h5, h1, List.append_assoc], by rw [List.filter_append, h2]; exact h6⟩
  have := this more _ k hg1 hk hm (by omega)
  unfold run at this ⊢
  rw [List.foldl_append, List.foldl_cons]
  exact this

example : (run id ([.send 7 10 (some 40), .suspend 7, .signal 7, roomy, .resume 7, roomy] :
    List (Op Nat))).log = [(7, .signal), (7, .sent [10])] := by decide

end Verif.Xcm.Outbound
