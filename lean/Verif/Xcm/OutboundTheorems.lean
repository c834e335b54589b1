import Mathlib.Data.List.Nodup
import Verif.Xcm.Outbound

/-
C175: what sending messages to other chains costs.
C176: messages to a chain leave in the order they were sent, once; and which are lost.
C177: no channel starves another.
-/

set_option linter.unusedSectionVars false

namespace Verif.Xcm.Outbound

variable {M : Type}

/-- C175. Messages can be sent to the relay chain and to sibling chains, and nowhere else. -/
theorem C175_route (dest : Location) : route dest ≠ none ↔
    dest = ⟨1, []⟩ ∨ ∃ id, dest = ⟨1, [.parachain id]⟩ := by
  obtain ⟨n, l⟩ := dest
  unfold route
  simp only
  constructor
  · intro h
    split at h
    · rename_i hc
      exact Or.inl (by rw [hc.1, hc.2])
    · split at h
      · exact Or.inr ⟨_, rfl⟩
      · exact absurd rfl h
  · rintro (h | ⟨id, h⟩)
    · cases h; simp
    · cases h; simp

/-- C175. Different destinations have different ways. -/
theorem C175_distinct {d e : Location} (h : route d ≠ none) (he : route d = route e) : d = e := by
  have h' : route e ≠ none := he ▸ h
  rcases (C175_route d).1 h with rfl | ⟨i, rfl⟩ <;> rcases (C175_route e).1 h' with rfl | ⟨j, rfl⟩
  · rfl
  · simp [route] at he
  · simp [route] at he
  · simp [route] at he
    rw [he]

/-- C175, the part that holds: the price is the same for all: nothing, whatever the destination, the
length of the message and the backlog. -/
theorem C175_free_partial (w : Way) (length : Nat) : price w length = 0 := rfl

/-- C175 fails: no message is ever charged the fee the runtime declares for its delivery. -/
theorem C175_fails (cents : Nat) (hc : 0 < cents) (w : Way) (length : Nat) :
    price w length < declared cents w length := by
  simp only [price, declared]
  omega

/-! ### Order -/

/-- The pages waiting for a chain. Specification only, no code behind it (outside /repo). -/
def pagesOf (cs : List (Chan M)) (d : Nat) : List (List M) :=
  (cs.filter fun c => c.dest = d).flatMap Chan.pages

/-- The pages that are gone. Specification only, no code behind it (outside /repo). -/
def Left.gone : Left M → List (List M)
  | .signal => []
  | .sent p => [p]
  | .lost ps => ps

/-- The pages for a chain that are gone, in order. Specification only, no code behind it (outside
/repo). -/
def goneFor (log : List (Nat × Left M)) (d : Nat) : List (List M) :=
  (log.filter fun e => e.1 = d).flatMap fun e => e.2.gone

/-- The messages taken for a chain. Specification only, no code behind it (outside /repo). -/
def takenFor (taken : List (Nat × M)) (d : Nat) : List M :=
  (taken.filter fun e => e.1 = d).map Prod.snd

/-- No chain twice in the list of channels. Part of the transition system around the code (outside
/repo). -/
def Distinct (cs : List (Chan M)) : Prop := (cs.map Chan.dest).Nodup

theorem filter_one {cs : List (Chan M)} (h : Distinct cs) {c : Chan M} (hc : c ∈ cs) :
    (cs.filter fun x => x.dest = c.dest) = [c] := by
  induction cs with
  | nil => simp at hc
  | cons a cs ih =>
    simp only [Distinct, List.map_cons, List.nodup_cons] at h
    obtain ⟨h1, h2⟩ := h
    have hno : ∀ x ∈ cs, x.dest ≠ a.dest := fun x hx he => h1 (List.mem_map.2 ⟨x, hx, he⟩)
    rcases List.mem_cons.1 hc with rfl | hc
    · rw [List.filter_cons_of_pos (by simp)]
      congr 1
      rw [List.filter_eq_nil_iff]
      intro x hx
      simp [hno x hx]
    · rw [List.filter_cons_of_neg (by simp; exact fun he => hno c hc he.symm)]
      exact ih h2 hc

theorem filter_none {cs : List (Chan M)} {d : Nat} (h : ∀ c ∈ cs, c.dest ≠ d) :
    (cs.filter fun x => x.dest = d) = [] := by
  rw [List.filter_eq_nil_iff]
  intro x hx
  simp [h x hx]

theorem pagesOf_mem {cs : List (Chan M)} (h : Distinct cs) {c : Chan M} (hc : c ∈ cs) :
    pagesOf cs c.dest = c.pages := by
  unfold pagesOf
  rw [filter_one h hc]
  simp

theorem pagesOf_none {cs : List (Chan M)} {d : Nat} (h : ∀ c ∈ cs, c.dest ≠ d) :
    pagesOf cs d = [] := by
  unfold pagesOf
  rw [filter_none h]
  rfl

theorem pagesOf_append (a b : List (Chan M)) (d : Nat) :
    pagesOf (a ++ b) d = pagesOf a d ++ pagesOf b d := by
  simp [pagesOf]

theorem pagesOf_cons (c : Chan M) (b : List (Chan M)) (d : Nat) :
    pagesOf (c :: b) d = (if c.dest = d then c.pages else []) ++ pagesOf b d := by
  unfold pagesOf
  by_cases h : c.dest = d
  · simp [h]
  · simp [h]

theorem append_flatten (size : M → Nat) (most : Nat) : ∀ (ps : List (List M)) (m : M),
    (append size most ps m).flatten = ps.flatten ++ [m]
  | [], m => by simp [append]
  | [p], m => by
    unfold append
    split <;> simp
  | p :: q :: ps, m => by
    simp only [append, List.flatten_cons]
    rw [append_flatten size most (q :: ps) m]
    simp

theorem change_dest (cs : List (Chan M)) (d : Nat) (f : Chan M → Chan M)
    (hf : ∀ c, (f c).dest = c.dest) : (change cs d f).map Chan.dest = cs.map Chan.dest := by
  unfold change
  rw [List.map_map]
  apply List.map_congr_left
  intro c _
  simp only [Function.comp]
  split
  · exact hf c
  · rfl

theorem change_pages (cs : List (Chan M)) (d : Nat) (f : Chan M → Chan M)
    (hf : ∀ c, (f c).dest = c.dest) (e : Nat) : pagesOf (change cs d f) e =
      if e = d then (cs.filter fun c => c.dest = d).flatMap fun c => (f c).pages else pagesOf cs e := by
  induction cs with
  | nil => simp [change, pagesOf]
  | cons c cs ih =>
    have hcons : change (c :: cs) d f = (if c.dest = d then f c else c) :: change cs d f := rfl
    rw [hcons, pagesOf_cons, ih, pagesOf_cons]
    by_cases hcd : c.dest = d
    · by_cases hed : e = d
      · subst hed
        simp [hcd, hf]
      · have hne : d ≠ e := fun h => hed h.symm
        simp [hcd, hf, hed, hne]
    · by_cases hed : e = d
      · subst hed
        simp [hcd]
      · simp [hcd, hed]

theorem ensure_ok {cs cs' : List (Chan M)} {d : Nat} (h : Distinct cs) (he : ensure cs d = some cs') :
    Distinct cs' ∧ (∃ c ∈ cs', c.dest = d) ∧ (∀ e, pagesOf cs' e = pagesOf cs e) ∧
      (∃ l, cs' = cs ++ l) ∧ (cs.length ≤ maxChannels → cs'.length ≤ maxChannels) ∧
      ∀ c ∈ cs', c.dest ≠ d → c ∈ cs := by
  unfold ensure at he
  split at he
  · rename_i ha
    simp only [Option.some.injEq] at he
    subst he
    simp only [List.any_eq_true, decide_eq_true_eq] at ha
    exact ⟨h, ha, fun _ => rfl, ⟨[], by simp⟩, id, fun _ hc _ => hc⟩
  · rename_i ha
    split at he
    · rename_i hlt
      simp only [Option.some.injEq] at he
      subst he
      have hno : ∀ c ∈ cs, c.dest ≠ d := by
        intro c hc hcd
        exact ha (List.any_eq_true.2 ⟨c, hc, by simp [hcd]⟩)
      refine ⟨?_, ⟨.new d, by simp, rfl⟩, fun e => ?_, ⟨_, rfl⟩, fun _ => by simp; omega,
        fun c hc hne => ?_⟩
      · unfold Distinct
        rw [List.map_append, List.nodup_append]
        refine ⟨h, by simp, ?_⟩
        intro a ha b hb hab
        simp only [List.map_cons, List.map_nil, List.mem_singleton] at hb
        obtain ⟨c, hc, rfl⟩ := List.mem_map.1 ha
        exact hno c hc (by rw [hab, hb]; rfl)
      · rw [pagesOf_append, pagesOf_cons]
        have : (Chan.new d : Chan M).pages = [] := rfl
        rw [this]
        simp [pagesOf]
      · rcases List.mem_append.1 hc with hc | hc
        · exact hc
        · simp only [List.mem_singleton] at hc
          subst hc
          exact absurd rfl hne
    · simp at he

/-- What can happen: a message is sent to a chain, the queue has a signal for a chain, a chain asks to
stop or to go on, a block ends and hands messages over; a message is sent to the relay chain (which
takes messages up to some length); a block hands those over. Part of the transition system around the
code (outside /repo). -/
inductive Op (M : Type)
  | send (d : Nat) (m : M) (opened : Option Nat)
  | signal (d : Nat)
  | suspend (d : Nat)
  | resume (d : Nat)
  | block (status : Nat → Status) (limit : Nat)
  | up (m : M) (most : Nat)
  | upBlock (count room : Nat)

/-- The queues and their history: the messages taken for each chain, what became of pages, the
messages for the relay chain that wait, were taken and were handed over. Part of the transition system
around the code (outside /repo). -/
structure St (M : Type) where
  chans : List (Chan M)
  taken : List (Nat × M)
  log : List (Nat × Left M)
  ups : List M
  upTaken : List M
  upSent : List M

/-- Nothing was sent. Part of the transition system around the code (outside /repo). -/
def St.init : St M := ⟨[], [], [], [], [], []⟩

/-- One step. Part of the transition system around the code (outside /repo). -/
def step (size : M → Nat) (s : St M) : Op M → St M
  | .send d m opened =>
    match send size opened s.chans d m with
    | none => s
    | some cs => { s with chans := cs, taken := s.taken ++ [(d, m)] }
  | .signal d => { s with chans := signal s.chans d }
  | .suspend d => { s with chans := suspend s.chans d }
  | .resume d => { s with chans := resume s.chans d }
  | .block status limit =>
    let r := take size status limit s.chans
    { s with chans := r.1, log := s.log ++ r.2 }
  | .up m most =>
    if most < size m then s else { s with ups := s.ups ++ [m], upTaken := s.upTaken ++ [m] }
  | .upBlock count room =>
    let k := fitting size count room s.ups
    { s with ups := s.ups.drop k, upSent := s.upSent ++ s.ups.take k }

/-- Any history. Part of the transition system around the code (outside /repo). -/
def run (size : M → Nat) (ops : List (Op M)) : St M := ops.foldl (step size) .init

theorem goneFor_append (a b : List (Nat × Left M)) (d : Nat) :
    goneFor (a ++ b) d = goneFor a d ++ goneFor b d := by
  simp [goneFor]

theorem goneFor_cons (a : Nat × Left M) (b : List (Nat × Left M)) (d : Nat) :
    goneFor (a :: b) d = (if a.1 = d then a.2.gone else []) ++ goneFor b d := by
  unfold goneFor
  by_cases h : a.1 = d
  · simp [h]
  · simp [h]

theorem visit_dest (size : M → Nat) (status : Nat → Status) : ∀ (n : Nat) (cs : List (Chan M)),
    (visit size status n cs).1.map Chan.dest = cs.map Chan.dest ∧
      ∀ e ∈ (visit size status n cs).2, e.1 ∈ cs.map Chan.dest := by
  intro n cs
  induction cs generalizing n with
  | nil => simp [visit]
  | cons c cs ih =>
    unfold visit
    have h1 := ih n
    have h2 := ih (n - 1)
    split
    · refine ⟨by simp [h1.1, Chan.new], ?_⟩
      intro e he
      rcases List.mem_cons.1 he with rfl | he
      · simp
      · exact List.mem_cons_of_mem _ (h1.2 e he)
    · exact ⟨by simp [h1.1], fun e he => List.mem_cons_of_mem _ (h1.2 e he)⟩
    · split
      · simp
      · split
        · refine ⟨by simp [h2.1], ?_⟩
          intro e he
          rcases List.mem_cons.1 he with rfl | he
          · simp
          · exact List.mem_cons_of_mem _ (h2.2 e he)
        · split
          · exact ⟨by simp [h1.1], fun e he => List.mem_cons_of_mem _ (h1.2 e he)⟩
          · split
            · exact ⟨by simp [h1.1], fun e he => List.mem_cons_of_mem _ (h1.2 e he)⟩
            · split
              · split
                · refine ⟨by simp [h1.1], ?_⟩
                  intro e he
                  rcases List.mem_cons.1 he with rfl | he
                  · simp
                  · exact List.mem_cons_of_mem _ (h1.2 e he)
                · refine ⟨by simp [h2.1], ?_⟩
                  intro e he
                  rcases List.mem_cons.1 he with rfl | he
                  · simp
                  · exact List.mem_cons_of_mem _ (h2.2 e he)
              · exact ⟨by simp [h1.1], fun e he => List.mem_cons_of_mem _ (h1.2 e he)⟩

theorem goneFor_none {log : List (Nat × Left M)} {d : Nat} (h : ∀ e ∈ log, e.1 ≠ d) :
    goneFor log d = [] := by
  unfold goneFor
  rw [show (log.filter fun e => e.1 = d) = [] from by
    rw [List.filter_eq_nil_iff]; intro x hx; simp [h x hx]]
  rfl

/-- The loop: what is gone, followed by what stays, is what was there. -/
theorem visit_pages (size : M → Nat) (status : Nat → Status) (d : Nat) :
    ∀ (cs : List (Chan M)) (n : Nat), Distinct cs →
    goneFor (visit size status n cs).2 d ++ pagesOf (visit size status n cs).1 d = pagesOf cs d := by
  intro cs
  induction cs with
  | nil => intro n _; simp [visit, goneFor, pagesOf]
  | cons c cs ih =>
    intro n h
    simp only [Distinct, List.map_cons, List.nodup_cons] at h
    obtain ⟨hno, hd⟩ := h
    have hrest : c.dest = d → ∀ k, pagesOf (visit size status k cs).1 d = [] ∧
        goneFor (visit size status k cs).2 d = [] ∧ pagesOf cs d = [] := by
      intro hcd k
      obtain ⟨v1, v2⟩ := visit_dest size status k cs
      subst hcd
      refine ⟨pagesOf_none fun x hx he => hno ?_, goneFor_none fun e he hee => hno ?_,
        pagesOf_none fun x hx he => hno ?_⟩
      · rw [← v1]
        exact List.mem_map.2 ⟨x, hx, he⟩
      · rw [← hee]
        exact v2 e he
      · exact List.mem_map.2 ⟨x, hx, he⟩
    have i1 := ih n hd
    have i2 := ih (n - 1) hd
    by_cases hcd : c.dest = d
    · obtain ⟨a1, a2, a3⟩ := hrest hcd n
      obtain ⟨b1, b2, b3⟩ := hrest hcd (n - 1)
      unfold visit
      split
      · simp [goneFor_cons, pagesOf_cons, hcd, Chan.new, Left.gone, a1, a2, a3]
      · simp [pagesOf_cons, hcd, a1, a2, a3]
      · split
        · simp [goneFor]
        · split
          · simp [goneFor_cons, pagesOf_cons, hcd, Left.gone, b1, b2, b3]
          · split
            · simp [pagesOf_cons, hcd, a1, a2, a3]
            · split
              · simp [pagesOf_cons, hcd, a1, a2, a3]
              · rename_i p ps hp
                split
                · split
                  · simp [goneFor_cons, pagesOf_cons, hcd, Left.gone, a1, a2, a3, hp]
                  · simp [goneFor_cons, pagesOf_cons, hcd, Left.gone, b1, b2, b3, hp]
                · simp [pagesOf_cons, hcd, a1, a2, a3]
    · unfold visit
      split
      · simpa [goneFor_cons, pagesOf_cons, hcd, Chan.new] using i1
      · simpa [pagesOf_cons, hcd] using i1
      · split
        · simp [goneFor]
        · split
          · simpa [goneFor_cons, pagesOf_cons, hcd] using i2
          · split
            · simpa [pagesOf_cons, hcd] using i1
            · split
              · simpa [pagesOf_cons, hcd] using i1
              · split
                · split
                  · simpa [goneFor_cons, pagesOf_cons, hcd] using i1
                  · simpa [goneFor_cons, pagesOf_cons, hcd] using i2
                · simpa [pagesOf_cons, hcd] using i1

theorem pagesOf_kept (cs : List (Chan M)) (d : Nat) : pagesOf (cs.filter Chan.kept) d = pagesOf cs d := by
  induction cs with
  | nil => rfl
  | cons c cs ih =>
    rw [List.filter_cons, pagesOf_cons]
    split
    · rw [pagesOf_cons, ih]
    · rename_i hk
      have : c.pages = [] := by
        simp only [Chan.kept, Bool.or_eq_true, Bool.not_eq_true', not_or] at hk
        have := hk.2
        simpa using this
      rw [ih, this]
      simp

theorem pagesOf_rotate {cs : List (Chan M)} (h : Distinct cs) (k d : Nat) :
    pagesOf (cs.drop k ++ cs.take k) d = pagesOf cs d := by
  rw [pagesOf_append]
  conv_rhs => rw [← List.take_append_drop k cs, pagesOf_append]
  by_cases hd : ∃ c ∈ cs.take k, c.dest = d
  · obtain ⟨c, hc, rfl⟩ := hd
    have : pagesOf (cs.drop k) c.dest = [] := by
      refine pagesOf_none fun x hx he => ?_
      have hn : (cs.take k ++ cs.drop k).map Chan.dest = cs.map Chan.dest := by
        rw [List.take_append_drop]
      unfold Distinct at h
      rw [← hn, List.map_append, List.nodup_append] at h
      exact h.2.2 c.dest (List.mem_map.2 ⟨c, hc, rfl⟩) x.dest (List.mem_map.2 ⟨x, hx, rfl⟩) he.symm
    rw [this]
    simp
  · have : pagesOf (cs.take k) d = [] := pagesOf_none fun x hx he => hd ⟨x, hx, he⟩
    rw [this]
    simp

theorem rotate_distinct {cs : List (Chan M)} (h : Distinct cs) (k : Nat) :
    Distinct (cs.drop k ++ cs.take k) := by
  unfold Distinct at *
  have hp : (cs.drop k ++ cs.take k).Perm cs := by
    refine List.perm_append_comm.trans ?_
    rw [List.take_append_drop]
  exact (hp.map _).nodup_iff.2 h

/-- What every history keeps. Part of the transition system around the code (outside /repo). -/
structure Good (s : St M) : Prop where
  distinct : Distinct s.chans
  order : ∀ d, (goneFor s.log d).flatten ++ (pagesOf s.chans d).flatten = takenFor s.taken d
  ups : s.upSent ++ s.ups = s.upTaken
  few : s.chans.length ≤ maxChannels
  kept : ∀ c ∈ s.chans, c.kept = true

theorem takenFor_append (l : List (Nat × M)) (x : Nat × M) (d : Nat) :
    takenFor (l ++ [x]) d = takenFor l d ++ if x.1 = d then [x.2] else [] := by
  unfold takenFor
  rw [List.filter_append, List.map_append]
  by_cases h : x.1 = d
  · simp [h]
  · simp [h]

theorem change_distinct {cs : List (Chan M)} (h : Distinct cs) (d : Nat) (f : Chan M → Chan M)
    (hf : ∀ c, (f c).dest = c.dest) : Distinct (change cs d f) := by
  unfold Distinct
  rw [change_dest cs d f hf]
  exact h

theorem change_same (cs : List (Chan M)) (d : Nat) (f : Chan M → Chan M)
    (hf : ∀ c, (f c).dest = c.dest) (hp : ∀ c, (f c).pages = c.pages) (e : Nat) :
    pagesOf (change cs d f) e = pagesOf cs e := by
  rw [change_pages cs d f hf]
  split
  · rename_i h
    subst h
    unfold pagesOf
    congr 1
    funext c
    exact hp c
  · rfl

theorem change_length (cs : List (Chan M)) (d : Nat) (f : Chan M → Chan M) :
    (change cs d f).length = cs.length := by simp [change]

theorem append_ne (size : M → Nat) (most : Nat) (ps : List (List M)) (m : M) :
    (append size most ps m).isEmpty = false := by
  cases ps with
  | nil => rfl
  | cons p ps =>
    cases ps with
    | nil => unfold append; split <;> rfl
    | cons q ps => rfl

theorem change_kept {cs cs' : List (Chan M)} {d : Nat} {f : Chan M → Chan M}
    (h : ∀ c ∈ cs, c.kept = true) (hf : ∀ c, (f c).kept = true) (hr : ∀ c ∈ cs', c.dest ≠ d → c ∈ cs) :
    ∀ c ∈ change cs' d f, c.kept = true := by
  intro c hc
  obtain ⟨x, hx, rfl⟩ := List.mem_map.1 hc
  split
  · exact hf x
  · rename_i hne
    exact h x (hr x hx hne)

theorem send_ok {size : M → Nat} {opened : Option Nat} {cs cs' : List (Chan M)} {d : Nat} {m : M}
    (h : Distinct cs) (hs : send size opened cs d m = some cs') :
    Distinct cs' ∧ (∀ e, (pagesOf cs' e).flatten = (pagesOf cs e).flatten ++
      if d = e then [m] else []) ∧ (cs.length ≤ maxChannels → cs'.length ≤ maxChannels) ∧
      ((∀ c ∈ cs, c.kept = true) → ∀ c ∈ cs', c.kept = true) := by
  unfold send at hs
  split at hs
  · simp at hs
  · rename_i most
    split at hs
    · simp at hs
    · rw [Option.map_eq_some_iff] at hs
      obtain ⟨cs1, h1, h2⟩ := hs
      obtain ⟨a1, ⟨c, hc, rfl⟩, a3, a4, a5, a6⟩ := ensure_ok h h1
      subst h2
      refine ⟨change_distinct a1 _ _ (fun _ => rfl), fun e => ?_, fun hl => by
        rw [change_length]; exact a5 hl,
        fun hk => change_kept hk (fun c => by simp [Chan.kept, append_ne]) a6⟩
      rw [change_pages cs1 c.dest (fun c => { c with pages := append size (min most maxPage) c.pages m })
        (fun _ => rfl)]
      split
      · rename_i he
        subst he
        rw [filter_one a1 hc, ← a3, pagesOf_mem a1 hc]
        simp [append_flatten]
      · rename_i he
        rw [if_neg (fun hc => he hc.symm), a3]
        simp

theorem good_step {size : M → Nat} {s : St M} (h : Good s) (o : Op M) : Good (step size s o) := by
  cases o with
  | send d m opened =>
    simp only [step]
    split
    · exact h
    · rename_i cs hs
      obtain ⟨a1, a2, a3, a4⟩ := send_ok h.distinct hs
      refine ⟨a1, fun e => ?_, h.ups, a3 h.few, a4 h.kept⟩
      simp only
      rw [a2 e, takenFor_append, ← List.append_assoc, h.order e]
  | signal d =>
    simp only [step, signal]
    split
    · exact h
    · rename_i cs hs
      obtain ⟨a1, a2, a3, a4, a5, a6⟩ := ensure_ok h.distinct hs
      refine ⟨change_distinct a1 _ _ (fun _ => rfl), fun e => ?_, h.ups, ?_,
        change_kept h.kept (fun c => by simp [Chan.kept]) a6⟩
      · simp only
        rw [change_same _ _ _ (by intro c; rfl) (by intro c; rfl), a3]
        exact h.order e
      · simp only [change_length]
        exact a5 h.few
  | suspend d =>
    simp only [step, suspend]
    split
    · exact h
    · rename_i cs hs
      obtain ⟨a1, a2, a3, a4, a5, a6⟩ := ensure_ok h.distinct hs
      refine ⟨change_distinct a1 _ _ (fun _ => rfl), fun e => ?_, h.ups, ?_,
        change_kept h.kept (fun c => by simp [Chan.kept]) a6⟩
      · simp only
        rw [change_same _ _ _ (by intro c; rfl) (by intro c; rfl), a3]
        exact h.order e
      · simp only [change_length]
        exact a5 h.few
  | resume d =>
    have hch := change_distinct h.distinct d (fun c => { c with suspended := false }) (fun _ => rfl)
    refine ⟨?_, fun e => ?_, h.ups, ?_, ?_⟩
    · exact List.Nodup.sublist (List.Sublist.map _ List.filter_sublist) hch
    · simp only [step, resume]
      have : pagesOf ((change s.chans d fun c => { c with suspended := false }).filter
          fun c => c.dest != d || c.kept) e = pagesOf s.chans e := by
        rw [← change_same s.chans d (fun c => { c with suspended := false }) (fun _ => rfl)
          (fun _ => rfl) e]
        generalize change s.chans d (fun c => { c with suspended := false }) = cs
        induction cs with
        | nil => rfl
        | cons c cs ih =>
          rw [List.filter_cons, pagesOf_cons]
          split
          · rw [pagesOf_cons, ih]
          · rename_i hk
            have : c.pages = [] := by
              simp only [Chan.kept, Bool.or_eq_true, Bool.not_eq_true', not_or] at hk
              simpa using hk.2.2
            rw [ih, this]
            simp
      rw [this]
      exact h.order e
    · simp only [step, resume]
      refine Nat.le_trans (List.length_filter_le _ _) ?_
      rw [change_length]
      exact h.few
    · intro c hc
      simp only [step, resume, List.mem_filter, Bool.or_eq_true, bne_iff_ne, ne_eq] at hc
      obtain ⟨h1, h2⟩ := hc
      rcases h2 with h2 | h2
      · obtain ⟨x, hx, rfl⟩ := List.mem_map.1 h1
        split at h2
        · rename_i hxd
          exact absurd hxd h2
        · rename_i hxd
          rw [if_neg hxd]
          exact h.kept x hx
      · exact h2
  | block status limit =>
    obtain ⟨v1, -⟩ := visit_dest size status limit s.chans
    have hv : Distinct (visit size status limit s.chans).1 := by
      unfold Distinct
      rw [v1]
      exact h.distinct
    have hk : Distinct ((visit size status limit s.chans).1.filter Chan.kept) :=
      List.Nodup.sublist (List.Sublist.map _ List.filter_sublist) hv
    have hlen : ((visit size status limit s.chans).1.filter Chan.kept).length ≤ maxChannels := by
      refine Nat.le_trans (List.length_filter_le _ _) ?_
      have := congrArg List.length v1
      simp only [List.length_map] at this
      rw [this]
      exact h.few
    have hp : ∀ d, pagesOf (take size status limit s.chans).1 d =
        pagesOf (visit size status limit s.chans).1 d := by
      intro d
      simp only [take]
      split
      · rw [pagesOf_rotate hk, pagesOf_kept]
      · rw [pagesOf_kept]
    refine ⟨?_, fun e => ?_, h.ups, ?_, ?_⟩
    · simp only [step, take]
      split
      · exact rotate_distinct hk _
      · exact hk
    · show (goneFor (s.log ++ (visit size status limit s.chans).2) e).flatten ++
        (pagesOf (take size status limit s.chans).1 e).flatten = takenFor s.taken e
      rw [hp e, goneFor_append, List.flatten_append, List.append_assoc, ← List.flatten_append,
        visit_pages size status e s.chans limit h.distinct]
      exact h.order e
    · simp only [step, take]
      split
      · rw [List.length_append, List.length_drop, List.length_take]
        omega
      · exact hlen
    · have hmem : ∀ c ∈ (visit size status limit s.chans).1.filter Chan.kept, c.kept = true :=
        fun c hc => (List.mem_filter.1 hc).2
      simp only [step, take]
      split
      · intro c hc
        rcases List.mem_append.1 hc with hc | hc
        · exact hmem c (List.mem_of_mem_drop hc)
        · exact hmem c (List.mem_of_mem_take hc)
      · exact hmem
  | up m most =>
    simp only [step]
    split
    · exact h
    · refine ⟨h.distinct, h.order, ?_, h.few, h.kept⟩
      simp only
      rw [← List.append_assoc, h.ups]
  | upBlock count room =>
    refine ⟨h.distinct, h.order, ?_, h.few, h.kept⟩
    simp only [step]
    rw [List.append_assoc, List.take_append_drop]
    exact h.ups

theorem good_run (size : M → Nat) (ops : List (Op M)) : Good (run size ops) := by
  have hi : Good (St.init : St M) := ⟨List.nodup_nil, fun _ => rfl, rfl, Nat.zero_le _,
    fun _ h => by simp [St.init] at h⟩
  have : ∀ (ops : List (Op M)) (s : St M), Good s → Good (ops.foldl (step size) s) := by
    intro ops
    induction ops with
    | nil => exact fun _ h => h
    | cons o ops ih => exact fun s h => ih _ (good_step h o)
  exact this ops _ hi

/-- C176. The messages taken for a chain leave in the order they were taken, none twice and none left
out: the pages gone, followed by the pages waiting, hold all that were taken. -/
theorem C176_order (size : M → Nat) (ops : List (Op M)) (d : Nat) :
    (goneFor (run size ops).log d).flatten ++ (pagesOf (run size ops).chans d).flatten =
      takenFor (run size ops).taken d :=
  (good_run size ops).order d

/-- C176. So do the messages for the relay chain, of which none is lost. -/
theorem C176_up (size : M → Nat) (ops : List (Op M)) :
    (run size ops).upSent ++ (run size ops).ups = (run size ops).upTaken :=
  (good_run size ops).ups

/-- C176. A block hands to the relay chain no more messages and no more bytes than it takes, and leaves
none behind that would still go. -/
theorem C176_up_accepted (size : M → Nat) (count room : Nat) (ms : List M) :
    let k := fitting size count room ms
    k ≤ count ∧ ((ms.take k).map size).sum ≤ room ∧
    ∀ m ∈ ms[k]?, k < count → room < ((ms.take k).map size).sum + size m := by
  induction count generalizing room ms with
  | zero => simp [fitting]
  | succ n ih =>
    cases ms with
    | nil => simp [fitting]
    | cons m ms =>
      simp only [fitting]
      split
      · rename_i hle
        obtain ⟨h1, h2, h3⟩ := ih (room - size m) ms
        rw [Nat.add_comm 1]
        refine ⟨by omega, ?_, ?_⟩
        · simp only [List.take_succ_cons, List.map_cons, List.sum_cons]
          omega
        · intro x hx hlt
          rw [List.getElem?_cons_succ] at hx
          have := h3 x hx (by omega)
          simp only [List.take_succ_cons, List.map_cons, List.sum_cons]
          omega
      · rename_i hle
        refine ⟨by omega, by simp, ?_⟩
        intro x hx _
        simp only [List.getElem?_cons_zero, Option.mem_def, Option.some.injEq] at hx
        subst hx
        simp
        omega

example : fitting id 3 10 [4, 5, 2, 1] = 2 := by decide

/-- C176. At most 128 channels are in use at a time. -/
theorem C176_channels (size : M → Nat) (ops : List (Op M)) : (run size ops).chans.length ≤ 128 :=
  (good_run size ops).few

theorem visit_limit (size : M → Nat) (status : Nat → Status) : ∀ (cs : List (Chan M)) (n : Nat),
    ((visit size status n cs).2.filter fun e => e.2.out).length ≤ n := by
  intro cs
  induction cs with
  | nil => intro n; simp [visit]
  | cons c cs ih =>
    intro n
    have h1 := ih n
    have h2 := ih (n - 1)
    unfold visit
    split
    · simpa [Left.out] using h1
    · exact h1
    · split
      · simp
      · split
        · rw [List.filter_cons_of_pos (by simp [Left.out]), List.length_cons]
          omega
        · split
          · exact h1
          · split
            · exact h1
            · split
              · split
                · simpa [Left.out] using h1
                · rw [List.filter_cons_of_pos (by simp [Left.out]), List.length_cons]
                  omega
              · exact h1

/-- C176. A block hands over at most as many messages as the relay chain allows, at most one for each
chain, and none that the relay chain would refuse: each fits the channel, now and ever. -/
theorem C176_accepted (size : M → Nat) (ops : List (Op M)) (status : Nat → Status) (limit : Nat) :
    let out := (take size status limit (run size ops).chans).2
    (out.filter fun e => e.2.out).length ≤ limit ∧
    (out.map Prod.fst).Nodup ∧
    ∀ d p, (d, Left.sent p) ∈ out → ∃ now ever, status d = .ready now ever ∧ bytes size p < now ∧
      bytes size p ≤ ever := by
  have hd := (good_run size ops).distinct
  generalize (run size ops).chans = cs at *
  refine ⟨visit_limit size status cs limit, ?_, ?_⟩
  · show ((visit size status limit cs).2.map Prod.fst).Nodup
    induction cs generalizing limit with
    | nil => simp [visit]
    | cons c cs ih =>
      simp only [Distinct, List.map_cons, List.nodup_cons] at hd
      have key : ∀ k (l : Left M), (((c.dest, l) :: (visit size status k cs).2).map Prod.fst).Nodup := by
        intro k l
        rw [List.map_cons, List.nodup_cons]
        refine ⟨fun hm => ?_, ih k hd.2⟩
        obtain ⟨e, he, hee⟩ := List.mem_map.1 hm
        have := (visit_dest size status k cs).2 e he
        rw [hee] at this
        exact hd.1 this
      have i1 := ih limit hd.2
      unfold visit
      split
      · exact key _ _
      · exact i1
      · split
        · simp
        · split
          · exact key _ _
          · split
            · exact i1
            · split
              · exact i1
              · split
                · split
                  · exact key _ _
                  · exact key _ _
                · exact i1
  · intro d p hm
    replace hm : (d, Left.sent p) ∈ (visit size status limit cs).2 := hm
    clear hd
    revert hm
    induction cs generalizing limit with
    | nil => intro hm; simp [visit] at hm
    | cons c cs ih =>
      intro hm
      unfold visit at hm
      split at hm
      · simp only [List.mem_cons, Prod.mk.injEq, reduceCtorEq, and_false, false_or] at hm
        exact ih _ hm
      · exact ih _ hm
      · rename_i now ever hst
        split at hm
        · simp at hm
        · split at hm
          · simp only [List.mem_cons, Prod.mk.injEq, reduceCtorEq, and_false, false_or] at hm
            exact ih _ hm
          · split at hm
            · exact ih _ hm
            · split at hm
              · exact ih _ hm
              · rename_i q qs hq
                split at hm
                · rename_i hnow
                  split at hm
                  · simp only [List.mem_cons, Prod.mk.injEq, reduceCtorEq, and_false, false_or] at hm
                    exact ih _ hm
                  · rename_i hever
                    rcases List.mem_cons.1 hm with hm | hm
                    · simp only [Prod.mk.injEq, Left.sent.injEq] at hm
                      obtain ⟨rfl, rfl⟩ := hm
                      exact ⟨now, ever, hst, hnow, by omega⟩
                    · exact ih _ hm
                · exact ih _ hm

/-- The channel to a chain stays open with one greatest length of messages. Specification only, no code
behind it (outside /repo). -/
def Steady (d most : Nat) : Op M → Prop
  | .send e _ opened => e = d → opened = none ∨ opened = some most
  | .block status _ => status d = .full ∨ ∃ now, status d = .ready now most
  | _ => True

/-- Pages within the length of the channel stay so, and none is lost. -/
theorem steady_step {size : M → Nat} {d most : Nat} {s : St M} (hg : Good s)
    (hp : ∀ p ∈ pagesOf s.chans d, bytes size p ≤ min most maxPage)
    (hl : ∀ ps, (d, Left.lost ps) ∉ s.log) (o : Op M) (ho : Steady d most o) :
    (∀ p ∈ pagesOf (step size s o).chans d, bytes size p ≤ min most maxPage) ∧
      ∀ ps, (d, Left.lost ps) ∉ (step size s o).log := by
  have hpages : ∀ cs : List (Chan M), pagesOf cs d = pagesOf s.chans d →
      ∀ p ∈ pagesOf cs d, bytes size p ≤ min most maxPage := fun cs h p hq => hp p (h ▸ hq)
  cases o with
  | send e m opened =>
    simp only [step]
    split
    · exact ⟨hp, hl⟩
    · rename_i cs hs
      refine ⟨?_, hl⟩
      simp only
      unfold send at hs
      split at hs
      · simp at hs
      · rename_i mo
        split at hs
        · simp at hs
        · rename_i hle
          rw [Option.map_eq_some_iff] at hs
          obtain ⟨cs1, h1, h2⟩ := hs
          obtain ⟨a1, ⟨c, hc, hcd⟩, a3, a4, a5, a6⟩ := ensure_ok hg.distinct h1
          subst h2
          rw [change_pages cs1 e (fun c => { c with pages := append size (min mo maxPage) c.pages m })
            (fun _ => rfl)]
          split
          · rename_i he
            subst he
            have hmo : mo = most := by
              rcases ho rfl with h | h
              · simp at h
              · simpa using h
            subst hmo
            have hpc : pagesOf s.chans d = c.pages := by rw [← a3, ← hcd, pagesOf_mem a1 hc]
            have hfo := filter_one a1 hc
            rw [hcd] at hfo
            rw [hfo]
            simp only [List.flatMap_cons, List.flatMap_nil, List.append_nil]
            intro p hpm
            -- pages already there keep their length; the last one grows only within the limit
            have key : ∀ (ps : List (List M)), (∀ p ∈ ps, bytes size p ≤ min mo maxPage) →
                ∀ p ∈ append size (min mo maxPage) ps m, bytes size p ≤ min mo maxPage := by
              intro ps
              induction ps with
              | nil =>
                intro _ p hp
                simp only [append, List.mem_singleton] at hp
                subst hp
                simp [bytes]
                omega
              | cons q ps ih =>
                intro hall p hp
                cases ps with
                | nil =>
                  unfold append at hp
                  split at hp
                  · simp only [List.mem_cons, List.not_mem_nil, or_false] at hp
                    rcases hp with rfl | rfl
                    · exact hall p (by simp)
                    · simp [bytes]
                      omega
                  · rename_i hle2
                    simp only [List.mem_singleton] at hp
                    subst hp
                    simp only [bytes, List.map_append, List.sum_append, List.map_cons, List.map_nil,
                      List.sum_singleton] at hle2 ⊢
                    omega
                | cons r ps =>
                  simp only [append, List.mem_cons] at hp
                  rcases hp with rfl | hp
                  · exact hall p (by simp)
                  · exact ih (fun x hx => hall x (List.mem_cons_of_mem _ hx)) p hp
            exact key c.pages (fun q hq => hp q (by rw [hpc]; exact hq)) p hpm
          · exact hpages cs1 (a3 d)
  | signal e =>
    simp only [step, signal]
    split
    · exact ⟨hp, hl⟩
    · rename_i cs hs
      obtain ⟨a1, a2, a3, a4, a5, a6⟩ := ensure_ok hg.distinct hs
      exact ⟨hpages _ (by rw [change_same _ _ _ (by intro c; rfl) (by intro c; rfl), a3]), hl⟩
  | suspend e =>
    simp only [step, suspend]
    split
    · exact ⟨hp, hl⟩
    · rename_i cs hs
      obtain ⟨a1, a2, a3, a4, a5, a6⟩ := ensure_ok hg.distinct hs
      exact ⟨hpages _ (by rw [change_same _ _ _ (by intro c; rfl) (by intro c; rfl), a3]), hl⟩
  | resume e =>
    refine ⟨fun p hpm => hp p ?_, hl⟩
    rw [← change_same s.chans e (fun c => { c with suspended := false }) (fun _ => rfl)
      (fun _ => rfl) d]
    simp only [step, resume, pagesOf, List.mem_flatMap, List.mem_filter] at hpm ⊢
    obtain ⟨c, ⟨⟨h1, -⟩, h2⟩, h3⟩ := hpm
    exact ⟨c, ⟨h1, h2⟩, h3⟩
  | block status limit =>
    have hv : ∀ (cs : List (Chan M)) (n : Nat), (∀ c ∈ cs, c.dest = d → ∀ p ∈ c.pages,
        bytes size p ≤ min most maxPage) → ∀ ps, (d, Left.lost ps) ∉ (visit size status n cs).2 := by
      intro cs
      induction cs with
      | nil => intro n _ ps; simp [visit]
      | cons c cs ih =>
        intro n hc ps
        have hc' := fun x hx => hc x (List.mem_cons_of_mem _ hx)
        have i1 := ih n hc' ps
        have i2 := ih (n - 1) hc' ps
        have hsd : status d ≠ .closed := by
          intro h
          rcases ho with h1 | ⟨now, h1⟩ <;> rw [h] at h1 <;> simp at h1
        unfold visit
        split
        · rename_i hst
          simp only [List.mem_cons, Prod.mk.injEq, not_or]
          exact ⟨fun h => hsd (h.1 ▸ hst), i1⟩
        · exact i1
        · rename_i now ever hst
          split
          · simp
          · split
            · simp only [List.mem_cons, Prod.mk.injEq, reduceCtorEq, and_false, false_or]
              exact i2
            · split
              · exact i1
              · split
                · exact i1
                · rename_i q qs hq
                  split
                  · split
                    · rename_i hever
                      simp only [List.mem_cons, Prod.mk.injEq, not_or]
                      refine ⟨fun h => ?_, i1⟩
                      have hcd : c.dest = d := h.1.symm
                      have := hc c List.mem_cons_self hcd q (by rw [hq]; simp)
                      rcases ho with h1 | ⟨now', h1⟩
                      · rw [hcd, h1] at hst
                        simp at hst
                      · rw [hcd, h1] at hst
                        simp only [Status.ready.injEq] at hst
                        omega
                    · simp only [List.mem_cons, Prod.mk.injEq, reduceCtorEq, and_false, false_or]
                      exact i2
                  · exact i1
    have hall : ∀ c ∈ s.chans, c.dest = d → ∀ p ∈ c.pages, bytes size p ≤ min most maxPage := by
      intro c hc hcd p hpm
      refine hp p ?_
      rw [← hcd, pagesOf_mem hg.distinct hc]
      exact hpm
    constructor
    · have h1 := (good_step (size := size) hg (.block status limit)).distinct
      have h2 := visit_pages size status d s.chans limit hg.distinct
      have h3 : pagesOf (step size s (.block status limit)).chans d =
          pagesOf (visit size status limit s.chans).1 d := by
        have hvd : Distinct (visit size status limit s.chans).1 := by
          unfold Distinct
          rw [(visit_dest size status limit s.chans).1]
          exact hg.distinct
        have hk : Distinct ((visit size status limit s.chans).1.filter Chan.kept) :=
          List.Nodup.sublist (List.Sublist.map _ List.filter_sublist) hvd
        simp only [step, take]
        split
        · rw [pagesOf_rotate hk, pagesOf_kept]
        · rw [pagesOf_kept]
      intro p hpm
      rw [h3] at hpm
      refine hp p ?_
      rw [← h2]
      exact List.mem_append_right _ hpm
    · intro ps hm
      rcases List.mem_append.1 hm with hm | hm
      · exact hl ps hm
      · exact hv s.chans limit hall ps hm
  | up m mo =>
    simp only [step]
    split
    · exact ⟨hp, hl⟩
    · exact ⟨hp, hl⟩
  | upBlock count room => exact ⟨hp, hl⟩

theorem steady_run (size : M → Nat) (ops : List (Op M)) (d most : Nat)
    (h : ∀ o ∈ ops, Steady d most o) :
    (∀ p ∈ pagesOf (run size ops).chans d, bytes size p ≤ min most maxPage) ∧
      ∀ ps, (d, Left.lost ps) ∉ (run size ops).log := by
  have : ∀ (ops : List (Op M)) (s : St M), (∀ o ∈ ops, Steady d most o) → Good s →
      (∀ p ∈ pagesOf s.chans d, bytes size p ≤ min most maxPage) → (∀ ps, (d, Left.lost ps) ∉ s.log) →
      (∀ p ∈ pagesOf (ops.foldl (step size) s).chans d, bytes size p ≤ min most maxPage) ∧
      ∀ ps, (d, Left.lost ps) ∉ (ops.foldl (step size) s).log := by
    intro ops
    induction ops with
    | nil => exact fun _ _ _ h1 h2 => ⟨h1, h2⟩
    | cons o ops ih =>
      intro s hs hg hp hl
      obtain ⟨h1, h2⟩ := steady_step hg hp hl o (hs o List.mem_cons_self)
      exact ih _ (fun x hx => hs x (List.mem_cons_of_mem _ hx)) (good_step hg o) h1 h2
  exact this ops _ h (good_run size []) (by simp [St.init, pagesOf]) (by simp [St.init])

/-- C176, the part that holds. While the channel to a chain stays open and keeps the length of messages
it takes, no message to it is lost: those handed over, followed by those waiting, are all that were
taken. -/
theorem C176_kept_partial (size : M → Nat) (ops : List (Op M)) (d most : Nat)
    (h : ∀ o ∈ ops, Steady d most o) : ∀ ps, (d, Left.lost ps) ∉ (run size ops).log :=
  (steady_run size ops d most h).2

/-- A history: two messages share a page, a third follows. Example for non-vacuity (outside /repo). -/
def letters : List (Op Nat) :=
  [.send 7 10 (some 40), .send 7 20 (some 40), .send 7 30 (some 40), .send 9 5 (some 40),
    .block (fun _ => .ready 100 40) 1]

example : ∀ o ∈ letters, Steady 7 40 o := by
  intro o ho
  simp only [letters, List.mem_cons, List.not_mem_nil, or_false] at ho
  rcases ho with rfl | rfl | rfl | rfl | rfl
  · intro _; right; rfl
  · intro _; right; rfl
  · intro _; right; rfl
  · intro h; simp at h
  · exact Or.inr ⟨100, rfl⟩

example : goneFor (run id letters).log 7 = [[10, 20]] ∧ pagesOf (run id letters).chans 7 = [[30]] ∧
    goneFor (run id letters).log 9 = [] := by decide

/-- C176 fails: when the relay chain reports a channel closed, or smaller, the messages waiting for it
are dropped, though they were taken. -/
theorem C176_fails :
    (∃ ops : List (Op Nat), takenFor (run id ops).taken 7 = [10] ∧
      (7, Left.lost [[10]]) ∈ (run id ops).log ∧ pagesOf (run id ops).chans 7 = [] ∧
      ops = [.send 7 10 (some 40), .block (fun _ => .closed) 1]) ∧
    ∃ ops : List (Op Nat), takenFor (run id ops).taken 7 = [10] ∧
      (7, Left.lost [[10]]) ∈ (run id ops).log ∧ pagesOf (run id ops).chans 7 = [] ∧
      ops = [.send 7 10 (some 40), .block (fun _ => .ready 100 10) 1] := by
  refine ⟨⟨_, ?_, ?_, ?_, rfl⟩, ⟨_, ?_, ?_, ?_, rfl⟩⟩ <;> first | decide | exact List.mem_cons_self

end Verif.Xcm.Outbound
