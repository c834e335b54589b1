import Verif.Runtime.RefundChain

/-!
# C145: a refund that was asked for comes, or was ended by one of the parties, within a bounded number of blocks
-/

namespace Verif.Runtime

open Verif

theorem refundItem_inj {base exec : Weight} {i j : Nat} (h : refundItem base exec i = refundItem base exec j) : i = j :=
  congrArg Item.name h

/-! ## Where the tasks of refunds are -/

/-- What an action does to the task of a payment: nothing, or it schedules it, or it takes it away. -/
theorem exec_agenda (cfg : Payments.Config) (s : Payments.St) (act : Payments.Act) (id : Payments.PId) :
    (Payments.exec cfg s act).agenda id = s.agenda id ∨
    (∃ env org, act = .call env org (.requestRefund id) ∧ s.agenda id = none ∧ env.schedOk = true ∧
      ∃ b, (Payments.exec cfg s act).agenda id = some ⟨s.now + cfg.cancelBuffer, b⟩) ∨
    (Payments.exec cfg s act).agenda id = none := by
  have hset : ∀ (f : Payments.PId → Option Payments.Task) (i : Payments.PId),
      Payments.setAt f i none id = f id ∨ Payments.setAt f i none id = none := by
    intro f i
    unfold Payments.setAt
    split
    · exact .inr rfl
    · exact .inl rfl
  cases act with
  | tick => exact .inl rfl
  | ext a w f => exact .inl rfl
  | setMin a m => exact .inl rfl
  | fire env i =>
    simp only [Payments.exec]
    cases ht : s.agenda i with
    | none => exact .inl rfl
    | some t =>
      dsimp only
      split
      · cases h : Payments.cancel cfg env { s with agenda := Payments.setAt s.agenda i none } (.signed t.who) i with
        | error e => exact (hset _ _).imp_right .inr
        | ok s' =>
          obtain ⟨x, y, q, L, _, _, _, _, hs⟩ := Payments.cancel_ok h
          rcases hs with ⟨_, rfl⟩ | ⟨_, rfl⟩ <;> exact (hset _ _).imp_right .inr
      · exact .inl rfl
  | call env org c =>
    cases h : Payments.dispatch cfg env s org c with
    | error e =>
      left
      simp only [Payments.exec, h, Payments.settle]
    | ok s' =>
      have he : Payments.exec cfg s (.call env org c) = s' := by simp only [Payments.exec, h, Payments.settle]
      rw [he]
      cases c with
      | pay bA a n r =>
        obtain ⟨x, y, i, L, _, _, _, _, _, rfl⟩ := Payments.pay_ok h
        exact .inl rfl
      | requestPayment sA a n =>
        obtain ⟨x, y, i, _, _, _, _, rfl⟩ := Payments.requestPayment_ok h
        exact .inl rfl
      | release i =>
        obtain ⟨x, q, L, _, _, _, _, rfl⟩ := Payments.release_ok h
        exact .inl rfl
      | requestRefund i =>
        obtain ⟨x, q, _, _, _, _, hag, _, hok, rfl⟩ := Payments.requestRefund_ok h
        by_cases hi : id = i
        · subst hi
          right; left
          exact ⟨env, org, rfl, hag, hok, q.beneficiary, by simp [Payments.setAt]⟩
        · left
          show Payments.setAt _ _ _ _ = _
          exact Payments.setAt_ne _ _ _ _ hi
      | acceptAndPay i =>
        obtain ⟨x, s0, y, q, L1, L2, L3, _, _, _, _, _, _, rfl⟩ := Payments.acceptAndPay_ok h
        exact .inl rfl
      | cancel i =>
        obtain ⟨x, y, q, L, _, _, _, _, hs⟩ := Payments.cancel_ok h
        rcases hs with ⟨_, rfl⟩ | ⟨_, rfl⟩ <;> exact .inl rfl
      | disputeRefund i =>
        obtain ⟨x, y, q, cb, L, _, _, _, _, _, _, _, rfl⟩ := Payments.disputeRefund_ok h
        exact (hset _ _).imp_right .inr
      | resolveDispute i r =>
        obtain ⟨res, x, y, q, L, _, _, _, _, _, rfl⟩ := Payments.resolveDispute_ok h
        exact .inl rfl

/-- The task of a refund that is not due yet is on the agenda of the block in which it is due, and agendas are not longer
than the scheduler allows. -/
structure Tied (base exec : Weight) (c : Scheduled) : Prop where
  task : ∀ id t, c.pay.agenda id = some t → c.pay.now < t.due → refundItem base exec id ∈ c.future t.due
  future : ∀ d, (c.future d).length ≤ maxScheduled
  backlog : ∀ a ∈ c.backlog, a.length ≤ maxScheduled

theorem exec_now (cfg : Payments.Config) (s : Payments.St) (act : Payments.Act) (h : act ≠ .tick) :
    (Payments.exec cfg s act).now = s.now := by
  cases act with
  | tick => exact absurd rfl h
  | ext a w f => rfl
  | setMin a m => rfl
  | fire env i =>
    simp only [Payments.exec]
    cases ht : s.agenda i with
    | none => rfl
    | some t =>
      dsimp only
      split
      · cases h : Payments.cancel cfg env { s with agenda := Payments.setAt s.agenda i none } (.signed t.who) i with
        | error e => rfl
        | ok s' =>
          obtain ⟨x, y, q, L, _, _, _, _, hs⟩ := Payments.cancel_ok h
          rcases hs with ⟨_, rfl⟩ | ⟨_, rfl⟩ <;> rfl
      · rfl
  | call env org c =>
    cases h : Payments.dispatch cfg env s org c with
    | error e => simp only [Payments.exec, h, Payments.settle]
    | ok s' =>
      have he : Payments.exec cfg s (.call env org c) = s' := by simp only [Payments.exec, h, Payments.settle]
      rw [he]
      cases c with
      | pay bA a n r =>
        obtain ⟨x, y, i, L, _, _, _, _, _, rfl⟩ := Payments.pay_ok h
        rfl
      | requestPayment sA a n =>
        obtain ⟨x, y, i, _, _, _, _, rfl⟩ := Payments.requestPayment_ok h
        rfl
      | release i =>
        obtain ⟨x, q, L, _, _, _, _, rfl⟩ := Payments.release_ok h
        rfl
      | requestRefund i =>
        obtain ⟨x, q, _, _, _, _, hag, _, hok, rfl⟩ := Payments.requestRefund_ok h
        rfl
      | acceptAndPay i =>
        obtain ⟨x, s0, y, q, L1, L2, L3, _, _, _, _, _, _, rfl⟩ := Payments.acceptAndPay_ok h
        rfl
      | cancel i =>
        obtain ⟨x, y, q, L, _, _, _, _, hs⟩ := Payments.cancel_ok h
        rcases hs with ⟨_, rfl⟩ | ⟨_, rfl⟩ <;> rfl
      | disputeRefund i =>
        obtain ⟨x, y, q, cb, L, _, _, _, _, _, _, _, rfl⟩ := Payments.disputeRefund_ok h
        rfl
      | resolveDispute i r =>
        obtain ⟨res, x, y, q, L, _, _, _, _, _, rfl⟩ := Payments.resolveDispute_ok h
        rfl

theorem sweep_lengths (o : Overheads) (limit : Weight) (l : List (List Item)) (u : Weight) (e : Nat)
    (h : ∀ a ∈ l, a.length ≤ maxScheduled) : ∀ a ∈ (sweep o limit l u e).left.map Prod.fst, a.length ≤ maxScheduled := by
  induction l generalizing u e with
  | nil => intro a ha; simp [sweep] at ha
  | cons b l ih =>
    intro a ha
    unfold sweep at ha
    split at ha
    · dsimp only at ha
      rw [List.map_cons] at ha
      rcases List.mem_cons.1 ha with rfl | ha
      · have := kept_length limit b (consume limit u (o.agenda b.length)) e
        have := h b List.mem_cons_self
        dsimp only
        omega
      · exact ih _ _ (fun x hx => h x (List.mem_cons_of_mem _ hx)) a ha
    · rw [List.map_map] at ha
      obtain ⟨x, hx, rfl⟩ := List.mem_map.1 ha
      exact h x hx

theorem serveBlock_lengths (o : Overheads) (limit : Weight) (l : List (List Item))
    (h : ∀ a ∈ l, a.length ≤ maxScheduled) : ∀ a ∈ (serveBlock o limit l).2, a.length ≤ maxScheduled := by
  intro a ha
  unfold serveBlock at ha
  split at ha
  · dsimp only at ha
    obtain ⟨x, hx, rfl⟩ := List.mem_map.1 ha
    exact sweep_lengths o limit l _ _ h _ (List.mem_map_of_mem ((List.dropWhile_suffix _).subset hx))
  · exact h a ha

/-- A call keeps the tasks of refunds that go on. -/
theorem planned_keeps {base exec : Weight} {s s' : Payments.St} {c : Payments.Call} {f : Payments.Block → List Item}
    {d : Payments.Block} {i : Payments.PId} (h : refundItem base exec i ∈ f d) (hi : s'.agenda i ≠ none) :
    refundItem base exec i ∈ planned base exec s s' c f d := by
  cases c with
  | requestRefund j =>
    simp only [planned]
    cases s.agenda j <;> cases s'.agenda j <;> dsimp only
    case none.some t =>
      split
      · exact List.mem_append_left _ h
      · exact h
    all_goals exact h
  | disputeRefund j =>
    simp only [planned]
    cases h1 : s.agenda j <;> cases h2 : s'.agenda j <;> dsimp only
    case some.none t =>
      rw [List.mem_filter]
      refine ⟨h, ?_⟩
      rw [decide_eq_true_iff]
      intro he
      have := refundItem_inj he
      subst this
      exact hi h2
    all_goals exact h
  | _ => exact h

/-- And makes agendas longer only by a refund for which there is room. -/
theorem planned_length {base exec : Weight} {s s' : Payments.St} {c : Payments.Call} {f : Payments.Block → List Item}
    (h : ∀ d, (f d).length ≤ maxScheduled)
    (hr : ∀ j t, c = .requestRefund j → s.agenda j = none → s'.agenda j = some t → (f t.due).length < maxScheduled)
    (d : Payments.Block) : (planned base exec s s' c f d).length ≤ maxScheduled := by
  cases c with
  | requestRefund j =>
    simp only [planned]
    cases h1 : s.agenda j <;> cases h2 : s'.agenda j <;> dsimp only
    case none.some t =>
      split
      · rename_i hd
        have := hr j t rfl h1 h2
        rw [hd, List.length_append]
        exact this
      · exact h d
    all_goals exact h d
  | disputeRefund j =>
    simp only [planned]
    cases h1 : s.agenda j <;> cases h2 : s'.agenda j <;> dsimp only
    case some.none t => exact le_trans (List.length_filter_le _ _) (h d)
    all_goals exact h d
  | _ => exact h d

theorem Tied.step {cfg : Payments.Config} {o : Overheads} {limit base exec : Weight} {c c' : Scheduled}
    {acts : List Payments.Act} (h : Tied base exec c) (st : Moves cfg o limit base exec c acts c') :
    Tied base exec c' := by
  cases st with
  | block hr =>
    refine ⟨fun id t ha hn => ?_, fun d => ?_, ?_⟩
    · have hn : c.pay.now + 1 < t.due := hn
      show _ ∈ (if t.due = c.pay.now + 1 then [] else c.future t.due)
      rw [if_neg (Nat.ne_of_gt hn)]
      exact h.task id t ha (Nat.lt_of_succ_lt hn)
    · dsimp only
      split
      · simp
      · exact h.future d
    · apply serveBlock_lengths
      intro a ha
      rcases List.mem_append.1 ha with ha | ha
      · exact h.backlog a ha
      · rw [List.mem_singleton.1 ha]; exact h.future _
  | refund env id rest hr =>
    refine ⟨fun i t ha hn => ?_, h.future, h.backlog⟩
    rcases exec_agenda cfg c.pay (.fire env id) i with e | ⟨_, _, e, _⟩ | e
    · exact h.task i t (e.symm.trans ha) (by rw [← exec_now cfg c.pay (.fire env id) (by simp)]; exact hn)
    · cases e
    · exact absurd (e.symm.trans ha) (by simp)
  | other t rest hr ht => exact ⟨h.task, h.future, h.backlog⟩
  | call env org call hs =>
    have hnow := exec_now cfg c.pay (.call env org call) (by simp)
    refine ⟨fun i t ha hn => ?_, fun d => ?_, h.backlog⟩
    · have hn : (Payments.exec cfg c.pay (.call env org call)).now < t.due := hn
      have ha : (Payments.exec cfg c.pay (.call env org call)).agenda i = some t := ha
      rw [hnow] at hn
      rcases exec_agenda cfg c.pay (.call env org call) i with e | ⟨env', org', e, e1, _, b, e2⟩ | e
      · exact planned_keeps (h.task i t (e.symm.trans ha) hn) (by rw [ha]; simp)
      · cases e
        rw [e2] at ha
        cases ha
        show _ ∈ planned base exec c.pay _ (.requestRefund i) c.future _
        simp only [planned, e1, e2, if_true]
        simp
      · exact absurd (e.symm.trans ha) (by simp)
    · refine planned_length h.future (fun j t e h1 h2 => ?_) d
      subst e
      rcases exec_agenda cfg c.pay (.call env org (.requestRefund j)) j with e | ⟨env', org', e, e1, e3, b, e2⟩ | e
      · rw [h1, h2] at e; cases e
      · cases e
        rw [h2] at e2
        cases e2
        exact hs e3
      · rw [h2] at e; cases e
  | ext a w f => exact ⟨h.task, h.future, h.backlog⟩
  | setMin a m => exact ⟨h.task, h.future, h.backlog⟩
  | plan d t hd ht hr =>
    refine ⟨fun i u ha hn => ?_, fun e => ?_, h.backlog⟩
    · have := h.task i u ha hn
      dsimp only
      split
      · exact List.mem_append_left _ this
      · exact this
    · dsimp only
      split
      · rename_i he
        subst he
        simp only [List.length_append, List.length_cons, List.length_nil]
        omega
      · exact h.future e
  | unplan backlog future hb' hf =>
    refine ⟨fun i u ha hn => (hf _).2 i (h.task i u ha hn), fun d => le_trans (hf d).1.length_le (h.future d), ?_⟩
    intro a ha
    obtain ⟨b, hb1, hb2⟩ : ∃ b ∈ c.backlog, Fewer base exec a b := by
      clear h
      revert hb'
      dsimp only at ha
      generalize c.backlog = l
      intro hb'
      induction hb' with
      | nil => cases ha
      | cons hx hl ih =>
        rcases List.mem_cons.1 ha with rfl | ha
        · exact ⟨_, List.mem_cons_self, hx⟩
        · obtain ⟨b, h1, h2⟩ := ih ha
          exact ⟨b, List.mem_cons_of_mem _ h1, h2⟩
    exact le_trans hb2.1.length_le (h.backlog b hb1)

theorem Scheduled.Fresh.tied {base exec : Weight} {c : Scheduled} (h : c.Fresh) : Tied base exec c := by
  obtain ⟨h1, _, h3, h4⟩ := h
  refine ⟨fun id t ha => ?_, fun d => ?_, fun a ha => ?_⟩
  · rw [h1.agenda] at ha; cases ha
  · rw [h4]; simp
  · rw [h3] at ha; cases ha

theorem History.tied {cfg : Payments.Config} {o : Overheads} {limit base exec : Weight} {c c' : Scheduled}
    {acts : List Payments.Act} (h : Tied base exec c) (hh : History cfg o limit base exec c acts c') : Tied base exec c' := by
  induction hh with
  | nil => exact h
  | cons st _ ih => exact ih (h.step st)

/-- The payments go the way the machine of payments goes. -/
theorem Moves.run {cfg : Payments.Config} {o : Overheads} {limit base exec : Weight} {c c' : Scheduled}
    {acts : List Payments.Act} (st : Moves cfg o limit base exec c acts c') : c'.pay = Payments.run cfg c.pay acts := by
  cases st <;> rfl

theorem History.run {cfg : Payments.Config} {o : Overheads} {limit base exec : Weight} {c c' : Scheduled}
    {acts : List Payments.Act} (h : History cfg o limit base exec c acts c') : c'.pay = Payments.run cfg c.pay acts := by
  induction h with
  | nil => rfl
  | cons st _ ih =>
    rw [ih, st.run]
    simp only [Payments.run, List.foldl_append]

theorem History.trans {cfg : Payments.Config} {o : Overheads} {limit base exec : Weight} {a b c : Scheduled}
    {acts acts' : List Payments.Act} (h : History cfg o limit base exec a acts b)
    (h' : History cfg o limit base exec b acts' c) : History cfg o limit base exec a (acts ++ acts') c := by
  induction h with
  | nil => exact h'
  | cons st _ ih => rw [List.append_assoc]; exact .cons st (ih h')

theorem _root_.Verif.Payments.Along.left {cfg : Payments.Config} {ok : Payments.St → Payments.Act → Prop} {s : Payments.St}
    {a b : List Payments.Act} (h : Payments.Along cfg ok s (a ++ b)) : Payments.Along cfg ok s a := by
  induction a generalizing s with
  | nil => trivial
  | cons x a ih => exact ⟨h.1, ih h.2⟩

theorem run_reachable {cfg : Payments.Config} {s : Payments.St} (h : Payments.Reachable cfg s) (acts : List Payments.Act) :
    Payments.Reachable cfg (Payments.run cfg s acts) := Payments.Demo.reach_run h acts

theorem exec_now_le (cfg : Payments.Config) (s : Payments.St) (act : Payments.Act) :
    s.now ≤ (Payments.exec cfg s act).now := by
  by_cases h : act = .tick
  · subst h; exact Nat.le_succ _
  · rw [exec_now cfg s act h]

theorem run_now_le (cfg : Payments.Config) (s : Payments.St) (acts : List Payments.Act) :
    s.now ≤ (Payments.run cfg s acts).now := by
  induction acts generalizing s with
  | nil => exact le_refl _
  | cons a acts ih => exact le_trans (exec_now_le cfg s a) (ih _)

/-! ## A task that is due runs -/

/-- A task is about to run, or waits in the backlog with at most `n` tasks up to its agenda. -/
def Due (o : Overheads) (limit : Weight) (t : Item) (n : Nat) (c : Scheduled) : Prop :=
  t ∈ c.running ∨ ∃ pre a post, c.backlog = pre ++ a :: post ∧ t ∈ a ∧ (∀ b ∈ pre ++ [a], b.length ≤ maxScheduled) ∧
    FitsAlone o limit (pre ++ [a]) t ∧ (pre ++ [a]).flatten.length ≤ n

theorem forall₂_split {α β : Type} {R : α → β → Prop} {l : List α} (pre : List β) (a : β) (post : List β)
    (h : List.Forall₂ R l (pre ++ a :: post)) :
    ∃ pre' a' post', l = pre' ++ a' :: post' ∧ List.Forall₂ R pre' pre ∧ R a' a := by
  induction pre generalizing l with
  | nil =>
    obtain ⟨x, r, h1, _, rfl⟩ := List.forall₂_cons_right_iff.1 h
    exact ⟨[], x, r, rfl, .nil, h1⟩
  | cons p pre ih =>
    obtain ⟨x, r, h1, h2, rfl⟩ := List.forall₂_cons_right_iff.1 h
    obtain ⟨q, y, s, rfl, h4, h5⟩ := ih h2
    exact ⟨x :: q, y, s, rfl, .cons h1 h4, h5⟩

theorem forall₂_fewer_length {base exec : Weight} {a b : List (List Item)} (h : List.Forall₂ (Fewer base exec) a b) :
    a.flatten.length ≤ b.flatten.length ∧ ∀ x ∈ a, ∃ y ∈ b, x.length ≤ y.length := by
  induction h with
  | nil => exact ⟨le_refl _, fun x hx => by cases hx⟩
  | @cons x y l₁ l₂ hx _ ih =>
    have := hx.1.length_le
    constructor
    · rw [List.flatten_cons, List.flatten_cons, List.length_append, List.length_append]
      omega
    · intro z hz
      rcases List.mem_cons.1 hz with rfl | hz
      · exact ⟨_, List.mem_cons_self, this⟩
      · obtain ⟨y, hy, hl⟩ := ih.2 z hz
        exact ⟨y, List.mem_cons_of_mem _ hy, hl⟩

theorem forall₂_load {base exec : Weight} {a b : List (List Item)} (h : List.Forall₂ (Fewer base exec) a b)
    (f : Item → Nat) (k : Nat) : load f k a ≤ load f k b := by
  induction h with
  | nil => exact le_refl _
  | cons hx _ ih =>
    rw [load_cons, load_cons]
    have := sum_sublist f hx.1
    omega

/-- One step: the task runs, or is still due, with fewer tasks before it after a block. -/
theorem Due.step {cfg : Payments.Config} {o : Overheads} {limit base exec : Weight} {c c' : Scheduled}
    {acts : List Payments.Act} (hm : ∀ k ≤ maxScheduled, Weight.Le (o.agenda k) (o.agenda maxScheduled)) {id n : Nat}
    (h : Due o limit (refundItem base exec id) n c) (st : Moves cfg o limit base exec c acts c') :
    (∃ env, acts = [.fire env id]) ∨ (acts = [.tick] ∧ c.running = [] ∧ Due o limit (refundItem base exec id) (n - 1) c') ∨
      (acts ≠ [.tick] ∧ Due o limit (refundItem base exec id) n c') := by
  cases st with
  | block hr =>
    right; left
    refine ⟨rfl, hr, ?_⟩
    rcases h with h | ⟨pre, a, post, h1, h2, h3, h4, h5⟩
    · rw [hr] at h; cases h
    · rcases serveBlock_mem o limit hm _ rfl pre a (post ++ [c.future (c.pay.now + 1)]) h2 h3 h4 with
        h | ⟨p, a', q, k1, k2, k3, k4, k5⟩
      · left
        show _ ∈ (serveBlock o limit (c.backlog ++ [c.future (c.pay.now + 1)])).1
        rw [h1, List.append_assoc, List.cons_append]
        exact h
      · right
        refine ⟨p, a', q, ?_, k2, k3, k4, by omega⟩
        show (serveBlock o limit (c.backlog ++ [c.future (c.pay.now + 1)])).2 = _
        rw [h1, List.append_assoc, List.cons_append]
        exact k1
  | refund env i rest hr =>
    rcases h with h | h
    · rw [hr] at h
      rcases List.mem_cons.1 h with h | h
      · left
        have := refundItem_inj h
        subst this
        exact ⟨env, rfl⟩
      · exact .inr (.inr ⟨by simp, .inl h⟩)
    · exact .inr (.inr ⟨by simp, .inr h⟩)
  | other t rest hr ht =>
    right; right
    refine ⟨by simp, ?_⟩
    rcases h with h | h
    · rw [hr] at h
      rcases List.mem_cons.1 h with h | h
      · exact absurd h.symm (ht id)
      · exact .inl h
    · exact .inr h
  | call env org call hs => exact .inr (.inr ⟨by simp, h⟩)
  | ext a w f => exact .inr (.inr ⟨by simp, h⟩)
  | setMin a m => exact .inr (.inr ⟨by simp, h⟩)
  | plan d t hd ht hr => exact .inr (.inr ⟨by simp, h⟩)
  | unplan backlog future hb hf =>
    right; right
    refine ⟨by simp, ?_⟩
    rcases h with h | ⟨pre, a, post, h1, h2, h3, h4, h5⟩
    · exact .inl h
    · right
      rw [h1] at hb
      obtain ⟨pre', a', post', e1, e2, e3⟩ := forall₂_split _ _ _ hb
      have e4 : List.Forall₂ (Fewer base exec) (pre' ++ [a']) (pre ++ [a]) := List.rel_append e2 (.cons e3 .nil)
      have e5 := forall₂_fewer_length e4
      refine ⟨pre', a', post', e1, e3.2 id h2, fun x hx => ?_, ?_, le_trans e5.1 h5⟩
      · obtain ⟨y, hy, hl⟩ := e5.2 x hx
        exact le_trans hl (h3 y hy)
      · have g1 := forall₂_load e4 (fun x => x.base.refTime) (o.agenda maxScheduled).refTime
        have g2 := forall₂_load e4 (fun x => x.base.proofSize) (o.agenda maxScheduled).proofSize
        unfold FitsAlone at h4 ⊢
        omega

theorem Due.zero {o : Overheads} {limit : Weight} {t : Item} {c : Scheduled} (h : Due o limit t 0 c) : t ∈ c.running := by
  rcases h with h | ⟨pre, a, post, _, h2, _, _, h5⟩
  · exact h
  · rw [List.flatten_append, List.length_append, List.flatten_cons, List.length_append] at h5
    have := List.length_pos_of_mem h2
    omega

theorem Due.mono {o : Overheads} {limit : Weight} {t : Item} {n m : Nat} {c : Scheduled} (h : Due o limit t n c)
    (hn : n ≤ m) : Due o limit t m c := by
  rcases h with h | ⟨pre, a, post, h1, h2, h3, h4, h5⟩
  · exact .inl h
  · exact .inr ⟨pre, a, post, h1, h2, h3, h4, le_trans h5 hn⟩

theorem nat_tick {a b n : Nat} (h : a + n ≤ b) (hn : n ≠ 0) : a + 1 + (n - 1) ≤ b := by omega

theorem nat_none {a n : Nat} (h : a + n ≤ a) : n = 0 := by omega

/-- A refund that is due runs within as many blocks as there are tasks up to its agenda. -/
theorem Due.fires {cfg : Payments.Config} {o : Overheads} {limit base exec : Weight} {c c' : Scheduled}
    {acts : List Payments.Act} (hm : ∀ k ≤ maxScheduled, Weight.Le (o.agenda k) (o.agenda maxScheduled)) {id n : Nat}
    (hh : History cfg o limit base exec c acts c') (h : Due o limit (refundItem base exec id) n c)
    (hr : c'.running = []) (hn : c.pay.now + n ≤ c'.pay.now) :
    ∃ pre env post, acts = pre ++ .fire env id :: post := by
  induction hh generalizing n with
  | nil =>
    have : n = 0 := nat_none hn
    subst this
    have := h.zero
    rw [hr] at this
    cases this
  | @cons c c1 c2 as as' st rest ih =>
    rcases h.step hm st with ⟨env, rfl⟩ | ⟨rfl, h0, h1⟩ | ⟨h0, h1⟩
    · exact ⟨[], env, as', rfl⟩
    · have e : c1.pay.now = c.pay.now + 1 := by rw [st.run]; rfl
      have hn0 : n ≠ 0 := by
        rintro rfl
        have := h.zero
        rw [h0] at this
        cases this
      obtain ⟨pre, env, post, e⟩ := ih h1 hr (by rw [e]; exact nat_tick hn hn0)
      exact ⟨.tick :: pre, env, post, by rw [e]; rfl⟩
    · have e : c1.pay.now = c.pay.now := by
        cases st with
        | block => exact absurd rfl h0
        | refund env i => exact exec_now _ _ _ (by simp)
        | other => rfl
        | call env org call => exact exec_now _ _ _ (by simp)
        | ext => rfl
        | setMin => rfl
        | plan => rfl
        | unplan => rfl
      obtain ⟨pre, env, post, e⟩ := ih h1 hr (by rw [e]; exact hn)
      exact ⟨as ++ pre, env, post, by rw [e, List.append_assoc]⟩

/-- A refund that is about to run runs before the block ends. -/
theorem Due.runs {cfg : Payments.Config} {o : Overheads} {limit base exec : Weight} {c c' : Scheduled}
    {acts : List Payments.Act} {id : Nat} (hh : History cfg o limit base exec c acts c')
    (h : refundItem base exec id ∈ c.running) (hr : c'.running = []) :
    ∃ pre env post, acts = pre ++ .fire env id :: post := by
  induction hh with
  | nil => rw [hr] at h; cases h
  | @cons c c1 c2 as as' st rest ih =>
    have key : (∃ env, as = [.fire env id]) ∨ refundItem base exec id ∈ c1.running := by
      cases st with
      | block h0 => rw [h0] at h; cases h
      | refund env i rest hq =>
        rw [hq] at h
        rcases List.mem_cons.1 h with h | h
        · left
          have := refundItem_inj h
          subst this
          exact ⟨env, rfl⟩
        · exact .inr h
      | other t rest hq ht =>
        rw [hq] at h
        rcases List.mem_cons.1 h with h | h
        · exact absurd h.symm (ht id)
        · exact .inr h
      | call => exact .inr h
      | ext => exact .inr h
      | setMin => exact .inr h
      | plan => exact .inr h
      | unplan => exact .inr h
    rcases key with ⟨env, rfl⟩ | h1
    · exact ⟨[], env, as', rfl⟩
    · obtain ⟨pre, env, post, e⟩ := ih h1 hr
      exact ⟨as ++ pre, env, post, by rw [e, List.append_assoc]⟩

/-! ## C145 -/

theorem Moves.tick_block {cfg : Payments.Config} {o : Overheads} {limit base exec : Weight} {c c' : Scheduled}
    (st : Moves cfg o limit base exec c [.tick] c') : c.running = [] ∧
      c'.running = (serveBlock o limit (c.backlog ++ [c.future (c.pay.now + 1)])).1 ∧
      c'.backlog = (serveBlock o limit (c.backlog ++ [c.future (c.pay.now + 1)])).2 := by
  generalize ha : [Payments.Act.tick] = acts at st
  cases st with
  | block h => exact ⟨h, rfl, rfl⟩
  | _ => simp at ha

/-- A fire after the block of the deadline is at or after the deadline. -/
theorem ended_if_fired {cfg : Payments.Config} {s : Payments.St} (hr : Payments.Reachable cfg s) {snd b : Payments.Acct}
    {id : Payments.PId} {p : Payments.Payment} {d : Payments.Block} (hpar : s.parties id = some (snd, b))
    (hp : s.payments snd id = some p) (hst : p.state = .refundRequested d) (hn : s.now < d)
    (ho : cfg.beneficiaryOrigin (.signed b) = some b) (before after : List Payments.Act)
    (hd : (Payments.run cfg s before).now + 1 = d)
    (hf : Payments.Along cfg (Payments.IdKept cfg snd id) s (before ++ .tick :: after))
    (ha : ∀ env, .fire env id ∈ before ++ .tick :: after → Payments.Accepting env.ledger)
    (hfire : ∃ pre env post, after = pre ++ .fire env id :: post) :
    ∃ pre act post, before ++ .tick :: after = pre ++ act :: post ∧ (Payments.run cfg s pre).payments snd id = some p ∧
      Payments.RefundEnds cfg (Payments.run cfg s pre) snd b id p d act := by
  rcases Payments.C19_every_history hr hpar hp hst hn ho _ hf ha with h | ⟨_, _, h⟩
  · exact h
  · exfalso
    obtain ⟨pre, env, post, rfl⟩ := hfire
    have h1 := h (before ++ .tick :: pre) env post (by simp)
    have h2 : Payments.run cfg s (before ++ .tick :: pre) =
        Payments.run cfg (Payments.exec cfg (Payments.run cfg s before) .tick) pre := by
      simp only [Payments.run, List.foldl_append, List.foldl_cons]
    have h3 := run_now_le cfg (Payments.exec cfg (Payments.run cfg s before) .tick) pre
    rw [← h2] at h3
    have h4 : (Payments.exec cfg (Payments.run cfg s before) .tick).now = (Payments.run cfg s before).now + 1 := rfl
    rw [h4, hd] at h3
    exact absurd h1 (Nat.not_lt.2 h3)

/-- **C145.** A refund that was asked for is pending in some state of the chain. Whatever happens until its block (`before`),
in its block and in the blocks after that (`after`): once there have been as many blocks as there are tasks in the agendas
up to its own, it has ended, in one of the four ways of `RefundEnds`: the beneficiary disputed it in time or gave the
money back, the sender paid after all, or the scheduler gave everything back to the sender. -/
theorem C145_refund_comes {cfg : Payments.Config} {o : Overheads} {limit base exec : Weight}
    (hm : ∀ k ≤ maxScheduled, Weight.Le (o.agenda k) (o.agenda maxScheduled))
    {start c c1 c2 c3 : Scheduled} {first before after : List Payments.Act} (h0 : start.Fresh)
    (hs : History cfg o limit base exec start first c)
    {snd b : Payments.Acct} {id : Payments.PId} {p : Payments.Payment} {d : Payments.Block}
    (hpar : c.pay.parties id = some (snd, b)) (hp : c.pay.payments snd id = some p)
    (hst : p.state = .refundRequested d) (hn : c.pay.now < d) (ho : cfg.beneficiaryOrigin (.signed b) = some b)
    (h1 : History cfg o limit base exec c before c1) (hd : c1.pay.now + 1 = d)
    (h2 : Moves cfg o limit base exec c1 [.tick] c2) (h3 : History cfg o limit base exec c2 after c3)
    (hr : c3.running = [])
    (hfit : FitsAlone o limit (c1.backlog ++ [c1.future d]) (refundItem base exec id))
    (hl : c1.pay.now + (c1.backlog ++ [c1.future d]).flatten.length ≤ c3.pay.now)
    (hf : Payments.Along cfg (Payments.IdKept cfg snd id) c.pay (before ++ .tick :: after))
    (ha : ∀ env, .fire env id ∈ before ++ .tick :: after → Payments.Accepting env.ledger) :
    ∃ pre act post, before ++ .tick :: after = pre ++ act :: post ∧
      (Payments.run cfg c.pay pre).payments snd id = some p ∧
      Payments.RefundEnds cfg (Payments.run cfg c.pay pre) snd b id p d act := by
  have hreach : Payments.Reachable cfg c.pay := by
    rw [hs.run]
    exact run_reachable (.init h0.1) _
  have t0 : Tied base exec c := hs.tied h0.tied
  have t1 : Tied base exec c1 := h1.tied t0
  have hfb : Payments.Along cfg (Payments.IdKept cfg snd id) c.pay before := Payments.Along.left hf
  rcases Payments.C19_every_history hreach hpar hp hst hn ho before hfb
      (fun env h => ha env (List.mem_append_left _ h)) with ⟨pre, act, post, e, k⟩ | ⟨_, hag, _⟩
  · exact ⟨pre, act, post ++ .tick :: after, by rw [e]; simp, k⟩
  · rw [← h1.run] at hag
    have hmem := t1.task id _ hag (by show c1.pay.now < d; rw [← hd]; exact Nat.lt_succ_self _)
    dsimp only at hmem
    obtain ⟨b1, b2, b3⟩ := h2.tick_block
    rw [hd] at b2 b3
    have hlen : ∀ a ∈ c1.backlog ++ [c1.future d], a.length ≤ maxScheduled := by
      intro a ha
      rcases List.mem_append.1 ha with h | h
      · exact t1.backlog a h
      · rw [List.mem_singleton.1 h]; exact t1.future d
    have hdue : Due o limit (refundItem base exec id) ((c1.backlog ++ [c1.future d]).flatten.length - 1) c2 := by
      rcases serveBlock_mem o limit hm _ rfl c1.backlog (c1.future d) [] hmem hlen hfit with
        h | ⟨q, a', r, k1, k2, k3, k4, k5⟩
      · left; rw [b2]; exact h
      · right; exact ⟨q, a', r, by rw [b3]; exact k1, k2, k3, k4, by omega⟩
    have hpos : (c1.backlog ++ [c1.future d]).flatten.length ≠ 0 := by
      have := List.length_pos_of_mem hmem
      rw [List.flatten_append, List.length_append, List.flatten_cons, List.length_append]
      omega
    have e2 : c2.pay.now = c1.pay.now + 1 := by rw [h2.run]; rfl
    have hfire := Due.fires hm h3 hdue hr (by rw [e2]; exact nat_tick hl hpos)
    exact ended_if_fired hreach hpar hp hst hn ho before after (by rw [← h1.run]; exact hd) hf ha hfire

/-- **C145.** On time: if nothing is left from earlier blocks and the weights set aside for the tasks of its block fit in the
scheduler's share, the refund has ended when the scheduler is done in the block of its deadline. -/
theorem C145_on_time {cfg : Payments.Config} {o : Overheads} {limit base exec : Weight}
    {start c c1 c2 c3 : Scheduled} {first before after : List Payments.Act} (h0 : start.Fresh)
    (hs : History cfg o limit base exec start first c)
    {snd b : Payments.Acct} {id : Payments.PId} {p : Payments.Payment} {d : Payments.Block}
    (hpar : c.pay.parties id = some (snd, b)) (hp : c.pay.payments snd id = some p)
    (hst : p.state = .refundRequested d) (hn : c.pay.now < d) (ho : cfg.beneficiaryOrigin (.signed b) = some b)
    (h1 : History cfg o limit base exec c before c1) (hd : c1.pay.now + 1 = d) (hb : c1.backlog = [])
    (hready : ∀ t ∈ c1.future d, t.ready = true) (hact : ∀ t ∈ c1.future d, Weight.Le t.actual t.cost)
    (hroom : Weight.Le (o.agendas.plus (o.agenda maxScheduled)) limit)
    (hfit : Weight.Le ((o.agendas.plus (o.agenda (c1.future d).length)).plus (need (c1.future d))) limit)
    (h2 : Moves cfg o limit base exec c1 [.tick] c2) (h3 : History cfg o limit base exec c2 after c3)
    (hr : c3.running = [])
    (hf : Payments.Along cfg (Payments.IdKept cfg snd id) c.pay (before ++ .tick :: after))
    (ha : ∀ env, .fire env id ∈ before ++ .tick :: after → Payments.Accepting env.ledger) :
    ∃ pre act post, before ++ .tick :: after = pre ++ act :: post ∧
      (Payments.run cfg c.pay pre).payments snd id = some p ∧
      Payments.RefundEnds cfg (Payments.run cfg c.pay pre) snd b id p d act := by
  have hreach : Payments.Reachable cfg c.pay := by
    rw [hs.run]
    exact run_reachable (.init h0.1) _
  have t1 : Tied base exec c1 := h1.tied (hs.tied h0.tied)
  have hfb : Payments.Along cfg (Payments.IdKept cfg snd id) c.pay before := Payments.Along.left hf
  rcases Payments.C19_every_history hreach hpar hp hst hn ho before hfb
      (fun env h => ha env (List.mem_append_left _ h)) with ⟨pre, act, post, e, k⟩ | ⟨_, hag, _⟩
  · exact ⟨pre, act, post ++ .tick :: after, by rw [e]; simp, k⟩
  · rw [← h1.run] at hag
    have hmem := t1.task id _ hag (by show c1.pay.now < d; rw [← hd]; exact Nat.lt_succ_self _)
    dsimp only at hmem
    obtain ⟨b1, b2, b3⟩ := h2.tick_block
    rw [hd, hb, List.nil_append] at b2 b3
    have hin : refundItem base exec id ∈ c2.running := by
      rw [b2]
      exact (C143_on_time o limit (c1.future d) hready hact hroom hfit).1.mem_iff.2 hmem
    have hfire := Due.runs h3 hin hr
    exact ended_if_fired hreach hpar hp hst hn ho before after (by rw [← h1.run]; exact hd) hf ha hfire

end Verif.Runtime
