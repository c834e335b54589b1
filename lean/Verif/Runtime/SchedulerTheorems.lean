import Verif.Runtime.SchedulerLemmas

/-!
# C143: automatic refunds are carried out, on time unless the scheduler is overloaded, and do not crowd each other out
-/

namespace Verif.Runtime

open Verif

/-- **C143.** On time: when nothing is left from earlier blocks and the weights set aside for the tasks of this block fit
in the scheduler's share, all of them run in this block, and nothing is left. -/
theorem C143_on_time (o : Overheads) (limit : Weight) (agenda : List Item)
    (hr : ∀ t ∈ agenda, t.ready = true) (ha : ∀ t ∈ agenda, Weight.Le t.actual t.cost)
    (h0 : Weight.Le (o.agendas.plus (o.agenda maxScheduled)) limit)
    (h : Weight.Le ((o.agendas.plus (o.agenda agenda.length)).plus (need agenda)) limit) :
    (serveBlock o limit [agenda]).1.Perm agenda ∧ (serveBlock o limit [agenda]).2 = [] := by
  unfold Weight.Le Weight.plus at h h0
  dsimp only at h h0
  have f1 : fits limit ⟨0, 0⟩ o.agendas = true := by rw [fits_iff]; dsimp only; omega
  have e1 : consume limit ⟨0, 0⟩ o.agendas = o.agendas := by
    rw [consume_fits f1]; unfold Weight.plus; simp
  have f2 : fits limit o.agendas (o.agenda maxScheduled) = true := by rw [fits_iff]; omega
  have f3 : fits limit o.agendas (o.agenda agenda.length) = true := by rw [fits_iff]; omega
  have hp := ordered_perm agenda
  obtain ⟨i1, i2, i3⟩ := serveTasks_all limit (ordered agenda) (o.agendas.plus (o.agenda agenda.length)) 0
    (fun t ht => hr t (hp.mem_iff.1 ht)) (fun t ht => ha t (hp.mem_iff.1 ht)) (by
      rw [need_perm hp]
      unfold Weight.Le Weight.plus
      dsimp only
      omega)
  unfold serveBlock
  rw [if_pos f1, e1]
  unfold sweep
  rw [if_pos f2, consume_fits f3]
  simp only [sweep, i1, i3, List.append_nil, Bool.not_false, List.dropWhile_cons, if_true, List.dropWhile_nil, List.map_nil,
    and_true]
  exact hp

/-- **C143.** A whole agenda of refunds, all that the scheduler takes for a block, is carried out in its block, as long as
the scheduler's own work is not extreme: 30 milliseconds and 70 kilobytes for handling and running a task, 10 milliseconds
and 200 kilobytes for the agendas. (The pallet's own weights are below that.) -/
theorem C143_refunds_fit (o : Overheads) (base exec : Weight) (names : List Nat) (hn : names.length ≤ maxScheduled)
    (hb : base.refTime + exec.refTime ≤ 30000000000 ∧ base.proofSize + exec.proofSize ≤ 70000)
    (ho : ∀ k ≤ maxScheduled, o.agendas.refTime + (o.agenda k).refTime ≤ 10000000000 ∧
      o.agendas.proofSize + (o.agenda k).proofSize ≤ 200000) :
    (serveBlock o schedulerMax [names.map (refundItem base exec)]).1.Perm (names.map (refundItem base exec)) ∧
      (serveBlock o schedulerMax [names.map (refundItem base exec)]).2 = [] := by
  have hm : maxScheduled = 50 := rfl
  refine C143_on_time o schedulerMax _ ?_ ?_ ?_ ?_
  · intro t ht
    obtain ⟨n, _, rfl⟩ := List.mem_map.1 ht
    rfl
  · intro t ht
    obtain ⟨n, _, rfl⟩ := List.mem_map.1 ht
    exact ⟨le_refl _, le_refl _⟩
  · have := ho maxScheduled (le_refl _)
    rw [schedulerMax_eq]
    unfold Weight.Le Weight.plus
    dsimp only
    omega
  · have h1 := ho names.length hn
    rw [need_refunds, List.length_map, schedulerMax_eq]
    unfold Weight.Le Weight.plus
    dsimp only
    rw [hm] at hn
    have a1 : names.length * (base.refTime + exec.refTime + 1184037000) ≤ 50 * 31184037000 :=
      Nat.mul_le_mul hn (by omega)
    have a2 : names.length * (base.proofSize + exec.proofSize + 8518) ≤ 50 * 78518 := Nat.mul_le_mul hn (by omega)
    omega

/-- **C143.** Late at worst, never lost: whatever is left from earlier blocks and whatever is scheduled for later ones, a
task that fits in a block by itself runs within as many blocks as there are tasks in the agendas up to its own. -/
theorem C143_delay (o : Overheads) (limit : Weight) (backlog : List (List Item)) (agenda : List Item) (t : Item)
    (later : List (List Item)) (ht : t ∈ agenda) (hr : t.ready = true)
    (hm : ∀ k ≤ maxScheduled, Weight.Le (o.agenda k) (o.agenda maxScheduled))
    (hl : ∀ a ∈ backlog ++ [agenda], a.length ≤ maxScheduled) (hf : FitsAlone o limit (backlog ++ [agenda]) t)
    (hn : (backlog ++ [agenda]).flatten.length ≤ later.length + 1) :
    t ∈ (serveBlocks o limit backlog (agenda :: later)).1 := by
  unfold serveBlocks
  dsimp only
  rcases serveBlock_mem o limit hm t hr backlog agenda [] ht hl hf with h1 | ⟨p, a', q, h1, h2, h3, h4, h5⟩
  · exact List.mem_append_left _ h1
  · apply List.mem_append_right
    rw [h1]
    exact serveBlocks_mem o limit hm t hr later.length p a' q h2 h3 h4 (by omega) later (le_refl _)

/-- **C143.** Such a task is never given up: after every block it has run or is still to be tried. -/
theorem C143_kept (o : Overheads) (limit : Weight) (before : List (List Item)) (agenda : List Item)
    (after : List (List Item)) (t : Item) (ht : t ∈ agenda) (hr : t.ready = true)
    (hm : ∀ k ≤ maxScheduled, Weight.Le (o.agenda k) (o.agenda maxScheduled))
    (hl : ∀ a ∈ before ++ [agenda], a.length ≤ maxScheduled) (hf : FitsAlone o limit (before ++ [agenda]) t) :
    t ∈ (serveBlock o limit (before ++ agenda :: after)).1 ∨ t ∈ (serveBlock o limit (before ++ agenda :: after)).2.flatten := by
  rcases serveBlock_mem o limit hm t hr before agenda after ht hl hf with h1 | ⟨p, a', q, h1, h2, _⟩
  · exact Or.inl h1
  · right
    rw [h1, List.flatten_append, List.flatten_cons]
    exact List.mem_append_right _ (List.mem_append_left _ h2)

/-- **C143.** Nothing runs twice, and nothing runs that was not scheduled: over any number of blocks a task runs at most as
often as it is in the agendas. -/
theorem C143_once (o : Overheads) (limit : Weight) (backlog agendas : List (List Item)) (t : Item) :
    (serveBlocks o limit backlog agendas).1.count t ≤ (backlog ++ agendas).flatten.count t := by
  have key : ((serveBlocks o limit backlog agendas).1 ++ (serveBlocks o limit backlog agendas).2.flatten).Subperm
      (backlog ++ agendas).flatten := by
    induction agendas generalizing backlog with
    | nil => rw [List.append_nil]; exact List.Subperm.refl _
    | cons a rest ih =>
      unfold serveBlocks
      dsimp only
      have h1 := serveBlock_sub o limit (backlog ++ [a])
      have h2 := ih (serveBlock o limit (backlog ++ [a])).2
      have e : (backlog ++ a :: rest).flatten = (backlog ++ [a]).flatten ++ rest.flatten := by simp
      rw [e, List.append_assoc]
      refine List.Subperm.trans ((List.subperm_append_left _).2 h2) ?_
      rw [List.flatten_append, ← List.append_assoc]
      exact (List.subperm_append_right _).2 h1
  refine le_trans ?_ (key.count_le t)
  rw [List.count_append]
  omega

/-- **C143.** The scheduler keeps to its share: if no call uses more than it declares, what the tasks of a block take
together is within the limit, however many are waiting; and only tasks whose call is to be had run. -/
theorem C143_share (o : Overheads) (limit : Weight) (backlog : List (List Item))
    (ha : ∀ a ∈ backlog, ∀ t ∈ a, Weight.Le t.actual t.cost) :
    Weight.Le (spent (serveBlock o limit backlog).1) limit ∧ ∀ t ∈ (serveBlock o limit backlog).1, t.ready = true := by
  unfold serveBlock
  split
  · rename_i h
    rw [fits_iff] at h
    dsimp only at h ⊢
    have h1 := sweep_share o limit backlog (consume limit ⟨0, 0⟩ o.agendas) 0
      (consume_le ⟨Nat.zero_le _, Nat.zero_le _⟩) ha
    refine ⟨?_, h1.2⟩
    have h2 := h1.1
    unfold Weight.Le Weight.plus at h2
    dsimp only at h2
    unfold Weight.Le
    omega
  · exact ⟨⟨Nat.zero_le _, Nat.zero_le _⟩, fun t ht => by cases ht⟩

/-- **C143.** Refunds do not crowd each other out: the hooks of a block can use no more than the scheduler's share and that
of the message queue, transactions have to fit with them, and so at most 37 refunds can be asked for in one block. -/
theorem C143_crowding (base : Weight) (hooks : List (Weight × Nat)) (txs : List ((Class × Weight × Weight) × Nat))
    (hh : ∀ x ∈ hooks, Carries (.hook x.1) x.2) (ht : ∀ x ∈ txs, Carries (.tx x.1.1 x.1.2.1 x.1.2.2) x.2)
    (hs : hookLoad hooks ≤ schedulerMax.proofSize + queueMax.proofSize) :
    requestsMade base ⟨⟨0, 0⟩, ⟨0, 0⟩, ⟨0, 0⟩⟩
      (hooks.map (fun x => (.hook x.1, x.2)) ++ txs.map fun x => (.tx x.1.1 x.1.2.1 x.1.2.2, x.2)) ≤ 37 := by
  rw [room_eq] at hs
  obtain ⟨k, v, h1, h2, h3, h4⟩ := requestsMade_hooks base hooks
    (txs.map fun x => (.tx x.1.1 x.1.2.1 x.1.2.2, x.2)) hh 0 ⟨⟨0, 0⟩, ⟨0, 0⟩, ⟨0, 0⟩⟩ (le_refl _) (by omega)
  have h5 := requestsMade_txs base (hookLoad hooks) hs txs ht v (by omega) (by rw [h3]; dsimp only; omega)
  rw [h3] at h5
  dsimp only at h5
  rw [h1]
  omega

/-- **C143.** A refund is refused a place exactly when its block has fifty tasks, so when at most thirteen of them are not
refunds it gets one: all refunds for a block are asked for in the same earlier block. -/
theorem C143_room (base : Weight) (hooks : List (Weight × Nat)) (txs : List ((Class × Weight × Weight) × Nat))
    (hh : ∀ x ∈ hooks, Carries (.hook x.1) x.2) (ht : ∀ x ∈ txs, Carries (.tx x.1.1 x.1.2.1 x.1.2.2) x.2)
    (hs : hookLoad hooks ≤ schedulerMax.proofSize + queueMax.proofSize) (agenda : List Item) (t : Item)
    (ho : (agenda.filter fun x => x.priority ≠ 63).length ≤ 13)
    (hr : (agenda.filter fun x => x.priority = 63).length < requestsMade base ⟨⟨0, 0⟩, ⟨0, 0⟩, ⟨0, 0⟩⟩
      (hooks.map (fun x => (.hook x.1, x.2)) ++ txs.map fun x => (.tx x.1.1 x.1.2.1 x.1.2.2, x.2))) :
    place agenda t = some (agenda ++ [t]) := by
  have h1 := C143_crowding base hooks txs hh ht hs
  have h2 := List.length_eq_length_filter_add (l := agenda) fun x => decide (x.priority = 63)
  unfold place
  rw [if_pos]
  show agenda.length < 50
  have e : (agenda.filter fun x => !decide (x.priority = 63)) = agenda.filter fun x => decide (x.priority ≠ 63) := by
    apply List.filter_congr
    intro x _
    simp
  rw [e] at h2
  omega

/-! ## Examples -/

/-- Example for non-vacuity (outside /repo). -/
def demoOverheads : Overheads := ⟨⟨5000000, 1489⟩, fun k => ⟨30000000 + 300000 * k, 110487⟩⟩

/-- Example for non-vacuity (outside /repo): a heavy task of the highest priority. -/
def demoHeavy (name : Nat) : Item := ⟨name, 0, ⟨30000000, 0⟩, ⟨1599000000000, 4000000⟩, ⟨1599000000000, 4000000⟩, true⟩

/-- Example for non-vacuity (outside /repo). -/
def demoRefund (name : Nat) : Item := refundItem ⟨30000000, 0⟩ ⟨20000000, 0⟩ name

/-- Refunds are served last: next to a heavy task a refund waits for a block, and behind two it waits for two, which is the
bound of `C143_delay` less the block it runs in. -/
theorem C143_late :
    (serveBlocks demoOverheads schedulerMax [] [[demoRefund 1, demoHeavy 2]]).1 = [demoHeavy 2] ∧
    (serveBlocks demoOverheads schedulerMax [] [[demoRefund 1, demoHeavy 2], []]).1 = [demoHeavy 2, demoRefund 1] ∧
    (serveBlocks demoOverheads schedulerMax [] [[demoRefund 1, demoHeavy 2, demoHeavy 3], []]).1 =
      [demoHeavy 2, demoHeavy 3] ∧
    (serveBlocks demoOverheads schedulerMax [] [[demoRefund 1, demoHeavy 2, demoHeavy 3], [], []]).1 =
      [demoHeavy 2, demoHeavy 3, demoRefund 1] := by
  decide +kernel

-- Hypotheses of `C143_delay` and `C143_kept`.
example : FitsAlone demoOverheads schedulerMax ([] ++ [[demoRefund 1, demoHeavy 2]]) (demoRefund 1) := by
  unfold FitsAlone
  decide +kernel

example : ∀ k ≤ maxScheduled, Weight.Le (demoOverheads.agenda k) (demoOverheads.agenda maxScheduled) := by
  intro k hk
  unfold Weight.Le demoOverheads
  dsimp only
  omega

-- Hypotheses of `C143_refunds_fit`.
example : ∀ k ≤ maxScheduled, demoOverheads.agendas.refTime + (demoOverheads.agenda k).refTime ≤ 10000000000 ∧
    demoOverheads.agendas.proofSize + (demoOverheads.agenda k).proofSize ≤ 200000 := by
  intro k hk
  have : maxScheduled = 50 := rfl
  unfold demoOverheads
  dsimp only
  omega

-- A block that makes 20 requests in a batch of a single transaction and 12 in messages, as allowed by `C143_crowding`.
example : (∀ x ∈ [((⟨100000000000, 12 * 159279⟩ : Weight), 12), (⟨1000, 3000⟩, 0)], Carries (.hook x.1) x.2) ∧
    Carries (.tx .normal ⟨100000000000, 20 * 159279⟩ ⟨0, 0⟩) 20 ∧
    hookLoad [(⟨100000000000, 12 * 159279⟩, 12), (⟨1000, 3000⟩, 0)] ≤ schedulerMax.proofSize + queueMax.proofSize ∧
    requestsMade ⟨100000000, 0⟩ ⟨⟨0, 0⟩, ⟨0, 0⟩, ⟨0, 0⟩⟩
      [(.hook ⟨100000000000, 12 * 159279⟩, 12), (.hook ⟨1000, 3000⟩, 0),
        (.tx .normal ⟨100000000000, 20 * 159279⟩ ⟨0, 0⟩, 20)] = 32 := by
  unfold Carries
  decide +kernel

-- The fifty-first task is refused.
example : place (List.replicate 50 (demoHeavy 1)) (demoRefund 2) = none := by decide +kernel

end Verif.Runtime
