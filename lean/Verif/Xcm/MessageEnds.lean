import Verif.Xcm.TraderLemmas
import Verif.Xcm.WeightTheorems
import Verif.Xcm.BarrierTheorems

/-!
# Every message comes to an end (C217)

What a message carries for errors and for its end counts as part of it. However many of its instructions fail, no more are tried
than it has, and then nothing happens any more.
-/

namespace Verif.Xcm

open Verif Verif.Runtime

/-! ## Specification -/

/-- How many instructions were tried in a run. Specification only, no code behind it (outside /repo). -/
def Mach.tried (m : Mach) : List Luck → Nat
  | [] => 0
  | x :: xs => (if m.code = [] then 0 else 1) + match m.step x with
    | some m' => m'.tried xs
    | none => 0

/-- How many instructions were tried in a run of which only the calls are of interest. Specification only, no code behind it
(outside /repo). -/
def Vm.tried (vm : Vm) : List Bool → Nat
  | [] => 0
  | b :: bs => (if vm.code = [] then 0 else 1) + Vm.tried (vm.step b).1 bs

/-! ## What is left to do -/

theorem total_cons (i : Instr) (l : List Instr) : total (i :: l) = 1 + carried i + total l := by
  rw [total]

/-- The instructions of the registers. Specification only, no code behind it (outside /repo). -/
def Mach.work (m : Mach) : Nat :=
  total (m.code.map VInstr.shape) + total (m.handler.map VInstr.shape) + total (m.appendix.map VInstr.shape)

/-- The instructions of the registers. Specification only, no code behind it (outside /repo). -/
def Vm.work (vm : Vm) : Nat := total vm.code + total vm.handler + total vm.appendix

theorem mach_failed_work (m : Mach) (i : VInstr) (rest : List VInstr) (h : m.code = i :: rest) : m.failed.work < m.work := by
  unfold Mach.failed
  split
  · rename_i hh
    simp only [Mach.work, h, hh, List.map_nil, List.map_cons, total_cons]
    simp only [total]
    omega
  · simp only [Mach.work, h, List.map_nil, List.map_cons, total_cons]
    simp only [total]
    omega

theorem mach_step_work {m m' : Mach} {x : Luck} (h : m.step x = some m') :
    (m.code = [] ∧ m' = { m with code := m.appendix, handler := [], appendix := [] }) ∨ (m.code ≠ [] ∧ m'.work < m.work) := by
  unfold Mach.step at h
  split at h
  · rename_i hc; cases h; exact .inl ⟨hc, rfl⟩
  · rename_i i rest hc
    refine .inr ⟨by rw [hc]; simp, ?_⟩
    split at h
    · cases h; exact mach_failed_work m i rest hc
    · split at h
      · rename_i m1 he
        cases h
        obtain ⟨e1, e2, e3⟩ := effect_regs he
        simp only [Mach.work, e1, e2, e3, hc, List.map_cons, total_cons]
        cases i <;> simp only [handlerAfter, appendixAfter, VInstr.shape, carried, id] <;> omega
      · cases h; exact mach_failed_work m i rest hc
      · cases h

theorem mach_tried (l : List Luck) : ∀ m : Mach, m.tried l ≤ m.work := by
  induction l with
  | nil => intro m; exact Nat.zero_le _
  | cons x l ih =>
    intro m
    unfold Mach.tried
    cases h : m.step x with
    | none =>
      dsimp only
      split
      · exact Nat.zero_le _
      · rename_i hc
        unfold Mach.work
        cases e : m.code with
        | nil => exact absurd e hc
        | cons i rest => rw [List.map_cons, total_cons]; omega
    | some m' =>
      dsimp only
      have := ih m'
      rcases mach_step_work h with ⟨hc, rfl⟩ | ⟨hc, hw⟩
      · rw [if_pos hc]
        simp only [Mach.work, List.map_nil, total] at this ⊢
        omega
      · rw [if_neg hc]; omega

/-- Nothing is left to do, and no register holds any instruction. Specification only, no code behind it (outside /repo). -/
def Mach.idle (m : Mach) : Prop := m.code = [] ∧ m.handler = [] ∧ m.appendix = []

theorem mach_idle_step {m : Mach} (h : m.idle) (x : Luck) : m.step x = some m := by
  obtain ⟨h1, h2, h3⟩ := h
  unfold Mach.step
  rw [h1]
  dsimp only
  cases m
  simp only at h1 h2 h3
  subst h1; subst h2; subst h3
  rfl

theorem mach_idle_run (l : List Luck) : ∀ {m : Mach}, m.idle → m.run l = some m := by
  induction l with
  | nil => intro m _; rfl
  | cons x l ih =>
    intro m h
    unfold Mach.run
    rw [mach_idle_step h x]
    exact ih h

/-- A bound on the steps until nothing is left. Specification only, no code behind it (outside /repo). -/
def Mach.fuel (m : Mach) : Nat := 2 * m.work + (if m.code = [] then 1 else 0)

theorem total_pos {l : List VInstr} (h : l ≠ []) : 0 < total (l.map VInstr.shape) := by
  cases l with
  | nil => exact absurd rfl h
  | cons i l => rw [List.map_cons, total_cons]; omega

theorem mach_run_idle (l : List Luck) : ∀ {m m' : Mach}, m.run l = some m' → m.fuel + 1 ≤ l.length → m'.idle := by
  induction l with
  | nil => intro m m' _ h; simp at h
  | cons x l ih =>
    intro m m' h hl
    unfold Mach.run at h
    cases hs : m.step x with
    | none => rw [hs] at h; cases h
    | some m1 =>
      rw [hs] at h
      dsimp only at h
      rw [List.length_cons] at hl
      rcases mach_step_work hs with ⟨hc, e⟩ | ⟨hc, hw⟩
      · by_cases ha : m.appendix = []
        · have hi : m1.idle := by subst e; exact ⟨ha, rfl, rfl⟩
          rw [mach_idle_run l hi] at h
          cases h
          exact hi
        · refine ih h ?_
          have hf : m1.fuel + 1 ≤ m.fuel := by
            subst e
            simp only [Mach.fuel, Mach.work, hc, ha, if_true, if_false, List.map_nil, total]
            omega
          omega
      · refine ih h ?_
        have hf : m1.fuel + 1 ≤ m.fuel := by
          unfold Mach.fuel
          rw [if_neg hc]
          split <;> omega
        omega

theorem vm_failed_work (vm : Vm) (i : Instr) (rest : List Instr) (h : vm.code = i :: rest) : vm.failed.work < vm.work := by
  unfold Vm.failed
  split
  · rename_i hh
    simp only [Vm.work, h, hh, total_cons]
    simp only [total]
    omega
  · simp only [Vm.work, h, total_cons]
    simp only [total]
    omega

theorem vm_effect_regs {vm : Vm} {i : Instr} {r : Vm × List CallOrigin} (h : vm.effect i = some r) :
    r.1.work ≤ vm.work + carried i ∧ r.2.length ≤ 1 := by
  cases i <;> simp only [Vm.effect] at h
  all_goals repeat' split at h
  all_goals first
    | (cases h; done)
    | (cases h; simp only [Vm.work, carried, List.length_cons, List.length_nil]; omega)

theorem vm_step_work (vm : Vm) (b : Bool) :
    (vm.code = [] ∧ (vm.step b).1.work ≤ vm.work ∧ (vm.step b).2 = []) ∨
      (vm.code ≠ [] ∧ (vm.step b).1.work < vm.work ∧ (vm.step b).2.length ≤ 1) := by
  unfold Vm.step
  split
  · rename_i hc
    refine .inl ⟨hc, ?_, rfl⟩
    simp only [Vm.work, hc, total]
    omega
  · rename_i i rest hc
    refine .inr ⟨by rw [hc]; simp, ?_⟩
    split
    · exact ⟨vm_failed_work vm i rest hc, Nat.zero_le _⟩
    · split
      · exact ⟨vm_failed_work vm i rest hc, Nat.zero_le _⟩
      · rename_i r he
        obtain ⟨h1, h2⟩ := vm_effect_regs he
        refine ⟨?_, h2⟩
        have : vm.work = ({ vm with code := rest } : Vm).work + carried i + 1 := by
          simp only [Vm.work, hc, total_cons]; omega
        omega

theorem vm_tried (l : List Bool) : ∀ vm : Vm, (vm.run l).length ≤ vm.tried l ∧ vm.tried l ≤ vm.work := by
  induction l with
  | nil => intro vm; exact ⟨Nat.le_refl _, Nat.zero_le _⟩
  | cons b l ih =>
    intro vm
    unfold Vm.run Vm.tried
    obtain ⟨i1, i2⟩ := ih (vm.step b).1
    rw [List.length_append]
    rcases vm_step_work vm b with ⟨hc, h1, h2⟩ | ⟨hc, h1, h2⟩
    · rw [if_pos hc, h2, List.length_nil]; omega
    · rw [if_neg hc]; omega

/-! ## C217 -/

/-- **C217.** Whatever fails while a message is executed, no more instructions are tried than the message has, those it carries for
errors and for its end included. -/
theorem C217_tried (c : Chain) (sender : Location) (msg : List VInstr) (lucks : List Luck) :
    (Mach.start c sender msg).tried lucks ≤ total (msg.map VInstr.shape) := by
  have := mach_tried lucks (Mach.start c sender msg)
  simpa [Mach.work, Mach.start, total] using this

/-- **C217.** A message that can be weighed has at most a hundred, so at most a hundred are tried, and at most a hundred calls
are made, whatever fails. -/
theorem C217_hundred (c : Chain) (sender : Location) (msg : List VInstr) (w : Weight)
    (hw : messageWeight (msg.map VInstr.shape) = some w) :
    (∀ lucks, (Mach.start c sender msg).tried lucks ≤ 100) ∧
    ∀ fails, ((Vm.start sender (msg.map VInstr.shape)).run fails).length ≤ 100 := by
  have ht : total (msg.map VInstr.shape) ≤ 100 := by
    unfold messageWeight at hw
    cases h : weighFrom (msg.map VInstr.shape) maxInstructions with
    | none => rw [h] at hw; cases hw
    | some r =>
      have := weighFrom_count _ _ r.1 r.2 h
      have hm : maxInstructions = 100 := rfl
      omega
  refine ⟨fun lucks => Nat.le_trans (C217_tried c sender msg lucks) ht, fun fails => ?_⟩
  obtain ⟨h1, h2⟩ := vm_tried fails (Vm.start sender (msg.map VInstr.shape))
  simp only [Vm.work, Vm.start, total] at h2
  simp only [Vm.start] at h1 ⊢
  omega

/-- **C217.** After twice as many steps as it has instructions, and two more, a message is done: no instruction is left to be
tried, and however long the execution goes on, nothing changes any more. -/
theorem C217_ends (c : Chain) (sender : Location) (msg : List VInstr) (lucks : List Luck) (m : Mach)
    (h : (Mach.start c sender msg).run lucks = some m) (hl : 2 * total (msg.map VInstr.shape) + 2 ≤ lucks.length) :
    m.code = [] ∧ m.handler = [] ∧ m.appendix = [] ∧ ∀ more, m.run more = some m := by
  have hi : m.idle := mach_run_idle lucks h (by
    have : (Mach.start c sender msg).fuel ≤ 2 * total (msg.map VInstr.shape) + 1 := by
      unfold Mach.fuel Mach.work Mach.start
      simp only [List.map_nil, total]
      split <;> omega
    omega)
  exact ⟨hi.1, hi.2.1, hi.2.2, fun more => mach_idle_run more hi⟩

/-! ## Examples -/

namespace EndsDemo

/-- Example: how a step goes (outside /repo). -/
def luck (fails : Bool) : Luck := ⟨fails, fun _ => true, fun _ => true, 0, ⟨[], 0⟩, fun _ => true⟩

/-- Example: a message with something for errors and something for its end (outside /repo). -/
def msg : List VInstr := [.setErrorHandler [.plain .trap, .plain .trap], .setAppendix [.clearOrigin], .plain .trap, .plain .setTopic]

end EndsDemo

/-- The message fails, runs its handler, which fails too, and then its appendix: five of its seven instructions are tried, however
long it runs, and then it is done. -/
example (c : Chain) :
    (Mach.start c ⟨1, [.parachain 2000]⟩ EndsDemo.msg).tried
      ([false, false, true, true, false, false, false, false, false, false, false].map EndsDemo.luck) = 5 ∧
    total (EndsDemo.msg.map VInstr.shape) = 7 ∧ ∃ m, (Mach.start c ⟨1, [.parachain 2000]⟩ EndsDemo.msg).run
      ([false, false, true, true, false, false].map EndsDemo.luck) = some m ∧ m.code = [] ∧ m.handler = [] ∧ m.appendix = [] ∧
        m.origin = none :=
  ⟨rfl, by simp [EndsDemo.msg, VInstr.shape, Plain.shape, total, carried], _, rfl, rfl, rfl, rfl, rfl⟩

/-- The message can be weighed. -/
example : ∃ w, messageWeight (EndsDemo.msg.map VInstr.shape) = some w := by
  simp only [EndsDemo.msg, List.map_cons, List.map_nil, VInstr.shape, Plain.shape, messageWeight, weighFrom_eq, weighAll, weighOne]
  exact ⟨_, rfl⟩

end Verif.Xcm
