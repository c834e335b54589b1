import Verif.Runtime.BlockLength
import Verif.Runtime.BlockTheorems

/-!
# C219: how long blocks get
-/

namespace Verif.Runtime.Length

open Verif Verif.Runtime

/-- The bytes of what went in, of all of it and of one class. Specification only, no code behind it (outside /repo). -/
def bytes (l : List (Class × Nat)) : Nat := (l.map (·.2)).sum
/-- Of one class. Specification only, no code behind it (outside /repo). -/
def bytesOf (c : Class) (l : List (Class × Nat)) : Nat := ((l.filter fun e => decide (e.1 = c)).map (·.2)).sum

theorem bytes_split (l : List (Class × Nat)) :
    bytes l = bytesOf .normal l + bytesOf .operational l + bytesOf .mandatory l := by
  induction l with
  | nil => rfl
  | cons e l ih =>
    obtain ⟨c, n⟩ := e
    unfold bytes bytesOf at ih ⊢
    cases c <;> simp [List.filter_cons] <;> omega

theorem lengthMax_eq : lengthMax .normal = 3932160 ∧ lengthMax .operational = 5242880 ∧ lengthMax .mandatory = 5242880 := by
  decide +kernel

theorem checkLength_iff (used len n : Nat) (c : Class) :
    checkLength used c len = some n ↔ used + len ≤ lengthMax c ∧ n = used + len := by
  have hm : lengthMax c ≤ 5242880 := by
    obtain ⟨h1, h2, h3⟩ := lengthMax_eq
    cases c <;> omega
  unfold checkLength
  dsimp only
  split
  · constructor
    · intro h; cases h
    · intro h; omega
  · rw [Option.some.injEq]
    omega

/-- What holds while a block is built. Specification only, no code behind it (outside /repo). -/
structure Ok (s : Filling) : Prop where
  all : s.length = bytes s.inside
  most : s.length ≤ 5242880
  normal : bytesOf .normal s.inside ≤ 3932160

theorem act_ok {base : Weight} {s : Filling} (h : Ok s) (a : Act) : Ok (act base s a) := by
  cases a with
  | hook w => exact ⟨h.all, h.most, h.normal⟩
  | tx c len cost unspent =>
    unfold act
    dsimp only
    split
    · rename_i v n _ hl
      obtain ⟨h1, rfl⟩ := (checkLength_iff _ _ _ _).mp hl
      obtain ⟨g1, g2, g3⟩ := lengthMax_eq
      have hs := bytes_split s.inside
      have ha := h.all
      have hn := h.normal
      refine ⟨?_, ?_, ?_⟩
      · show s.length + len = bytes ((c, len) :: s.inside)
        unfold bytes at ha ⊢
        simp only [List.map_cons, List.sum_cons]
        omega
      · show s.length + len ≤ _
        cases c <;> omega
      · show bytesOf .normal ((c, len) :: s.inside) ≤ _
        cases c with
        | normal =>
          have e : bytesOf .normal ((.normal, len) :: s.inside) = len + bytesOf .normal s.inside := by simp [bytesOf]
          omega
        | operational => exact hn
        | mandatory => exact hn
    · exact h

theorem fill_ok (base : Weight) (acts : List Act) : Ok (fill base acts) := by
  unfold fill
  have key : ∀ (acts : List Act) (s : Filling), Ok s → Ok (acts.foldl (act base) s) := by
    intro acts
    induction acts with
    | nil => exact fun s h => h
    | cons a l ih => exact fun s h => ih _ (act_ok h a)
  exact key acts _ ⟨rfl, Nat.zero_le _, Nat.zero_le _⟩

/-- **C219**: whatever is tried, in whatever order, the transactions and inherents of a block have at most 5 MiB together, and the
normal ones among them at most 3.75 MiB. -/
theorem C219_at_most (base : Weight) (acts : List Act) :
    bytes (fill base acts).inside ≤ 5 * 1024 * 1024 ∧ bytesOf .normal (fill base acts).inside ≤ 3840 * 1024 := by
  have h := fill_ok base acts
  have := h.all
  have := h.most
  have := h.normal
  omega

/-- **C219**: a transaction for which there is room by weight goes in exactly if the block then is no longer than 3.75 MiB for a
normal one, and 5 MiB for others. -/
theorem C219_goes_in (base : Weight) (acts : List Act) (c : Class) (len : Nat) (cost unspent : Weight)
    (hw : (checkWeight base (fill base acts).used c cost).isSome = true) :
    (fill base (acts ++ [.tx c len cost unspent])).inside =
      if bytes (fill base acts).inside + len ≤ (if c = .normal then 3840 * 1024 else 5 * 1024 * 1024)
      then (c, len) :: (fill base acts).inside else (fill base acts).inside := by
  have h := fill_ok base acts
  have hx : (if c = Class.normal then 3840 * 1024 else 5 * 1024 * 1024) = lengthMax c := by
    obtain ⟨g1, g2, g3⟩ := lengthMax_eq
    cases c <;> simp [g1, g2, g3]
  have e : fill base (acts ++ [.tx c len cost unspent]) = act base (fill base acts) (.tx c len cost unspent) := by
    unfold fill; rw [List.foldl_append]; rfl
  rw [e, hx, ← h.all]
  obtain ⟨v, hv⟩ := Option.isSome_iff_exists.mp hw
  unfold act
  dsimp only
  rw [hv]
  by_cases hl : (fill base acts).length + len ≤ lengthMax c
  · rw [if_pos hl, (checkLength_iff _ _ _ _).mpr ⟨hl, rfl⟩]
  · rw [if_neg hl]
    cases hc : checkLength (fill base acts).length c len with
    | none => rfl
    | some n => exact absurd ((checkLength_iff _ _ _ _).mp hc).1 hl

/-- **C219**: normal transactions never keep operational ones out: as long as operational ones and inherents have at most 1.25 MiB
together, by length there is room. -/
theorem C219_operational_room (base : Weight) (acts : List Act) (len : Nat)
    (h : bytesOf .operational (fill base acts).inside + bytesOf .mandatory (fill base acts).inside + len ≤ 1280 * 1024) :
    (checkLength (fill base acts).length .operational len).isSome = true := by
  have ho := fill_ok base acts
  have h1 := ho.all
  have h2 := ho.normal
  have h3 := bytes_split (fill base acts).inside
  obtain ⟨g1, g2, g3⟩ := lengthMax_eq
  have : (fill base acts).length + len ≤ lengthMax .operational := by omega
  rw [(checkLength_iff _ _ _ _).mpr ⟨this, rfl⟩]
  rfl

/-- A block that is full by length for normal transactions takes an operational one. -/
example :
    let acts : List Act := [.tx .mandatory 1000000 ⟨1000, 0⟩ ⟨0, 0⟩, .tx .normal 2932160 ⟨1000, 2932160⟩ ⟨0, 0⟩,
      .tx .normal 1 ⟨1000, 1⟩ ⟨0, 0⟩, .tx .operational 1000 ⟨1000, 1000⟩ ⟨0, 0⟩]
    (fill ⟨1000, 0⟩ acts).inside = [(.operational, 1000), (.normal, 2932160), (.mandatory, 1000000)] ∧
      (checkWeight ⟨1000, 0⟩ (fill ⟨1000, 0⟩ (acts.take 2)).used .normal ⟨1000, 1⟩).isSome = true := by
  decide +kernel

end Verif.Runtime.Length
