import Verif.Runtime.Batches
import Verif.Runtime.AssetPalletTheorems

/-!
# Several calls in one: theorems (C207)
-/

namespace Verif.Runtime.Batches

open Verif Verif.Accounts

variable {C S : Type}

/-! ## Specification -/

/-- These calls, made one after the other, all succeed and lead from `s` to `s'`. Specification only, no code behind it (outside
/repo). -/
inductive InTurn (E : Setting C S) (inAll : Bool) (o : RtOrigin) : S → List (BCall C) → S → Prop
  | nil (s : S) : InTurn E inAll o s [] s
  | cons {s s1 s' : S} {c : BCall C} {l : List (BCall C)} (h : exec E inAll s o c = some s1)
      (t : InTurn E inAll o s1 l s') : InTurn E inAll o s (c :: l) s'

/-- Each of these calls is tried, one after the other: who succeeds takes effect, who fails does not. Specification only, no
code behind it (outside /repo). -/
inductive Tried (E : Setting C S) (inAll : Bool) (o : RtOrigin) : S → List (BCall C) → S → Prop
  | nil (s : S) : Tried E inAll o s [] s
  | done {s s1 s' : S} {c : BCall C} {l : List (BCall C)} (h : exec E inAll s o c = some s1)
      (t : Tried E inAll o s1 l s') : Tried E inAll o s (c :: l) s'
  | failed {s s' : S} {c : BCall C} {l : List (BCall C)} (h : exec E inAll s o c = none)
      (t : Tried E inAll o s l s') : Tried E inAll o s (c :: l) s'

/-- `o'` is `o`, or an account derived from it by indices, one after the other. Specification only, no code behind it (outside
/repo). -/
inductive Derives (E : Setting C S) (o : RtOrigin) : RtOrigin → Prop
  | self : Derives E o o
  | more {a : AccountId} (i : Nat) (h : Derives E o (.signed a)) : Derives E o (.signed (E.derived a i))

/-- The plain call `x` is inside a call. Specification only, no code behind it (outside /repo). -/
inductive Inside (x : C) : BCall C → Prop
  | base : Inside x (.base x)
  | batch {l : List (BCall C)} {c : BCall C} (hc : c ∈ l) (h : Inside x c) : Inside x (.batch l)
  | batchAll {l : List (BCall C)} {c : BCall C} (hc : c ∈ l) (h : Inside x c) : Inside x (.batchAll l)
  | forceBatch {l : List (BCall C)} {c : BCall C} (hc : c ∈ l) (h : Inside x c) : Inside x (.forceBatch l)
  | asDerivative (i : Nat) {c : BCall C} (h : Inside x c) : Inside x (.asDerivative i c)

/-- Plain calls, each by `o` or an account derived from it and each one for which `p` holds, made one after the other on their
own, lead from `s` to `s'`. Specification only, no code behind it (outside /repo). -/
inductive OneByOne (E : Setting C S) (o : RtOrigin) (p : C → Prop) : S → S → Prop
  | refl (s : S) : OneByOne E o p s s
  | more {s s1 s' : S} {o' : RtOrigin} {x : C} (h : OneByOne E o p s s1) (ho : Derives E o o') (hx : p x)
      (hr : E.run s1 o' x = some s') : OneByOne E o p s s'

mutual

/-- The plain calls in a call, in order, with who makes them. Specification only, no code behind it (outside /repo). -/
def plain (E : Setting C S) (o : RtOrigin) : BCall C → List (RtOrigin × C)
  | .base c => [(o, c)]
  | .batch l => plains E o l
  | .batchAll l => plains E o l
  | .forceBatch l => plains E o l
  | .asDerivative i c =>
    match o with
    | .signed a => plain E (.signed (E.derived a i)) c
    | _ => []

/-- Those of several calls. Specification only, no code behind it (outside /repo). -/
def plains (E : Setting C S) (o : RtOrigin) : List (BCall C) → List (RtOrigin × C)
  | [] => []
  | c :: l => plain E o c ++ plains E o l

end

/-- Plain calls, made one after the other, all succeed and lead from `s` to `s'`. Specification only, no code behind it
(outside /repo). -/
inductive Made (E : Setting C S) : S → List (RtOrigin × C) → S → Prop
  | nil (s : S) : Made E s [] s
  | cons {s s1 s' : S} {o : RtOrigin} {c : C} {l : List (RtOrigin × C)} (h : E.run s o c = some s1) (t : Made E s1 l s') :
      Made E s ((o, c) :: l) s'

/-! ## Lemmas -/

theorem Made.append {E : Setting C S} {s s1 s' : S} {l l' : List (RtOrigin × C)} (h : Made E s l s1) (h' : Made E s1 l' s') :
    Made E s (l ++ l') s' := by
  induction h with
  | nil => exact h'
  | cons hr _ ih => exact .cons hr (ih h')

mutual

theorem exec_order (E : Setting C S) (c : BCall C) : ∀ (b : Bool) (o : RtOrigin) (s s' : S),
    exec E b s o c = some s' → ∃ l, l.Sublist (plain E o c) ∧ Made E s l s' := by
  intro b o s s' h
  match c with
  | .base c =>
    rw [exec] at h
    exact ⟨[(o, c)], by rw [plain], .cons h (.nil _)⟩
  | .batch l =>
    rw [exec] at h
    rw [plain]
    split at h
    · cases h; exact untilError_order E l b o s
    · cases h
  | .batchAll l =>
    rw [exec] at h
    rw [plain]
    split at h
    · exact allOf_order E l true o s s' h
    · cases h
  | .forceBatch l =>
    rw [exec] at h
    rw [plain]
    split at h
    · cases h; exact whatever_order E l b o s
    · cases h
  | .asDerivative i c =>
    cases o with
    | signed a =>
      rw [exec] at h
      rw [plain]
      exact exec_order E c b (.signed (E.derived a i)) s s' h
    | _ =>
      rw [exec] at h
      · cases h
      · intro _ e; cases e

theorem untilError_order (E : Setting C S) (l : List (BCall C)) : ∀ (b : Bool) (o : RtOrigin) (s : S),
    ∃ k, k.Sublist (plains E o l) ∧ Made E s k (untilError E b s o l) := by
  intro b o s
  match l with
  | [] => rw [untilError]; exact ⟨[], List.nil_sublist _, .nil s⟩
  | c :: l =>
    rw [untilError, plains]
    cases hc : exec E b s o c with
    | none => exact ⟨[], List.nil_sublist _, .nil s⟩
    | some s1 =>
      obtain ⟨k, h1, h2⟩ := exec_order E c b o s s1 hc
      obtain ⟨k', h3, h4⟩ := untilError_order E l b o s1
      exact ⟨k ++ k', h1.append h3, h2.append h4⟩

theorem allOf_order (E : Setting C S) (l : List (BCall C)) : ∀ (b : Bool) (o : RtOrigin) (s s' : S),
    allOf E b s o l = some s' → ∃ k, k.Sublist (plains E o l) ∧ Made E s k s' := by
  intro b o s s' h
  match l with
  | [] => rw [allOf] at h; cases h; exact ⟨[], List.nil_sublist _, .nil s⟩
  | c :: l =>
    rw [allOf] at h
    rw [plains]
    cases hc : exec E b s o c with
    | none => rw [hc] at h; cases h
    | some s1 =>
      rw [hc] at h
      obtain ⟨k, h1, h2⟩ := exec_order E c b o s s1 hc
      obtain ⟨k', h3, h4⟩ := allOf_order E l b o s1 s' h
      exact ⟨k ++ k', h1.append h3, h2.append h4⟩

theorem whatever_order (E : Setting C S) (l : List (BCall C)) : ∀ (b : Bool) (o : RtOrigin) (s : S),
    ∃ k, k.Sublist (plains E o l) ∧ Made E s k (whatever E b s o l) := by
  intro b o s
  match l with
  | [] => rw [whatever]; exact ⟨[], List.nil_sublist _, .nil s⟩
  | c :: l =>
    rw [whatever, plains]
    cases hc : exec E b s o c with
    | none =>
      obtain ⟨k', h3, h4⟩ := whatever_order E l b o s
      exact ⟨k', h3.trans (List.sublist_append_right _ _), h4⟩
    | some s1 =>
      obtain ⟨k, h1, h2⟩ := exec_order E c b o s s1 hc
      obtain ⟨k', h3, h4⟩ := whatever_order E l b o s1
      exact ⟨k ++ k', h1.append h3, h2.append h4⟩

end

theorem untilError_spec (E : Setting C S) (b : Bool) (o : RtOrigin) (l : List (BCall C)) : ∀ s,
    ∃ done rest, l = done ++ rest ∧ InTurn E b o s done (untilError E b s o l) ∧
      ∀ c t, rest = c :: t → exec E b (untilError E b s o l) o c = none := by
  induction l with
  | nil => intro s; exact ⟨[], [], rfl, .nil s, fun _ _ h => nomatch h⟩
  | cons c l ih =>
    intro s
    cases hc : exec E b s o c with
    | none =>
      refine ⟨[], c :: l, rfl, ?_, ?_⟩
      · rw [untilError, hc]; exact .nil s
      · intro c' t e
        cases e
        rw [untilError, hc]
        exact hc
    | some s1 =>
      obtain ⟨done, rest, e, h1, h2⟩ := ih s1
      have e1 : untilError E b s o (c :: l) = untilError E b s1 o l := by rw [untilError, hc]
      rw [e1]
      exact ⟨c :: done, rest, by rw [e]; rfl, .cons hc h1, h2⟩

theorem allOf_spec (E : Setting C S) (b : Bool) (o : RtOrigin) (l : List (BCall C)) : ∀ s s',
    allOf E b s o l = some s' ↔ InTurn E b o s l s' := by
  induction l with
  | nil =>
    intro s s'
    constructor
    · intro h; rw [allOf] at h; cases h; exact .nil s
    · intro h; cases h; rw [allOf]
  | cons c l ih =>
    intro s s'
    constructor
    · intro h
      rw [allOf] at h
      cases hc : exec E b s o c with
      | none => rw [hc] at h; cases h
      | some s1 => rw [hc] at h; exact .cons hc ((ih s1 s').1 h)
    · intro h
      cases h with
      | cons h1 h2 => rw [allOf, h1]; exact (ih _ s').2 h2

theorem whatever_spec (E : Setting C S) (b : Bool) (o : RtOrigin) (l : List (BCall C)) : ∀ s,
    Tried E b o s l (whatever E b s o l) := by
  induction l with
  | nil => intro s; rw [whatever]; exact .nil s
  | cons c l ih =>
    intro s
    rw [whatever]
    cases hc : exec E b s o c with
    | none => exact .failed hc (ih s)
    | some s1 => exact .done hc (ih s1)

theorem OneByOne.trans {E : Setting C S} {o : RtOrigin} {p : C → Prop} {a b c : S} (h1 : OneByOne E o p a b)
    (h2 : OneByOne E o p b c) : OneByOne E o p a c := by
  induction h2 with
  | refl => exact h1
  | more _ ho hx hr ih => exact .more ih ho hx hr

theorem OneByOne.mono {E : Setting C S} {o : RtOrigin} {p q : C → Prop} (hpq : ∀ x, p x → q x) {a b : S}
    (h : OneByOne E o p a b) : OneByOne E o q a b := by
  induction h with
  | refl => exact .refl _
  | more _ ho hx hr ih => exact .more ih ho (hpq _ hx) hr

theorem OneByOne.up {E : Setting C S} {x : AccountId} {i : Nat} {p : C → Prop} {a b : S}
    (h : OneByOne E (.signed (E.derived x i)) p a b) : OneByOne E (.signed x) p a b := by
  have key : ∀ {o'}, Derives E (.signed (E.derived x i)) o' → Derives E (.signed x) o' := by
    intro o' hd
    induction hd with
    | self => exact .more i .self
    | more j _ ih => exact .more j ih
  induction h with
  | refl => exact .refl _
  | more _ ho hx hr ih => exact .more ih (key ho) hx hr

mutual

theorem exec_plain (E : Setting C S) (c : BCall C) : ∀ (b : Bool) (o : RtOrigin) (s s' : S),
    exec E b s o c = some s' → OneByOne E o (fun x => Inside x c) s s' := by
  intro b o s s' h
  match c with
  | .base c =>
    rw [exec] at h
    exact .more (.refl s) .self .base h
  | .batch l =>
    rw [exec] at h
    split at h
    · cases h
      exact (untilError_plain E l b o s).mono fun x ⟨c, hc, hx⟩ => .batch hc hx
    · cases h
  | .batchAll l =>
    rw [exec] at h
    split at h
    · exact (allOf_plain E l true o s s' h).mono fun x ⟨c, hc, hx⟩ => .batchAll hc hx
    · cases h
  | .forceBatch l =>
    rw [exec] at h
    split at h
    · cases h
      exact (whatever_plain E l b o s).mono fun x ⟨c, hc, hx⟩ => .forceBatch hc hx
    · cases h
  | .asDerivative i c =>
    cases o with
    | signed a =>
      rw [exec] at h
      exact (exec_plain E c b (.signed (E.derived a i)) s s' h).up.mono fun x hx => .asDerivative i hx
    | root =>
      rw [exec] at h
      · cases h
      · intro _ e; cases e
    | none =>
      rw [exec] at h
      · cases h
      · intro _ e; cases e
    | community _ =>
      rw [exec] at h
      · cases h
      · intro _ e; cases e
    | custom _ =>
      rw [exec] at h
      · cases h
      · intro _ e; cases e
    | other _ =>
      rw [exec] at h
      · cases h
      · intro _ e; cases e

theorem untilError_plain (E : Setting C S) (l : List (BCall C)) : ∀ (b : Bool) (o : RtOrigin) (s : S),
    OneByOne E o (fun x => ∃ c, c ∈ l ∧ Inside x c) s (untilError E b s o l) := by
  intro b o s
  match l with
  | [] => rw [untilError]; exact .refl s
  | c :: l =>
    rw [untilError]
    cases hc : exec E b s o c with
    | none => exact .refl s
    | some s1 =>
      exact ((exec_plain E c b o s s1 hc).mono fun x hx => ⟨c, List.mem_cons_self, hx⟩).trans
        ((untilError_plain E l b o s1).mono fun x ⟨c', h1, h2⟩ => ⟨c', List.mem_cons_of_mem _ h1, h2⟩)

theorem allOf_plain (E : Setting C S) (l : List (BCall C)) : ∀ (b : Bool) (o : RtOrigin) (s s' : S),
    allOf E b s o l = some s' → OneByOne E o (fun x => ∃ c, c ∈ l ∧ Inside x c) s s' := by
  intro b o s s' h
  match l with
  | [] => rw [allOf] at h; cases h; exact .refl s
  | c :: l =>
    rw [allOf] at h
    cases hc : exec E b s o c with
    | none => rw [hc] at h; cases h
    | some s1 =>
      rw [hc] at h
      exact ((exec_plain E c b o s s1 hc).mono fun x hx => ⟨c, List.mem_cons_self, hx⟩).trans
        ((allOf_plain E l b o s1 s' h).mono fun x ⟨c', h1, h2⟩ => ⟨c', List.mem_cons_of_mem _ h1, h2⟩)

theorem whatever_plain (E : Setting C S) (l : List (BCall C)) : ∀ (b : Bool) (o : RtOrigin) (s : S),
    OneByOne E o (fun x => ∃ c, c ∈ l ∧ Inside x c) s (whatever E b s o l) := by
  intro b o s
  match l with
  | [] => rw [whatever]; exact .refl s
  | c :: l =>
    rw [whatever]
    cases hc : exec E b s o c with
    | none => exact (whatever_plain E l b o s).mono fun x ⟨c', h1, h2⟩ => ⟨c', List.mem_cons_of_mem _ h1, h2⟩
    | some s1 =>
      exact ((exec_plain E c b o s s1 hc).mono fun x hx => ⟨c, List.mem_cons_self, hx⟩).trans
        ((whatever_plain E l b o s1).mono fun x ⟨c', h1, h2⟩ => ⟨c', List.mem_cons_of_mem _ h1, h2⟩)

end

/-! ## Theorems -/

/-- **C207**: a `batch_all` takes effect if and only if its calls, one after the other, all succeed, and then its effect is
theirs; otherwise it leaves everything as it was. -/
theorem C207_all_or_nothing (E : Setting C S) (s : S) (o : RtOrigin) (l : List (BCall C)) (ho : o ≠ .none)
    (hl : l.length ≤ E.limit) :
    (∀ s', InTurn E true o s l s' → after E s o (.batchAll l) = s') ∧
      ((∀ s', ¬ InTurn E true o s l s') → after E s o (.batchAll l) = s) := by
  have e : exec E false s o (.batchAll l) = allOf E true s o l := by
    rw [exec, if_pos]
    unfold Setting.takes
    simp [ho, hl]
  unfold after
  rw [e]
  refine ⟨fun s' h => ?_, fun h => ?_⟩
  · rw [(allOf_spec E true o l s s').2 h]; rfl
  · cases hx : allOf E true s o l with
    | none => rfl
    | some s' => exact absurd ((allOf_spec E true o l s s').1 hx) (h s')

/-- **C207**: a `batch` takes effect up to the first of its calls that fails, and from there on not at all. -/
theorem C207_up_to_error (E : Setting C S) (s : S) (o : RtOrigin) (l : List (BCall C)) (ho : o ≠ .none)
    (hl : l.length ≤ E.limit) :
    ∃ done rest, l = done ++ rest ∧ InTurn E false o s done (after E s o (.batch l)) ∧
      ∀ c t, rest = c :: t → exec E false (after E s o (.batch l)) o c = none := by
  have e : after E s o (.batch l) = untilError E false s o l := by
    unfold after
    rw [exec, if_pos]
    · rfl
    · unfold Setting.takes; simp [ho, hl]
  rw [e]
  exact untilError_spec E false o l s

/-- **C207**: a `force_batch` tries all of its calls, and those that do not fail take effect. -/
theorem C207_forced (E : Setting C S) (s : S) (o : RtOrigin) (l : List (BCall C)) (ho : o ≠ .none)
    (hl : l.length ≤ E.limit) : Tried E false o s l (after E s o (.forceBatch l)) := by
  have e : after E s o (.forceBatch l) = whatever E false s o l := by
    unfold after
    rw [exec, if_pos]
    · rfl
    · unfold Setting.takes; simp [ho, hl]
  rw [e]
  exact whatever_spec E false o l s

/-- **C207**: a longer batch is refused, as is one by nobody. -/
theorem C207_refused (E : Setting C S) (s : S) (o : RtOrigin) (l : List (BCall C)) (h : o = .none ∨ E.limit < l.length) :
    after E s o (.batch l) = s ∧ after E s o (.batchAll l) = s ∧ after E s o (.forceBatch l) = s := by
  have e : E.takes o l.length = false := by
    unfold Setting.takes
    rcases h with h | h
    · simp [h]
    · simp; intro _; omega
  unfold after
  rw [exec, exec, exec, e]
  exact ⟨rfl, rfl, rfl⟩

/-- **C207.** A `batch_all` among the calls of another makes all of them fail, but for root. -/
theorem C207_nested (E : Setting C S) (s : S) (o : RtOrigin) (l l' : List (BCall C)) (ho : o ≠ .root)
    (h : .batchAll l' ∈ l) : after E s o (.batchAll l) = s := by
  have key : ∀ (l : List (BCall C)) (s : S), .batchAll l' ∈ l → allOf E true s o l = none := by
    intro l
    induction l with
    | nil => intro s h; cases h
    | cons c l ih =>
      intro s h
      rw [allOf]
      rcases List.mem_cons.1 h with h | h
      · rw [← h, exec]
        simp [ho]
      · cases exec E true s o c with
        | none => rfl
        | some s' => exact ih s' h
  unfold after
  rw [exec]
  split
  · rw [key l s h]; rfl
  · rfl

/-- **C207**: whatever is batched, in whatever way, does nothing that plain calls inside it, made one after the other by the
same caller or accounts derived from it, would not do as well. -/
theorem C207_one_by_one (E : Setting C S) (s : S) (o : RtOrigin) (c : BCall C) :
    OneByOne E o (fun x => Inside x c) s (after E s o c) := by
  unfold after
  cases h : exec E false s o c with
  | none => exact .refl s
  | some s' => exact exec_plain E c false o s s' h

/-- **C207**: and in the order in which they are in it, each at most once. -/
theorem C207_in_order (E : Setting C S) (s : S) (o : RtOrigin) (c : BCall C) :
    ∃ l, l.Sublist (plain E o c) ∧ Made E s l (after E s o c) := by
  unfold after
  cases h : exec E false s o c with
  | none => exact ⟨[], List.nil_sublist _, .nil s⟩
  | some s' => exact exec_order E c false o s s' h

/-- **C207**: so what every plain call keeps, every batch keeps. -/
theorem C207_keeps (E : Setting C S) (P : S → Prop) (hP : ∀ s s' o x, E.run s o x = some s' → P s → P s') (s : S)
    (o : RtOrigin) (c : BCall C) (h : P s) : P (after E s o c) := by
  have hx := C207_one_by_one E s o c
  generalize after E s o c = s' at hx
  induction hx with
  | refl => exact h
  | more _ _ _ hr ih => exact hP _ _ _ _ hr ih

/-- **C207**: in particular no batch takes units of an asset from an account, unless a plain call in it does. -/
theorem C207_assets (E : Setting Units.Call Units.St) (env : Units.Env) (hE : E.run = Units.call env) (s : Units.St)
    (o : RtOrigin) (c : BCall Units.Call) (k : Units.Key) (a : AccountId) (hlt : (after E s o c).has k a < s.has k a) :
    ∃ s1 s2 o' x, Inside x c ∧ Derives E o o' ∧ Units.call env s1 o' x = some s2 ∧ s2.has k a < s1.has k a ∧
      Units.Taken s1 k a (s1.has k a - s2.has k a) o' x := by
  have h := C207_one_by_one E s o c
  generalize after E s o c = s' at h hlt
  induction h with
  | refl => omega
  | @more s1 s2 o' x _ ho hx hr ih =>
    rw [hE] at hr
    by_cases hl : s2.has k a < s1.has k a
    · exact ⟨s1, s2, o', x, hx, ho, hr, hl, Units.C200_taken env s1 s2 o' x hr k a hl⟩
    · exact ih (by omega)

/-! ## Examples -/

/-- Example: the assets pallet, with indices put in front of accounts (outside /repo). -/
def Demo.setting : Setting Units.Call Units.St := ⟨Units.call Units.Demo.env, fun a i => UInt8.ofNat i :: a, 100⟩

/-- Example: alice's asset with 100 units on bob's account (outside /repo). -/
def Demo.start : Units.St := (Units.Demo.run Units.genesis
  [.call .root (.forceCreate 0 Units.Demo.alice false 10), .call (.signed Units.Demo.alice) (.mint 0 Units.Demo.bob 100)]).getD
    Units.genesis

/-- Bob sends carol 30, then 200, then 20: all of it, up to the error, or what can be done. -/
example :
    let l : List (BCall Units.Call) := [.base (.transfer 0 Units.Demo.carol 30), .base (.transfer 0 Units.Demo.carol 200),
      .base (.transfer 0 Units.Demo.carol 20)]
    let bob : RtOrigin := .signed Units.Demo.bob
    (after Demo.setting Demo.start bob (.batchAll l)).has 0 Units.Demo.carol = 0 ∧
      (after Demo.setting Demo.start bob (.batch l)).has 0 Units.Demo.carol = 30 ∧
      (after Demo.setting Demo.start bob (.forceBatch l)).has 0 Units.Demo.carol = 50 ∧
      (after Demo.setting Demo.start bob (.batchAll [.batch l, .base (.transfer 0 Units.Demo.carol 20)])).has 0
        Units.Demo.carol = 50 ∧
      (after Demo.setting Demo.start bob (.batchAll [.batchAll []])).has 0 Units.Demo.carol = 0 ∧
      (after Demo.setting Demo.start bob (.asDerivative 3 (.base (.transfer 0 Units.Demo.carol 30)))).has 0
        Units.Demo.carol = 0 := by
  decide +kernel

end Verif.Runtime.Batches
