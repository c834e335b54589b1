import Verif.Payments.Spec
import Mathlib.Algebra.BigOperators.Group.Finset.Basic
import Mathlib.Algebra.Order.BigOperators.Group.Finset
import Mathlib.Tactic.SplitIfs

/-! # Payments: helper lemmas (ledger calculus) -/

namespace Verif.Payments

theorem net_append (a b : List Move) (w : Acct) : net (a ++ b) w = net a w + net b w := by
  simp [net]

/-- Effect of one movement on one account. -/
def mvAt (m : Move) (w : Acct) : Int :=
  (if m.dst = w then (m.amt : Int) else 0) - (if m.src = w then (m.amt : Int) else 0)

theorem net_cons (m : Move) (b : List Move) (w : Acct) : net (m :: b) w = mvAt m w + net b w := by
  simp [net, mvAt]

@[simp] theorem net_nil (w : Acct) : net [] w = 0 := rfl

theorem net_one (m : Move) (w : Acct) :
    net [m] w = (if m.dst = w then (m.amt : Int) else 0) - (if m.src = w then (m.amt : Int) else 0) := by
  simp [net]

/-- Full effect of ledger operations on one asset. -/
structure Eff (L L' : Ledger) (a : Asset) (ms : List Move) (hd : Acct → Int) : Prop where
  minBal : L'.minBal = L.minBal
  other : ∀ a', a' ≠ a → L'.bal a' = L.bal a' ∧ L'.swept a' = L.swept a' ∧ L'.burned a' = L.burned a'
  swept : L.swept a ≤ L'.swept a
  burned : L.burned a ≤ L'.burned a
  held : ∀ w, ((L'.bal a w).held : Int) = (L.bal a w).held + hd w
  total : NoDust L L' a → ∀ w, L'.total a w = L.total a w + net ms w

theorem Eff.refl (L : Ledger) (a : Asset) : Eff L L a [] (fun _ => 0) := by
  constructor <;> simp

theorem Eff.trans {L1 L2 L3 : Ledger} {a ms1 ms2 h1 h2} (e1 : Eff L1 L2 a ms1 h1) (e2 : Eff L2 L3 a ms2 h2) :
    Eff L1 L3 a (ms1 ++ ms2) (fun w => h1 w + h2 w) := by
  obtain ⟨m1, o1, s1, b1, hh1, t1⟩ := e1
  obtain ⟨m2, o2, s2, b2, hh2, t2⟩ := e2
  refine ⟨m2.trans m1, ?_, s1.trans s2, b1.trans b2, ?_, ?_⟩
  · intro a' h
    obtain ⟨x1, y1, z1⟩ := o1 a' h
    obtain ⟨x2, y2, z2⟩ := o2 a' h
    exact ⟨x2.trans x1, y2.trans y1, z2.trans z1⟩
  · intro w
    rw [hh2 w, hh1 w]; omega
  · intro ⟨d1, d2⟩ w
    have e1 : NoDust L1 L2 a := ⟨by omega, by omega⟩
    have e2 : NoDust L2 L3 a := ⟨by omega, by omega⟩
    rw [t2 e2 w, t1 e1 w, net_append]; omega

theorem Eff.congr {L L' : Ledger} {a ms ms' h h'} (e : Eff L L' a ms h) (hm : ∀ w, net ms w = net ms' w)
    (hh : ∀ w, h w = h' w) : Eff L L' a ms' h' := by
  obtain ⟨m1, o1, s1, b1, hh1, t1⟩ := e
  exact ⟨m1, o1, s1, b1, fun w => by rw [hh1 w, hh w], fun d w => by rw [t1 d w, hm w]⟩

theorem Eff.exactly {L L' : Ledger} {a ms h} (e : Eff L L' a ms h) (d : NoDust L L' a) :
    Exactly L L' a ms h :=
  ⟨fun a' h => (e.other a' h).1, e.total d, e.held⟩

/-- Money is neither created nor destroyed except for burned dust. -/
def Cons (L L' : Ledger) (a : Asset) : Prop :=
  ∃ F : Finset Acct, (∀ w, w ∉ F → L'.bal a w = L.bal a w) ∧
    ∀ G : Finset Acct, F ⊆ G → sumTotal L' a G + L'.burned a = sumTotal L a G + L.burned a

theorem Cons.refl (L : Ledger) (a : Asset) : Cons L L a := ⟨∅, by simp, by simp⟩

theorem Cons.of_eq {L L' : Ledger} {a : Asset} (h : L'.bal a = L.bal a) (hb : L'.burned a = L.burned a) :
    Cons L L' a := ⟨∅, by simp [h], by simp [sumTotal, Ledger.total, h, hb]⟩

theorem Cons.trans {L1 L2 L3 : Ledger} {a} (c1 : Cons L1 L2 a) (c2 : Cons L2 L3 a) : Cons L1 L3 a := by
  obtain ⟨F1, u1, e1⟩ := c1
  obtain ⟨F2, u2, e2⟩ := c2
  refine ⟨F1 ∪ F2, ?_, ?_⟩
  · intro w hw
    simp only [Finset.mem_union, not_or] at hw
    rw [u2 w hw.2, u1 w hw.1]
  · intro G hG
    rw [e2 G (Finset.union_subset_right hG), e1 G (Finset.union_subset_left hG)]

/-- Accounts outside `S` lose nothing. -/
def Spares (L L' : Ledger) (S : Acct → Prop) : Prop :=
  ∀ a w, ¬ S w → (L.bal a w).free ≤ (L'.bal a w).free ∧ (L.bal a w).held ≤ (L'.bal a w).held

theorem Spares.refl (L : Ledger) (S : Acct → Prop) : Spares L L S := fun _ _ _ => ⟨le_rfl, le_rfl⟩

theorem Spares.trans {L1 L2 L3 : Ledger} {S} (c1 : Spares L1 L2 S) (c2 : Spares L2 L3 S) : Spares L1 L3 S :=
  fun a w h => ⟨(c1 a w h).1.trans (c2 a w h).1, (c1 a w h).2.trans (c2 a w h).2⟩

/-! ### sums under single updates -/

theorem sum_update (F : Finset Acct) (f g : Acct → Int) (w : Acct) (hw : w ∈ F)
    (h : ∀ x, x ≠ w → g x = f x) : ∑ x ∈ F, g x = ∑ x ∈ F, f x + (g w - f w) := by
  rw [← Finset.add_sum_erase F g hw, ← Finset.add_sum_erase F f hw]
  have : ∑ x ∈ F.erase w, g x = ∑ x ∈ F.erase w, f x :=
    Finset.sum_congr rfl fun x hx => h x (Finset.ne_of_mem_erase hx)
  omega

theorem setBal_bal (L : Ledger) (a : Asset) (w : Acct) (b : Bal) (a' : Asset) (w' : Acct) :
    (L.setBal a w b).bal a' w' = if a' = a ∧ w' = w then b else L.bal a' w' := rfl

@[simp] theorem setBal_same (L : Ledger) (a : Asset) (w : Acct) (b : Bal) :
    (L.setBal a w b).bal a w = b := by simp [Ledger.setBal]

theorem sumTotal_setBal (L : Ledger) (a : Asset) (w : Acct) (b : Bal) (F : Finset Acct) (hw : w ∈ F) :
    sumTotal (L.setBal a w b) a F = sumTotal L a F + ((b.free + b.held : Int) - L.total a w) := by
  unfold sumTotal
  rw [sum_update F (fun x => L.total a x) (fun x => (L.setBal a w b).total a x) w hw]
  · simp [Ledger.total]
  · intro x hx; simp [Ledger.total, setBal_bal, hx]

/-! ### hold -/

theorem hold_some {env L a who amt L'} (h : Ledger.hold env L a who amt = some L') :
    amt ≤ (L.bal a who).free ∧ (L.bal a who).held + amt ≤ BAL_MAX ∧
    L' = L.setBal a who ⟨(L.bal a who).free - amt, (L.bal a who).held + amt⟩ := by
  unfold Ledger.hold at h
  split_ifs at h with h1 h2
  simp only [Option.some.injEq] at h
  exact ⟨h2.1, h2.2, h.symm⟩

theorem hold_eff {env L a who amt L'} (h : Ledger.hold env L a who amt = some L') :
    Eff L L' a [] (onAcct who amt) ∧ NoDust L L' a := by
  obtain ⟨h1, _, rfl⟩ := hold_some h
  refine ⟨⟨rfl, ?_, le_rfl, le_rfl, ?_, ?_⟩, rfl, rfl⟩
  · intro a' ha; refine ⟨?_, rfl, rfl⟩; funext w; simp [setBal_bal, ha]
  · intro w; simp only [setBal_bal, onAcct]; split_ifs <;> simp_all
  · intro _ w; simp only [setBal_bal, Ledger.total]; split_ifs with hw <;> simp
    obtain ⟨_, rfl⟩ := hw; omega

theorem hold_cons {env L a who amt L'} (h : Ledger.hold env L a who amt = some L') (a' : Asset) :
    Cons L L' a' := by
  by_cases ha : a' = a
  · subst ha
    obtain ⟨h1, _, rfl⟩ := hold_some h
    refine ⟨{who}, ?_, ?_⟩
    · intro w hw; simp only [Finset.mem_singleton] at hw; simp [setBal_bal, hw]
    · intro G hG
      rw [sumTotal_setBal _ _ _ _ _ (hG (Finset.mem_singleton_self _))]
      simp only [Ledger.total, Ledger.setBal]; omega
  · have := (hold_eff h).1.other a' ha
    exact Cons.of_eq this.1 this.2.2

theorem hold_spares {env L a who amt L'} (h : Ledger.hold env L a who amt = some L') (S : Acct → Prop)
    (hS : S who) : Spares L L' S := by
  obtain ⟨_, _, rfl⟩ := hold_some h
  intro a' w hw
  have : w ≠ who := fun e => hw (e ▸ hS)
  simp [setBal_bal, this]

/-! ### release -/

theorem release_some {env L a who amt L'} (h : Ledger.release env L a who amt = some L') :
    amt ≤ (L.bal a who).held ∧
    L' = L.setBal a who ⟨(L.bal a who).free + amt, (L.bal a who).held - amt⟩ := by
  unfold Ledger.release at h
  split_ifs at h with h1 h2
  simp only [Option.some.injEq] at h
  exact ⟨h2, h.symm⟩

theorem release_eff {env L a who amt L'} (h : Ledger.release env L a who amt = some L') :
    Eff L L' a [] (onAcct who (-amt)) ∧ NoDust L L' a := by
  obtain ⟨h1, rfl⟩ := release_some h
  refine ⟨⟨rfl, ?_, le_rfl, le_rfl, ?_, ?_⟩, rfl, rfl⟩
  · intro a' ha; refine ⟨?_, rfl, rfl⟩; funext w; simp [setBal_bal, ha]
  · intro w; simp only [setBal_bal, onAcct]; split_ifs <;> simp_all; omega
  · intro _ w; simp only [setBal_bal, Ledger.total]; split_ifs with hw <;> simp
    obtain ⟨_, rfl⟩ := hw; omega

theorem release_cons {env L a who amt L'} (h : Ledger.release env L a who amt = some L') (a' : Asset) :
    Cons L L' a' := by
  by_cases ha : a' = a
  · subst ha
    obtain ⟨h1, rfl⟩ := release_some h
    refine ⟨{who}, ?_, ?_⟩
    · intro w hw; simp only [Finset.mem_singleton] at hw; simp [setBal_bal, hw]
    · intro G hG
      rw [sumTotal_setBal _ _ _ _ _ (hG (Finset.mem_singleton_self _))]
      simp only [Ledger.total, Ledger.setBal]; omega
  · have := (release_eff h).1.other a' ha
    exact Cons.of_eq this.1 this.2.2

theorem release_spares {env L a who amt L'} (h : Ledger.release env L a who amt = some L') (S : Acct → Prop)
    (hS : S who) : Spares L L' S := by
  obtain ⟨_, rfl⟩ := release_some h
  intro a' w hw
  have : w ≠ who := fun e => hw (e ▸ hS)
  simp [setBal_bal, this]

/-! ### transferAndHold -/

theorem tah_some {env L a src dst amt L'} (h : Ledger.transferAndHold env L a src dst amt = some L') :
    (amt = 0 ∧ L' = L) ∨ (0 < amt ∧ amt + L.minBal a ≤ (L.bal a src).free ∧
      (L.bal a dst).held + amt ≤ BAL_MAX ∧
      L' = (L.setBal a src ⟨(L.bal a src).free - amt, (L.bal a src).held⟩).setBal a dst
        ⟨((L.setBal a src ⟨(L.bal a src).free - amt, (L.bal a src).held⟩).bal a dst).free,
          ((L.setBal a src ⟨(L.bal a src).free - amt, (L.bal a src).held⟩).bal a dst).held + amt⟩) := by
  unfold Ledger.transferAndHold at h
  split_ifs at h with h1 h2 h3 h4
  · exact Or.inl ⟨h2, by simpa using h.symm⟩
  · refine Or.inr ⟨Nat.pos_of_ne_zero h2, by omega, by omega, by simpa using h.symm⟩

theorem tah_eff {env L a src dst amt L'} (h : Ledger.transferAndHold env L a src dst amt = some L') :
    Eff L L' a [⟨src, dst, amt⟩] (onAcct dst amt) ∧ NoDust L L' a := by
  rcases tah_some h with ⟨rfl, rfl⟩ | ⟨h0, h1, _, rfl⟩
  · refine ⟨(Eff.refl _ _).congr ?_ ?_, rfl, rfl⟩ <;> simp [net_one, onAcct]
  · refine ⟨⟨rfl, ?_, le_rfl, le_rfl, ?_, ?_⟩, rfl, rfl⟩
    · intro a' ha; refine ⟨?_, rfl, rfl⟩; funext w; simp [setBal_bal, ha]
    · intro w; simp only [setBal_bal, onAcct, true_and]
      by_cases e1 : w = dst <;> by_cases e2 : w = src <;> by_cases e3 : dst = src <;> simp_all
    · intro _ w; simp only [setBal_bal, Ledger.total, true_and, net_one]
      by_cases e1 : w = dst <;> by_cases e2 : w = src
      · subst e1; subst e2; simp; omega
      · subst e1; simp [e2, Ne.symm e2]; omega
      · subst e2; simp [e1, Ne.symm e1]; omega
      · simp [e1, e2, Ne.symm e1, Ne.symm e2]

theorem tah_cons {env L a src dst amt L'} (h : Ledger.transferAndHold env L a src dst amt = some L')
    (a' : Asset) : Cons L L' a' := by
  by_cases ha : a' = a
  · subst ha
    rcases tah_some h with ⟨rfl, rfl⟩ | ⟨h0, h1, _, rfl⟩
    · exact Cons.refl _ _
    · refine ⟨{src, dst}, ?_, ?_⟩
      · intro w hw
        simp only [Finset.mem_insert, Finset.mem_singleton, not_or] at hw
        simp [setBal_bal, hw.1, hw.2]
      · intro G hG
        have hs : src ∈ G := hG (by simp)
        have hd : dst ∈ G := hG (by simp)
        rw [sumTotal_setBal _ _ _ _ _ hd, sumTotal_setBal _ _ _ _ _ hs]
        simp only [Ledger.total, Ledger.setBal]; push_cast; omega
  · have := (tah_eff h).1.other a' ha
    exact Cons.of_eq this.1 this.2.2

theorem tah_spares {env L a src dst amt L'} (h : Ledger.transferAndHold env L a src dst amt = some L')
    (S : Acct → Prop) (hS : S src) : Spares L L' S := by
  rcases tah_some h with ⟨rfl, rfl⟩ | ⟨h0, h1, _, rfl⟩
  · exact Spares.refl _ _
  · intro a' w hw
    have hws : w ≠ src := fun e => hw (e ▸ hS)
    simp only [setBal_bal]
    by_cases e : w = dst <;> by_cases ea : a' = a <;> simp_all

/-! ### transfer -/

theorem moveFree_bal (L : Ledger) (a : Asset) (src dst : Acct) (out inn : Nat) (hne : src ≠ dst) (a' w) :
    (L.moveFree a src dst out inn).bal a' w =
      if a' = a ∧ w = dst then ⟨(L.bal a dst).free + inn, (L.bal a dst).held⟩
      else if a' = a ∧ w = src then ⟨(L.bal a src).free - out, (L.bal a src).held⟩
      else L.bal a' w := by
  simp [Ledger.moveFree, setBal_bal, hne.symm]

/-- Everything a successful transfer can have done. -/
theorem transfer_some {env L a src dst amt k L'} (h : Ledger.transfer env L a src dst amt k = some L') :
    ((amt = 0 ∨ src = dst) ∧ L' = L) ∨
    (src ≠ dst ∧ 0 < amt ∧ amt ≤ (L.bal a src).free ∧
      (k = .preserve → L.minBal a + amt ≤ (L.bal a src).free) ∧
      ((L' = L.moveFree a src dst amt amt) ∨
       (∃ rest, 0 < rest ∧ rest < L.minBal a ∧ k = .expendable ∧ rest = (L.bal a src).free - amt ∧
        ((L' = { L.moveFree a src dst (amt + rest) (amt + rest) with
            swept := fun a' => if a' = a then L.swept a + rest else L.swept a' }) ∨
         (L' = { L.moveFree a src dst (amt + rest) amt with
            burned := fun a' => if a' = a then L.burned a + rest else L.burned a' }))))) := by
  unfold Ledger.transfer at h
  dsimp only at h
  split_ifs at h with h1 h2 h3 h4 h5 h6
  · exact Or.inl ⟨Or.inl h2, by simpa using h.symm⟩
  · exact Or.inl ⟨Or.inr h5, by simpa using h.symm⟩
  · refine Or.inr ⟨h5, Nat.pos_of_ne_zero h2, by omega, ?_, ?_⟩
    · intro hk; rw [hk] at h6; simp at h6
    · cases hd : env.dust L (LOp.transfer a src dst amt k) <;> rw [hd] at h <;>
        simp only [Option.some.injEq] at h
      · exact Or.inl h.symm
      · exact Or.inr ⟨_, h6.2.1, h6.2.2, h6.1, rfl, Or.inl h.symm⟩
      · exact Or.inr ⟨_, h6.2.1, h6.2.2, h6.1, rfl, Or.inr h.symm⟩
  · refine Or.inr ⟨h5, Nat.pos_of_ne_zero h2, by omega, ?_, Or.inl (by simpa using h.symm)⟩
    intro hk
    by_contra hc
    exact h4 ⟨hk, by omega⟩

theorem transfer_eff {env L a src dst amt k L'} (h : Ledger.transfer env L a src dst amt k = some L') :
    Eff L L' a [⟨src, dst, amt⟩] (fun _ => 0) := by
  rcases transfer_some h with ⟨h0, rfl⟩ | ⟨hne, h0, h1, h2, h3⟩
  · refine (Eff.refl _ _).congr ?_ ?_
    · intro w; simp only [net_nil, net_one]
      rcases h0 with rfl | rfl <;> simp
    · simp
  · have hother : ∀ o i a', a' ≠ a → (L.moveFree a src dst o i).bal a' = L.bal a' := by
      intro o i a' ha; funext w; simp [moveFree_bal _ _ _ _ _ _ hne, ha]
    have hheld : ∀ o i w, ((L.moveFree a src dst o i).bal a w).held = (L.bal a w).held := by
      intro o i w; rw [moveFree_bal _ _ _ _ _ _ hne]; split_ifs with c1 c2 <;> simp_all
    rcases h3 with rfl | ⟨rest, r0, r1, hk, hr, rfl | rfl⟩
    · refine ⟨rfl, fun a' ha => ⟨hother _ _ a' ha, rfl, rfl⟩, le_rfl, le_rfl, ?_, ?_⟩
      · intro w; rw [hheld]; simp
      · intro _ w
        simp only [Ledger.total, moveFree_bal _ _ _ _ _ _ hne, true_and, net_one]
        by_cases e1 : w = dst <;> by_cases e2 : w = src
        · exact absurd (e2.symm.trans e1) hne
        · subst e1; simp [e2, Ne.symm e2]; omega
        · subst e2; simp [e1, Ne.symm e1]; omega
        · simp [e1, e2, Ne.symm e1, Ne.symm e2]
    · refine ⟨rfl, fun a' ha => ⟨hother _ _ a' ha, by simp [ha], rfl⟩, by simp, le_rfl, ?_, ?_⟩
      · intro w; simp only [hheld]; simp
      · intro ⟨d1, _⟩ w; simp at d1; omega
    · refine ⟨rfl, fun a' ha => ⟨hother _ _ a' ha, rfl, by simp [ha]⟩, le_rfl, by simp, ?_, ?_⟩
      · intro w; simp only [hheld]; simp
      · intro ⟨_, d1⟩ w; simp at d1; omega

theorem transfer_preserve_nodust {env L a src dst amt L'}
    (h : Ledger.transfer env L a src dst amt .preserve = some L') : NoDust L L' a := by
  rcases transfer_some h with ⟨h0, rfl⟩ | ⟨hne, h0, h1, h2, rfl | ⟨rest, r0, r1, hk, _⟩⟩
  · exact ⟨rfl, rfl⟩
  · exact ⟨rfl, rfl⟩
  · cases hk

theorem transfer_cons {env L a src dst amt k L'} (h : Ledger.transfer env L a src dst amt k = some L')
    (a' : Asset) : Cons L L' a' := by
  by_cases ha : a' = a
  · subst ha
    rcases transfer_some h with ⟨h0, rfl⟩ | ⟨hne, h0, h1, h2, h3⟩
    · exact Cons.refl _ _
    · have key : ∀ o i (G : Finset Acct), src ∈ G → dst ∈ G → o ≤ (L.bal a' src).free →
          sumTotal (L.moveFree a' src dst o i) a' G = sumTotal L a' G - o + i := by
        intro o i G hs hd ho
        unfold Ledger.moveFree
        rw [sumTotal_setBal _ _ _ _ _ hd, sumTotal_setBal _ _ _ _ _ hs]
        simp only [Ledger.total]; push_cast; omega
      have out : ∀ o i w, w ∉ ({src, dst} : Finset Acct) →
          (L.moveFree a' src dst o i).bal a' w = L.bal a' w := by
        intro o i w hw
        simp only [Finset.mem_insert, Finset.mem_singleton, not_or] at hw
        simp [moveFree_bal _ _ _ _ _ _ hne, hw.1, hw.2]
      rcases h3 with rfl | ⟨rest, r0, r1, hk, hr, rfl | rfl⟩
      · refine ⟨{src, dst}, out _ _, fun G hG => ?_⟩
        rw [key _ _ G (hG (by simp)) (hG (by simp)) h1]
        simp [Ledger.moveFree, Ledger.setBal]
      · refine ⟨{src, dst}, out _ _, fun G hG => ?_⟩
        have := key (amt + rest) (amt + rest) G (hG (by simp)) (hG (by simp)) (by omega)
        simp only [sumTotal, Ledger.total] at this ⊢
        rw [this]; simp [Ledger.moveFree, Ledger.setBal]
      · refine ⟨{src, dst}, out _ _, fun G hG => ?_⟩
        have := key (amt + rest) amt G (hG (by simp)) (hG (by simp)) (by omega)
        simp only [sumTotal, Ledger.total] at this ⊢
        rw [this]; simp; omega
  · have := (transfer_eff h).other a' ha
    exact Cons.of_eq this.1 this.2.2

theorem transfer_spares {env L a src dst amt k L'} (h : Ledger.transfer env L a src dst amt k = some L')
    (S : Acct → Prop) (hS : S src) : Spares L L' S := by
  rcases transfer_some h with ⟨h0, rfl⟩ | ⟨hne, h0, h1, h2, h3⟩
  · exact Spares.refl _ _
  · have key : ∀ o i, Spares L (L.moveFree a src dst o i) S := by
      intro o i a' w hw
      have hws : w ≠ src := fun e => hw (e ▸ hS)
      rw [moveFree_bal _ _ _ _ _ _ hne]
      by_cases e : w = dst <;> by_cases ea : a' = a <;> simp_all
    rcases h3 with rfl | ⟨rest, r0, r1, hk, hr, rfl | rfl⟩
    · exact key _ _
    · exact key _ _
    · exact key _ _

end Verif.Payments
