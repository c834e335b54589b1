import Verif.Xcm.Traders
import Verif.Xcm.WeightTheorems
import Verif.Xcm.ExecutorTheorems
import Verif.Runtime.FeeTheorems

/-!
# Lemmas on the traders of XCM messages
-/

namespace Verif.Xcm

open Verif Verif.Runtime Verif.Accounts

theorem price_fails {p : Prices} {t t' : Till} {x : Chance} {i : VInstr} {luck : Luck}
    (h : t.price p x i = some (t', luck)) : luck.fails = x.luck.fails := by
  cases i <;> simp only [Till.price] at h
  case buyExecution fees limit =>
    cases limit with
    | unlimited => simp only [Option.some.injEq, Prod.mk.injEq] at h; rw [← h.2]
    | limited w =>
      obtain ⟨r, _, e⟩ := Option.map_eq_some_iff.mp h
      simp only [Prod.mk.injEq] at e
      rw [← e.2]
  case transact k w =>
    split at h
    · simp only [Option.some.injEq, Prod.mk.injEq] at h; rw [← h.2]
    · cases h
  case setErrorHandler xcm =>
    obtain ⟨r, _, e⟩ := Option.map_eq_some_iff.mp h
    simp only [Prod.mk.injEq] at e
    rw [← e.2]
  case setAppendix xcm =>
    obtain ⟨r, _, e⟩ := Option.map_eq_some_iff.mp h
    simp only [Prod.mk.injEq] at e
    rw [← e.2]
  all_goals (simp only [Option.some.injEq, Prod.mk.injEq] at h; rw [← h.2])

/-- The three things a step can be: the end of the code, an error, an instruction. -/
theorem pricedStep_cases {p : Prices} {m m' : Mach} {t t' : Till} {x : Chance} (h : pricedStep p m t x = some (m', t')) :
    (m.code = [] ∧ m' = { m with code := m.appendix, handler := [], appendix := [] } ∧
      t' = { t with surplus := Weight.satAdd t.surplus t.handler, handler := Weight.zero, appendix := Weight.zero }) ∨
    (∃ i rest, m.code = i :: rest ∧ m' = m.failed ∧ t' = t.failed m.handler i rest) ∨
    (∃ i rest luck, m.code = i :: rest ∧ luck.fails = false ∧ t.price p x i = some (t', luck) ∧
      Mach.effect { m with code := rest } luck i = .ok m') := by
  unfold pricedStep at h
  split at h
  · rename_i hc
    simp only [Option.some.injEq, Prod.mk.injEq] at h
    exact Or.inl ⟨hc, h.1.symm, h.2.symm⟩
  · rename_i i rest hc
    split at h
    · simp only [Option.some.injEq, Prod.mk.injEq] at h
      exact Or.inr (Or.inl ⟨i, rest, hc, h.1.symm, h.2.symm⟩)
    · rename_i hf
      split at h
      · simp only [Option.some.injEq, Prod.mk.injEq] at h
        exact Or.inr (Or.inl ⟨i, rest, hc, h.1.symm, h.2.symm⟩)
      · rename_i t1 luck hp
        split at h
        · rename_i m1 he
          simp only [Option.some.injEq, Prod.mk.injEq] at h
          obtain ⟨rfl, rfl⟩ := h
          have := price_fails hp
          exact Or.inr (Or.inr ⟨i, rest, luck, hc, by rw [this]; simpa using hf, hp, he⟩)
        · simp only [Option.some.injEq, Prod.mk.injEq] at h
          exact Or.inr (Or.inl ⟨i, rest, hc, h.1.symm, h.2.symm⟩)
        · cases h

/-- A step with traders is a step of the executor for some answers of the traders. -/
theorem pricedStep_step {p : Prices} {m m' : Mach} {t t' : Till} {x : Chance} (h : pricedStep p m t x = some (m', t')) :
    ∃ luck, m.step luck = some m' := by
  rcases pricedStep_cases h with ⟨hc, hm, _⟩ | ⟨i, rest, hc, hm, _⟩ | ⟨i, rest, luck, hc, hf, _, he⟩
  · exact ⟨x.luck, by unfold Mach.step; rw [hc, hm]⟩
  · exact ⟨{ x.luck with fails := true }, by unfold Mach.step; rw [hc, hm]; simp⟩
  · refine ⟨luck, ?_⟩
    unfold Mach.step
    rw [hc]
    simp only [hf, he]
    simp

theorem pricedRun_run {p : Prices} : ∀ (xs : List Chance) {m m' : Mach} {t t' : Till},
    pricedRun p m t xs = some (m', t') → ∃ lucks, m.run lucks = some m' := by
  intro xs
  induction xs with
  | nil =>
    intro m m' t t' h
    simp only [pricedRun, Option.some.injEq, Prod.mk.injEq] at h
    exact ⟨[], by rw [← h.1]; rfl⟩
  | cons x xs ih =>
    intro m m' t t' h
    unfold pricedRun at h
    split at h
    · cases h
    · rename_i m1 t1 h1
      obtain ⟨luck, hl⟩ := pricedStep_step h1
      obtain ⟨lucks, hr⟩ := ih h
      exact ⟨luck :: lucks, by unfold Mach.run; rw [hl]; exact hr⟩

/-- What holds initially and is kept by every step holds after a run. -/
theorem pricedRun_inv {p : Prices} (P : Mach → Till → Prop)
    (hstep : ∀ m t x m' t', P m t → pricedStep p m t x = some (m', t') → P m' t') :
    ∀ (xs : List Chance) {m m' : Mach} {t t' : Till}, P m t → pricedRun p m t xs = some (m', t') → P m' t' := by
  intro xs
  induction xs with
  | nil =>
    intro m m' t t' hp h
    simp only [pricedRun, Option.some.injEq, Prod.mk.injEq] at h
    obtain ⟨rfl, rfl⟩ := h
    exact hp
  | cons x xs ih =>
    intro m m' t t' hp h
    unfold pricedRun at h
    split at h
    · cases h
    · rename_i m1 t1 h1
      exact ih (hstep _ _ _ _ _ hp h1) h

/-- What an instruction makes of the error handler. -/
def handlerAfter {α : Type} (f : List VInstr → α) (old : α) : VInstr → α
  | .setErrorHandler xcm => f xcm
  | _ => old
/-- What an instruction makes of the appendix. -/
def appendixAfter {α : Type} (f : List VInstr → α) (old : α) : VInstr → α
  | .setAppendix xcm => f xcm
  | _ => old

/-- The code registers after an instruction. -/
theorem effect_regs {m m' : Mach} {luck : Luck} {i : VInstr} (h : m.effect luck i = .ok m') :
    m'.code = m.code ∧ m'.handler = handlerAfter id m.handler i ∧ m'.appendix = appendixAfter id m.appendix i := by
  cases i with
  | refundSurplus =>
    simp only [Mach.effect, Tri.ok.injEq] at h
    subst h
    obtain ⟨_, _, _, h4, h5, h6, _⟩ := refund_spec m luck.refund
    exact ⟨h4, h5, h6⟩
  | _ =>
    simp only [Mach.effect] at h
    repeat' split at h
    all_goals first
      | (cases h; done)
      | (cases h; exact ⟨rfl, rfl, rfl⟩)
      | (cases h
         obtain ⟨_, _, _, h4, h5, h6, _⟩ := subsume_spec _ _
         exact ⟨h4, h5, h6⟩)

/-- Only buying and refunding touch what was paid. -/
theorem effect_paid {m m' : Mach} {luck : Luck} {i : VInstr} (hb : ∀ f l, i ≠ .buyExecution f l) (hr : i ≠ .refundSurplus)
    (h : m.effect luck i = .ok m') : m'.paid = m.paid := by
  cases i with
  | refundSurplus => exact absurd rfl hr
  | buyExecution f l => exact absurd rfl (hb f l)
  | _ =>
    simp only [Mach.effect] at h
    repeat' split at h
    all_goals first
      | (cases h; done)
      | (cases h; rfl)
      | (cases h; exact (subsume_spec _ _).2.2.1)

theorem mfailed_paid (m : Mach) : m.failed.paid = m.paid := by
  unfold Mach.failed; split <;> rfl

/-! ## What the till changes -/

theorem buy_same {p : Prices} {t t' : Till} {w : Weight} {fees : XAsset} {n : Nat} (h : t.buy p w fees = some (t', n)) :
    t'.surplus = t.surplus ∧ t'.refunded = t.refunded ∧ t'.handler = t.handler ∧ t'.appendix = t.appendix ∧
      t'.used = t.used := by
  unfold Till.buy at h
  rcases Option.or_eq_some_iff.mp h with h | ⟨_, h⟩
  · unfold Till.buyAsset at h
    repeat' split at h
    all_goals first
      | (cases h; done)
      | (simp only [Option.some.injEq, Prod.mk.injEq] at h; rw [← h.1]; exact ⟨rfl, rfl, rfl, rfl, rfl⟩)
  · unfold Till.buyRelay at h
    split at h
    · simp only [Option.some.injEq, Prod.mk.injEq] at h; rw [← h.1]; exact ⟨rfl, rfl, rfl, rfl, rfl⟩
    · cases h

theorem refundAsset_same (p : Prices) (t : Till) (w : Weight) :
    (t.refundAsset p w).1.weight = t.weight ∧ (t.refundAsset p w).1.amount = t.amount ∧
      (t.refundAsset p w).1.surplus = t.surplus ∧ (t.refundAsset p w).1.refunded = t.refunded ∧
      (t.refundAsset p w).1.handler = t.handler ∧ (t.refundAsset p w).1.appendix = t.appendix ∧
      (t.refundAsset p w).1.used = t.used := by
  unfold Till.refundAsset
  repeat' split
  all_goals exact ⟨rfl, rfl, rfl, rfl, rfl, rfl, rfl⟩

/-- A refund by cases: nothing, from the first trader, from the second. -/
theorem refund_cases (p : Prices) (t : Till) :
    ((t.refund p).1 = t ∧ (t.refund p).2 = ⟨[], 0⟩ ∧ Weight.satSub t.surplus t.refunded = Weight.zero) ∨
    (∃ x, t.refundAsset p (Weight.satSub t.surplus t.refunded) =
        ((t.refundAsset p (Weight.satSub t.surplus t.refunded)).1, some x) ∧
      (t.refund p) = ({ (t.refundAsset p (Weight.satSub t.surplus t.refunded)).1 with
          refunded := Weight.satAdd t.refunded (Weight.satSub t.surplus t.refunded) }, ⟨[x], 0⟩)) ∨
    (∃ t1 v, t.refundAsset p (Weight.satSub t.surplus t.refunded) = (t1, none) ∧
      v = Weight.min (Weight.satSub t.surplus t.refunded) t.weight ∧
      ((p.fee v ≠ 0 ∧ t.refund p =
          ({ t1 with
             weight := Weight.satSub t.weight v
             amount := t.amount - p.fee v
             refunded := Weight.satAdd t.refunded (Weight.satSub t.surplus t.refunded) },
          ⟨[(⟨1, []⟩, Nat.min (p.fee v) t.amount)], p.fee v - t.amount⟩)) ∨
       (p.fee v = 0 ∧ t.refund p = ({ t1 with weight := Weight.satSub t.weight v, amount := t.amount - p.fee v },
          ⟨[], 0⟩)))) := by
  unfold Till.refund
  dsimp only
  split
  · rename_i h; exact Or.inl ⟨rfl, rfl, h⟩
  · split
    · rename_i t1 x hx
      refine Or.inr (Or.inl ⟨x, ?_, ?_⟩)
      · rw [hx]
      · rw [hx]
    · rename_i t1 hx
      have hs := refundAsset_same p t (Weight.satSub t.surplus t.refunded)
      rw [hx] at hs
      dsimp only at hs
      refine Or.inr (Or.inr ⟨t1, _, hx, rfl, ?_⟩)
      unfold Till.refundRelay
      dsimp only
      rw [hs.1, hs.2.1]
      by_cases hz : p.fee (Weight.min (Weight.satSub t.surplus t.refunded) t.weight) = 0
      · rw [if_pos hz]
        exact Or.inr ⟨hz, rfl⟩
      · rw [if_neg hz]
        exact Or.inl ⟨hz, rfl⟩

theorem refund_same (p : Prices) (t : Till) :
    (t.refund p).1.surplus = t.surplus ∧ (t.refund p).1.handler = t.handler ∧ (t.refund p).1.appendix = t.appendix ∧
      (t.refund p).1.used = t.used := by
  have hs := refundAsset_same p t (Weight.satSub t.surplus t.refunded)
  rcases refund_cases p t with ⟨e, _, _⟩ | ⟨x, _, e⟩ | ⟨t1, v, e1, _, ⟨_, e⟩ | ⟨_, e⟩⟩
  · rw [e]; exact ⟨rfl, rfl, rfl, rfl⟩
  · rw [e]; exact ⟨hs.2.2.1, hs.2.2.2.2.1, hs.2.2.2.2.2.1, hs.2.2.2.2.2.2⟩
  · rw [e1] at hs; rw [e]; exact ⟨hs.2.2.1, hs.2.2.2.2.1, hs.2.2.2.2.2.1, hs.2.2.2.2.2.2⟩
  · rw [e1] at hs; rw [e]; exact ⟨hs.2.2.1, hs.2.2.2.2.1, hs.2.2.2.2.2.1, hs.2.2.2.2.2.2⟩

/-! ## The account of weight -/

/-- One of the two components of a weight. -/
def Component (c : Weight → Nat) : Prop := c = Weight.refTime ∨ c = Weight.proofSize

/-- What a message may use. -/
def cost (c : Weight → Nat) (msg : List VInstr) : Nat := ((flatten (msg.map VInstr.shape)).map (fun i => c i.mayUse)).sum

theorem cost_cons (c : Weight → Nat) (i : VInstr) (rest : List VInstr) :
    cost c (i :: rest) = c i.shape.mayUse + ((inside i.shape).map (fun i => c i.mayUse)).sum + cost c rest := by
  unfold cost
  simp only [List.map_cons, flatten, List.map_append, List.sum_cons, List.sum_append]
  omega

theorem messageWeight_cost {c : Weight → Nat} (hc : Component c) {xcm : List VInstr} {w : Weight}
    (h : messageWeight (xcm.map VInstr.shape) = some w) : c w = cost c xcm := by
  have := C91_sum_partial _ _ h
  rcases hc with rfl | rfl
  · exact this.1
  · exact this.2

theorem instrWeight_le {c : Weight → Nat} (hc : Component c) (i : VInstr) :
    c (instrWeight i) ≤ c i.shape.mayUse + ((inside i.shape).map (fun i => c i.mayUse)).sum := by
  unfold instrWeight
  split
  · rename_i w l h
    have := weighOne_sum _ _ _ _ h
    rcases hc with rfl | rfl
    · exact Nat.le_of_eq this.1
    · exact Nat.le_of_eq this.2
  · rcases hc with rfl | rfl <;> exact Nat.zero_le _

theorem satAdd_le {c : Weight → Nat} (hc : Component c) (v w : Weight) : c (Weight.satAdd v w) ≤ c v + c w := by
  rcases hc with rfl | rfl <;> exact Nat.min_le_right _ _

theorem remaining_le {c : Weight → Nat} (hc : Component c) (rest : List VInstr) : c (remaining rest) ≤ cost c rest := by
  induction rest with
  | nil => rcases hc with rfl | rfl <;> exact Nat.zero_le _
  | cons i rest ih =>
    rw [cost_cons, remaining]
    have h1 := satAdd_le hc (instrWeight i) (remaining rest)
    have h2 := instrWeight_le hc i
    omega

theorem zero_component {c : Weight → Nat} (hc : Component c) : c Weight.zero = 0 := by
  rcases hc with rfl | rfl <;> rfl

theorem uses_used {c : Weight → Nat} (hc : Component c) (t : Till) (w : Weight) : c (t.uses w).used = c t.used + c w := by
  rcases hc with rfl | rfl <;> rfl

/-- Used, not needed, and still to come is at most what the message weighs. -/
structure Accounted (c : Weight → Nat) (total : Nat) (m : Mach) (t : Till) : Prop where
  sum : c t.used + c t.surplus + cost c m.code + c t.handler + c t.appendix ≤ total
  handler : c t.handler = cost c m.handler
  appendix : c t.appendix = cost c m.appendix

theorem price_account {c : Weight → Nat} (hc : Component c) {p : Prices} {t t' : Till} {x : Chance} {i : VInstr} {luck : Luck}
    (h : t.price p x i = some (t', luck)) :
    c t'.used + c t'.surplus + c t'.handler + c t'.appendix ≤
        c t.used + c t.surplus + c t.handler + c t.appendix + (c i.shape.mayUse +
          ((inside i.shape).map (fun i => c i.mayUse)).sum) ∧
      c t'.handler = handlerAfter (cost c) (c t.handler) i ∧ c t'.appendix = appendixAfter (cost c) (c t.appendix) i := by
  cases i <;> simp only [Till.price] at h
  case buyExecution fees limit =>
    have hm : (VInstr.buyExecution fees limit).shape.mayUse = Generic.buyExecution := by
      simp only [VInstr.shape, Instr.mayUse, Instr.weight]
    rw [hm]
    cases limit with
    | unlimited =>
      simp only [Option.some.injEq, Prod.mk.injEq] at h
      rw [← h.1, uses_used hc]
      dsimp only [Till.uses, handlerAfter, appendixAfter]
      omega
    | limited w =>
      obtain ⟨r, hr, e⟩ := Option.map_eq_some_iff.mp h
      simp only [Prod.mk.injEq] at e
      obtain ⟨h1, h2, h3, h4, h5⟩ := buy_same (t' := r.1) (n := r.2) hr
      rw [← e.1, uses_used hc]
      dsimp only [Till.uses, handlerAfter, appendixAfter]
      rw [h1, h3, h4, h5]
      omega
  case refundSurplus =>
    simp only [Option.some.injEq, Prod.mk.injEq] at h
    have hm : VInstr.refundSurplus.shape.mayUse = Generic.refundSurplus := by
      simp only [VInstr.shape, Instr.mayUse, Instr.weight]
    obtain ⟨h1, h2, h3, h4⟩ := refund_same p t
    rw [← h.1, uses_used hc, hm]
    dsimp only [Till.uses, handlerAfter, appendixAfter]
    rw [h1, h2, h3, h4]
    omega
  case transact k w =>
    split at h
    · rename_i ha
      simp only [Option.some.injEq, Prod.mk.injEq] at h
      rw [← h.1, uses_used hc]
      dsimp only [Till.uses, handlerAfter, appendixAfter]
      have h1 := satAdd_le hc t.surplus (Weight.satSub w x.actual)
      simp only [Weight.allGte, Bool.and_eq_true, decide_eq_true_eq] at ha
      simp only [VInstr.shape, Instr.mayUse, inside, List.map_nil, List.sum_nil, Instr.weight]
      rcases hc with rfl | rfl
      · dsimp only [Weight.satSub] at *
        refine ⟨?_, trivial, trivial⟩
        omega
      · dsimp only [Weight.satSub] at *
        refine ⟨?_, trivial, trivial⟩
        omega
    · cases h
  case setErrorHandler xcm =>
    obtain ⟨w, hw, e⟩ := Option.map_eq_some_iff.mp h
    simp only [Prod.mk.injEq] at e
    have h1 := satAdd_le hc t.surplus t.handler
    have h2 := messageWeight_cost hc hw
    have hm : (VInstr.setErrorHandler xcm).shape.mayUse = Generic.setErrorHandler := by
      simp only [VInstr.shape, Instr.mayUse, Instr.weight]
    have hi : ((inside (VInstr.setErrorHandler xcm).shape).map (fun i => c i.mayUse)).sum = cost c xcm := by
      simp only [VInstr.shape, inside, cost]
    rw [← e.1, uses_used hc, hm, hi]
    dsimp only [Till.uses, handlerAfter, appendixAfter]
    omega
  case setAppendix xcm =>
    obtain ⟨w, hw, e⟩ := Option.map_eq_some_iff.mp h
    simp only [Prod.mk.injEq] at e
    have h1 := satAdd_le hc t.surplus t.appendix
    have h2 := messageWeight_cost hc hw
    have hm : (VInstr.setAppendix xcm).shape.mayUse = Generic.setAppendix := by
      simp only [VInstr.shape, Instr.mayUse, Instr.weight]
    have hi : ((inside (VInstr.setAppendix xcm).shape).map (fun i => c i.mayUse)).sum = cost c xcm := by
      simp only [VInstr.shape, inside, cost]
    rw [← e.1, uses_used hc, hm, hi]
    dsimp only [Till.uses, handlerAfter, appendixAfter]
    omega
  case plain q =>
    simp only [Option.some.injEq, Prod.mk.injEq] at h
    rw [← h.1, uses_used hc]
    have hm : (VInstr.plain q).shape.mayUse = (VInstr.plain q).weight := by
      cases q <;> simp only [VInstr.shape, VInstr.weight, Plain.shape, Instr.mayUse]
    rw [hm]
    dsimp only [Till.uses, handlerAfter, appendixAfter]
    omega
  all_goals
    simp only [Option.some.injEq, Prod.mk.injEq] at h
    rw [← h.1, uses_used hc]
    refine ⟨?_, rfl, rfl⟩
    dsimp only [Till.uses]
    simp only [VInstr.shape, VInstr.weight, Instr.mayUse, Instr.weight]
    omega

theorem accounted_step {c : Weight → Nat} (hc : Component c) {total : Nat} {p : Prices} {m m' : Mach} {t t' : Till} {x : Chance}
    (A : Accounted c total m t) (h : pricedStep p m t x = some (m', t')) : Accounted c total m' t' := by
  obtain ⟨a1, a2, a3⟩ := A
  rcases pricedStep_cases h with ⟨hcode, rfl, rfl⟩ | ⟨i, rest, hcode, rfl, rfl⟩ | ⟨i, rest, luck, hcode, _, hp, he⟩
  · have h1 := satAdd_le hc t.surplus t.handler
    have h0 : cost c m.code = 0 := by rw [hcode]; rfl
    refine ⟨?_, ?_, ?_⟩
    · dsimp only
      rw [zero_component hc]
      omega
    · dsimp only
      rw [zero_component hc]
      rfl
    · dsimp only
      rw [zero_component hc]
      rfl
  · have h1 := satAdd_le hc t.surplus (remaining rest)
    have h2 := remaining_le hc rest
    have h3 := instrWeight_le hc i
    rw [hcode, cost_cons] at a1
    unfold Till.failed Mach.failed
    have hz := zero_component hc
    have hu := uses_used hc { t with surplus := Weight.satAdd t.surplus (remaining rest) } (instrWeight i)
    cases hh : m.handler with
    | nil =>
      dsimp only [Till.uses] at hu ⊢
      rw [hh] at a2
      have he : cost c [] = 0 := rfl
      refine ⟨?_, ?_, ?_⟩
      · dsimp only at hu ⊢; omega
      · dsimp only; omega
      · dsimp only; omega
    | cons j js =>
      dsimp only [Till.uses] at hu ⊢
      rw [hh] at a2
      have he : cost c [] = 0 := rfl
      refine ⟨?_, ?_, ?_⟩
      · dsimp only at hu ⊢; omega
      · dsimp only; omega
      · dsimp only; omega
  · obtain ⟨r1, r2, r3⟩ := effect_regs he
    obtain ⟨b1, b2, b3⟩ := price_account hc hp
    rw [hcode, cost_cons] at a1
    refine ⟨?_, ?_, ?_⟩
    · rw [r1]
      dsimp only
      omega
    · rw [b2, r2]
      cases i <;> first | rfl | exact a2
    · rw [b3, r3]
      cases i <;> first | rfl | exact a3

/-! ## What was paid -/

/-- What the machine records as paid is what the traders have. -/
structure Settled (p : Prices) (m : Mach) (t : Till) : Prop where
  relay : amt m.paid ⟨1, []⟩ = t.amount
  other : ∀ l, l ≠ ⟨1, []⟩ → amt m.paid l = match t.asset with
    | none => 0
    | some (k, _, n) => if k = l then n else 0
  asset : ∀ l id n, t.asset = some (l, id, n) → l ≠ ⟨1, []⟩ ∧ payableAsset l = some id ∧ p.least id ≤ n

theorem payableAsset_relay : payableAsset ⟨1, []⟩ = none := by decide +kernel

theorem payable_accepts {l : Location} {id : AssetId} (h : payableAsset l = some id) : traderAccepts l = true := by
  unfold payableAsset at h
  split at h
  · rename_i hp
    split at h
    · rename_i i hc
      unfold traderAccepts
      rw [hc, hp]
      simp
    · cases h
  · cases h

/-- Who sells weight, for what, and at what price. -/
theorem buy_spec {p : Prices} {t t' : Till} {w : Weight} {fees : XAsset} {n : Nat} (h : t.buy p w fees = some (t', n)) :
    n ≤ fees.2 ∧ traderAccepts fees.1 = true ∧
      ((fees.1 = ⟨1, []⟩ ∧ n = p.fee w ∧
          t' = { t with weight := Weight.satAdd t.weight w, amount := t.amount + n }) ∨
       (∃ id a, t.asset = none ∧ fees.1 ≠ ⟨1, []⟩ ∧ payableAsset fees.1 = some id ∧ p.inAsset id w = some a ∧
          n = max a (p.least id) ∧ t' = { t with asset := some (fees.1, id, n) })) := by
  unfold Till.buy at h
  rcases Option.or_eq_some_iff.mp h with h | ⟨_, h⟩
  · unfold Till.buyAsset at h
    split at h
    · cases h
    · rename_i hn
      split at h
      · cases h
      · rename_i id hid
        split at h
        · cases h
        · rename_i a ha
          split at h
          · rename_i hle
            simp only [Option.some.injEq, Prod.mk.injEq] at h
            obtain ⟨rfl, rfl⟩ := h
            refine ⟨hle, payable_accepts hid, Or.inr ⟨id, a, hn, ?_, hid, ha, rfl, rfl⟩⟩
            intro e
            rw [e, payableAsset_relay] at hid
            cases hid
          · cases h
  · unfold Till.buyRelay at h
    split at h
    · rename_i hc
      simp only [Option.some.injEq, Prod.mk.injEq] at h
      obtain ⟨rfl, rfl⟩ := h
      refine ⟨hc.2, ?_, Or.inl ⟨hc.1, rfl, rfl⟩⟩
      rw [hc.1]
      rfl
    · cases h

theorem takeList_single (h : Hold) (l : Location) (n : Nat) (k : Location) :
    sumAt (takeList h [(l, n)]).1 k = (if l = k then Nat.min n (amt h l) else 0) ∧
      amt (takeList h [(l, n)]).2 k = amt h k - (if l = k then Nat.min n (amt h l) else 0) := by
  simp only [takeList]
  constructor
  · by_cases hz : Nat.min n (amt h l) = 0
    · rw [if_pos hz, hz]
      simp [sumAt]
    · rw [if_neg hz]
      simp [sumAt]
  · rw [amt_aset]
    by_cases e : k = l
    · subst e; simp
    · rw [if_neg e, if_neg (fun x => e x.symm)]
      simp

theorem min_of_le {a b : Nat} (h : a ≤ b) : Nat.min a b = a := Nat.min_eq_left h

/-- Buying takes the charge from holding. -/
theorem effect_buy {m m' : Mach} {luck : Luck} {fees : XAsset} {w : Weight} (hl : luck.charge ≤ fees.2)
    (h : m.effect luck (.buyExecution fees (.limited w)) = .ok m') :
    fees.2 ≤ amt m.holding fees.1 ∧ traderAccepts fees.1 = true ∧ m'.chain = m.chain ∧
      (∀ k, amt m'.paid k = amt m.paid k + if fees.1 = k then luck.charge else 0) ∧
      (∀ k, amt m'.holding k = amt m.holding k - if fees.1 = k then luck.charge else 0) := by
  simp only [Mach.effect] at h
  split at h
  · cases h
  · rename_i hh
    split at h
    · rename_i ha
      cases h
      have hle : luck.charge ≤ amt m.holding fees.1 := by omega
      refine ⟨by omega, ha, rfl, ?_, ?_⟩
      · intro k
        dsimp only
        rw [amt_putAll, (takeList_single m.holding fees.1 _ k).1, min_of_le hl, min_of_le hle]
      · intro k
        dsimp only
        rw [(takeList_single m.holding fees.1 _ k).2, min_of_le hl, min_of_le hle]
    · cases h

/-- What the first trader gives back it had, keeping the least balance. -/
theorem refundAsset_spec {p : Prices} {t : Till} {w : Weight}
    (hk : ∀ l id n, t.asset = some (l, id, n) → p.least id ≤ n) :
    ((t.refundAsset p w).2 = none ∧ (t.refundAsset p w).1.asset = t.asset) ∨
    ∃ l id n k, t.asset = some (l, id, n) ∧ p.least id ≤ k ∧ k ≤ n ∧ (t.refundAsset p w).1.asset = some (l, id, k) ∧
      (t.refundAsset p w).2 = (if n - k = 0 then none else some (l, n - k)) := by
  unfold Till.refundAsset
  split
  · rename_i h; exact Or.inl ⟨rfl, rfl⟩
  · rename_i l id left h
    have hle := hk l id left h
    split
    · exact Or.inl ⟨rfl, rfl⟩
    · rename_i a ha
      split
      · rename_i hlt
        refine Or.inr ⟨l, id, left, left - a, h, by omega, by omega, rfl, ?_⟩
        have : left - (left - a) = a := by omega
        rw [this]
      · exact Or.inr ⟨l, id, left, p.least id, h, Nat.le_refl _, hle, rfl, rfl⟩

/-- A refund takes what the traders say from what was paid to them. -/
theorem refund_settled {p : Prices} {m : Mach} {t : Till} (S : Settled p m t) :
    Settled p (m.refund (t.refund p).2) (t.refund p).1 := by
  obtain ⟨s1, s2, s3⟩ := S
  have hp := (refund_spec m (t.refund p).2).2.2.1
  have hk : ∀ l id n, t.asset = some (l, id, n) → p.least id ≤ n := fun l id n h => (s3 l id n h).2.2
  have hs := refundAsset_same p t (Weight.satSub t.surplus t.refunded)
  have hr := refundAsset_spec (w := Weight.satSub t.surplus t.refunded) hk
  rcases refund_cases p t with ⟨e, e2, _⟩ | ⟨x, ex, e⟩ | ⟨t1, v, e1, _, ⟨hv, e⟩ | ⟨hv, e⟩⟩
  · rw [e2] at hp ⊢
    rw [e]
    simp only [takeList] at hp
    exact ⟨by rw [hp]; exact s1, fun l hl => by rw [hp]; exact s2 l hl, s3⟩
  · rw [e] at hp ⊢
    dsimp only at hp ⊢
    rcases hr with ⟨h1, _⟩ | ⟨l, id, n, k, h1, h2, h3, h4, h5⟩
    · rw [ex] at h1; cases h1
    · obtain ⟨g1, g2, g3⟩ := s3 l id n h1
      rw [ex] at h5
      dsimp only at h5
      by_cases hz : n - k = 0
      · rw [if_pos hz] at h5; cases h5
      · rw [if_neg hz] at h5
        obtain rfl := Option.some.inj h5
        have hpl : amt m.paid l = n := by rw [s2 l g1, h1]; simp
        have hmin : Nat.min (n - k) (amt m.paid l) = n - k := min_of_le (by omega)
        refine ⟨?_, ?_, ?_⟩
        · rw [hp, (takeList_single m.paid l (n - k) _).2, if_neg g1, s1]
          dsimp only
          rw [hs.2.1]
          rfl
        · intro j hj
          rw [hp, (takeList_single m.paid l (n - k) j).2, hmin, s2 j hj, h1]
          dsimp only
          rw [h4]
          dsimp only
          by_cases hlj : l = j
          · simp only [hlj, if_true]; omega
          · simp only [hlj, if_false]
        · intro l' id' n' h'
          dsimp only at h'
          rw [h4] at h'
          simp only [Option.some.injEq, Prod.mk.injEq] at h'
          obtain ⟨rfl, rfl, rfl⟩ := h'
          exact ⟨g1, g2, h2⟩
  · rw [e] at hp ⊢
    rw [e1] at hr hs
    dsimp only at hp hr hs ⊢
    have hq : Nat.min (Nat.min (p.fee v) t.amount) (amt m.paid ⟨1, []⟩) = Nat.min (p.fee v) t.amount := by
      rw [s1]; exact min_of_le (Nat.min_le_right _ _)
    have hasset : t1.asset = t.asset := by
      rcases hr with ⟨_, h⟩ | ⟨l, id, n, k, h1, h2, h3, h4, h5⟩
      · exact h
      · have : n - k = 0 := by
          by_contra hz
          rw [if_neg hz] at h5
          cases h5
        rw [h4, h1, show k = n by omega]
    refine ⟨?_, ?_, ?_⟩
    · rw [hp, (takeList_single m.paid ⟨1, []⟩ _ _).2, if_pos rfl, hq, s1]
      dsimp only
      have : Nat.min (p.fee v) t.amount = min (p.fee v) t.amount := rfl
      omega
    · intro l hl
      rw [hp, (takeList_single m.paid ⟨1, []⟩ _ _).2, if_neg (fun x => hl x.symm), s2 l hl]
      dsimp only
      rw [hasset]
      rfl
    · intro l id n h
      dsimp only at h
      rw [hasset] at h
      exact s3 l id n h
  · rw [e] at hp ⊢
    rw [e1] at hr hs
    dsimp only at hp hr hs ⊢
    simp only [takeList] at hp
    have hasset : t1.asset = t.asset := by
      rcases hr with ⟨_, h⟩ | ⟨l, id, n, k, h1, h2, h3, h4, h5⟩
      · exact h
      · have : n - k = 0 := by
          by_contra hz
          rw [if_neg hz] at h5
          cases h5
        rw [h4, h1, show k = n by omega]
    refine ⟨?_, ?_, ?_⟩
    · rw [hp, s1]; dsimp only; omega
    · intro l hl
      rw [hp, s2 l hl]
      dsimp only
      rw [hasset]
    · intro l id n h
      dsimp only at h
      rw [hasset] at h
      exact s3 l id n h

theorem settled_same {p : Prices} {m m' : Mach} {t t' : Till} (S : Settled p m t) (h1 : m'.paid = m.paid)
    (h2 : t'.asset = t.asset) (h3 : t'.amount = t.amount) : Settled p m' t' := by
  obtain ⟨s1, s2, s3⟩ := S
  exact ⟨by rw [h1, h3]; exact s1, fun l hl => by rw [h1, h2]; exact s2 l hl, fun l id n h => s3 l id n (by rw [← h2]; exact h)⟩

theorem price_same {p : Prices} {t t' : Till} {x : Chance} {i : VInstr} {luck : Luck} (hb : ∀ f l, i ≠ .buyExecution f l)
    (hr : i ≠ .refundSurplus) (h : t.price p x i = some (t', luck)) :
    t'.asset = t.asset ∧ t'.amount = t.amount ∧ t'.weight = t.weight ∧ t'.refunded = t.refunded := by
  cases i with
  | refundSurplus => exact absurd rfl hr
  | buyExecution f l => exact absurd rfl (hb f l)
  | transact k w =>
    simp only [Till.price] at h
    split at h
    · simp only [Option.some.injEq, Prod.mk.injEq] at h; rw [← h.1]; exact ⟨rfl, rfl, rfl, rfl⟩
    · cases h
  | setErrorHandler xcm =>
    simp only [Till.price] at h
    obtain ⟨w, _, e⟩ := Option.map_eq_some_iff.mp h
    simp only [Prod.mk.injEq] at e
    rw [← e.1]; exact ⟨rfl, rfl, rfl, rfl⟩
  | setAppendix xcm =>
    simp only [Till.price] at h
    obtain ⟨w, _, e⟩ := Option.map_eq_some_iff.mp h
    simp only [Prod.mk.injEq] at e
    rw [← e.1]; exact ⟨rfl, rfl, rfl, rfl⟩
  | _ =>
    simp only [Till.price, Option.some.injEq, Prod.mk.injEq] at h
    rw [← h.1]; exact ⟨rfl, rfl, rfl, rfl⟩

theorem failed_same (t : Till) (hd : List VInstr) (i : VInstr) (rest : List VInstr) :
    (t.failed hd i rest).asset = t.asset ∧ (t.failed hd i rest).amount = t.amount ∧
      (t.failed hd i rest).weight = t.weight ∧ (t.failed hd i rest).refunded = t.refunded := by
  unfold Till.failed
  dsimp only
  split <;> exact ⟨rfl, rfl, rfl, rfl⟩

theorem settled_step {p : Prices} {m m' : Mach} {t t' : Till} {x : Chance} (S : Settled p m t)
    (h : pricedStep p m t x = some (m', t')) : Settled p m' t' := by
  rcases pricedStep_cases h with ⟨hcode, rfl, rfl⟩ | ⟨i, rest, hcode, rfl, rfl⟩ | ⟨i, rest, luck, hcode, _, hp, he⟩
  · exact settled_same S rfl rfl rfl
  · have := failed_same t m.handler i rest
    exact settled_same S (mfailed_paid m) this.1 this.2.1
  · by_cases hr : i = .refundSurplus
    · subst hr
      simp only [Till.price, Option.some.injEq, Prod.mk.injEq] at hp
      simp only [Mach.effect, Tri.ok.injEq] at he
      rw [← hp.2] at he
      dsimp only at he
      have := refund_settled (m := { m with code := rest }) (settled_same S rfl rfl rfl)
      rw [he] at this
      rw [← hp.1]
      exact settled_same this rfl rfl rfl
    · by_cases hb : ∀ f l, i ≠ .buyExecution f l
      · have hs := price_same hb hr hp
        exact settled_same S (effect_paid (m := { m with code := rest }) hb hr he) hs.1 hs.2.1
      · have hb : ∃ f l, i = .buyExecution f l := by
          by_contra hx
          exact hb fun f l e => hx ⟨f, l, e⟩
        obtain ⟨fees, limit, rfl⟩ := hb
        cases limit with
        | unlimited =>
          simp only [Till.price, Option.some.injEq, Prod.mk.injEq] at hp
          simp only [Mach.effect, Tri.ok.injEq] at he
          rw [← hp.1, ← he]
          exact settled_same S rfl rfl rfl
        | limited w =>
          simp only [Till.price] at hp
          obtain ⟨⟨t1, n⟩, hbuy, e⟩ := Option.map_eq_some_iff.mp hp
          simp only [Prod.mk.injEq] at e
          obtain ⟨e1, e2⟩ := e
          obtain ⟨b1, b2, b3⟩ := buy_spec hbuy
          rw [← e2] at he
          obtain ⟨_, _, _, g4, _⟩ := effect_buy (luck := { x.luck with charge := n }) b1 he
          dsimp only at g4
          obtain ⟨s1, s2, s3⟩ := S
          rw [← e1]
          rcases b3 with ⟨f1, f2, rfl⟩ | ⟨id, a, f1, f2, f3, f4, f5, rfl⟩
          · refine ⟨?_, ?_, s3⟩
            · rw [g4, if_pos f1, s1]; rfl
            · intro l hl
              rw [g4, f1, if_neg (fun x => hl x.symm), s2 l hl]
              rfl
          · refine ⟨?_, ?_, ?_⟩
            · rw [g4, if_neg f2, s1]; rfl
            · intro l hl
              rw [g4, s2 l hl, f1]
              dsimp only [Till.uses, handlerAfter, appendixAfter]
              omega
            · intro l id' n' h'
              simp only [Till.uses, Option.some.injEq, Prod.mk.injEq] at h'
              obtain ⟨rfl, rfl, rfl⟩ := h'
              exact ⟨f2, f3, by omega⟩

theorem start_settled (p : Prices) (c : Chain) (sender : Location) (msg : List VInstr) :
    Settled p (Mach.start c sender msg) Till.start :=
  ⟨rfl, fun _ _ => rfl, fun _ _ _ h => by cases h⟩

end Verif.Xcm
