import Verif.Runtime.Vesting

/-!
# What is granted by vested transfers stays with the account until it is released

Whatever the account, others and root do in the meantime.
-/

namespace Verif.Runtime

open Verif Verif.Accounts

/-! ## Specification -/

/-- What of a grant is not released yet in block `n`: `perBlock` is released in every block from `start` on. Specification
only, no code behind it (outside /repo). -/
def Sched.owed (g : Sched) (n : Nat) : Nat := g.locked - (n - g.start) * g.perBlock

/-- What of several grants is not released yet. Specification only, no code behind it (outside /repo). -/
def owedAll (l : List Sched) (n : Nat) : Nat := (l.map fun g => g.owed n).sum

/-- What happens to vesting accounts, with the grants each account got from others since root last took a schedule from it.
Specification only, no code behind it (outside /repo). -/
inductive VStep (cents : Nat) : VSt → (AccountId → List Sched) → VSt → (AccountId → List Sched) → Prop
  /-- `vested_transfer` or `force_vested_transfer` from another account. -/
  | grant {s s' : VSt} {G : AccountId → List Sched} (src dst : AccountId) (x : Sched) (hne : src ≠ dst)
      (h : s.vestedTransfer cents src dst x = some s') :
      VStep cents s G s' (fun a => if a = dst then x :: G a else G a)
  /-- The same from the account itself: no money moves. -/
  | own {s s' : VSt} {G : AccountId → List Sched} (w : AccountId) (x : Sched)
      (h : s.vestedTransfer cents w w x = some s') : VStep cents s G s' G
  /-- `vest` and `vest_other`. -/
  | vest {s : VSt} {G : AccountId → List Sched} (w : AccountId) (a : VAcct) (h : (s.acct w).vest s.now = some a) :
      VStep cents s G (s.set w a) G
  /-- `merge_schedules`. -/
  | merge {s : VSt} {G : AccountId → List Sched} (w : AccountId) (i j : Nat) (a : VAcct)
      (h : (s.acct w).merge s.now i j = some a) : VStep cents s G (s.set w a) G
  /-- `force_remove_vesting_schedule`, by root. -/
  | remove {s : VSt} {G : AccountId → List Sched} (w : AccountId) (i : Nat) (a : VAcct)
      (h : (s.acct w).removeSched s.now i = some a) : VStep cents s G (s.set w a) (fun x => if x = w then [] else G x)
  /-- A transfer. -/
  | transfer {s s' : VSt} {G : AccountId → List Sched} (src dst : AccountId) (n : Nat)
      (h : s.transfer src dst n = some s') : VStep cents s G s' G
  /-- A fee, or anything else that leaves without arriving anywhere here. -/
  | pay {s : VSt} {G : AccountId → List Sched} (w : AccountId) (n : Nat) (a : VAcct) (h : (s.acct w).withdraw n = some a) :
      VStep cents s G (s.set w a) G
  /-- Something comes in from elsewhere. -/
  | receive {s : VSt} {G : AccountId → List Sched} (w : AccountId) (n : Nat) :
      VStep cents s G (s.set w { s.acct w with free := (s.acct w).free + n }) G
  | reserve {s : VSt} {G : AccountId → List Sched} (w : AccountId) (n : Nat) (a : VAcct)
      (h : (s.acct w).reserve n = some a) : VStep cents s G (s.set w a) G
  | hold {s : VSt} {G : AccountId → List Sched} (w : AccountId) (n : Nat) (a : VAcct)
      (h : (s.acct w).hold n = some a) : VStep cents s G (s.set w a) G
  | unreserve {s : VSt} {G : AccountId → List Sched} (w : AccountId) (n : Nat) :
      VStep cents s G (s.set w ((s.acct w).unreserve n)) G
  | take {s : VSt} {G : AccountId → List Sched} (w : AccountId) (n : Nat) :
      VStep cents s G (s.set w ((s.acct w).take n)) G
  /-- Other locks and freezes come and go. -/
  | other {s : VSt} {G : AccountId → List Sched} (w : AccountId) (n : Nat) :
      VStep cents s G (s.set w { s.acct w with other := n }) G
  | time {s : VSt} {G : AccountId → List Sched} (n : Nat) : VStep cents s G { s with now := s.now + n } G

/-- Histories from a chain on which nothing vests. Specification only, no code behind it (outside /repo). -/
inductive VReach (cents : Nat) : VSt → (AccountId → List Sched) → Prop
  | start (s : VSt) (h : ∀ w, (s.acct w).scheds = [] ∧ (s.acct w).lock = 0) : VReach cents s (fun _ => [])
  | step {s s' : VSt} {G G' : AccountId → List Sched} (h : VReach cents s G) (st : VStep cents s G s' G') :
      VReach cents s' G'

/-! ## Lemmas -/

/-- What of the stored schedules stays locked in block `n`. Specification only, no code behind it (outside /repo). -/
def lockedAll (l : List Sched) (n : Nat) : Nat := (l.map fun s => s.lockedAt n).sum

theorem Sched.rate_pos (s : Sched) : 1 ≤ s.rate := by unfold Sched.rate; omega

theorem lockedAt_anti (s : Sched) {m n : Nat} (h : m ≤ n) : s.lockedAt n ≤ s.lockedAt m := by
  unfold Sched.lockedAt
  have : (m - s.start) * s.rate ≤ (n - s.start) * s.rate := Nat.mul_le_mul_right _ (by omega)
  omega

theorem lockedAt_le (s : Sched) (n : Nat) : s.lockedAt n ≤ s.locked := by unfold Sched.lockedAt; omega

theorem lockedAt_ending (s : Sched) {n : Nat} (h : s.ending ≤ n) : s.lockedAt n = 0 := by
  unfold Sched.ending at h
  unfold Sched.lockedAt
  have hr := s.rate_pos
  suffices s.locked ≤ (n - s.start) * s.rate by omega
  split at h
  · have : 1 * s.rate ≤ (n - s.start) * s.rate := Nat.mul_le_mul_right _ (by omega)
    omega
  · have hd := Nat.div_add_mod s.locked s.rate
    have hm := Nat.mod_lt s.locked hr
    split at h
    · have h1 : s.locked / s.rate * s.rate ≤ (n - s.start) * s.rate := Nat.mul_le_mul_right _ (by omega)
      rw [Nat.mul_comm] at hd
      omega
    · have h1 : (s.locked / s.rate + 1) * s.rate ≤ (n - s.start) * s.rate := Nat.mul_le_mul_right _ (by omega)
      rw [Nat.add_mul, Nat.mul_comm] at h1
      omega

theorem start_lt_ending (s : Sched) : s.start < s.ending := by
  unfold Sched.ending
  have hr := s.rate_pos
  split
  · omega
  · rename_i h1
    have : 1 ≤ s.locked / s.rate := (Nat.le_div_iff_mul_le hr).2 (by omega)
    omega

theorem lockedAt_later (s : Sched) {m n : Nat} (h1 : s.start ≤ m) (h2 : m ≤ n) :
    s.lockedAt n = s.lockedAt m - (n - m) * s.rate := by
  unfold Sched.lockedAt
  have : (n - s.start) * s.rate = (m - s.start) * s.rate + (n - m) * s.rate := by
    rw [← Nat.add_mul]; congr 1; omega
  omega

/-- A convex release lies under the straight line. -/
theorem chord (a p k D : Nat) (hD : a ≤ D * p) (hk : k ≤ D) : D * (a - k * p) ≤ a * (D - k) := by
  obtain ⟨e, rfl⟩ := Nat.exists_eq_add_of_le hk
  rcases Nat.le_total a (k * p) with h | h
  · simp [Nat.sub_eq_zero_of_le h]
  · obtain ⟨b, rfl⟩ := Nat.exists_eq_add_of_le h
    have h1 : k * p + b - k * p = b := by omega
    have h2 : k + e - k = e := by omega
    rw [h1, h2]
    have hb : b ≤ e * p := by
      rw [Nat.add_mul] at hD; omega
    have : k * b ≤ k * (e * p) := Nat.mul_le_mul_left _ hb
    calc (k + e) * b = k * b + e * b := Nat.add_mul ..
      _ ≤ k * (e * p) + e * b := by omega
      _ = (k * p + b) * e := by rw [Nat.add_mul]; congr 1 <;> [skip; exact Nat.mul_comm _ _]; rw [Nat.mul_assoc, Nat.mul_comm e p]

/-- Merging never releases anything early. -/
theorem merge_covers (now : Nat) (a b : Sched) {m : Nat} (h : now ≤ m) :
    a.lockedAt m + b.lockedAt m ≤ match mergeInfo now a b with | some z => z.lockedAt m | none => 0 := by
  unfold mergeInfo
  by_cases ha : a.ending ≤ now
  · have ha0 := lockedAt_ending a (Nat.le_trans ha h)
    by_cases hb : b.ending ≤ now
    · have hb0 := lockedAt_ending b (Nat.le_trans hb h)
      simp [ha, hb, ha0, hb0]
    · simp [ha, hb, ha0]
  · by_cases hb : b.ending ≤ now
    · have hb0 := lockedAt_ending b (Nat.le_trans hb h)
      simp [ha, hb, hb0]
    · simp only [ha, hb, decide_false]
      generalize hS : max (max now a.start) b.start = S
      generalize hL : a.lockedAt now + b.lockedAt now = L
      have hSn : now ≤ S := by omega
      have haS := lockedAt_anti a hSn
      have hbS := lockedAt_anti b hSn
      rcases Nat.le_total m S with hm | hm
      · have h1 := lockedAt_anti a h
        have h2 := lockedAt_anti b h
        have hz : m - S = 0 := by omega
        show _ ≤ L - (m - S) * _
        rw [hz, Nat.zero_mul]
        omega
      · -- after the start of the merged schedule
        obtain ⟨k, rfl⟩ := Nat.exists_eq_add_of_le hm
        have h1 := lockedAt_later a (m := S) (n := S + k) (by omega) (by omega)
        have h2 := lockedAt_later b (m := S) (n := S + k) (by omega) (by omega)
        have hk : S + k - S = k := by omega
        rw [hk] at h1 h2
        generalize hD : max (max a.ending b.ending - S) 1 = D
        show a.lockedAt (S + k) + b.lockedAt (S + k) ≤ L - (S + k - S) * max (max (L / D) 1) 1
        rw [hk]
        by_cases hkD : D ≤ k
        · have e1 : a.ending ≤ S + k := by omega
          have e2 : b.ending ≤ S + k := by omega
          rw [lockedAt_ending a e1, lockedAt_ending b e2]; omega
        · rw [h1, h2]
          have hD1 : 1 ≤ D := by omega
          by_cases hLD : L / D = 0
          · have hp := a.rate_pos
            have hq := b.rate_pos
            have := Nat.mul_le_mul_left k hp
            have := Nat.mul_le_mul_left k hq
            have h01 : max (max (L / D) 1) 1 = 1 := by omega
            rw [h01]
            omega
          · have hq : 1 ≤ L / D := Nat.pos_of_ne_zero hLD
            rw [Nat.max_eq_left hq, Nat.max_eq_left hq]
            -- both schedules are over within `D` blocks
            have ga : a.lockedAt S ≤ D * a.rate := by
              have := lockedAt_later a (m := S) (n := S + D) (by omega) (by omega)
              rw [lockedAt_ending a (by omega)] at this
              have e : S + D - S = D := by omega
              rw [e] at this
              omega
            have gb : b.lockedAt S ≤ D * b.rate := by
              have := lockedAt_later b (m := S) (n := S + D) (by omega) (by omega)
              rw [lockedAt_ending b (by omega)] at this
              have e : S + D - S = D := by omega
              rw [e] at this
              omega
            have ca := chord _ _ k D ga (by omega)
            have cb := chord _ _ k D gb (by omega)
            have hl : D * (L / D) ≤ L := Nat.mul_div_le L D
            refine Nat.le_of_mul_le_mul_left (c := D) ?_ hD1
            have hr : L * (D - k) ≤ D * (L - k * (L / D)) := by
              rw [Nat.mul_sub, Nat.mul_sub]
              have : D * (k * (L / D)) ≤ L * k := by
                calc D * (k * (L / D)) = D * (L / D) * k := by rw [Nat.mul_comm k, Nat.mul_assoc]
                  _ ≤ L * k := Nat.mul_le_mul_right _ hl
              rw [Nat.mul_comm L D]
              omega
            refine Nat.le_trans ?_ hr
            rw [Nat.mul_add]
            have hs : a.lockedAt S + b.lockedAt S ≤ L := by omega
            have := Nat.mul_le_mul_right (D - k) hs
            rw [Nat.add_mul] at this
            omega

theorem sum_eraseIdx (f : Sched → Nat) : ∀ (l : List Sched) (i : Nat) (x : Sched), l[i]? = some x →
    ((l.eraseIdx i).map f).sum + f x = (l.map f).sum
  | [], i, x, h => by simp at h
  | y :: l, 0, x, h => by
    simp only [List.getElem?_cons_zero, Option.some.injEq] at h
    subst h
    simp only [List.eraseIdx_cons_zero, List.map_cons, List.sum_cons]
    omega
  | y :: l, i + 1, x, h => by
    simp only [List.getElem?_cons_succ] at h
    have := sum_eraseIdx f l i x h
    simp only [List.eraseIdx_cons_succ, List.map_cons, List.sum_cons]
    omega

theorem sum_erase_two (f : Sched → Nat) (l : List Sched) {i j : Nat} {x y : Sched} (hij : i ≠ j)
    (hx : l[i]? = some x) (hy : l[j]? = some y) :
    (((l.eraseIdx (max i j)).eraseIdx (min i j)).map f).sum + (f x + f y) = (l.map f).sum := by
  rcases Nat.lt_or_gt_of_ne hij with h | h
  · have h1 : max i j = j := by omega
    have h2 : min i j = i := by omega
    rw [h1, h2]
    have e1 := sum_eraseIdx f l j y hy
    have e2 := sum_eraseIdx f (l.eraseIdx j) i x (by rw [List.getElem?_eraseIdx_of_lt h]; exact hx)
    omega
  · have h1 : max i j = i := by omega
    have h2 : min i j = j := by omega
    rw [h1, h2]
    have e1 := sum_eraseIdx f l i x hx
    have e2 := sum_eraseIdx f (l.eraseIdx i) j y (by rw [List.getElem?_eraseIdx_of_lt h]; exact hy)
    omega

/-- The schedules that are dropped have nothing left, now or later. -/
theorem report_later (now : Nat) (l : List Sched) {m : Nat} (h : now ≤ m) :
    lockedAll (report now l).1 m = lockedAll l m := by
  unfold lockedAll report
  induction l with
  | nil => rfl
  | cons s l ih =>
    by_cases hs : s.lockedAt now = 0
    · have := lockedAt_anti s h
      simp only [List.filter_cons, hs, ne_eq, not_true_eq_false, decide_false, Bool.false_eq_true, if_false, List.map_cons,
        List.sum_cons] at ih ⊢
      omega
    · simp only [List.filter_cons, hs, ne_eq, not_false_eq_true, decide_true, if_true, List.map_cons,
        List.sum_cons] at ih ⊢
      omega

theorem report_lock (now : Nat) (l : List Sched) : (report now l).2 = lockedAll l now := by
  rw [← report_later now l (Nat.le_refl now)]; rfl

theorem lockedAll_append (l l' : List Sched) (n : Nat) : lockedAll (l ++ l') n = lockedAll l n + lockedAll l' n := by
  unfold lockedAll; rw [List.map_append, List.sum_append]

theorem lockedAll_anti (l : List Sched) {m n : Nat} (h : m ≤ n) : lockedAll l n ≤ lockedAll l m := by
  unfold lockedAll
  induction l with
  | nil => exact Nat.le_refl _
  | cons s l ih =>
    have := lockedAt_anti s h
    simp only [List.map_cons, List.sum_cons]
    omega

theorem owed_eq (x : Sched) (h : x.valid = true) (n : Nat) : x.owed n = x.lockedAt n := by
  unfold Sched.valid at h
  simp only [Bool.and_eq_true, decide_eq_true_eq] at h
  have : x.rate = x.perBlock := by unfold Sched.rate; omega
  unfold Sched.owed Sched.lockedAt
  rw [this]

theorem owedAll_anti (l : List Sched) {m n : Nat} (h : m ≤ n) : owedAll l n ≤ owedAll l m := by
  unfold owedAll
  induction l with
  | nil => exact Nat.le_refl _
  | cons s l ih =>
    have : s.owed n ≤ s.owed m := by
      unfold Sched.owed
      have : (m - s.start) * s.perBlock ≤ (n - s.start) * s.perBlock := Nat.mul_le_mul_right _ (by omega)
      omega
    simp only [List.map_cons, List.sum_cons]
    omega

/-- What is kept for one account. -/
structure AcctOk (now : Nat) (a : VAcct) (G : List Sched) : Prop where
  lock : lockedAll a.scheds now ≤ a.lock
  cover : ∀ m, now ≤ m → owedAll G m ≤ lockedAll a.scheds m
  backed : owedAll G now ≤ a.free + a.reserved + a.taken
  few : a.scheds.length ≤ maxSchedules

theorem report_len (now : Nat) (l : List Sched) : (report now l).1.length ≤ l.length := List.length_filter_le _ _

theorem withdraw_ok {now n : Nat} {a a' : VAcct} {G : List Sched} (h : AcctOk now a G) (hw : a.withdraw n = some a') :
    AcctOk now a' G := by
  unfold VAcct.withdraw at hw
  split at hw
  · rename_i hn
    cases hw
    have h1 := h.lock
    have h2 := h.cover now (Nat.le_refl _)
    have h3 := h.backed
    refine ⟨h.lock, h.cover, ?_, h.few⟩
    unfold VAcct.reducible VAcct.frozen at hn
    simp only
    omega
  · cases hw

theorem addSched_ok {now n : Nat} {a a' : VAcct} {G : List Sched} {x : Sched} (hv : x.valid = true)
    (h : AcctOk now a G) (hn : x.locked ≤ n) (ha : ({ a with free := a.free + n } : VAcct).addSched now x = some a') :
    AcctOk now a' (x :: G) := by
  unfold VAcct.addSched at ha
  split at ha
  · rename_i hlen
    cases ha
    have h3 := h.backed
    refine ⟨?_, ?_, ?_, ?_⟩
    · simp only [VAcct.write]
      rw [report_later now _ (Nat.le_refl _), report_lock]
    · intro m hm
      simp only [VAcct.write]
      rw [report_later now _ hm, lockedAll_append]
      have := h.cover m hm
      have hx := owed_eq x hv m
      simp only [owedAll, lockedAll, List.map_cons, List.sum_cons, List.map_nil, List.sum_nil] at *
      omega
    · simp only [VAcct.write, owedAll, List.map_cons, List.sum_cons] at *
      have : x.owed now ≤ x.locked := by unfold Sched.owed; omega
      omega
    · simp only [VAcct.write]
      have := report_len now (a.scheds ++ [x])
      simp only [List.length_append, List.length_singleton] at this hlen
      omega
  · cases ha

theorem addSched_own_ok {now : Nat} {a a' : VAcct} {G : List Sched} {x : Sched}
    (h : AcctOk now a G) (ha : a.addSched now x = some a') : AcctOk now a' G := by
  unfold VAcct.addSched at ha
  split at ha
  · rename_i hlen
    cases ha
    refine ⟨?_, ?_, h.backed, ?_⟩
    · simp only [VAcct.write]
      rw [report_later now _ (Nat.le_refl _), report_lock]
    · intro m hm
      simp only [VAcct.write]
      rw [report_later now _ hm, lockedAll_append]
      have := h.cover m hm
      omega
    · simp only [VAcct.write]
      have := report_len now (a.scheds ++ [x])
      simp only [List.length_append, List.length_singleton] at this
      omega
  · cases ha

theorem vest_ok {now : Nat} {a a' : VAcct} {G : List Sched} (h : AcctOk now a G) (ha : a.vest now = some a') :
    AcctOk now a' G := by
  unfold VAcct.vest at ha
  split at ha
  · cases ha
  · cases ha
    refine ⟨?_, ?_, h.backed, Nat.le_trans (report_len _ _) h.few⟩
    · simp only [VAcct.write]
      rw [report_later now _ (Nat.le_refl _), report_lock]
    · intro m hm
      simp only [VAcct.write]
      rw [report_later now _ hm]
      exact h.cover m hm

theorem remove_ok {now i : Nat} {a a' : VAcct} {G : List Sched} (h : AcctOk now a G)
    (ha : a.removeSched now i = some a') : AcctOk now a' [] := by
  unfold VAcct.removeSched at ha
  split at ha
  · cases ha
    refine ⟨?_, fun m _ => by simp [owedAll], by simp [owedAll], ?_⟩
    · simp only [VAcct.write]
      rw [report_later now _ (Nat.le_refl _), report_lock]
    · simp only [VAcct.write]
      have h1 := report_len now (a.scheds.eraseIdx i)
      have h2 := List.length_eraseIdx_le a.scheds i
      have := h.few
      omega
  · cases ha

theorem merge_ok {now i j : Nat} {a a' : VAcct} {G : List Sched} (h : AcctOk now a G)
    (ha : a.merge now i j = some a') : AcctOk now a' G := by
  unfold VAcct.merge at ha
  split at ha
  · cases ha; exact h
  · rename_i hij
    split at ha
    · rename_i x y hx hy
      have hlen : (report now ((a.scheds.eraseIdx (max i j)).eraseIdx (min i j))).1.length + 2 ≤ a.scheds.length := by
        have h1 := report_len now ((a.scheds.eraseIdx (max i j)).eraseIdx (min i j))
        have hi := (List.getElem?_eq_some_iff.1 hx).1
        have hj := (List.getElem?_eq_some_iff.1 hy).1
        rw [List.length_eraseIdx_of_lt (by rw [List.length_eraseIdx_of_lt (by omega)]; omega),
          List.length_eraseIdx_of_lt (by omega)] at h1
        omega
      have hfew := h.few
      have hsum : ∀ m, lockedAll ((a.scheds.eraseIdx (max i j)).eraseIdx (min i j)) m + (x.lockedAt m + y.lockedAt m)
          = lockedAll a.scheds m := fun m => sum_erase_two (fun s => s.lockedAt m) a.scheds hij hx hy
      have hcov := fun m (hm : now ≤ m) => merge_covers now x y hm
      dsimp only at ha
      cases hz : mergeInfo now x y with
      | some z =>
        rw [hz] at ha hcov
        cases ha
        refine ⟨?_, ?_, h.backed, ?_⟩
        · simp only [VAcct.write]
          rw [lockedAll_append, report_later now _ (Nat.le_refl _), report_lock]
          simp [lockedAll]
        · intro m hm
          simp only [VAcct.write]
          rw [lockedAll_append, report_later now _ hm]
          have h1 := h.cover m hm
          have h2 := hsum m
          have h3 := hcov m hm
          simp only [lockedAll, List.map_cons, List.sum_cons, List.map_nil, List.sum_nil] at *
          omega
        · simp only [VAcct.write, List.length_append, List.length_singleton]
          omega
      | none =>
        rw [hz] at ha hcov
        cases ha
        refine ⟨?_, ?_, h.backed, ?_⟩
        · simp only [VAcct.write]
          rw [report_later now _ (Nat.le_refl _), report_lock]
        · intro m hm
          simp only [VAcct.write]
          rw [report_later now _ hm]
          have h1 := h.cover m hm
          have h2 := hsum m
          have h3 := hcov m hm
          dsimp only at h3
          omega
        · simp only [VAcct.write]
          omega
    · cases ha

theorem set_ok {s : VSt} {G G' : AccountId → List Sched} (h : ∀ w, AcctOk s.now (s.acct w) (G w)) (w : AccountId) (a : VAcct)
    (ha : AcctOk s.now a (G' w)) (hG : ∀ x, x ≠ w → G' x = G x) :
    ∀ x, AcctOk (s.set w a).now ((s.set w a).acct x) (G' x) := by
  intro x
  by_cases hx : x = w
  · subst hx; simpa [VSt.set] using ha
  · simp only [VSt.set, if_neg hx, hG x hx]; exact h x

theorem transfer_ok {s s' : VSt} {G : AccountId → List Sched} (h : ∀ w, AcctOk s.now (s.acct w) (G w)) {src dst : AccountId}
    {n : Nat} (ht : s.transfer src dst n = some s') : s'.now = s.now ∧ ∀ w, AcctOk s.now (s'.acct w) (G w) := by
  unfold VSt.transfer at ht
  split at ht
  · cases ht; exact ⟨rfl, h⟩
  · split at ht
    · cases ht
    · rename_i a ha
      cases ht
      refine ⟨rfl, ?_⟩
      refine set_ok (s := s.set src a) (G := G) (set_ok h src a (withdraw_ok (h src) ha) (fun _ _ => rfl)) dst _ ?_
        (fun _ _ => rfl)
      have hd := h dst
      refine ⟨hd.lock, hd.cover, ?_, hd.few⟩
      have := hd.backed
      simp only [VSt.set]
      omega

theorem vstep_ok {cents : Nat} {s s' : VSt} {G G' : AccountId → List Sched} (h : ∀ w, AcctOk s.now (s.acct w) (G w))
    (st : VStep cents s G s' G') : ∀ w, AcctOk s'.now (s'.acct w) (G' w) := by
  cases st with
  | grant src dst x hne ht =>
    unfold VSt.vestedTransfer at ht
    split at ht
    · cases ht
    · rename_i hc
      have hv : x.valid = true := by
        by_contra hv
        exact hc (.inr (.inl (by simpa using hv)))
      split at ht
      · cases ht
      · rename_i s1 h1
        split at ht
        · cases ht
        · rename_i a ha
          cases ht
          have hok := transfer_ok h h1
          refine set_ok (s := s1) (G := G) (by rw [hok.1]; exact hok.2) dst a ?_ (fun y hy => if_neg hy)
          rw [hok.1]
          simp only [if_true]
          -- the account that gets the funds
          unfold VSt.transfer at h1
          rw [if_neg hne] at h1
          split at h1
          · cases h1
          · cases h1
            simp only [VSt.set, if_true] at ha
            exact addSched_ok hv (h dst) (Nat.le_refl _) ha
  | own w x ht =>
    unfold VSt.vestedTransfer at ht
    split at ht
    · cases ht
    · split at ht
      · cases ht
      · rename_i s1 h1
        split at ht
        · cases ht
        · rename_i a ha
          cases ht
          unfold VSt.transfer at h1
          rw [if_pos rfl] at h1
          cases h1
          exact set_ok h w a (addSched_own_ok (h w) ha) (fun _ _ => rfl)
  | vest w a ha => exact set_ok h w a (vest_ok (h w) ha) (fun _ _ => rfl)
  | merge w i j a ha => exact set_ok h w a (merge_ok (h w) ha) (fun _ _ => rfl)
  | remove w i a ha =>
    exact set_ok (G' := fun x => if x = w then [] else G x) h w a (by simpa using remove_ok (h w) ha) (fun y hy => if_neg hy)
  | transfer src dst n ht => have := transfer_ok h ht; rw [this.1]; exact this.2
  | pay w n a ha => exact set_ok h w a (withdraw_ok (h w) ha) (fun _ _ => rfl)
  | receive w n =>
    refine set_ok h w _ ?_ (fun _ _ => rfl)
    have hw := h w
    have := hw.backed
    exact ⟨hw.lock, hw.cover, by simp only; omega, hw.few⟩
  | reserve w n a ha =>
    refine set_ok h w _ ?_ (fun _ _ => rfl)
    have hw := h w
    have := hw.backed
    unfold VAcct.reserve at ha
    split at ha
    · cases ha; exact ⟨hw.lock, hw.cover, by simp only; omega, hw.few⟩
    · cases ha
  | hold w n a ha =>
    refine set_ok h w _ ?_ (fun _ _ => rfl)
    have hw := h w
    have := hw.backed
    unfold VAcct.hold at ha
    split at ha
    · cases ha; exact ⟨hw.lock, hw.cover, by simp only; omega, hw.few⟩
    · cases ha
  | unreserve w n =>
    refine set_ok h w _ ?_ (fun _ _ => rfl)
    have hw := h w
    have := hw.backed
    exact ⟨hw.lock, hw.cover, by simp only [VAcct.unreserve]; omega, hw.few⟩
  | take w n =>
    refine set_ok h w _ ?_ (fun _ _ => rfl)
    have hw := h w
    have := hw.backed
    exact ⟨hw.lock, hw.cover, by simp only [VAcct.take]; omega, hw.few⟩
  | other w n =>
    refine set_ok h w _ ?_ (fun _ _ => rfl)
    have hw := h w
    exact ⟨hw.lock, hw.cover, hw.backed, hw.few⟩
  | time n =>
    intro w
    have hw := h w
    have h1 := hw.lock
    have h2 := lockedAll_anti (s.acct w).scheds (m := s.now) (n := s.now + n) (by omega)
    have h3 := owedAll_anti (G w) (m := s.now) (n := s.now + n) (by omega)
    have h4 := hw.backed
    exact ⟨by simp only; omega, fun m hm => hw.cover m (by simp only at hm; omega), by simp only; omega, hw.few⟩

theorem vreach_ok {cents : Nat} {s : VSt} {G : AccountId → List Sched} (h : VReach cents s G) :
    ∀ w, AcctOk s.now (s.acct w) (G w) := by
  induction h with
  | start s h =>
    intro w
    have := h w
    exact ⟨by simp [this.1, lockedAll], fun m _ => by simp [owedAll], by simp [owedAll], by simp [this.1]⟩
  | step h st ih => exact vstep_ok ih st

/-! ## C149: what is granted by vested transfers stays until it is released -/

/-- Whatever happens on the chain, an account keeps everything of its grants that is not released yet: what is free and what is
reserved or held there, with what was taken from its reserves or holds (by slashing or by paying from a hold), is at least the
sum of the unreleased parts. -/
theorem C149_kept {cents : Nat} {s : VSt} {G : AccountId → List Sched} (h : VReach cents s G) (w : AccountId) :
    ((G w).map fun g => g.locked - (s.now - g.start) * g.perBlock).sum
      ≤ (s.acct w).free + (s.acct w).reserved + (s.acct w).taken :=
  (vreach_ok h w).backed

/-- What leaves an account by a transfer or a fee leaves everything unreleased behind, in the account itself: nothing that was
taken before is counted. -/
theorem C149_leaves {cents : Nat} {s : VSt} {G : AccountId → List Sched} (h : VReach cents s G) (w : AccountId) {n : Nat}
    (hn : 0 < n) {a : VAcct} (hp : (s.acct w).withdraw n = some a) :
    ((G w).map fun g => g.locked - (s.now - g.start) * g.perBlock).sum ≤ a.free + a.reserved := by
  have ok := vreach_ok h w
  have h1 := ok.lock
  have h2 := ok.cover s.now (Nat.le_refl _)
  unfold VAcct.withdraw at hp
  split at hp
  · rename_i hr
    cases hp
    unfold VAcct.reducible VAcct.frozen at hr
    show owedAll (G w) s.now ≤ _
    simp only
    omega
  · cases hp

/-- Merging never releases early: from the block of the merge on, the merged schedule keeps at least as much as the two did. -/
theorem C149_merge_covers (now : Nat) (a b : Sched) {m : Nat} (h : now ≤ m) :
    a.lockedAt m + b.lockedAt m ≤ match mergeInfo now a b with | some z => z.lockedAt m | none => 0 :=
  merge_covers now a b h

/-- Anyone can bring the lock up to date: afterwards exactly the unreleased part of the schedules is locked, and the schedules
that are over are gone. -/
theorem C149_vest_exact (a : VAcct) (now : Nat) (hs : a.scheds ≠ []) (hv : ∀ x ∈ a.scheds, x.valid = true) :
    ∃ a', a.vest now = some a' ∧
      a'.lock = (a.scheds.map fun g => g.locked - (now - g.start) * g.perBlock).sum ∧
      (∀ x, x ∈ a'.scheds ↔ x ∈ a.scheds ∧ (now - x.start) * x.perBlock < x.locked) ∧
      a'.free = a.free ∧ a'.reserved = a.reserved := by
  refine ⟨a.write (report now a.scheds), by simp [VAcct.vest, hs], ?_, ?_, rfl, rfl⟩
  · simp only [VAcct.write, report_lock]
    unfold lockedAll
    congr 1
    apply List.map_congr_left
    intro x hx
    exact (owed_eq x (hv x hx) now).symm
  · intro x
    simp only [VAcct.write, report, List.mem_filter, decide_eq_true_eq]
    refine and_congr_right fun hx => ?_
    rw [← owed_eq x (hv x hx) now]
    unfold Sched.owed
    omega

/-- When every schedule is over, vesting frees everything. -/
theorem C149_ends (a : VAcct) (now : Nat) (hs : a.scheds ≠ []) (he : ∀ x ∈ a.scheds, x.locked ≤ (now - x.start) * x.perBlock) :
    ∃ a', a.vest now = some a' ∧ a'.lock = 0 ∧ a'.scheds = [] := by
  have hz : ∀ x ∈ a.scheds, x.lockedAt now = 0 := by
    intro x hx
    have h1 := he x hx
    unfold Sched.lockedAt Sched.rate
    have : (now - x.start) * x.perBlock ≤ (now - x.start) * max x.perBlock 1 := Nat.mul_le_mul_left _ (by omega)
    omega
  have hf : (a.scheds.filter fun s => decide (s.lockedAt now ≠ 0)) = [] := by
    rw [List.filter_eq_nil_iff]
    intro x hx
    simp [hz x hx]
  refine ⟨a.write (report now a.scheds), by simp [VAcct.vest, hs], ?_, ?_⟩
  · simp only [VAcct.write, report, hf, List.map_nil, List.sum_nil]
  · simp only [VAcct.write, report, hf]

/-- No account ever has more than 28 schedules, and every vested transfer is of at least 100 cents. -/
theorem C149_bounds {cents : Nat} {s : VSt} {G : AccountId → List Sched} (h : VReach cents s G) (w : AccountId) :
    (s.acct w).scheds.length ≤ 28 ∧
      ∀ (src dst : AccountId) (x : Sched) (s' : VSt), s.vestedTransfer cents src dst x = some s' → 100 * cents ≤ x.locked := by
  refine ⟨(vreach_ok h w).few, fun src dst x s' ht => ?_⟩
  unfold VSt.vestedTransfer at ht
  split at ht
  · cases ht
  · rename_i hc
    by_contra hl
    exact hc (.inl (by unfold minVestedTransfer; omega))

/-! Examples: a grant of 1000 in all, 10 for each block from block 5 on. -/

/-- Example for non-vacuity (outside /repo). -/
def exGrant : Sched := { locked := 1000, perBlock := 10, start := 5 }

/-- Example for non-vacuity (outside /repo): the account that gets it. -/
def exGrantee : AccountId := [7]

/-- Example for non-vacuity (outside /repo): the account that gives it. -/
def exGranter : AccountId := [8]

/-- Example for non-vacuity (outside /repo). -/
def exVStart : VSt where
  acct w := { free := if w = exGranter then 5000 else 0, reserved := 0, other := 0, lock := 0, scheds := [], taken := 0 }
  now := 1

/-- Example for non-vacuity (outside /repo): after the grant. -/
def exGranted : VSt :=
  (((exVStart.set exGranter { exVStart.acct exGranter with free := 4000 }).set exGrantee
    { exVStart.acct exGrantee with free := 1000 }).set exGrantee
      { free := 1000, reserved := 0, other := 0, lock := 1000, scheds := [exGrant], taken := 0 })

theorem exGranted_reach : VReach 10 exGranted (fun a => if a = exGrantee then [exGrant] else []) := by
  refine VReach.step (G := fun _ => []) (VReach.start exVStart fun w => ⟨rfl, rfl⟩) ?_
  refine VStep.grant exGranter exGrantee exGrant (by decide +kernel) ?_
  rfl

example : VReach 10 { exGranted with now := 1 + 54 } (fun a => if a = exGrantee then [exGrant] else []) :=
  VReach.step exGranted_reach (VStep.time 54)

/-- In block 55 half of it is released, and the other half must still be there. -/
example : ((fun a => if a = exGrantee then [exGrant] else []) exGrantee).map (fun g => g.locked - (55 - g.start) * g.perBlock)
    = [500] := by decide

/-- After `vest` in block 55 the account can pay 500, and not 501. -/
example : (((exGranted.acct exGrantee).vest 55).bind fun a => (a.withdraw 500).map fun a => a.free) = some 500 := by decide
example : (((exGranted.acct exGrantee).vest 55).bind fun a => (a.withdraw 501).map fun a => a.free) = none := by decide
example : (exGranted.acct exGrantee).scheds ≠ [] ∧ ∀ x ∈ (exGranted.acct exGrantee).scheds, x.valid = true := by decide
example : ∀ x ∈ (exGranted.acct exGrantee).scheds, x.locked ≤ (105 - x.start) * x.perBlock := by decide
example : mergeInfo 10 exGrant { locked := 600, perBlock := 4, start := 30 } =
    some { locked := 1550, perBlock := 10, start := 30 } := by decide +kernel
example : exGranted.vestedTransfer 10 exGranter exGrantee { locked := 999, perBlock := 10, start := 5 } = none :=
  if_pos (.inl (by decide))

/-! ## C150: the configured reasons of the vesting lock -/

/-- The runtime exempts everything but transfers and reserves from the vesting lock
(`UnvestedFundsAllowedWithdrawReasons`), but fees cannot be paid from unvested funds: the account of a grant that is entirely
unreleased, with a thousand in it, cannot pay a fee of 1. -/
theorem C150_fees_fails :
    ∃ (s : VSt) (G : AccountId → List Sched) (w : AccountId), VReach 10 s G ∧ 1000 ≤ (s.acct w).free ∧
      (s.acct w).other = 0 ∧ (s.acct w).withdraw 1 = none :=
  ⟨exGranted, _, exGrantee, exGranted_reach, by decide, by decide, rfl⟩

/-- Which uses of an account's funds the lock does hold back, in any state. Transfers and fees go through exactly up to what is
free above the lock and the other freezes, where what is reserved counts towards these; reserves go through exactly if what is
left free covers them; and holds, from which most deposits are made, go through up to everything that is free. Missing: fees
are held back like transfers. -/
theorem C150_lock_partial (a : VAcct) (n : Nat) :
    ((a.withdraw n).isSome ↔ n ≤ a.free - (max a.lock a.other - a.reserved)) ∧
      ((a.reserve n).isSome ↔ n ≤ a.free ∧ max a.lock a.other ≤ a.free - n) ∧
      ((a.hold n).isSome ↔ n ≤ a.free) := by
  unfold VAcct.withdraw VAcct.reserve VAcct.hold VAcct.reducible VAcct.frozen
  refine ⟨?_, ?_, ?_⟩ <;> split <;> simp_all

/-! ## C151: merging does not put off the release -/

/-- Merging can put off the end: two grants that are over in block 105 and 109 become one that is not over before block 205. -/
theorem C151_merge_fails :
    ∃ (now : Nat) (a b z : Sched), a.valid = true ∧ b.valid = true ∧ mergeInfo now a b = some z ∧
      a.lockedAt 109 = 0 ∧ b.lockedAt 109 = 0 ∧ 0 < z.lockedAt 204 :=
  ⟨9, { locked := 100, perBlock := 1, start := 5 }, { locked := 100, perBlock := 1, start := 9 },
    { locked := 196, perBlock := 1, start := 9 }, by decide, by decide, by decide, by decide, by decide, by decide⟩

/-- But never by more than the time that was left: if both grants are over in block `e`, and `S` is the first block in which
both had begun (or that of the merge), the merged one is over `2 * (e - S)` blocks after `S`. Missing: being over in block `e`. -/
theorem C151_merge_partial (now e : Nat) (a b z : Sched) (hm : mergeInfo now a b = some z)
    (ha : a.ending ≤ e) (hb : b.ending ≤ e) {n : Nat}
    (hn : max (max now a.start) b.start + 2 * (e - max (max now a.start) b.start) ≤ n) : z.lockedAt n = 0 := by
  have hae := start_lt_ending a
  have hbe := start_lt_ending b
  unfold mergeInfo at hm
  by_cases h1 : a.ending ≤ now
  · by_cases h2 : b.ending ≤ now
    · simp [h1, h2] at hm
    · simp only [h1, h2, decide_true, decide_false] at hm
      cases hm
      exact lockedAt_ending b (by omega)
  · by_cases h2 : b.ending ≤ now
    · simp only [h1, h2, decide_true, decide_false] at hm
      cases hm
      exact lockedAt_ending a (by omega)
    · simp only [h1, h2, decide_false] at hm
      generalize hS : max (max now a.start) b.start = S at hm hn
      generalize a.lockedAt now + b.lockedAt now = L at hm
      generalize hD : max (max a.ending b.ending - S) 1 = D at hm
      cases hm
      show L - (n - S) * max (max (L / D) 1) 1 = 0
      have hD1 : 1 ≤ D := by omega
      have hlt : L < D * (L / D) + D := by
        have := Nat.div_add_mod L D
        have := Nat.mod_lt L hD1
        omega
      have hDe : 2 * D ≤ n - S := by
        have : S < e := by omega
        omega
      suffices L ≤ (n - S) * max (max (L / D) 1) 1 by omega
      by_cases hq : L / D = 0
      · have : max (max (L / D) 1) 1 = 1 := by rw [hq]; rfl
        rw [this]
        rw [hq] at hlt
        omega
      · have hq1 : 1 ≤ L / D := Nat.pos_of_ne_zero hq
        rw [Nat.max_eq_left hq1, Nat.max_eq_left hq1]
        have h3 : D ≤ D * (L / D) := Nat.le_mul_of_pos_right _ hq1
        have h4 : 2 * D * (L / D) ≤ (n - S) * (L / D) := Nat.mul_le_mul_right _ hDe
        rw [Nat.mul_assoc] at h4
        omega

/-- C149: reserving, holding, giving back and taking move funds of the account and make none: what is free, reserved and taken is the
same in sum, what is reserved or held is as much as asked for, and no more is given back or taken than there is. -/
theorem C149_same_funds (a : VAcct) (n : Nat) :
    (∀ a', a.reserve n = some a' ∨ a.hold n = some a' → a'.free + n = a.free ∧ a'.reserved = a.reserved + n ∧ a'.taken = a.taken) ∧
    ((a.unreserve n).free + (a.unreserve n).reserved = a.free + a.reserved ∧ (a.unreserve n).taken = a.taken ∧
      (a.unreserve n).reserved = a.reserved - n) ∧
    (a.take n).free = a.free ∧ (a.take n).reserved + (a.take n).taken = a.reserved + a.taken ∧
      (a.take n).reserved = a.reserved - n := by
  refine ⟨fun a' h => ?_, ⟨?_, rfl, ?_⟩, rfl, ?_, ?_⟩
  · rcases h with h | h
    · unfold VAcct.reserve at h
      split at h
      · cases h
        dsimp only
        exact ⟨by omega, rfl, rfl⟩
      · cases h
    · unfold VAcct.hold at h
      split at h
      · cases h
        dsimp only
        exact ⟨by omega, rfl, rfl⟩
      · cases h
  all_goals
    simp only [VAcct.unreserve, VAcct.take]
    omega

example : ∃ a', (VAcct.reserve ⟨100, 20, 30, 40, [], 5⟩ 60) = some a' ∧ a'.free = 40 ∧ a'.reserved = 80 := ⟨_, rfl, rfl, rfl⟩

end Verif.Runtime
