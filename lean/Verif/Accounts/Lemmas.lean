import Verif.Accounts.Model

/-! # Lemmas about derived accounts -/

namespace Verif.Accounts

open Verif Verif.Xcm

theorem modl_length : modl.length = 4 := by decide +kernel
theorem sibl_length : sibl.length = 4 := by decide +kernel
theorem communityPalletId_length : communityPalletId.length = 8 := by decide +kernel

theorem pad32_length (b : List UInt8) : (pad32 b).length = 32 := by
  simp [pad32]

theorem pad32_of_le {b : List UInt8} (h : b.length ≤ 32) :
    pad32 b = b ++ List.replicate (32 - b.length) 0 := by
  unfold pad32
  rw [List.take_append, List.take_of_length_le h, List.take_replicate]
  congr 2; omega

theorem pad32_take {b : List UInt8} {n : Nat} (h : n ≤ b.length) (hn : n ≤ 32) :
    (pad32 b).take n = b.take n := by
  unfold pad32
  rw [List.take_take, Nat.min_eq_left hn, List.take_append_of_le_length h]

theorem palletAccount_take4 (pid sub : List UInt8) : (palletAccount pid sub).take 4 = modl := by
  have := modl_length
  rw [palletAccount, pad32_take (by simp; omega) (by omega), List.append_assoc, ← this, List.take_left]

theorem palletAccount_take12 {pid : List UInt8} (hp : pid.length = 8) (sub : List UInt8) :
    (palletAccount pid sub).take 12 = modl ++ pid := by
  have h4 := modl_length
  have h12 : (modl ++ pid).length = 12 := by simp; omega
  rw [palletAccount, pad32_take (by simp; omega) (by omega), ← h12, List.take_left]

theorem palletAccount_pid_inj {p q : List UInt8} (hp : p.length = 8) (hq : q.length = 8) {s t : List UInt8}
    (h : palletAccount p s = palletAccount q t) : p = q := by
  have h1 := palletAccount_take12 hp s
  rw [h, palletAccount_take12 hq] at h1
  exact (List.append_cancel_left h1).symm

theorem palletAccount_eq {pid sub : List UInt8} (hp : pid.length = 8) (hs : sub.length = 2) :
    palletAccount pid sub = modl ++ (pid ++ (sub ++ List.replicate 18 0)) := by
  have h4 := modl_length
  rw [palletAccount, pad32_of_le (by simp; omega)]
  have : 32 - (modl ++ pid ++ sub).length = 18 := by simp; omega
  rw [this]; simp

theorem trySubAccount_palletAccount {pid sub : List UInt8} (hp : pid.length = 8) (hs : sub.length = 2) :
    trySubAccount (palletAccount pid sub) = some (pid, UInt16.ofNat (fromLE sub)) := by
  have h4 := modl_length
  have ht := palletAccount_take4 pid sub
  have hd : (palletAccount pid sub).drop 4 = pid ++ (sub ++ List.replicate 18 0) := by
    rw [palletAccount_eq hp hs, ← h4, List.drop_left]
  have hd8 : (pid ++ (sub ++ List.replicate 18 (0 : UInt8))).drop 8 = sub ++ List.replicate 18 0 := by
    rw [← hp, List.drop_left]
  have hd10 : (pid ++ (sub ++ List.replicate 18 (0 : UInt8))).drop 10 = List.replicate 18 0 := by
    have : 10 = 8 + 2 := rfl
    rw [this, ← List.drop_drop, hd8, ← hs, List.drop_left]
  unfold trySubAccount
  rw [if_pos ht]
  dsimp only
  rw [hd, hd10, hd8, if_pos ⟨by simp; omega, by simp⟩]
  congr 2
  · rw [← hp, List.take_left]
  · rw [← hs, List.take_left]

theorem trySubAccount_some {a pid : List UInt8} {c : UInt16} (hl : a.length = 32)
    (h : trySubAccount a = some (pid, c)) : pid.length = 8 ∧ a = palletAccount pid (leBytes 2 c.toNat) := by
  unfold trySubAccount at h
  split at h
  · rename_i hm
    dsimp only at h
    split at h
    · rename_i hz
      simp only [Option.some.injEq, Prod.mk.injEq] at h
      obtain ⟨hp, hc⟩ := h
      have hpl : pid.length = 8 := by rw [← hp]; simp; omega
      refine ⟨hpl, ?_⟩
      have hsl : ((a.drop 4).drop 8 |>.take 2).length = 2 := by simp; omega
      have hcc : leBytes 2 c.toNat = ((a.drop 4).drop 8).take 2 := by
        have hlt := fromLE_lt (((a.drop 4).drop 8).take 2)
        rw [hsl] at hlt
        rw [← hc, UInt16.toNat_ofNat', Nat.mod_eq_of_lt (by norm_num at hlt ⊢; omega)]
        have := leBytes_fromLE (((a.drop 4).drop 8).take 2)
        rwa [hsl] at this
      have hzero : ((a.drop 4).drop 10) = List.replicate 18 0 := by
        rw [List.eq_replicate_iff]
        refine ⟨by simp; omega, ?_⟩
        have h2 := hz.2
        rw [List.all_eq_true] at h2
        intro b hb
        simpa using h2 b hb
      rw [palletAccount_eq hpl (by simp), hcc, ← hm, ← hp, ← hzero]
      have e1 : (a.drop 4).drop 10 = ((a.drop 4).drop 8).drop 2 := by simp [List.drop_drop]
      rw [e1, List.take_append_drop, List.take_append_drop, List.take_append_drop]
    · cases h
  · cases h

theorem communityAccount_length (c : UInt16) : (communityAccount c).length = 32 := pad32_length _

theorem trySub_community (c : UInt16) : trySubAccount (communityAccount c) = some (communityPalletId, c) := by
  rw [communityAccount, trySubAccount_palletAccount communityPalletId_length (by simp),
    fromLE_leBytes_lt (by have := c.toNat_lt; norm_num; omega)]
  simp

theorem trySub_treasury : trySubAccount treasuryAccount = some (treasuryPalletId, 0) := by decide +kernel

end Verif.Accounts
