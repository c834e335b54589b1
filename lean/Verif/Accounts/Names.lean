import Verif.Accounts.Theorems

/-!
# The accounts of the runtime, byte by byte
-/

namespace Verif.Accounts

open Verif

/-- C61: the accounts in question, byte by byte: `modl`, eight letters, for communities the id as two bytes with the low one
first, and zeros. -/
theorem C61_named (c : UInt16) :
    communityAccount c =
      ascii "modlkv/cmtys" ++ [UInt8.ofNat (c.toNat % 256), UInt8.ofNat (c.toNat / 256)] ++ List.replicate 18 0 ∧
    treasuryAccount = ascii "modlpy/trsry" ++ List.replicate 20 0 ∧
    palletAccount potPalletId [] = ascii "modlPotStake" ++ List.replicate 20 0 ∧
    palletAccount paymentPalletId [] = ascii "modlpayments" ++ List.replicate 20 0 ∧
    palletAccount xcmCheckPalletId [] = ascii "modlpy/xcmch" ++ List.replicate 20 0 := by
  refine ⟨?_, by decide +kernel, by decide +kernel, by decide +kernel, by decide +kernel⟩
  have hc := c.toNat_lt
  have hp : modl ++ communityPalletId = ascii "modlkv/cmtys" := by decide +kernel
  have hb : leBytes 2 c.toNat = [UInt8.ofNat (c.toNat % 256), UInt8.ofNat (c.toNat / 256)] := by
    have h2 : c.toNat / 256 % 256 = c.toNat / 256 := by omega
    simp only [leBytes, h2]
  unfold communityAccount palletAccount
  rw [hp, hb]
  unfold pad32
  generalize UInt8.ofNat (c.toNat % 256) = x
  generalize UInt8.ofNat (c.toNat / 256) = y
  have hl : (ascii "modlkv/cmtys").length = 12 := by decide +kernel
  generalize ascii "modlkv/cmtys" = p at hl
  show List.take 32 (p ++ [x, y] ++ List.replicate 32 0) = p ++ [x, y] ++ List.replicate 18 0
  rw [List.take_append, List.take_of_length_le (by simp [hl])]
  simp [hl]

end Verif.Accounts
