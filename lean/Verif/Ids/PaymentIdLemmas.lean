import Verif.Ids.PaymentId

/-! # Payment ids: helper lemmas on base58 -/

namespace Verif.Ids

theorem pushCarry_eq (base : Nat) (hb : 2 ≤ base) (n : Nat) : pushCarry base n = Nat.digits base n := by
  induction n using Nat.strong_induction_on with
  | _ n ih =>
    unfold pushCarry
    by_cases h : 0 < n
    · rw [dif_pos ⟨hb, h⟩, ih _ (Nat.div_lt_self h hb), Nat.digits_def' (by omega) h]
    · rw [dif_neg (by tauto)]
      obtain rfl : n = 0 := by omega
      simp

theorem digitStep_eq (base mul : Nat) (hb : 2 ≤ base) (hm : 0 < mul) (n x : Nat) :
    digitStep base mul (Nat.digits base n) x = Nat.digits base (mul * n + x) := by
  induction n using Nat.strong_induction_on generalizing x with
  | _ n ih =>
    by_cases h : 0 < n
    · have h1 := ih _ (Nat.div_lt_self h hb) ((x + n % base * mul) / base)
      rw [Nat.digits_def' (by omega) h]
      rw [Nat.digits_def' (n := mul * n + x) (by omega) (by have := Nat.mul_pos hm h; omega)]
      have hsplit : mul * n + x = (x + n % base * mul) + base * (mul * (n / base)) := by
        conv_lhs => rw [← Nat.div_add_mod n base]
        ring
      have hmod : (mul * n + x) % base = (x + n % base * mul) % base := by
        rw [hsplit, Nat.add_mul_mod_self_left]
      have hdiv : (mul * n + x) / base = mul * (n / base) + (x + n % base * mul) / base := by
        rw [hsplit, Nat.add_mul_div_left _ _ (by omega), Nat.add_comm]
      rw [hmod, hdiv, ← h1]
      simp only [digitStep, mulAdd, List.cons_append]
    · obtain rfl : n = 0 := by omega
      simp [digitStep, mulAdd, pushCarry_eq base hb]

theorem fold_digits (base mul : Nat) (hb : 2 ≤ base) (hm : 0 < mul) (xs : List Nat) (n : Nat) :
    xs.foldl (fun ds x => digitStep base mul ds x) (Nat.digits base n) =
      Nat.digits base (xs.foldl (fun n x => mul * n + x) n) := by
  induction xs generalizing n with
  | nil => rfl
  | cons x xs ih => simp only [List.foldl_cons, digitStep_eq base mul hb hm, ih]

/-- Horner evaluation of a most-significant-first list. -/
def horner (mul : Nat) (xs : List Nat) : Nat := xs.foldl (fun n x => mul * n + x) 0

theorem horner_eq (mul : Nat) (xs : List Nat) : horner mul xs = Nat.ofDigits mul xs.reverse := by
  unfold horner
  induction xs using List.reverseRecOn with
  | nil => simp
  | append_singleton xs x ih =>
    rw [List.foldl_append, ih]
    simp only [List.foldl_cons, List.foldl_nil, List.reverse_append, List.reverse_cons, List.reverse_nil,
      List.nil_append, List.cons_append, Nat.ofDigits_cons]
    simp [Nat.add_comm]

theorem fromLE_ofDigits (bs : List UInt8) : fromLE bs = Nat.ofDigits 256 (bs.map UInt8.toNat) := by
  induction bs with
  | nil => rfl
  | cons b bs ih => simp [fromLE, Nat.ofDigits_cons, ih]

theorem encode_digits (bs : List UInt8) :
    bs.foldl (fun ds b => digitStep 58 256 ds b.toNat) [] = Nat.digits 58 (fromBE bs) := by
  have h := fold_digits 58 256 (by omega) (by omega) (bs.map UInt8.toNat) 0
  rw [Nat.digits_zero, List.foldl_map] at h
  rw [h]
  have h2 := horner_eq 256 (bs.map UInt8.toNat)
  unfold horner at h2
  rw [h2, fromBE, fromLE_ofDigits, List.map_reverse]

/-- A byte list is its leading zeros followed by the big-endian digits of its value. -/
theorem bytes_split (bs : List UInt8) :
    bs = List.replicate (bs.takeWhile (· = 0)).length 0 ++ ((Nat.digits 256 (fromBE bs)).map UInt8.ofNat).reverse := by
  induction bs with
  | nil => simp [fromBE, fromLE]
  | cons b bs ih =>
    have hval : fromBE (b :: bs) = fromBE bs + 256 ^ bs.length * b.toNat := by
      simp [fromBE, fromLE_append, fromLE]
    by_cases hb : b = 0
    · subst hb
      have : fromBE (0 :: bs) = fromBE bs := by rw [hval]; simp
      rw [this]
      simp only [List.takeWhile_cons, decide_true, if_true, List.length_cons, List.replicate_succ,
        List.cons_append]
      congr 1
    · simp only [List.takeWhile_cons, hb, decide_false, Bool.false_eq_true, if_false, List.length_nil,
        List.replicate_zero, List.nil_append]
      have h1 : Nat.digits 256 (fromBE (b :: bs)) = (b :: bs).reverse.map UInt8.toNat := by
        rw [fromBE, fromLE_ofDigits]
        apply Nat.digits_ofDigits 256 (by omega)
        · intro l hl
          simp only [List.mem_map] at hl
          obtain ⟨x, _, rfl⟩ := hl
          exact x.toNat_lt
        · intro hne
          simp only [List.map_reverse, List.map_cons]
          simp only [List.getLast_reverse, List.head_cons]
          intro h0
          exact hb (by rw [← UInt8.toNat_inj]; simpa using h0)
      rw [h1]
      simp [List.map_map, Function.comp_def]

theorem charVal_alphabet : ∀ d : Fin 58, charVal (alphabet.getD d 0) = some d.val := by decide +kernel

theorem alphabet_ne_dash : ∀ d : Fin 58, alphabet.getD d 0 ≠ dash ∧ alphabet.getD d 0 < 128 := by decide +kernel

theorem mapM_charVal (ds : List Nat) (h : ∀ d ∈ ds, d < 58) :
    (ds.map fun d => alphabet.getD d 0).mapM charVal = some ds := by
  induction ds with
  | nil => rfl
  | cons d ds ih =>
    have h1 := charVal_alphabet ⟨d, h d (by simp)⟩
    have h2 := ih (fun x hx => h x (by simp [hx]))
    simp only at h1
    rw [List.map_cons, List.mapM_cons, h1, h2]
    rfl

theorem digits_lt (n d : Nat) (h : d ∈ Nat.digits 58 n) : d < 58 := Nat.digits_lt_base (by omega) h

/-- Number of leading zero bytes. -/
def lead (bs : List UInt8) : Nat := (bs.takeWhile (· = 0)).length

/-- The base58 digits, most significant first. -/
def b58digits (bs : List UInt8) : List Nat := List.replicate (lead bs) 0 ++ (Nat.digits 58 (fromBE bs)).reverse

theorem b58digits_lt (bs : List UInt8) : ∀ d ∈ b58digits bs, d < 58 := by
  intro d hd
  simp only [b58digits, List.mem_append, List.mem_replicate, List.mem_reverse] at hd
  rcases hd with ⟨_, rfl⟩ | hd
  · omega
  · exact digits_lt _ _ hd

theorem b58encode_eq (cap : Nat) (bs : List UInt8) :
    b58encode cap bs = if (b58digits bs).length ≤ cap then
      some ((b58digits bs).map fun d => alphabet.getD d 0) else none := by
  have h0 : (bs.takeWhile (· = 0)).map (fun _ => (0 : Nat)) = List.replicate (lead bs) 0 := by
    simp [lead, List.map_const']
  have hlen : (Nat.digits 58 (fromBE bs) ++ List.replicate (lead bs) 0).length = (b58digits bs).length := by
    simp [b58digits, Nat.add_comm]
  have hrev : (List.map (fun d => alphabet.getD d 0)
      (Nat.digits 58 (fromBE bs) ++ List.replicate (lead bs) 0)).reverse =
      (b58digits bs).map fun d => alphabet.getD d 0 := by
    rw [← List.map_reverse, List.reverse_append, List.reverse_replicate]; rfl
  unfold b58encode
  dsimp only
  rw [encode_digits, h0, hlen, hrev]

theorem takeWhile_b58digits (bs : List UInt8) :
    (b58digits bs).takeWhile (· = 0) = List.replicate (lead bs) 0 := by
  unfold b58digits
  generalize lead bs = z
  induction z with
  | zero =>
    simp only [List.replicate_zero, List.nil_append]
    cases hd : (Nat.digits 58 (fromBE bs)).reverse with
    | nil => rfl
    | cons d ds =>
      have hne : Nat.digits 58 (fromBE bs) ≠ [] := by intro e; rw [e] at hd; simp at hd
      have hlast := Nat.getLast_digit_ne_zero 58 (m := fromBE bs) (by
        intro e; rw [e] at hne; simp at hne)
      have : (Nat.digits 58 (fromBE bs)).getLast hne = d := by
        rw [List.getLast_eq_head_reverse]; simp [hd]
      rw [List.takeWhile_cons, if_neg]
      simp only [decide_eq_true_eq]
      rw [← this]; exact hlast
  | succ z ih => simp [List.replicate_succ, ih]

/-- Decoding an encoded byte string returns it. -/
theorem b58_roundtrip (bs : List UInt8) (cap : Nat) (hcap : bs.length ≤ cap) :
    b58decode cap ((b58digits bs).map fun d => alphabet.getD d 0) = some bs := by
  have hfold : (b58digits bs).foldl (fun ds v => digitStep 256 58 ds v) [] = Nat.digits 256 (fromBE bs) := by
    have h := fold_digits 256 58 (by omega) (by omega) (b58digits bs) 0
    rw [Nat.digits_zero] at h
    rw [h]
    have h2 := horner_eq 58 (b58digits bs)
    unfold horner at h2
    rw [h2]
    simp [b58digits, Nat.ofDigits_append, Nat.ofDigits_digits]
  have hz : ((b58digits bs).takeWhile (· = 0)).map (fun _ => (0 : Nat)) = List.replicate (lead bs) 0 := by
    rw [takeWhile_b58digits]; simp
  have hout : ((Nat.digits 256 (fromBE bs) ++ List.replicate (lead bs) 0).map UInt8.ofNat).reverse = bs := by
    conv_rhs => rw [bytes_split bs]
    simp [lead]
  have hlen : (Nat.digits 256 (fromBE bs) ++ List.replicate (lead bs) 0).length = bs.length := by
    have := congrArg List.length hout
    simpa [Nat.add_comm] using this
  unfold b58decode
  rw [mapM_charVal _ (b58digits_lt bs)]
  simp only
  rw [hfold, hz, hlen, if_pos hcap, hout]

theorem lead_le (bs : List UInt8) : lead bs ≤ bs.length :=
  (List.takeWhile_sublist _).length_le

theorem digits256_len (bs : List UInt8) : (Nat.digits 256 (fromBE bs)).length = bs.length - lead bs := by
  have h := congrArg List.length (bytes_split bs)
  simp only [List.length_append, List.length_replicate, List.length_reverse, List.length_map] at h
  unfold lead; omega

theorem b58digits_len_upper (bs : List UInt8) (h8 : bs.length = 8) : (b58digits bs).length ≤ 11 := by
  have hl := lead_le bs
  have hd := digits256_len bs
  have hlt : fromBE bs < 256 ^ (8 - lead bs) := by
    rw [h8] at hd
    have := Nat.lt_base_pow_length_digits (b := 256) (m := fromBE bs) (by omega)
    rwa [hd] at this
  simp only [b58digits, List.length_append, List.length_replicate, List.length_reverse]
  have : (Nat.digits 58 (fromBE bs)).length ≤ 11 - lead bs := by
    rw [Nat.digits_length_le_iff (by omega)]
    refine lt_of_lt_of_le hlt ?_
    have : lead bs ≤ 8 := by omega
    interval_cases lead bs <;> norm_num
  omega

theorem b58digits_len_lower (bs : List UInt8) (h8 : bs.length = 8) : 8 ≤ (b58digits bs).length := by
  have hl := lead_le bs
  have hd := digits256_len bs
  simp only [b58digits, List.length_append, List.length_replicate, List.length_reverse]
  by_contra hc
  have hlt : (Nat.digits 58 (fromBE bs)).length ≤ 7 - lead bs := by omega
  have hlen7 : lead bs ≤ 7 := by omega
  rw [Nat.digits_length_le_iff (by omega)] at hlt
  have h2 : fromBE bs < 256 ^ (7 - lead bs) := lt_of_lt_of_le hlt (Nat.pow_le_pow_left (by omega) _)
  rw [← Nat.digits_length_le_iff (by omega)] at h2
  omega

theorem splitOnce_none (l : List UInt8) (h : ∀ c ∈ l, c ≠ dash) : splitOnce l = none := by
  induction l with
  | nil => rfl
  | cons c cs ih => simp [splitOnce, h c (by simp), ih (fun x hx => h x (by simp [hx]))]

theorem splitOnce_some (a b : List UInt8) (h : ∀ c ∈ a, c ≠ dash) :
    splitOnce (a ++ dash :: b) = some (a, b) := by
  induction a with
  | nil => simp [splitOnce]
  | cons c cs ih => simp [splitOnce, h c (by simp), ih (fun x hx => h x (by simp [hx]))]

end Verif.Ids
