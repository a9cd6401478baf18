import Verif.Proof.Amount
import Verif.Proof.Unique

/-!
# Amounts: decimals with few digits after the point (C74)

Numbers of at most 15 (`double`) / 6 (`float`) digits, at most 3 / 2 of them after
the point, are read correctly rounded and without the fallback, whatever that is,
and printed again as they were.
-/

namespace Floaxie

open Spec FloatType

/-- The reading, with the additional information that the result is not zero. -/
theorem amount_read (T : FloatType) (fb : Fallback) (errno : Nat) (mem : List Nat) (str : Nat)
    (n : Numeral) (h : NumeralAt mem str n) (d k : Nat) (hk : k ≤ amountPlaces T) (h0 : 0 < d)
    (hd : d < 10 ^ decimalDigits T) (hv : n.absValue = d / 10 ^ k) :
    ∃ b, value T b ≠ 0 ∧ Identifies T n.value b ∧ RoundsTo T n.value b ∧
      atof T fb errno mem str = .ok ⟨b, .success, str + n.text.length, errno, false⟩ := by
  have hk3 : k ≤ 3 := by cases T <;> simp [amountPlaces] at hk <;> omega
  have hd0 : (1 : ℚ) ≤ d := by exact_mod_cast h0
  have hdj : n.absValue = d * 10 ^ (-(k : Int)) := by
    rw [hv, zpow_neg, zpow_natCast, div_eq_mul_inv]
  have h10 : (1 : ℚ) / 10 ^ 3 ≤ d / 10 ^ k :=
    div_le_div₀ (by linarith) hd0 (by positivity) (pow_le_pow_right₀ (by norm_num) hk3)
  have hx1 : 2 ^ emin T ≤ n.absValue := by
    have h1 : (2 : ℚ) ^ emin T ≤ 2 ^ (-149 : ℤ) := by
      apply zpow_le_zpow_right₀ (by norm_num); cases T <;> decide
    have h2 : (2 : ℚ) ^ (-149 : ℤ) ≤ 1 / 10 ^ 3 := by norm_num
    rw [hv]; exact le_trans h1 (le_trans h2 h10)
  have hx2 : n.absValue < overflowThreshold T := by
    have h1 : (d : ℚ) / 10 ^ k ≤ d := div_le_self (by linarith) (one_le_pow₀ (by norm_num))
    have h2 : (d : ℚ) < 10 ^ 15 := by
      have : d < 10 ^ 15 := lt_of_lt_of_le hd (by cases T <;> decide)
      exact_mod_cast this
    have h3 : (10 : ℚ) ^ 15 ≤ overflowThreshold T := by
      have : (2 : ℚ) ^ (127 : ℤ) ≤ overflowThreshold T := by
        unfold overflowThreshold
        cases T with
        | float => norm_num [FloatType.maxExp, FloatType.p]
        | double =>
          have e1 : (2 : ℚ) ^ FloatType.double.maxExp = 2 * 2 ^ (1023 : ℤ) := by
            rw [← zpow_one_add₀ (by norm_num)]; rfl
          have e2 : (2 : ℚ) ^ (FloatType.double.maxExp - FloatType.double.p - 1) ≤ 2 ^ (1023 : ℤ) :=
            zpow_le_zpow_right₀ (by norm_num) (by decide)
          have e3 : (2 : ℚ) ^ (127 : ℤ) ≤ 2 ^ (1023 : ℤ) := zpow_le_zpow_right₀ (by norm_num) (by norm_num)
          rw [e1]
          generalize (2 : ℚ) ^ (1023 : ℤ) = X at *
          generalize (2 : ℚ) ^ (FloatType.double.maxExp - FloatType.double.p - 1) = Y at *
          generalize (2 : ℚ) ^ (127 : ℤ) = Z at *
          linarith
      refine le_trans ?_ this
      norm_num
    rw [hv]; linarith
  obtain ⟨v, acc, k1, k2, k3, -⟩ := krosh_short h (lt_of_lt_of_le hd (by cases T <;> decide)) hdj
    (by intro _; omega) hx1 hx2
  have hacc : acc = true := by
    cases acc with
    | true => rfl
    | false =>
      obtain ⟨a, -, a2, -⟩ := k3 rfl
      rw [hv] at a2
      exact (amount_no_tie hk h0 hd a2).elim
  subst hacc
  obtain ⟨b, b1, b2, b3⟩ := k2 rfl
  obtain ⟨r, r1, r2, -⟩ := atof_numeral (fb := fb) (errno := errno) h k1
  rw [r2 rfl] at r1
  have hid := identifies_abs b2 b1
  rw [abs_value_num, hv] at hid
  have hab := amount_above b2.1 hk3 h0 hid
  have hvb : v = b := by
    rcases b3 with ⟨b3, -⟩ | ⟨-, -, j, -, j2, j3, -⟩
    · exact b3
    · exfalso
      have hn := hab.2
      rw [absPat_mod] at hn
      obtain ⟨m1, -⟩ := identifies_mids (absPat_lt_posInf b2.1) (Nat.ne_zero_of_lt hn) hid
      rw [abs_value_num, hv] at j3
      refine amount_no_carry hk3 hd hn (j := j) ?_ j3 m1
      rw [← j2]
      have hp : (0 : ℚ) ≤ N T (absPat T b) * 2 ^ emin T := by have := emin_pos T; positivity
      rcases value_cases T b with e | e <;> rw [e]
      · rw [abs_of_nonneg hp]
      · rw [abs_neg, abs_of_nonneg hp]
  rw [hvb] at r1
  exact ⟨b, b1, b2, identifies_roundsTo b2 b1, r1⟩

/-- **C74, reading.** A numeral whose value is an amount - `d / 10^k` with
`0 < d < 10^15` and `k ≤ 3` for `double`, `0 < d < 10^6` and `k ≤ 2` for `float` -,
however it is spelled, is read as the value nearest to it, with status success and
the end pointer after the numeral; `errno` is left alone and the fallback not called. -/
theorem C74_amount_read (T : FloatType) (fb : Fallback) (errno : Nat) (mem : List Nat) (str : Nat)
    (n : Numeral) (h : NumeralAt mem str n) (d k : Nat) (hk : k ≤ amountPlaces T) (h0 : 0 < d)
    (hd : d < 10 ^ decimalDigits T) (hv : n.absValue = d / 10 ^ k) :
    ∃ b, Identifies T n.value b ∧ RoundsTo T n.value b ∧
      atof T fb errno mem str = .ok ⟨b, .success, str + n.text.length, errno, false⟩ :=
  let ⟨b, _, h1, h2, h3⟩ := amount_read T fb errno mem str n h d k hk h0 hd hv
  ⟨b, h1, h2, h3⟩

/-- **C74, there and back.** An amount of at most 15 / 6 digits, at most 3 / 2 of
them after the point, that is read by `atof` and printed by `ftoa` has its value
unchanged. -/
theorem C74_amount_kept (T : FloatType) (fb : Fallback) (errno : Nat) (mem : List Nat) (str : Nat)
    (n : Numeral) (h : NumeralAt mem str n) (d k : Nat) (hk : k ≤ amountPlaces T) (h0 : 0 < d)
    (hd : d < 10 ^ decimalDigits T) (hv : n.absValue = d / 10 ^ k) :
    ∃ (b : Nat) (n' : Numeral),
      atof T fb errno mem str = .ok ⟨b, .success, str + n.text.length, errno, false⟩ ∧
      Prints T b n'.text ∧ n'.value = n.value := by
  have hk3 : k ≤ 3 := by cases T <;> simp [amountPlaces] at hk <;> omega
  obtain ⟨b, hb0, b1, b2, b3⟩ := amount_read T fb errno mem str n h d k hk h0 hd hv
  have hid := identifies_abs b1 hb0
  rw [abs_value_num, hv] at hid
  have hab := amount_above b1.1 hk3 h0 hid
  have hw := amount_safelyInside hab hk hd hid
  have e : (d : ℚ) / 10 ^ k = d * 10 ^ (-(k : Int)) := by rw [zpow_neg, zpow_natCast, div_eq_mul_inv]
  rw [e] at hw
  obtain ⟨n', p1, p2⟩ := C47_short_decimal T b hab d _ hd hw
  refine ⟨b, n', b3, p1, ?_⟩
  have hid' := prints_identifies T b hab.1 n' p1
  obtain ⟨i1, i2⟩ := identifies_sign b1 hb0
  obtain ⟨i1', i2'⟩ := identifies_sign hid' hb0
  have he : |n'.value| = |n.value| := by rw [abs_value_num, abs_value_num, p2, hv, e]
  rcases abs_eq_abs.mp he with e | e
  · exact e
  · exfalso
    by_cases hv : value T b < 0
    · have := i1.mp hv; have := i1'.mp hv; linarith
    · have h1 : ¬ n.value < 0 := fun c => hv (i1.mpr c)
      have h2 : ¬ n'.value < 0 := fun c => hv (i1'.mpr c)
      push Not at h1 h2
      have : n.value = 0 := by linarith
      exact i2 this

/-! ## The text -/

theorem digitsVal_inj {ds ds' : List (Fin 10)} (hl : ds.length = ds'.length)
    (h : digitsVal ds = digitsVal ds') : ds = ds' := by
  induction ds generalizing ds' with
  | nil => exact (List.length_eq_zero_iff.mp hl.symm).symm
  | cons d ds ih =>
    cases ds' with
    | nil => simp at hl
    | cons d' ds' =>
      simp only [List.length_cons, Nat.add_right_cancel_iff] at hl
      rw [digitsVal_cons, digitsVal_cons, ← hl] at h
      have h1 := digitsVal_lt ds
      have h2 := digitsVal_lt ds'
      rw [← hl] at h2
      have hp : 0 < 10 ^ ds.length := by positivity
      have e : d.val = d'.val := by
        have a1 : (d.val * 10 ^ ds.length + digitsVal ds) / 10 ^ ds.length = d.val := by
          rw [mul_comm, Nat.mul_add_div hp, Nat.div_eq_of_lt h1, add_zero]
        have a2 : (d'.val * 10 ^ ds.length + digitsVal ds') / 10 ^ ds.length = d'.val := by
          rw [mul_comm, Nat.mul_add_div hp, Nat.div_eq_of_lt h2, add_zero]
        rw [← a1, ← a2, h]
      have e' : d = d' := Fin.ext e
      subst e'
      rw [ih hl (by omega)]

/-- Significant digits and position are determined by the value. -/
theorem significant_unique {ds ds' : List (Fin 10)} {k k' : Int} (hne : ds ≠ []) (hne' : ds' ≠ [])
    (hh : ds.head hne ≠ 0) (hh' : ds'.head hne' ≠ 0) (hl : ds.getLast hne ≠ 0) (hl' : ds'.getLast hne' ≠ 0)
    (h : (digitsVal ds : ℚ) * 10 ^ k = digitsVal ds' * 10 ^ k') : ds = ds' ∧ k = k' := by
  have key : ∀ {u v : List (Fin 10)} {i j : Int} (hu : u ≠ []), u.getLast hu ≠ 0 →
      (digitsVal u : ℚ) * 10 ^ i = digitsVal v * 10 ^ j → ¬ i < j := by
    intro u v i j hu hlast he hij
    obtain ⟨m, hm⟩ : ∃ m : Nat, j = i + (m + 1 : Nat) := ⟨(j - i - 1).toNat, by omega⟩
    rw [hm, zpow_add₀ (by norm_num), zpow_natCast] at he
    have hp : (10 : ℚ) ^ i ≠ 0 := by positivity
    have he2 : (digitsVal u : ℚ) = digitsVal v * 10 ^ (m + 1) := by
      apply mul_right_cancel₀ hp
      linarith
    have he3 : digitsVal u = digitsVal v * 10 ^ (m + 1) := by exact_mod_cast he2
    have h1 := digitsVal_mod_ten u hu
    rw [he3, pow_succ, ← mul_assoc, Nat.mul_mod_left] at h1
    exact hlast (Fin.ext h1.symm)
  have hk : k = k' := by
    have a := key hne hl h
    have b := key hne' hl' h.symm
    omega
  subst hk
  refine ⟨?_, rfl⟩
  have hv : digitsVal ds = digitsVal ds' := by
    have hp : (10 : ℚ) ^ k ≠ 0 := by positivity
    exact_mod_cast mul_right_cancel₀ hp h
  apply digitsVal_inj _ hv
  have a1 := digitsVal_ge hne hh
  have a2 := digitsVal_lt ds
  have b1 := digitsVal_ge hne' hh'
  have b2 := digitsVal_lt ds'
  rw [hv] at a1 a2
  have c1 := (Nat.pow_lt_pow_iff_right (by norm_num : 1 < 10)).mp (lt_of_le_of_lt a1 b2)
  have c2 := (Nat.pow_lt_pow_iff_right (by norm_num : 1 < 10)).mp (lt_of_le_of_lt b1 a2)
  have := List.length_pos_iff.mpr hne
  have := List.length_pos_iff.mpr hne'
  omega

/-- The layout of plain numbers is the usual spelling. -/
theorem fmt_usual {n : Numeral} (hu : UsualSpelling n) (hz : n.absValue ≠ 0) {ds : List (Fin 10)} {k : Int}
    (hne : ds ≠ []) (hh : ds.head hne ≠ 0) (hl : ds.getLast hne ≠ 0)
    (hv : n.absValue = digitsVal ds * 10 ^ k) (hplain : max ((ds.length : Int) + k) (-k) ≤ 16) :
    fmtNumeral n.isNeg ds k = n := by
  obtain ⟨sg, int, frac, exp⟩ := n
  obtain ⟨u1, u2, u3, u4, u5, u6⟩ := hu
  dsimp only at u1 u2 u3 u4 u6
  subst u6
  have hsg : (if Numeral.isNeg ⟨sg, int, frac, none⟩ = true then some true else none) = sg := by
    unfold Numeral.isNeg
    rcases sg with _ | _ | _ <;> simp at u1 ⊢
  unfold Numeral.absValue at hv hz
  rw [show Numeral.expValue ⟨sg, int, frac, none⟩ = 0 from rfl] at hv hz
  cases frac with
  | none =>
    have hfd : Numeral.fracDigits ⟨sg, int, none, none⟩ = [] := rfl
    rw [hfd] at hv hz
    simp only [List.append_nil, List.length_nil, Nat.cast_zero, sub_zero, zpow_zero, mul_one] at hv hz
    obtain ⟨a, ha⟩ := exists_zeros_right int
    have hLne : int.rdropWhile (· = 0) ≠ [] := by
      intro h0
      rw [h0, List.nil_append] at ha
      rw [ha, digitsVal_replicate_zero] at hz
      simp at hz
    have hlast : (int.rdropWhile (· = 0)).getLast hLne ≠ 0 := by
      have := List.rdropWhile_last_not (· = (0 : Fin 10)) int hLne
      simpa using this
    generalize int.rdropWhile (· = 0) = L at *
    have hhead : L.head hLne ≠ 0 := by
      rcases u3 with e | e
      · rw [e] at hz; simp [digitsVal] at hz
      · rw [ha, List.head?_append_of_ne_nil _ hLne, List.head?_eq_some_head hLne] at e
        simpa using e
    have hval : (digitsVal ds : ℚ) * 10 ^ k = digitsVal L * 10 ^ (a : Int) := by
      rw [← hv, ha, digitsVal_append, digitsVal_replicate_zero, List.length_replicate, add_zero, zpow_natCast]
      push_cast; ring
    obtain ⟨rfl, rfl⟩ := significant_unique hne hLne hh hhead hl hlast hval
    rw [fmt_int _ _ _ (by omega) (le_trans (le_max_left _ _) hplain), hsg, Int.toNat_natCast, ← ha]
  | some fd =>
    have hfd : Numeral.fracDigits ⟨sg, int, some fd, none⟩ = fd := rfl
    rw [hfd] at hv hz u5
    have hfne : fd ≠ [] := fun h => u4 (by rw [h])
    have hlen := List.length_pos_iff.mpr hfne
    have hflast : fd.getLast hfne ≠ 0 := by
      rw [List.getLast?_eq_some_getLast hfne] at u5; simpa using u5
    rw [show (0 : Int) - (fd.length : Int) = -(fd.length : Int) by ring] at hv hz
    unfold fmtNumeral
    dsimp only
    rw [hsg, if_pos hplain]
    by_cases hi : int = [0]
    · subst hi
      obtain ⟨z, hzz⟩ := exists_zeros_left fd
      have hLne : fd.dropWhile (· = 0) ≠ [] := by
        intro h0
        rw [h0, List.append_nil] at hzz
        apply hflast
        have hall : ∀ x ∈ fd, x = 0 := by
          intro x hx
          rw [hzz] at hx
          exact (List.mem_replicate.mp hx).2
        exact hall _ (List.getLast_mem hfne)
      have hhead : (fd.dropWhile (· = 0)).head hLne ≠ 0 := by
        have := List.head_dropWhile_not (fun x : Fin 10 => decide (x = 0)) hLne
        simpa using this
      generalize fd.dropWhile (· = 0) = L at *
      subst hzz
      have hlast : L.getLast hLne ≠ 0 := by
        rwa [List.getLast_append_of_ne_nil _ hLne] at hflast
      have hval : (digitsVal ds : ℚ) * 10 ^ k = digitsVal L * 10 ^ (-((List.replicate z (0 : Fin 10) ++ L).length : Int)) := by
        rw [← hv, digitsVal_append, digitsVal_append, digitsVal_replicate_zero]
        simp [digitsVal]
      obtain ⟨rfl, rfl⟩ := significant_unique hne hLne hh hhead hl hlast hval
      rw [if_neg (by omega), if_neg (by rw [List.length_append, List.length_replicate]; push_cast; omega)]
      have : (-((ds.length : Int) + -((List.replicate z (0 : Fin 10) ++ ds).length : Int))).toNat = z := by
        rw [List.length_append, List.length_replicate]; push_cast; omega
      rw [this]
    · have hhd : int.head? ≠ some 0 := u3.resolve_left hi
      have hLne : int ++ fd ≠ [] := List.append_ne_nil_of_left_ne_nil u2 _
      have hhead : (int ++ fd).head hLne ≠ 0 := by
        rw [List.head_append_of_ne_nil u2]
        rw [List.head?_eq_some_head u2] at hhd
        simpa using hhd
      have hlast : (int ++ fd).getLast hLne ≠ 0 := by
        rwa [List.getLast_append_of_ne_nil _ hfne]
      obtain ⟨e1, e2⟩ := significant_unique hne hLne hh hhead hl hlast hv.symm
      subst e1 e2
      have hil := List.length_pos_iff.mpr u2
      rw [if_neg (by omega), if_pos (by rw [List.length_append]; push_cast; omega)]
      have : (((int ++ fd).length : Int) + -(fd.length : Int)).toNat = int.length := by
        rw [List.length_append]; push_cast; omega
      rw [this, List.take_left, List.drop_left]

/-- **C74, the text.** An amount in its usual spelling - at most 15 / 6 digits, not
counting leading zeros, at most 3 / 2 of them after the point - is printed, after it
has been read, by exactly the same characters. -/
theorem C74_amount_text (T : FloatType) (fb : Fallback) (errno : Nat) (mem : List Nat) (str : Nat)
    (n : Numeral) (h : NumeralAt mem str n) (hu : UsualSpelling n)
    (hk : n.fracDigits.length ≤ amountPlaces T) (h0 : n.absValue ≠ 0)
    (hd : digitsVal (n.int ++ n.fracDigits) < 10 ^ decimalDigits T) :
    ∃ b, atof T fb errno mem str = .ok ⟨b, .success, str + n.text.length, errno, false⟩ ∧
      Prints T b n.text := by
  have hv : n.absValue = digitsVal (n.int ++ n.fracDigits) / 10 ^ n.fracDigits.length := by
    unfold Numeral.absValue Numeral.expValue
    rw [hu.exp]
    simp only [zero_sub, zpow_neg, zpow_natCast, div_eq_mul_inv]
  have hd0 : 0 < digitsVal (n.int ++ n.fracDigits) := by
    rcases Nat.eq_zero_or_pos (digitsVal (n.int ++ n.fracDigits)) with e | e
    · rw [hv, e] at h0; simp at h0
    · exact e
  obtain ⟨b, n', a1, a2, a3⟩ := C74_amount_kept T fb errno mem str n h _ _ hk hd0 hd hv
  refine ⟨b, a1, ?_⟩
  obtain ⟨b', hb0, b1, -, b3⟩ := amount_read T fb errno mem str n h _ _
    hk hd0 hd hv
  have : b' = b := by
    rw [a1] at b3
    simp only [Except.ok.injEq, AtofResult.mk.injEq] at b3
    exact b3.1.symm
  subst this
  obtain ⟨ds, k, c1, ⟨hne, hh, hl⟩, c3, c4, -, c5⟩ :=
    ftoa_main' T (absPat T b') (absPat_lt_posInf b1.1) (abs_ne_zero_of_value hb0)
  have hp := c5 b' b1.1.1 rfl
  have hn' : n' = fmtNumeral (decide (signBit T b' = 1)) ds k := numeral_text_inj _ _ (prints_unique a2 hp)
  have habs : n.absValue = digitsVal ds * 10 ^ k := by
    rw [← abs_value_num, ← a3, abs_value_num, hn', fmt_absValue _ ds k hne (fmtK c1 hne c4)]
  have hneg : n.isNeg = decide (signBit T b' = 1) := by
    have hs := value_sign b1.1 hb0
    obtain ⟨i1, i2⟩ := identifies_sign b1 hb0
    have hpos := absValue_nonneg n
    by_cases c : n.isNeg
    · rw [c]
      symm
      rw [decide_eq_true_iff, hs, i1]
      have : n.value = -n.absValue := by unfold Numeral.value; rw [if_pos c]
      rw [this]
      have := lt_of_le_of_ne hpos h0.symm
      linarith
    · have hval : n.value = n.absValue := by unfold Numeral.value; rw [if_neg c]
      have : ¬ signBit T b' = 1 := by
        rw [hs, i1, hval]; linarith
      simp [this, c]
  have hplain : max ((ds.length : Int) + k) (-k) ≤ 16 := by
    have hge := digitsVal_ge hne hh
    have hge' : (10 : ℚ) ^ (ds.length - 1) ≤ digitsVal ds := by exact_mod_cast hge
    have hlen := List.length_pos_iff.mpr hne
    apply max_le
    · have h1 : (10 : ℚ) ^ ((ds.length : Int) - 1 + k) ≤ n.absValue := by
        rw [habs, zpow_add₀ (by norm_num)]
        apply mul_le_mul_of_nonneg_right _ (by positivity)
        rw [show (ds.length : Int) - 1 = ((ds.length - 1 : Nat) : Int) by omega, zpow_natCast]
        exact hge'
      have h2 : n.absValue < 10 ^ (15 : Int) := by
        rw [hv]
        have h3 : (digitsVal (n.int ++ n.fracDigits) : ℚ) / 10 ^ n.fracDigits.length ≤
            digitsVal (n.int ++ n.fracDigits) := div_le_self (by positivity) (one_le_pow₀ (by norm_num))
        have h4 : digitsVal (n.int ++ n.fracDigits) < 10 ^ 15 := lt_of_lt_of_le hd (by cases T <;> decide)
        have h5 : (digitsVal (n.int ++ n.fracDigits) : ℚ) < 10 ^ 15 := by exact_mod_cast h4
        rw [show (15 : Int) = ((15 : Nat) : Int) by rfl, zpow_natCast]
        linarith
      have := (zpow_lt_zpow_iff_right₀ (by norm_num)).mp (lt_of_le_of_lt h1 h2)
      omega
    · by_contra hc
      have hk3 : n.fracDigits.length ≤ 3 := by cases T <;> simp [amountPlaces] at hk <;> omega
      obtain ⟨m, hm⟩ : ∃ m : Nat, k = -((n.fracDigits.length + (m + 1) : Nat) : Int) :=
        ⟨(-k - n.fracDigits.length - 1).toNat, by push_cast; omega⟩
      rw [habs, hm, zpow_neg, zpow_natCast, pow_add, ← div_eq_mul_inv,
        div_eq_div_iff (by positivity) (by positivity)] at hv
      have hv2 : (digitsVal ds : ℚ) = digitsVal (n.int ++ n.fracDigits) * 10 ^ (m + 1) := by
        have : (10 : ℚ) ^ n.fracDigits.length ≠ 0 := by positivity
        apply mul_right_cancel₀ this
        linarith
      have hv3 : digitsVal ds = digitsVal (n.int ++ n.fracDigits) * 10 ^ (m + 1) := by exact_mod_cast hv2
      have h1 := digitsVal_mod_ten ds hne
      rw [hv3, pow_succ, ← mul_assoc, Nat.mul_mod_left] at h1
      exact hl (Fin.ext h1.symm)
  rw [← hneg, fmt_usual hu h0 hne hh hl habs hplain] at hp
  exact hp

/-! ## The limits -/

/-- **C74, more places.** With four places the `double` nearest to 35918967393.6236
(15 digits) is read as it should, but printed differently; with three places the
same happens to the `float` of 619.931 (6 digits), and the fallback is needed to read
641.944. -/
theorem C74_more_places (fb : Fallback) (errno : Nat) :
    (atof .double fb errno (chars "35918967393.6236" ++ [0]) 0 =
        .ok ⟨0x4220b9dfe4c33f48, .success, 16, errno, false⟩ ∧
      Prints .double 0x4220b9dfe4c33f48 (chars "35918967393.623599")) ∧
    (atof .float fb errno (chars "619.931" ++ [0]) 0 = .ok ⟨0x441afb96, .success, 7, errno, false⟩ ∧
      Prints .float 0x441afb96 (chars "619.93106")) ∧
    ∃ r, atof .float fb errno (chars "641.944" ++ [0]) 0 = .ok r ∧ r.fellBack = true := by
  have k1 : krosh .double (chars "35918967393.6236" ++ [0]) 0 =
      .ok ⟨0x4220b9dfe4c33f48, 16, .success, true⟩ := by decide +kernel
  have k2 : krosh .float (chars "619.931" ++ [0]) 0 = .ok ⟨0x441afb96, 7, .success, true⟩ := by decide +kernel
  have k3 : krosh .float (chars "641.944" ++ [0]) 0 = .ok ⟨1142979690, 7, .success, false⟩ := by decide +kernel
  refine ⟨⟨?_, prints_of_string (by decide) (by decide +kernel)⟩,
    ⟨?_, prints_of_string (by decide) (by decide +kernel)⟩, ?_⟩
  · rw [atof_of_krosh k1 (by decide)]; rfl
  · rw [atof_of_krosh k2 (by decide)]; rfl
  · rw [atof_of_krosh k3 (by decide)]; exact ⟨_, rfl, rfl⟩

/-! ## The hypotheses are met -/

/-- "-1024.025" -/
def someAmount : Numeral := ⟨some true, [1, 0, 2, 4], some [0, 2, 5], none⟩

theorem someAmount_at : NumeralAt (someAmount.text ++ [0]) 0 someAmount :=
  numeralAt_cstr ⟨by decide, by intro e he; cases he⟩ (by decide) (by intro e he; cases he)

example (fb : Fallback) : ∃ b, atof .double fb 7 (chars "-1024.025" ++ [0]) 0 =
      .ok ⟨b, .success, 9, 7, false⟩ ∧ Prints .double b (chars "-1024.025") :=
  C74_amount_text .double fb 7 _ 0 someAmount someAmount_at
    ⟨by decide, by decide, by decide, by decide, by decide, rfl⟩ (by decide) (by decide +kernel) (by decide)

/-- "0.1e-1", an unusual spelling of 1/100, as `float` -/
def oneCent : Numeral := ⟨none, [0], some [1], some ⟨false, some true, [1]⟩⟩

theorem oneCent_at : NumeralAt (oneCent.text ++ [0]) 0 oneCent :=
  numeralAt_cstr ⟨by decide, by intro e he; cases he; decide⟩ (by decide)
    (by intro e he; cases he; exact ⟨by decide, readable_of_lt (by decide)⟩)

example (fb : Fallback) : ∃ b, Identifies .float oneCent.value b ∧ RoundsTo .float oneCent.value b ∧
      atof .float fb 0 (oneCent.text ++ [0]) 0 = .ok ⟨b, .success, 0 + oneCent.text.length, 0, false⟩ :=
  C74_amount_read .float fb 0 _ 0 oneCent oneCent_at 1 2 (by decide) (by decide) (by decide)
    (by norm_num [oneCent, Numeral.absValue, Numeral.fracDigits, Numeral.expValue, ExpPart.value, digitsVal])

/-- "9876.54" as `float` -/
def twoPlaces : Numeral := ⟨none, [9, 8, 7, 6], some [5, 4], none⟩

theorem twoPlaces_at : NumeralAt (twoPlaces.text ++ [0]) 0 twoPlaces :=
  numeralAt_cstr ⟨by decide, by intro e he; cases he⟩ (by decide) (by intro e he; cases he)

example (fb : Fallback) : ∃ b, atof .float fb 7 (chars "9876.54" ++ [0]) 0 =
      .ok ⟨b, .success, 7, 7, false⟩ ∧ Prints .float b (chars "9876.54") :=
  C74_amount_text .float fb 7 _ 0 twoPlaces twoPlaces_at
    ⟨by decide, by decide, by decide, by decide, by decide, rfl⟩ (by decide) (by decide +kernel) (by decide)

/-- "99999.90" as `float` -/
def bigAmount : Numeral := ⟨none, [9, 9, 9, 9, 9], some [9, 0], none⟩

example (fb : Fallback) : ∃ (b : Nat) (n' : Numeral),
      atof .float fb 0 (bigAmount.text ++ [0]) 0 = .ok ⟨b, .success, 0 + bigAmount.text.length, 0, false⟩ ∧
      Prints .float b n'.text ∧ n'.value = bigAmount.value :=
  C74_amount_kept .float fb 0 _ 0 bigAmount
    (numeralAt_cstr ⟨by decide, by intro e he; cases he⟩ (by decide) (by intro e he; cases he))
    999999 1 (by decide) (by decide) (by decide)
    (by norm_num [bigAmount, Numeral.absValue, Numeral.fracDigits, Numeral.expValue, digitsVal])

end Floaxie
