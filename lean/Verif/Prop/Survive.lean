import Verif.Proof.SurviveEval
import Verif.Prop.FullCircle
import Verif.Prop.Ask

/-!
# How many short decimals survive (C92)

Reading a decimal number of 15 (`float`: 6) digits and printing what was read gives the same
number back - `std::numeric_limits<double>::digits10` promises that it can. C49 proves it for the
numbers that are not too near to the ends of the rounding intervals; here the others are counted,
for each last place.
-/

namespace Floaxie

open FloatType Spec

/-- The numeral is read, wherever it stands and without the fallback, as a value for which a
numeral of the same value is printed. -/
def ComesBack (T : FloatType) (n : Numeral) : Prop :=
  ∀ mem str, NumeralAt mem str n → ∃ (v : Nat) (n' : Numeral),
    (∀ (fb : Fallback) (errno : Nat), atof T fb errno mem str = .ok ⟨v, .success, str + n.text.length, errno, false⟩) ∧
    Prints T v n'.text ∧ n'.value = n.value

/-- Ten-thousandths of the numbers with last place `10^k`. -/
def loseShare (T : FloatType) (k : Int) : Nat :=
  match T with
  | .float => if k = 3 then 2135 else if k = 2 then 1828 else if k = -2 then 801 else
      if k = -3 ∨ k = 4 then 542 else 426
  | .double => if k = 2 then 2778 else if k = 3 then 1340 else if k = 4 then 269 else
      if -6 ≤ k ∧ k ≤ 5 then 65 else 53

/-- The pattern of `M * 2^e`. -/
theorem pattern_of {T : FloatType} {M i : Nat} (hM1 : 2 ^ (T.p - 1) ≤ M) (hM2 : M < 2 ^ T.p) :
    N T ((i + 1) * 2 ^ (T.p - 1) + (M - 2 ^ (T.p - 1))) = M * 2 ^ i ∧
    ulpN T ((i + 1) * 2 ^ (T.p - 1) + (M - 2 ^ (T.p - 1))) = 2 ^ i ∧
    (2 ^ (T.p - 1) < M → ulpN T ((i + 1) * 2 ^ (T.p - 1) + (M - 2 ^ (T.p - 1)) - 1) = 2 ^ i) ∧
    (2 ^ (T.p - 1) = M → ulpN T ((i + 1) * 2 ^ (T.p - 1) + (M - 2 ^ (T.p - 1)) - 1) = 2 ^ (i - 1)) := by
  have hp : 2 ^ T.p = 2 * 2 ^ (T.p - 1) := by cases T <;> decide
  have hp0 : 0 < 2 ^ (T.p - 1) := by positivity
  have hp1 : 1 < 2 ^ (T.p - 1) := by cases T <;> decide
  unfold N ulpN
  generalize 2 ^ (T.p - 1) = P at *
  have hq : ∀ r, r < P → ((i + 1) * P + r) / P = i + 1 ∧ ((i + 1) * P + r) % P = r := by
    intro r hr
    rw [mul_comm (i + 1) P]
    refine ⟨?_, ?_⟩
    · rw [Nat.mul_add_div hp0, Nat.div_eq_of_lt hr, add_zero]
    · rw [Nat.mul_add_mod, Nat.mod_eq_of_lt hr]
  obtain ⟨q1, q2⟩ := hq (M - P) (by omega)
  refine ⟨?_, ?_, ?_, ?_⟩
  · rw [q1, q2, if_neg (by omega), Nat.add_sub_cancel' hM1, Nat.add_sub_cancel]
  · rw [q1, Nat.add_sub_cancel]
  · intro hlt
    rw [Nat.add_sub_assoc (by omega), (hq (M - P - 1) (by omega)).1, Nat.add_sub_cancel]
  · intro he
    have : (i + 1) * P + (M - P) - 1 = i * P + (P - 1) := by
      rw [he, Nat.sub_self, add_zero, add_mul, one_mul, Nat.add_sub_assoc (by omega)]
    rw [this, mul_comm i P, Nat.mul_add_div hp0, Nat.div_eq_of_lt (by omega), add_zero]

theorem good_survives {T : FloatType} {d : Nat} {k : Int} {n : Numeral} (hd : d < 10 ^ decimalDigits T)
    (hn : n.absValue = d * 10 ^ k) (hx1 : (2 : ℚ) ^ (emin T + T.p) ≤ n.absValue)
    (hx2 : n.absValue ≤ 10 ^ (T.maxExp * 1233 / 4096)) (hg : Good T k d) : ComesBack T n := by
  intro mem str hat
  obtain ⟨e, M, M1, M2, M3, M4, M5⟩ := hg
  rw [← hn] at M3 M4 M5
  have hc : (4 : ℚ) ≤ cutOff T := by cases T <;> norm_num [cutOff]
  have hc0 : (0 : ℚ) < cutOff T := by linarith
  have hci : (1 : ℚ) / cutOff T ≤ 1 / 4 := by
    rw [div_le_div_iff₀ hc0 (by norm_num)]; linarith
  have hci0 : (0 : ℚ) < 1 / cutOff T := by positivity
  have hU : (0 : ℚ) < 2 ^ e := by positivity
  have hu := emin_pos T
  have hM1 : (2 : ℚ) ^ (T.p - 1) ≤ M := by exact_mod_cast M1
  have hM2 : (M : ℚ) + 1 ≤ 2 ^ T.p := by exact_mod_cast M2
  have h16 : (16 : ℚ) ≤ 2 ^ (T.p - 1) := by cases T <;> norm_num [FloatType.p]
  have hee : emin T < e := by
    have : (2 : ℚ) ^ (emin T + T.p) < 2 ^ (T.p + e) := by
      refine lt_of_le_of_lt hx1 (lt_trans M5 ?_)
      rw [zpow_add₀ (by norm_num), zpow_natCast]
      exact mul_lt_mul_of_pos_right (by linarith) hU
    have := (zpow_lt_zpow_iff_right₀ (by norm_num : (1 : ℚ) < 2)).mp this
    omega
  obtain ⟨i, hi, hi0⟩ : ∃ i : Nat, e = emin T + i ∧ 1 ≤ i := ⟨(e - emin T).toNat, by omega, by omega⟩
  have hUi : (2 : ℚ) ^ i * 2 ^ emin T = 2 ^ e := by
    rw [hi, zpow_add₀ (by norm_num), zpow_natCast, mul_comm]
  set a := (i + 1) * 2 ^ (T.p - 1) + (M - 2 ^ (T.p - 1)) with ha
  obtain ⟨p1, p2, p3, p4⟩ := pattern_of (i := i) M1 M2
  rw [← ha] at p1 p2 p3 p4
  have hNa : (N T a : ℚ) * 2 ^ emin T = M * 2 ^ e := by
    rw [p1]; push_cast; rw [mul_assoc, hUi]
  have hainf : a < posInf T := by
    have h1 : (M : ℚ) * 2 ^ e ≤ 8 / 7 * n.absValue := by
      have : ((M : ℚ) * (7 / 8)) * 2 ^ e ≤ n.absValue := by
        refine le_trans (mul_le_mul_of_nonneg_right ?_ hU.le) M4.le
        linarith
      linarith
    have h2 : (8 / 7 : ℚ) * 10 ^ (T.maxExp * 1233 / 4096) < 2 ^ T.maxExp := by cases T <;> decide +kernel
    have h3 : (N T a : ℚ) * 2 ^ emin T < N T (posInf T) * 2 ^ emin T := by
      rw [hNa, N_posInf]; linarith
    have h4 : N T a < N T (posInf T) := by exact_mod_cast lt_of_mul_lt_mul_right h3 hu.le
    exact (N_strictMono T).lt_iff_lt.mp h4
  have hal : 2 ^ (T.p - 1) < a := by
    have hp0 : 0 < 2 ^ (T.p - 1) := by positivity
    have : 2 * 2 ^ (T.p - 1) ≤ (i + 1) * 2 ^ (T.p - 1) := Nat.mul_le_mul_right _ (by omega)
    omega
  set b := if n.isNeg then neg T a else a with hb
  have habs : absPat T b = a := by
    rw [hb]
    split_ifs
    · rw [(signBit_neg (lt_posInf_lt hainf)).2.1, absPat_of_lt hainf]
    · exact absPat_of_lt hainf
  have hfin : IsFinite T b := by
    rw [hb]
    split_ifs
    · exact isFinite_neg (isFinite_of_lt hainf)
    · exact isFinite_of_lt hainf
  have hval : value T b = if n.isNeg then -(M * 2 ^ e : ℚ) else M * 2 ^ e := by
    rw [hb]
    split_ifs
    · rw [value_neg (lt_posInf_lt hainf), value_of_lt hainf, hNa]
    · rw [value_of_lt hainf, hNa]
  have hMe : (0 : ℚ) < M * 2 ^ e := mul_pos (by linarith) hU
  have hx0 : 0 < n.absValue := lt_of_lt_of_le (by positivity) hx1
  have habv : |value T b| = M * 2 ^ e := by
    rw [hval]
    split_ifs
    · rw [abs_neg, abs_of_pos hMe]
    · rw [abs_of_pos hMe]
  have hs : 0 < n.value * value T b := by
    rw [hval]
    unfold Numeral.value
    split_ifs
    · rw [neg_mul_neg]; exact mul_pos hx0 hMe
    · exact mul_pos hx0 hMe
  have hw : WellInside T b n.absValue := by
    obtain ⟨q1, q2⟩ := mids_eq hfin
    rw [habs] at q1 q2
    have s1 : (N T (a + 1) : ℚ) * 2 ^ emin T = (M + 1) * 2 ^ e := by
      have : (N T (a + 1) : ℚ) = N T a + 2 ^ i := by rw [N_succ, p2]; push_cast; rfl
      rw [this, add_mul, hNa, hUi]; ring
    have s2 : (N T a : ℚ) = N T (a - 1) + ulpN T (a - 1) := by
      have := N_succ T (a - 1)
      rw [Nat.sub_add_cancel (by omega)] at this
      exact_mod_cast this
    have hA : midAbove T b = (M + 1 / 2) * 2 ^ e := by
      rw [q2, div_mul_eq_mul_div, add_mul, hNa, s1]; ring
    unfold WellInside
    rcases Nat.lt_or_ge (2 ^ (T.p - 1)) M with hlt | hge
    · have s3 : (N T (a - 1) : ℚ) * 2 ^ emin T = (M - 1) * 2 ^ e := by
        have : (N T (a - 1) : ℚ) = N T a - 2 ^ i := by rw [s2, p3 hlt]; push_cast; ring
        rw [this, sub_mul, hNa, hUi]; ring
      have hB : midBelow T b = (M - 1 / 2) * 2 ^ e := by
        rw [q1, div_mul_eq_mul_div, add_mul, hNa, s3]; ring
      rw [hA, hB]
      have e1 : (((M : ℚ) + 1 / 2) * 2 ^ e - (M - 1 / 2) * 2 ^ e) / cutOff T = 1 / cutOff T * 2 ^ e := by ring
      rw [e1]
      constructor <;> linarith
    · have he : 2 ^ (T.p - 1) = M := by omega
      have s3 : (N T (a - 1) : ℚ) * 2 ^ emin T = (M - 1 / 2) * 2 ^ e := by
        have h2i : (2 : ℚ) ^ i = 2 * 2 ^ (i - 1) := by
          rw [← pow_succ']; congr 1; omega
        have : (N T (a - 1) : ℚ) = N T a - 2 ^ i / 2 := by rw [s2, p4 he, h2i]; push_cast; ring
        rw [this, sub_mul, hNa, div_mul_eq_mul_div, hUi]; ring
      have hB : midBelow T b = (M - 1 / 4) * 2 ^ e := by
        rw [q1, div_mul_eq_mul_div, add_mul, hNa, s3]; ring
      have hge := M3 he.symm
      rw [hA, hB]
      have e1 : (((M : ℚ) + 1 / 2) * 2 ^ e - (M - 1 / 4) * 2 ^ e) / cutOff T = 3 / 4 * (1 / cutOff T * 2 ^ e) := by ring
      have h7 : (1 : ℚ) / cutOff T * 2 ^ e ≤ 1 / 4 * 2 ^ e := mul_le_mul_of_nonneg_right hci hU.le
      have h8 : (0 : ℚ) < 1 / cutOff T * 2 ^ e := by positivity
      rw [e1]
      constructor <;> linarith
  have hp : (∃ i : Int, |value T b| = 2 ^ i) → |value T b| ≤ n.absValue := by
    rintro ⟨j, hj⟩
    rw [habv] at hj ⊢
    rcases Nat.lt_or_ge (2 ^ (T.p - 1)) M with hlt | hge
    · exfalso
      have hp1 : 1 ≤ T.p := by cases T <;> decide
      have hlt' : (2 : ℚ) ^ (T.p - 1) < M := by exact_mod_cast hlt
      have h1 : (2 : ℚ) ^ (((T.p - 1 : Nat) : Int) + e) < 2 ^ j := by
        rw [← hj, zpow_add₀ (by norm_num), zpow_natCast]
        exact mul_lt_mul_of_pos_right hlt' hU
      have h2 : (2 : ℚ) ^ j < 2 ^ ((T.p : Int) + e) := by
        rw [← hj, zpow_add₀ (by norm_num), zpow_natCast]
        exact mul_lt_mul_of_pos_right (by linarith) hU
      have h1' := (zpow_lt_zpow_iff_right₀ (by norm_num : (1 : ℚ) < 2)).mp h1
      have h2' := (zpow_lt_zpow_iff_right₀ (by norm_num : (1 : ℚ) < 2)).mp h2
      omega
    · exact M3 (by omega)
  have hab : AboveLeastNormal T b := ⟨hfin, by rw [absPat_mod, habs]; exact hal⟩
  have key := fun fb errno => C49_full_circle T fb errno mem str n hat d k hd hn b hab hs hw hp
  obtain ⟨n', -, h2, h3⟩ := key (fun _ _ _ => ⟨0, 0, 0⟩) 0
  exact ⟨b, n', fun fb errno => (key fb errno).choose_spec.1, h2, h3⟩

/-- The exponents for which all numbers of so many digits are normal. -/
theorem survive_range {T : FloatType} {k : Int}
    (hlo : (2 : ℚ) ^ (emin T + T.p - 1) ≤ 10 ^ ((decimalDigits T : Int) - 1 + k))
    (hhi : (10 : ℚ) ^ ((decimalDigits T : Int) + k) ≤ 2 ^ T.maxExp) :
    (∃ k1 c : Nat, k = (k1 : Int) - 1000 ∧ surviveCount T k1 = some c ∧
      10000 * c < loseShare T k * (9 * 10 ^ (decimalDigits T - 1))) ∧
    (2 : ℚ) ^ (emin T + T.p) ≤ 10 ^ ((decimalDigits T : Int) - 1 + k) ∧
    (10 : ℚ) ^ ((decimalDigits T : Int) + k) ≤ 10 ^ (T.maxExp * 1233 / 4096) := by
  have h1 : ∀ a b : Int, (10 : ℚ) ^ a < 10 ^ b → a < b := fun a b h => (zpow_lt_zpow_iff_right₀ (by norm_num)).mp h
  have h2 : ∀ a b : Int, a ≤ b → (10 : ℚ) ^ a ≤ 10 ^ b := fun a b h => zpow_le_zpow_right₀ (by norm_num) h
  cases T
  · have a1 : (-38 : Int) < 5 + k := h1 _ _ (lt_of_lt_of_le (by decide +kernel) hlo)
    have a2 : (6 : Int) + k < 39 := h1 _ _ (lt_of_le_of_lt hhi (by decide +kernel))
    refine ⟨?_, ?_, ?_⟩
    · obtain ⟨c, c1, c2⟩ := surviveOk_spec _ _ survive_float (1000 + k).toNat (by omega) (by omega)
      refine ⟨(1000 + k).toNat, c, by omega, c1, ?_⟩
      have : surviveShareAt .float (1000 + k).toNat = loseShare .float k := by
        unfold surviveShareAt loseShare
        simp only
        split_ifs <;> omega
      rwa [this] at c2
    · exact le_trans (b := (10 : ℚ) ^ (-37 : Int)) (by decide +kernel) (h2 _ _ (by show (-37 : Int) ≤ 6 - 1 + k; omega))
    · exact h2 _ _ (by show (6 : Int) + k ≤ 128 * 1233 / 4096; omega)
  · have a1 : (-308 : Int) < 14 + k := h1 _ _ (lt_of_lt_of_le (by decide +kernel) hlo)
    have a2 : (15 : Int) + k < 309 := by
      have h3 : (2 : ℚ) ^ FloatType.double.maxExp < 10 ^ (309 : Int) := by decide +kernel
      exact h1 _ _ (lt_of_le_of_lt hhi h3)
    refine ⟨?_, ?_, ?_⟩
    · have hall : ∃ c, surviveCount .double (1000 + k).toNat = some c ∧
          10000 * c < surviveShareAt .double (1000 + k).toNat * (9 * 10 ^ (decimalDigits .double - 1)) := by
        rcases lt_or_ge (1000 + k).toNat 879 with h3 | h3
        · exact surviveOk_spec _ _ survive_double_0 _ (by omega) (by omega)
        · rcases lt_or_ge (1000 + k).toNat 1079 with h4 | h4
          · exact surviveOk_spec _ _ survive_double_200 _ (by omega) (by omega)
          · exact surviveOk_spec _ _ survive_double_400 _ (by omega) (by omega)
      obtain ⟨c, c1, c2⟩ := hall
      refine ⟨(1000 + k).toNat, c, by omega, c1, ?_⟩
      have : surviveShareAt .double (1000 + k).toNat = loseShare .double k := by
        unfold surviveShareAt loseShare
        simp only
        split_ifs <;> omega
      rwa [this] at c2
    · exact le_trans (b := (10 : ℚ) ^ (-307 : Int)) (by decide +kernel) (h2 _ _ (by show (-307 : Int) ≤ 15 - 1 + k; omega))
    · exact h2 _ _ (by show (15 : Int) + k ≤ 1024 * 1233 / 4096; omega)

open Classical in
/-- **C92.** Take all 15-digit numbers (`float`: 6 digits) with last place `10^k`, where `k` is
such that they are all normal numbers. The share of them that, in some spelling, is not read
without the fallback as a value that is printed as the same number is less than 0.53%
(`float`: 4.26%), but for a few `k` (see `loseShare`). -/
theorem C92_survivors (T : FloatType) (k : Int)
    (hlo : (2 : ℚ) ^ (emin T + T.p - 1) ≤ 10 ^ ((decimalDigits T : Int) - 1 + k))
    (hhi : (10 : ℚ) ^ ((decimalDigits T : Int) + k) ≤ 2 ^ T.maxExp) :
    10000 * ((Finset.Ico (10 ^ (decimalDigits T - 1)) (10 ^ decimalDigits T)).filter (fun d : Nat =>
        ∃ n : Numeral, n.absValue = (d : ℚ) * 10 ^ k ∧ ¬ ComesBack T n)).card <
      loseShare T k * (Finset.Ico (10 ^ (decimalDigits T - 1)) (10 ^ decimalDigits T)).card := by
  obtain ⟨⟨k1, c, hk, hc, hlt⟩, r3, r4⟩ := survive_range hlo hhi
  have hcard : (Finset.Ico (10 ^ (decimalDigits T - 1)) (10 ^ decimalDigits T)).card = 9 * 10 ^ (decimalDigits T - 1) := by
    rw [Nat.card_Ico]; cases T <;> decide
  rw [hcard]
  refine lt_of_le_of_lt (Nat.mul_le_mul_left _ (le_trans (Finset.card_le_card ?_) (surviveCount_spec hc))) hlt
  intro d hd
  rw [Finset.mem_filter] at hd ⊢
  obtain ⟨hI, n, hn, hs⟩ := hd
  refine ⟨hI, fun hg => hs ?_⟩
  rw [Finset.mem_Ico] at hI
  rw [← hk] at hg
  have h10k : (0 : ℚ) < 10 ^ k := by positivity
  have hms : 1 ≤ decimalDigits T := by cases T <;> decide
  refine good_survives hI.2 hn ?_ ?_ hg
  · refine le_trans r3 ?_
    rw [hn, zpow_add₀ (by norm_num)]
    apply mul_le_mul_of_nonneg_right _ h10k.le
    rw [show (decimalDigits T : Int) - 1 = ((decimalDigits T - 1 : Nat) : Int) by omega, zpow_natCast]
    exact_mod_cast hI.1
  · refine le_trans ?_ r4
    rw [hn, zpow_add₀ (by norm_num)]
    apply mul_le_mul_of_nonneg_right _ h10k.le
    rw [zpow_natCast]
    exact_mod_cast hI.2.le

/-- A 15-digit (`float`: 6-digit) number of which the digits are followed by zeros. -/
def tiedShort (T : FloatType) : Numeral :=
  ⟨none, match T with
    | .float => [2, 0, 0, 0, 0, 1, 0, 0, 0]
    | .double => [5, 0, 0, 0, 0, 0, 0, 0, 0, 0, 0, 0, 0, 0, 1, 0, 0], none, none⟩

/-- The share is not nothing: the number 500000000000001 with last place 100 (`float`: 200001 with
last place 1000) lies in the middle of two values and is handed to the fallback. -/
theorem C92_not_all (T : FloatType) :
    ∃ (d : Nat) (k : Int), d ∈ Finset.Ico (10 ^ (decimalDigits T - 1)) (10 ^ decimalDigits T) ∧
      (2 : ℚ) ^ (emin T + T.p - 1) ≤ 10 ^ ((decimalDigits T : Int) - 1 + k) ∧
      (10 : ℚ) ^ ((decimalDigits T : Int) + k) ≤ 2 ^ T.maxExp ∧
      (tiedShort T).absValue = (d : ℚ) * 10 ^ k ∧ ¬ ComesBack T (tiedShort T) := by
  refine ⟨match T with | .float => 200001 | .double => 500000000000001, match T with | .float => 3 | .double => 2,
    by cases T <;> (rw [Finset.mem_Ico]; decide), by cases T <;> decide +kernel, by cases T <;> decide +kernel,
    by cases T <;> decide +kernel, ?_⟩
  intro hu
  have hat : NumeralAt ((tiedShort T).text ++ [0]) 0 (tiedShort T) := by
    cases T <;> exact numeralAt_cstr ⟨by decide, by intro e he; cases he⟩ (by decide) (by intro e he; cases he)
  obtain ⟨v, -, hv, -⟩ := hu _ _ hat
  have hk : ∃ u, krosh T ((tiedShort T).text ++ [0]) 0 = .ok ⟨u, 0 + (tiedShort T).text.length, .success, false⟩ := by
    cases T
    · exact ⟨1295957086, by decide +kernel⟩
    · exact ⟨4856626798678024204, by decide +kernel⟩
  obtain ⟨u, hk⟩ := hk
  have := hv (fun _ _ _ => ⟨0, 0, 0⟩) 0
  rw [atof_of_krosh hk (show 0 + (tiedShort T).text.length ≠ 0 by cases T <;> decide)] at this
  simp at this

/-- The numbers of 15 digits between 1 and 10. -/
example := C92_survivors .double (-14) (by decide +kernel) (by decide +kernel)

/-- The numbers of 6 digits between 1 and 10. -/
example := C92_survivors .float (-5) (by decide +kernel) (by decide +kernel)

/-- The numbers with last place 100. -/
example := C92_survivors .double 2 (by decide +kernel) (by decide +kernel)

end Floaxie
