import Verif.Proof.AskDoubleA
import Verif.Proof.AskDoubleB
import Verif.Prop.Atof

/-!
# How often the fallback is asked (C91)

README.md, "Parsing": rounding problems "are detected instead and slower, but accurate fallback
conversion is performed". Proved here: of all numerals with the full number of significant
digits (9 for `float`, 17 for `double`) and the same last place, less than 0.88% / 0.11% need the
fallback - except for a few last places around the decimal point, where exact ties abound.
-/

namespace Floaxie

open FloatType Spec

/-- The numeral is read without the fallback: wherever it stands, whatever the fallback would
answer, and `errno` is left alone. -/
def Unaided (T : FloatType) (n : Numeral) : Prop :=
  ∀ mem str, NumeralAt mem str n →
    ∃ v, ∀ (fb : Fallback) (errno : Nat),
      atof T fb errno mem str = .ok ⟨v, .success, str + n.text.length, errno, false⟩

/-- Ten-thousandths of the numerals with last place `10^k`. -/
def askShare (T : FloatType) (k : Int) : Nat :=
  match T with
  | .float => if -2 ≤ k ∧ k ≤ 0 then 350 else 88
  | .double => if k = 0 then 1823 else if -1 ≤ k ∧ k ≤ 3 then 618 else 11

/-- Numbers with exactly so many significant digits (as multiples of the last place). -/
def FullLength (T : FloatType) (d : Nat) : Prop :=
  10 ^ (maxSigDigits T - 1) ≤ d ∧ d < 10 ^ maxSigDigits T ∧ ¬ 10 ∣ d

instance (T : FloatType) (d : Nat) : Decidable (FullLength T d) := by unfold FullLength; infer_instance

/-- The product of mantissa and power of ten, exactly. -/
theorem scale_full {T : FloatType} {w : DiyFp} {K : Int} (h1 : 2 ^ (T.W - 1) ≤ w.f)
    (h2 : w.f < 2 ^ T.W) (hK : T.powLo ≤ K ∧ K ≤ T.powHi) :
    ∃ w', scaleStep T w K = .ok w' ∧
      w'.f = if askProduct T.W (askFactor T (packF T) (T.pow0Offset + K).toNat) w.f < 2 ^ (T.W - 1) then
          2 * askProduct T.W (askFactor T (packF T) (T.pow0Offset + K).toNat) w.f
        else askProduct T.W (askFactor T (packF T) (T.pow0Offset + K).toNat) w.f := by
  have hWW : 2 ^ T.W = 2 * 2 ^ (T.W - 1) := by cases T <;> simp [FloatType.W]
  have hlo : -(T.pow0Offset : Int) ≤ T.powLo := by cases T <;> decide
  by_cases hK0 : K = 0
  · refine ⟨w, ?_, ?_⟩
    · unfold scaleStep
      rw [if_neg (by simpa using hK0), pure_bind', normalize_id h1 h2]
    · have e : askProduct T.W (askFactor T (packF T) (T.pow0Offset + K).toNat) w.f = w.f := by
        unfold askProduct askFactor
        rw [hK0, if_pos (by omega), mul_comm, Nat.mul_add_div (by positivity),
          Nat.div_eq_of_lt (by rw [hWW]; have : 0 < 2 ^ (T.W - 1) := by positivity
                               omega)]
        rfl
      rw [e, if_neg (by omega)]
  · obtain ⟨c, hc, c1, c2, -⟩ := cachedPower_ok T K hK.1 hK.2
    have hu := (unpack_cached hc).1
    have hf : askFactor T (packF T) (T.pow0Offset + K).toNat = c.f := by
      unfold askFactor
      rw [if_neg (by omega), hu]
    rw [hf]
    have hmf : (w.mul T.W c).f = askProduct T.W c.f w.f := mul_f T w c h2 c2
    set m := w.mul T.W c with hm
    have hmlo : 2 ^ (T.W - 2) ≤ m.f := by
      rw [hmf]
      unfold askProduct
      rw [Nat.le_div_iff_mul_le (by positivity)]
      have := Nat.mul_le_mul h1 c1
      have e : 2 ^ (T.W - 2) * 2 ^ T.W = 2 ^ (T.W - 1) * 2 ^ (T.W - 1) := by cases T <;> decide
      omega
    have hmhi : m.f < 2 ^ T.W := by
      rw [hmf]
      unfold askProduct
      apply Nat.div_lt_of_lt_mul
      have h1 : w.f * c.f ≤ (2 ^ T.W - 1) * (2 ^ T.W - 1) := Nat.mul_le_mul (by omega) (by omega)
      have h2 : (2 ^ T.W - 1) * (2 ^ T.W - 1) + 2 ^ (T.W - 1) < 2 ^ T.W * 2 ^ T.W := by
        cases T <;> norm_num [FloatType.W]
      omega
    have hm0 : m.f ≠ 0 := by have : 0 < 2 ^ (T.W - 2) := by positivity
                             omega
    have hWm : 2 ^ (T.W - 1) = 2 * 2 ^ (T.W - 2) := by cases T <;> decide
    obtain ⟨j, hj, hn, n1, n2⟩ := normalize_ok (W_pos T) m hm0 hmhi
    refine ⟨_, by unfold scaleStep; rw [if_pos (by simpa using hK0), hc, ok_bind, pure_bind', ← hm, hn], ?_⟩
    rw [← hmf]
    dsimp only
    rcases Nat.eq_zero_or_pos j with rfl | hj0
    · rw [pow_zero, mul_one] at n1 ⊢
      rw [if_neg (by omega)]
    · have hj1 : j = 1 := by
        by_contra hc
        have h3 := Nat.mul_le_mul hmlo (Nat.pow_le_pow_right (show 0 < 2 by norm_num) (show 2 ≤ j by omega))
        have h4 : 2 ^ (T.W - 2) * 2 ^ 2 = 2 ^ T.W := by cases T <;> decide
        omega
      subst hj1
      rw [pow_one] at n2 ⊢
      rw [if_pos (by omega), mul_comm]

/-- Rounding of a scaled mantissa in the normal range. -/
theorem kroshTail_exact {T : FloatType} {w : DiyFp} {K : Int} {x : ℚ} {pos : Bool} {strEnd : Nat} (h1 : 2 ^ (T.W - 1) ≤ w.f)
    (h2 : w.f < 2 ^ T.W) (hK : T.powLo ≤ K ∧ K ≤ T.powHi) (hx : x = w.f * 2 ^ w.e * 10 ^ K)
    (hx1 : 2 ^ (emin T + T.p) ≤ x) (hx2 : x ≤ 10 ^ (T.maxExp * 1233 / 4096)) 
    (ht : ¬ AskTie T (askFactor T (packF T) (T.pow0Offset + K).toNat) w.f) :
    ∃ v, kroshTail T w K pos strEnd = .ok { value := v, status := .success, strEnd := strEnd, isAccurate := true } := by
  obtain ⟨w', s1, s2⟩ := scale_full h1 h2 hK
  obtain ⟨w'', y, j, t1, t2, t3, t4, t5, t6, t7, -⟩ := scale_ok (ε := 0) (Y := w.f * 2 ^ w.e) h1 h2 (Or.inr hK) le_rfl (by simp)
  rw [s1, Except.ok.injEq] at t1
  subst t1
  rw [← hx] at t6
  have he0 : (0 : ℚ) < 2 ^ w'.e := by positivity
  have hj2 : (2 : ℚ) ^ j ≤ 2 := by
    have : j = 0 ∨ j = 1 := by omega
    rcases this with rfl | rfl <;> norm_num
  rw [add_zero, one_mul, abs_lt] at t7
  have hB : (2 : ℚ) ^ T.W = 2 * 2 ^ (T.W - 1) := by cases T <;> norm_num [FloatType.W]
  have hB8 : (16 : ℚ) ≤ 2 ^ (T.W - 1) := by cases T <;> norm_num [FloatType.W]
  have t2' : (2 : ℚ) ^ (T.W - 1) ≤ w'.f := by exact_mod_cast t2
  have t3' : (w'.f : ℚ) + 1 ≤ 2 ^ T.W := by exact_mod_cast t3
  have hlow : emin T + T.p < w'.e + T.W + 1 := by
    have : (2 : ℚ) ^ (emin T + T.p) < 2 ^ (w'.e + T.W + 1) := by
      refine lt_of_le_of_lt hx1 ?_
      rw [t6, zpow_add₀ (by norm_num), zpow_add₀ (by norm_num), zpow_natCast, mul_comm, zpow_one, mul_assoc]
      exact mul_lt_mul_of_pos_left (by linarith) he0
    exact (zpow_lt_zpow_iff_right₀ (by norm_num)).mp this
  have hhigh : w'.e ≤ T.maxExp - T.W := by
    by_contra hc
    have h3 : (2 : ℚ) ^ (T.maxExp - T.W + 1) ≤ 2 ^ w'.e := zpow_le_zpow_right₀ (by norm_num) (by omega)
    have h4 : (2 : ℚ) ^ (T.W - 1) * (7 / 8) ≤ y := by linarith
    have h5 : (2 : ℚ) ^ (T.W - 1) * (7 / 8) * 2 ^ (T.maxExp - T.W + 1) ≤ x := by
      rw [t6]; exact mul_le_mul h4 h3 (by positivity) (le_trans (by positivity) h4)
    have h6 : (10 : ℚ) ^ (T.maxExp * 1233 / 4096) < (2 : ℚ) ^ (T.W - 1) * (7 / 8) * 2 ^ (T.maxExp - T.W + 1) := by
      cases T <;> decide +kernel
    linarith
  obtain ⟨s, t, a0, g1, g2, g3, g4, g5, g6, g7, g8, g9⟩ := downsample_ok T w' t2 t3 (by
    have : 2 ≤ T.p := by cases T <;> decide
    omega) hhigh
  have hpW : T.p ≤ T.W := by cases T <;> decide
  have hsL : s = T.W - T.p := by omega
  have hacc : w'.f % 2 ^ s ≠ 2 ^ (s - 1) := by
    unfold AskTie at ht
    rw [hsL, s2]
    split_ifs at ht ⊢ with hc
    · intro h
      apply ht
      have hL : 2 ≤ T.W - T.p := by cases T <;> decide
      rw [show T.W - T.p = (T.W - T.p - 1) + 1 by omega, pow_succ, mul_comm (2 ^ (T.W - T.p - 1)), Nat.mul_mod_mul_left,
        Nat.add_sub_cancel, show T.W - T.p - 1 = (T.W - T.p - 2) + 1 by omega, pow_succ] at h
      rw [show T.W - T.p - 1 = (T.W - T.p - 2) + 1 by omega, pow_succ]
      omega
    · exact ht
  exact ⟨_, by
    unfold kroshTail
    rw [if_neg (by tauto), s1, ok_bind, g9, ok_bind, decide_eq_true hacc]
    rfl⟩

/-- A number that is not a multiple of ten determines its decimal exponent. -/
theorem last_place_unique {P d : Nat} {K k : Int} (hP : ¬ 10 ∣ P) (hd : ¬ 10 ∣ d)
    (h : (P : ℚ) * 10 ^ K = d * 10 ^ k) : P = d ∧ K = k := by
  have key : ∀ {u v : Nat} {i j : Int}, ¬ 10 ∣ u → (u : ℚ) * 10 ^ i = v * 10 ^ j → ¬ i < j := by
    intro u v i j hu he hij
    obtain ⟨m, hm⟩ : ∃ m : Nat, j = i + (m + 1 : Nat) := ⟨(j - i - 1).toNat, by omega⟩
    rw [hm, zpow_add₀ (by norm_num), zpow_natCast] at he
    have hp : (10 : ℚ) ^ i ≠ 0 := by positivity
    have he2 : (u : ℚ) = v * 10 ^ (m + 1) := by
      apply mul_right_cancel₀ hp
      linarith
    have he3 : u = v * 10 ^ (m + 1) := by exact_mod_cast he2
    exact hu ⟨v * 10 ^ m, by rw [he3, pow_succ]; ring⟩
  have hKk : K = k := by
    have h1 := key hP h
    have h2 := key hd h.symm
    omega
  subst hKk
  have hp : (10 : ℚ) ^ K ≠ 0 := by positivity
  exact ⟨by exact_mod_cast mul_right_cancel₀ hp h, rfl⟩

/-- Index of the first power of ten checked, and the number of them. -/
def askFirst : FloatType → Nat
  | .float => 5
  | .double => 20
def askNum : FloatType → Nat
  | .float => 75
  | .double => 615

/-- The exponents for which all numbers of full length are normal. -/
theorem ask_range {T : FloatType} {k : Int}
    (hlo : (2 : ℚ) ^ (emin T + T.p - 1) ≤ 10 ^ ((maxSigDigits T : Int) - 1 + k))
    (hhi : (10 : ℚ) ^ ((maxSigDigits T : Int) + k) ≤ 2 ^ T.maxExp) :
    (∃ i : Nat, i < askNum T ∧ T.pow0Offset + k = i + askFirst T) ∧
    T.powLo ≤ k ∧ k ≤ T.powHi ∧
    (2 : ℚ) ^ (emin T + T.p) ≤ 10 ^ ((maxSigDigits T : Int) - 1 + k) ∧
    (10 : ℚ) ^ ((maxSigDigits T : Int) + k) ≤ 10 ^ (T.maxExp * 1233 / 4096) := by
  have h1 : ∀ a b : Int, (10 : ℚ) ^ a < 10 ^ b → a < b := fun a b h => (zpow_lt_zpow_iff_right₀ (by norm_num)).mp h
  have h2 : ∀ a b : Int, a ≤ b → (10 : ℚ) ^ a ≤ 10 ^ b := fun a b h => zpow_le_zpow_right₀ (by norm_num) h
  cases T
  · have a1 : (-38 : Int) < 8 + k := h1 _ _ (lt_of_lt_of_le (by decide +kernel) hlo)
    have a2 : (9 : Int) + k < 39 := h1 _ _ (lt_of_le_of_lt hhi (by decide +kernel))
    refine ⟨⟨(45 + k).toNat, by show _ < 75; omega, ?_⟩, ?_, ?_, ?_, ?_⟩
    · show (50 : Int) + k = (45 + k).toNat + 5
      omega
    · have : FloatType.float.powLo ≤ -45 := by decide
      omega
    · have : 29 ≤ FloatType.float.powHi := by decide
      omega
    · exact le_trans (b := (10 : ℚ) ^ (-37 : Int)) (by decide +kernel) (h2 _ _ (by show (-37 : Int) ≤ 9 - 1 + k; omega))
    · exact h2 _ _ (by show (9 : Int) + k ≤ 128 * 1233 / 4096; omega)
  · have a1 : (-308 : Int) < 16 + k := h1 _ _ (lt_of_lt_of_le (by decide +kernel) hlo)
    have a2 : (17 : Int) + k < 309 := by
      have h3 : (2 : ℚ) ^ FloatType.double.maxExp < 10 ^ (309 : Int) := by decide +kernel
      exact h1 _ _ (lt_of_le_of_lt hhi h3)
    refine ⟨⟨(323 + k).toNat, by show _ < 615; omega, ?_⟩, ?_, ?_, ?_, ?_⟩
    · show (343 : Int) + k = (323 + k).toNat + 20
      omega
    · have : FloatType.double.powLo ≤ -323 := by decide
      omega
    · have : 291 ≤ FloatType.double.powHi := by decide
      omega
    · exact le_trans (b := (10 : ℚ) ^ (-307 : Int)) (by decide +kernel) (h2 _ _ (by show (-307 : Int) ≤ 17 - 1 + k; omega))
    · exact h2 _ _ (by show (17 : Int) + k ≤ 1024 * 1233 / 4096; omega)

/-- A numeral without tie is read without help. -/
theorem unaided_of {T : FloatType} {d : Nat} {k : Int} {n : Numeral}
    (hlo : (2 : ℚ) ^ (emin T + T.p - 1) ≤ 10 ^ ((maxSigDigits T : Int) - 1 + k))
    (hhi : (10 : ℚ) ^ ((maxSigDigits T : Int) + k) ≤ 2 ^ T.maxExp)
    (hd : FullLength T d) (hn : n.absValue = d * 10 ^ k) (hu : ¬ Unaided T n) :
    ∃ s, 2 ^ (T.W - 1) ≤ d * 2 ^ s ∧ d * 2 ^ s < 2 ^ T.W ∧
      AskTie T (askFactor T (packF T) (T.pow0Offset + k).toNat * 2 ^ s) d := by
  obtain ⟨-, r1, r2, r3, r4⟩ := ask_range hlo hhi
  obtain ⟨d1, d2, d3⟩ := hd
  unfold Unaided at hu
  push Not at hu
  obtain ⟨mem, str, hat, hu⟩ := hu
  have hdig : maxSigDigits T ≤ T.digits10 := by cases T <;> decide
  have hms : 1 ≤ maxSigDigits T := by cases T <;> decide
  have hd10 : d < 10 ^ T.digits10 := lt_of_lt_of_le d2 (Nat.pow_le_pow_right (by norm_num) hdig)
  have h10k : (0 : ℚ) < 10 ^ k := by positivity
  have hd0 : 0 < d := lt_of_lt_of_le (by positivity) d1
  have hx0 : n.absValue ≠ 0 := by
    rw [hn]; have : (0 : ℚ) < d := by exact_mod_cast hd0
    positivity
  have hshort : Short T.digits10 n.absValue := ⟨d, k, hd10, hn⟩
  obtain ⟨w, Y, K, w1, w2, w3, w4, w5, w6, w7, w8, w9, w10, w12, w11⟩ := krosh_num (T := T) hat hx0
  obtain ⟨P, hP, hP10⟩ := w12 hshort
  obtain ⟨e1, e2⟩ := last_place_unique hP10 d3 (by rw [← hP, ← w5, hn])
  subst e2
  rw [e1] at hP
  have hY := w9 hshort
  rw [hP] at hY
  have hWW : 2 ^ T.W = 2 * 2 ^ (T.W - 1) := by cases T <;> simp [FloatType.W]
  have hdW : d < 2 ^ T.W := by
    have : 10 ^ maxSigDigits T < 2 ^ T.W := by cases T <;> decide
    omega
  have hwe : w.e ≤ 0 := by
    by_contra hc
    have h3 : (2 : ℚ) ^ (1 : Int) ≤ 2 ^ w.e := zpow_le_zpow_right₀ (by norm_num) (by omega)
    have h4 : (2 : ℚ) ^ (T.W - 1) ≤ w.f := by exact_mod_cast w1
    have h5 : (d : ℚ) < 2 * 2 ^ (T.W - 1) := by exact_mod_cast (hWW ▸ hdW)
    have h6 : (w.f : ℚ) * 2 ^ (1 : Int) ≤ w.f * 2 ^ w.e := mul_le_mul_of_nonneg_left h3 (by positivity)
    rw [zpow_one] at h6
    linarith
  obtain ⟨s, hs⟩ : ∃ s : Nat, w.e = -(s : Int) := ⟨(-w.e).toNat, by omega⟩
  have hwf : w.f = d * 2 ^ s := by
    rw [hs, zpow_neg, zpow_natCast] at hY
    have : (d : ℚ) * 2 ^ s = w.f := by rw [hY]; field_simp
    exact_mod_cast this.symm
  refine ⟨s, hwf ▸ w1, hwf ▸ w2, ?_⟩
  by_contra ht
  have hprod : ∀ f, askProduct T.W f (d * 2 ^ s) = askProduct T.W (f * 2 ^ s) d := by
    intro f; unfold askProduct
    rw [show d * 2 ^ s * f = d * (f * 2 ^ s) by ring]
  have ht' : ¬ AskTie T (askFactor T (packF T) (T.pow0Offset + K).toNat) w.f := by
    unfold AskTie at ht ⊢
    rw [hwf, hprod]
    exact ht
  have hx1 : (2 : ℚ) ^ (emin T + T.p) ≤ n.absValue := by
    refine le_trans r3 ?_
    rw [hn, zpow_add₀ (by norm_num)]
    apply mul_le_mul_of_nonneg_right _ h10k.le
    rw [show (maxSigDigits T : Int) - 1 = ((maxSigDigits T - 1 : Nat) : Int) by omega, zpow_natCast]
    exact_mod_cast d1
  have hx2 : n.absValue ≤ 10 ^ (T.maxExp * 1233 / 4096) := by
    refine le_trans ?_ r4
    rw [hn, zpow_add₀ (by norm_num)]
    apply mul_le_mul_of_nonneg_right _ h10k.le
    rw [zpow_natCast]
    exact_mod_cast d2.le
  obtain ⟨v, hv⟩ := kroshTail_exact (pos := !n.isNeg) (strEnd := str + n.text.length) w1 w2 ⟨r1, r2⟩
    (x := n.absValue) (by rw [hn, hY]) hx1 hx2 ht'
  obtain ⟨fb, errno, hne⟩ := hu v
  apply hne
  have hpos : 0 < n.text.length := text_pos hat.valid
  rw [atof_of_krosh (w11.trans hv) (by show str + n.text.length ≠ str; omega)]
  rfl

theorem askOk_spec {T : FloatType} {PF : Nat} (n i : Nat) (h : askOk T PF n i = true) (j : Nat) (hj : j < n) :
    ∃ c, askCount T PF (i + j) = some c ∧ 10000 * c < askShareAt T (i + j) * (81 * 10 ^ (maxSigDigits T - 2)) := by
  induction n generalizing i j with
  | zero => omega
  | succ n ih =>
    unfold askOk at h
    rw [Bool.and_eq_true, force_eq] at h
    cases j with
    | zero =>
      have h1 := h.1
      cases hc : askCount T PF i with
      | none => rw [hc] at h1; simp at h1
      | some c =>
        rw [hc] at h1
        exact ⟨c, rfl, by simpa using h1⟩
    | succ j =>
      obtain ⟨c, c1, c2⟩ := ih (i + 1) h.2 j (by omega)
      rw [show i + (j + 1) = i + 1 + j by omega]
      exact ⟨c, c1, c2⟩

theorem askCheck_all (T : FloatType) (j : Nat) (hj : j < askNum T) :
    ∃ c, askCount T (packF T) (askFirst T + j) = some c ∧
      10000 * c < askShareAt T (askFirst T + j) * (81 * 10 ^ (maxSigDigits T - 2)) := by
  have key : ∀ {n i : Nat}, askCheck T n i = true → ∀ j, i ≤ j → j < i + n →
      ∃ c, askCount T (packF T) j = some c ∧ 10000 * c < askShareAt T j * (81 * 10 ^ (maxSigDigits T - 2)) := by
    intro n i h j h1 h2
    unfold askCheck at h
    rw [force_eq] at h
    have := askOk_spec n i h (j - i) (by omega)
    rwa [Nat.add_sub_cancel' h1] at this
  cases T
  · have hj' : j < 75 := hj
    exact key ask_float_0 _ (by show 5 ≤ 5 + j; omega) (by show 5 + j < 5 + 75; omega)
  · have hj' : j < 615 := hj
    show ∃ c, askCount .double (packF .double) (20 + j) = some c ∧ _ < askShareAt .double (20 + j) * _
    rcases lt_or_ge j 150 with h1 | h1
    · exact key ask_double_0 _ (by omega) (by omega)
    · rcases lt_or_ge j 300 with h2 | h2
      · exact key ask_double_150 _ (by omega) (by omega)
      · rcases lt_or_ge j 450 with h3 | h3
        · exact key ask_double_300 _ (by omega) (by omega)
        · exact key ask_double_450 _ (by omega) (by omega)

/-- The numbers with the same shift. -/
def octSet (T : FloatType) (f s : Nat) : Finset Nat :=
  (Finset.Ico (max (10 ^ (maxSigDigits T - 1)) (2 ^ (T.W - 1 - s))) (min (10 ^ maxSigDigits T) (2 ^ (T.W - s)))).filter
    (fun d => AskTie T (f * 2 ^ s) d)

theorem octCount_spec {T : FloatType} {f s c : Nat} (h : octCount T f s = some c) : (octSet T f s).card = c := by
  unfold octCount at h
  simp only [force_eq] at h
  exact tieCount_spec h

theorem mem_octSet {T : FloatType} {f s d : Nat} (hd : FullLength T d) (h1 : 2 ^ (T.W - 1) ≤ d * 2 ^ s)
    (h2 : d * 2 ^ s < 2 ^ T.W) (ht : AskTie T (f * 2 ^ s) d) :
    d ∈ octSet T f s ∧ askShift T - 3 ≤ s ∧ s ≤ askShift T := by
  obtain ⟨d1, d2, d3⟩ := hd
  have hd0 : 0 < d := lt_of_lt_of_le (by positivity) d1
  have hsW : s < T.W := by
    have : 2 ^ s < 2 ^ T.W := lt_of_le_of_lt (Nat.le_mul_of_pos_left _ hd0) h2
    exact (Nat.pow_lt_pow_iff_right (by norm_num)).mp this
  have hp : 0 < 2 ^ s := by positivity
  have a1 : 2 ^ (T.W - 1 - s) ≤ d := by
    have e : 2 ^ (T.W - 1) = 2 ^ (T.W - 1 - s) * 2 ^ s := by rw [← pow_add]; congr 1; omega
    rw [e] at h1
    exact Nat.le_of_mul_le_mul_right h1 hp
  have a2 : d < 2 ^ (T.W - s) := by
    have e : 2 ^ T.W = 2 ^ (T.W - s) * 2 ^ s := by rw [← pow_add]; congr 1; omega
    rw [e] at h2
    exact Nat.lt_of_mul_lt_mul_right h2
  refine ⟨?_, ?_, ?_⟩
  · unfold octSet
    rw [Finset.mem_filter, Finset.mem_Ico]
    exact ⟨⟨max_le d1 a1, lt_min d2 a2⟩, ht⟩
  · by_contra hc
    have h3 : 2 ^ (T.W - 1 - (askShift T - 4)) ≤ 2 ^ (T.W - 1 - s) := Nat.pow_le_pow_right (by norm_num) (by omega)
    have h4 : 10 ^ maxSigDigits T ≤ 2 ^ (T.W - 1 - (askShift T - 4)) := by cases T <;> decide
    omega
  · by_contra hc
    have h3 : 2 ^ (T.W - s) ≤ 2 ^ (T.W - (askShift T + 1)) := Nat.pow_le_pow_right (by norm_num) (by omega)
    have h4 : 2 ^ (T.W - (askShift T + 1)) ≤ 10 ^ (maxSigDigits T - 1) := by cases T <;> decide
    omega

theorem askShareAt_eq {T : FloatType} {k : Int} {i : Nat} (h : T.pow0Offset + k = i) :
    askShareAt T i = askShare T k := by
  unfold askShareAt askShare
  cases T
  · have h' : (50 : Int) + k = i := h
    show (if 50 ≤ i + 2 ∧ i ≤ 50 then 350 else 88) = if -2 ≤ k ∧ k ≤ 0 then 350 else 88
    split_ifs <;> omega
  · have h' : (343 : Int) + k = i := h
    show (if i = 343 then 1823 else if 343 ≤ i + 1 ∧ i ≤ 343 + 3 then 618 else 11) =
      if k = 0 then 1823 else if -1 ≤ k ∧ k ≤ 3 then 618 else 11
    split_ifs <;> omega

/-- How many numbers there are. -/
theorem fullLength_card (T : FloatType) :
    81 * 10 ^ (maxSigDigits T - 2) ≤ ((Finset.range (10 ^ maxSigDigits T)).filter (FullLength T)).card := by
  have e1 : 10 ^ (maxSigDigits T - 1) = 10 * 10 ^ (maxSigDigits T - 2) := by cases T <;> decide
  have e2 : 10 ^ maxSigDigits T = 100 * 10 ^ (maxSigDigits T - 2) := by cases T <;> decide
  have hlo : (Finset.Ico (10 ^ (maxSigDigits T - 2)) (10 * 10 ^ (maxSigDigits T - 2)) ×ˢ Finset.range 9).card =
      81 * 10 ^ (maxSigDigits T - 2) := by
    rw [Finset.card_product, Nat.card_Ico, Finset.card_range]
    omega
  rw [← hlo]
  apply Finset.card_le_card_of_injOn (fun q => 10 * q.1 + q.2 + 1)
  · rintro ⟨q, r⟩ h
    simp only [Finset.coe_product, Set.mem_prod, Finset.mem_coe, Finset.mem_Ico, Finset.mem_range] at h
    simp only [Finset.coe_filter, Set.mem_ofPred_eq, Finset.mem_range, FullLength]
    rw [e1, e2]
    generalize 10 ^ (maxSigDigits T - 2) = B at *
    refine ⟨by omega, by omega, by omega, by omega⟩
  · rintro ⟨q, r⟩ h ⟨q', r'⟩ h' he
    simp only [Finset.coe_product, Set.mem_prod, Finset.mem_coe, Finset.mem_Ico, Finset.mem_range] at h h'
    simp only at he
    have : q = q' ∧ r = r' := by omega
    rw [this.1, this.2]

open Classical in
/-- **C91.** Take all numbers with exactly 17 significant digits (`float`: 9) and last place
`10^k`, where `k` is such that they are all normal numbers. The share of them that `atof` does
not read without the fallback, in whatever spelling and at whatever place, is less than 0.11%
(`float`: 0.88%) - unless `k` is one of -1, 0, ..., 3 (`float`: -2, -1, 0): then less than 6.18%,
and 18.23% for `k = 0` (`float`: 3.5%). -/
theorem C91_fallback_share (T : FloatType) (k : Int)
    (hlo : (2 : ℚ) ^ (emin T + T.p - 1) ≤ 10 ^ ((maxSigDigits T : Int) - 1 + k))
    (hhi : (10 : ℚ) ^ ((maxSigDigits T : Int) + k) ≤ 2 ^ T.maxExp) :
    10000 * ((Finset.range (10 ^ maxSigDigits T)).filter (fun d => FullLength T d ∧
        ∃ n : Numeral, n.absValue = d * 10 ^ k ∧ ¬ Unaided T n)).card <
      askShare T k * ((Finset.range (10 ^ maxSigDigits T)).filter (FullLength T)).card := by
  obtain ⟨⟨i, hi, hik⟩, -⟩ := ask_range hlo hhi
  obtain ⟨c, hc, hlt⟩ := askCheck_all T i hi
  have hidx : (T.pow0Offset + k).toNat = askFirst T + i := by omega
  rw [askShareAt_eq (k := k) (by omega)] at hlt
  refine lt_of_lt_of_le (lt_of_le_of_lt (Nat.mul_le_mul_left _ ?_) hlt) (Nat.mul_le_mul_left _ (fullLength_card T))
  unfold askCount at hc
  simp only [force_eq] at hc
  set f := askFactor T (packF T) (askFirst T + i) with hf
  cases h0 : octCount T f (askShift T) with
  | none => rw [h0] at hc; simp at hc
  | some c0 =>
  cases h1 : octCount T f (askShift T - 1) with
  | none => rw [h0, h1] at hc; simp at hc
  | some c1 =>
  cases h2 : octCount T f (askShift T - 2) with
  | none => rw [h0, h1, h2] at hc; simp at hc
  | some c2 =>
  cases h3 : octCount T f (askShift T - 3) with
  | none => rw [h0, h1, h2, h3] at hc; simp at hc
  | some c3 =>
  rw [h0, h1, h2, h3] at hc
  simp only [Option.some.injEq] at hc
  rw [← hc, ← octCount_spec h0, ← octCount_spec h1, ← octCount_spec h2, ← octCount_spec h3]
  refine le_trans (Finset.card_le_card (t := octSet T f (askShift T) ∪ octSet T f (askShift T - 1) ∪
    octSet T f (askShift T - 2) ∪ octSet T f (askShift T - 3)) ?_) ?_
  · intro d hd
    rw [Finset.mem_filter] at hd
    obtain ⟨-, hd, n, hn, hu⟩ := hd
    obtain ⟨s, s1, s2, s3⟩ := unaided_of hlo hhi hd hn hu
    rw [hidx, ← hf] at s3
    obtain ⟨m1, m2, m3⟩ := mem_octSet hd s1 s2 s3
    simp only [Finset.mem_union]
    have h3 : 3 ≤ askShift T := by cases T <;> decide
    have : s = askShift T ∨ s = askShift T - 1 ∨ s = askShift T - 2 ∨ s = askShift T - 3 := by omega
    rcases this with h | h | h | h
    · rw [h] at m1; exact Or.inl (Or.inl (Or.inl m1))
    · rw [h] at m1; exact Or.inl (Or.inl (Or.inr m1))
    · rw [h] at m1; exact Or.inl (Or.inr m1)
    · rw [h] at m1; exact Or.inr m1
  · refine le_trans (Finset.card_union_le _ _) (Nat.add_le_add_right ?_ _)
    refine le_trans (Finset.card_union_le _ _) (Nat.add_le_add_right ?_ _)
    exact Finset.card_union_le _ _

/-- The hypotheses are met for ordinary exponents: 1.2345678901234567 and the like. -/
example := C91_fallback_share .double (-16) (by decide +kernel) (by decide +kernel)
example := C91_fallback_share .float (-8) (by decide +kernel) (by decide +kernel)

/-- A number of full length half way between two values. -/
def askedDigits : FloatType → Numeral
  | .float => ⟨none, [1, 0, 0, 0, 0, 0, 0, 0, 4], none, none⟩
  | .double => ⟨none, [1, 0, 0, 0, 0, 0, 0, 0, 0, 0, 0, 0, 0, 0, 0, 0, 1], none, none⟩

/-- **C91, not none.** Some numerals of full length are not read without the fallback. -/
theorem C91_some_asked (T : FloatType) :
    FullLength T (digitsVal (askedDigits T).int) ∧
      (askedDigits T).absValue = digitsVal (askedDigits T).int * 10 ^ (0 : Int) ∧ ¬ Unaided T (askedDigits T) := by
  refine ⟨by cases T <;> decide, by cases T <;> decide +kernel, ?_⟩
  intro hu
  have hat : NumeralAt ((askedDigits T).text ++ [0]) 0 (askedDigits T) := by
    cases T <;> exact numeralAt_cstr ⟨by decide, by intro e he; cases he⟩ (by decide) (by intro e he; cases he)
  obtain ⟨v, hv⟩ := hu _ _ hat
  have hk : ∃ u, krosh T ((askedDigits T).text ++ [0]) 0 = .ok ⟨u, 0 + (askedDigits T).text.length, .success, false⟩ := by
    cases T
    · exact ⟨1287568416, by decide +kernel⟩
    · exact ⟨4846369599423283200, by decide +kernel⟩
  obtain ⟨u, hk⟩ := hk
  have := hv (fun _ _ _ => ⟨0, 0, 0⟩) 0
  rw [atof_of_krosh hk (show 0 + (askedDigits T).text.length ≠ 0 by cases T <;> decide)] at this
  simp at this

end Floaxie
