import Verif.Proof.Backward
import Verif.Prop.Atof

/-!
# C23 (accuracy for any number of digits)
-/

namespace Floaxie

open Spec FloatType

/-- **C23, backward error.** A numeral with any number of digits, in the finite
range (with a small margin; for float not below 10^-42): `atof` either delegates
to the fallback - only for numbers relatively within `slack` of a tie - or
returns, with status success and the end pointer after the numeral, the correct
rounding of a number that is relatively within `slack` of the numeral (25/2^32
for float, 17/2^64 for double), up to the lost carry of C21. -/
theorem C23_backward (T : FloatType) (fb : Fallback) (errno : Nat) (mem : List Nat) (str : Nat) (n : Numeral)
    (h : NumeralAt mem str n) (hx1 : 2 ^ emin T ≤ n.absValue * (1 - slack T))
    (hx2 : n.absValue * (1 + slack T) < overflowThreshold T) (hf : T = .float → 10 ^ (-42 : Int) ≤ n.absValue) :
    ∃ r, atof T fb errno mem str = .ok r ∧
      ((Delegated T fb errno mem str r ∧ ∃ t, IsTieOrLimit T t ∧ |t - n.absValue| ≤ n.absValue * slack T) ∨
       ∃ x b v, |x - n.value| ≤ n.absValue * slack T ∧ RoundsTo T x b ∧ Converted errno str n v r ∧ (v = b ∨ CarryLost T x b v)) := by
  have hs := slack_pos T
  have hs1 : slack T < 1 := by cases T <;> norm_num [slack]
  have hu := emin_pos T
  have hx0 : 0 < n.absValue := by
    by_contra hc
    have : n.absValue * (1 - slack T) ≤ 0 := mul_nonpos_of_nonpos_of_nonneg (by linarith) (by linarith)
    linarith
  have hge : n.absValue * (1 - slack T) ≤ n.absValue := by nlinarith
  have hle : n.absValue ≤ n.absValue * (1 + slack T) := by nlinarith
  have hthr := threshold_lt (T := T)
  rcases krosh_backward (T := T) h hx0.ne' with ⟨k1, -, -⟩ | ⟨k1, -⟩ | ⟨w, w1, w2, w3, -, v, st, acc, w5, w6⟩
  · exfalso
    have := lt_of_lt_of_le k1 pow_lo
    by_cases hT : T = .float
    · rw [if_pos hT] at this
      linarith [hf hT]
    · rw [if_neg hT] at this
      linarith
  · exfalso
    have h1 := pow_hi (T := T)
    have h2 : (2 : ℚ) ^ T.maxExp ≤ 2 ^ (T.maxExp + T.W - 1) := zpow_le_zpow_right₀ (by norm_num) (by have := W_pos T; omega)
    have h3 : (0 : ℚ) < 2 ^ (T.maxExp + T.W - 1) := by positivity
    linarith
  · have hw := abs_le.mp w3
    obtain ⟨rfl, d1, d2⟩ := downsample_finite w1 w2 w5 (by linarith [hw.1]) (by linarith [hw.2])
    obtain ⟨r, r1, r2, r3⟩ := atof_numeral (fb := fb) (errno := errno) h w6
    refine ⟨r, r1, ?_⟩
    cases acc with
    | false =>
      obtain ⟨a, a1, a2⟩ := d2 rfl
      exact Or.inl ⟨r3 rfl, _, mid_tie a1, by rw [← a2]; exact w3⟩
    | true =>
      right
      obtain ⟨a, a1, a2, a3, a4⟩ := d1 rfl
      have hva : value T a ≠ 0 := by rw [Ne, value_zero_iff, absPat_of_lt a1]; exact a2
      have hconv := r2 rfl
      unfold Numeral.value
      cases hn : n.isNeg with
      | false =>
        rw [hn] at hconv
        exact ⟨_, a, v, w3, identifies_roundsTo a3 hva, hconv, a4⟩
      | true =>
        rw [hn] at hconv
        refine ⟨-(w.f * 2 ^ w.e), neg T a, neg T v, ?_, identifies_roundsTo (identifies_neg a3) ?_, hconv, ?_⟩
        · simp only [if_true]
          rw [← abs_neg]
          convert w3 using 2; ring
        · rw [value_neg (lt_posInf_lt a1)]; exact neg_ne_zero.mpr hva
        · rcases a4 with rfl | a4
          · exact Or.inl rfl
          · exact Or.inr (carry_neg (isFinite_of_lt a1) a4)

theorem value_gap {T : FloatType} {a b : Nat} (h : |value T a| < |value T b|) :
    |value T b| ≤ 2 ^ T.p * (|value T b| - |value T a|) := by
  have hu := emin_pos T
  rw [value_abs, value_abs] at h ⊢
  have h1 : N T (absPat T a) < N T (absPat T b) := by exact_mod_cast lt_of_mul_lt_mul_right h hu.le
  have h2 := N_gap (T := T) ((N_strictMono T).lt_iff_lt.mp h1)
  have h3 : (N T (absPat T b) : ℚ) ≤ 2 ^ T.p * (N T (absPat T b) - N T (absPat T a)) := by
    have : ((N T (absPat T b) - N T (absPat T a) : Nat) : ℚ) = N T (absPat T b) - N T (absPat T a) := Nat.cast_sub h1.le
    rw [← this]; exact_mod_cast h2
  calc (N T (absPat T b) : ℚ) * 2 ^ emin T ≤ 2 ^ T.p * (N T (absPat T b) - N T (absPat T a)) * 2 ^ emin T :=
        mul_le_mul_of_nonneg_right h3 hu.le
    _ = _ := by ring

/-- **C23, forward error.** The value returned without fallback (and without
carry loss) is as near to the numeral as any finite value, up to `2 * slack`
relatively. -/
theorem C23_error (T : FloatType) (fb : Fallback) (errno : Nat) (mem : List Nat) (str : Nat) (n : Numeral)
    (h : NumeralAt mem str n) (hx1 : 2 ^ emin T ≤ n.absValue * (1 - slack T))
    (hx2 : n.absValue * (1 + slack T) < overflowThreshold T) (hf : T = .float → 10 ^ (-42 : Int) ≤ n.absValue) :
    ∃ r, atof T fb errno mem str = .ok r ∧ (r.fellBack = false →
      ((∀ b', IsFinite T b' → |n.value - value T r.value| ≤ |n.value - value T b'| + n.absValue * (2 * slack T)) ∨
        ∃ x b, |x - n.value| ≤ n.absValue * slack T ∧ RoundsTo T x b ∧ CarryLost T x b r.value)) := by
  obtain ⟨r, r1, r2⟩ := C23_backward T fb errno mem str n h hx1 hx2 hf
  refine ⟨r, r1, fun hfb => ?_⟩
  rcases r2 with ⟨⟨hd, -⟩, -⟩ | ⟨x, b, v, x1, x2, rfl, x4⟩
  · rw [hd] at hfb; cases hfb
  · rcases x4 with rfl | x4
    · left
      intro b' hb'
      have key : |x - value T v| ≤ |x - value T b'| := by
        by_cases he : value T b' = value T v
        · rw [he]
        · rcases x2.2.2.2 b' hb' he with h | h
          · exact h.le
          · exact h.1.le
      have e1 : n.value - value T v = (n.value - x) + (x - value T v) := by ring
      have e2 : x - value T b' = (x - n.value) + (n.value - value T b') := by ring
      have t1 := abs_add_le (n.value - x) (x - value T v)
      have t2 := abs_add_le (x - n.value) (n.value - value T b')
      rw [← e1] at t1
      rw [← e2] at t2
      rw [abs_sub_comm n.value x] at t1
      dsimp only
      linarith
    · exact Or.inr ⟨x, b, x1, x2, x4⟩

theorem no_between_aux {X x V B s P : ℚ} (hX : 0 < X) (hs : 0 < s) (hP : 0 < P) (hPs : 2 * P * s < 1 - s) (hx : |x - X| ≤ X * s)
    (hn : |x - V| ≤ |x - B|) (h1 : V < B → B ≤ P * (B - V)) (h2 : 0 ≤ B → B < V → V ≤ P * (V - B))
    (hb : (X ≤ B ∧ B < V) ∨ (V < B ∧ B ≤ X)) : False := by
  have hx' := abs_le.mp hx
  have hPs0 : 0 < P * s := mul_pos hP hs
  rcases hb with ⟨b1, b2⟩ | ⟨b1, b2⟩
  · have g := h2 (by linarith) b2
    have hm : B + V ≤ 2 * x := by
      rcases le_total V x with hc | hc
      · linarith
      · rw [abs_of_nonpos (by linarith : x - V ≤ 0)] at hn
        rcases le_total B x with hc' | hc'
        · rw [abs_of_nonneg (by linarith : 0 ≤ x - B)] at hn; linarith
        · rw [abs_of_nonpos (by linarith : x - B ≤ 0)] at hn; linarith
    have k1 : V - B ≤ 2 * (X * s) := by linarith
    have k2 := mul_le_mul_of_nonneg_left k1 hP.le
    have k3 : P * (2 * (X * s)) < X * (1 - s) := by
      have := mul_lt_mul_of_pos_left hPs hX
      linarith
    have k4 := mul_pos hX hs
    linarith
  · have g := h1 b1
    have hm : 2 * x ≤ B + V := by
      rcases le_total x V with hc | hc
      · linarith
      · rw [abs_of_nonneg (by linarith : 0 ≤ x - V)] at hn
        rcases le_total B x with hc' | hc'
        · rw [abs_of_nonneg (by linarith : 0 ≤ x - B)] at hn; linarith
        · rw [abs_of_nonpos (by linarith : x - B ≤ 0)] at hn; linarith
    have k1 : B - V ≤ 2 * (X * s) := by linarith
    have k2 := mul_le_mul_of_nonneg_left k1 hP.le
    have k3 : P * (2 * (X * s)) < X * (1 - s) := by
      have := mul_lt_mul_of_pos_left hPs hX
      linarith
    linarith

/-- **C23, neighbours.** The value returned without fallback (and without carry
loss) is one of the two finite values around the numeral: there is no finite
value between them, and if the numeral is itself a finite value, it is the result. -/
theorem C23_neighbour (T : FloatType) (fb : Fallback) (errno : Nat) (mem : List Nat) (str : Nat) (n : Numeral)
    (h : NumeralAt mem str n) (hx1 : 2 ^ emin T ≤ n.absValue * (1 - slack T))
    (hx2 : n.absValue * (1 + slack T) < overflowThreshold T) (hf : T = .float → 10 ^ (-42 : Int) ≤ n.absValue) :
    ∃ r, atof T fb errno mem str = .ok r ∧ (r.fellBack = false →
      ((∀ b', IsFinite T b' → ¬ (n.value ≤ value T b' ∧ value T b' < value T r.value) ∧
          ¬ (value T r.value < value T b' ∧ value T b' ≤ n.value)) ∨
        ∃ x b, |x - n.value| ≤ n.absValue * slack T ∧ RoundsTo T x b ∧ CarryLost T x b r.value)) := by
  obtain ⟨r, r1, r2⟩ := C23_backward T fb errno mem str n h hx1 hx2 hf
  refine ⟨r, r1, fun hfb => ?_⟩
  rcases r2 with ⟨⟨hd, -⟩, -⟩ | ⟨x, b, v, x1, x2, rfl, x4⟩
  · rw [hd] at hfb; cases hfb
  rcases x4 with rfl | x4
  swap
  · exact Or.inr ⟨x, b, x1, x2, x4⟩
  left
  intro b' hb'
  dsimp only
  rw [← not_or]
  intro hb
  have hs := slack_pos T
  have hX : 0 < n.absValue := by
    have hs1 : slack T < 1 := by cases T <;> norm_num [slack]
    have hu := emin_pos T
    by_contra hc
    have : n.absValue * (1 - slack T) ≤ 0 := mul_nonpos_of_nonpos_of_nonneg (by linarith) (by linarith)
    linarith
  have hPs : 2 * (2 : ℚ) ^ T.p * slack T < 1 - slack T := by cases T <;> norm_num [slack, FloatType.p]
  have hP : (0 : ℚ) < 2 ^ T.p := by positivity
  have hne : value T b' ≠ value T v := by rcases hb with hb | hb <;> linarith [hb.1, hb.2]
  have hn : |x - value T v| ≤ |x - value T b'| := by
    rcases x2.2.2.2 b' hb' hne with h | h
    · exact h.le
    · exact h.1.le
  have hx' := abs_le.mp x1
  have hsX : n.absValue * slack T < n.absValue := by
    have hs1 : slack T < 1 := by cases T <;> norm_num [slack]
    nlinarith
  have hmag : ∀ c, 0 ≤ mag T c := fun c => by rw [mag_eq]; have := emin_pos T; positivity
  unfold Numeral.value at hb hx' x1
  cases hng : n.isNeg with
  | false =>
    rw [hng] at hb hx' x1
    simp only [Bool.false_eq_true, if_false] at hb hx' x1
    have hV : 0 ≤ value T v := by
      unfold value
      rw [if_neg (by rw [x2.2.2.1]; linarith)]; exact hmag v
    refine no_between_aux hX hs hP hPs x1 hn (fun hlt => ?_) (fun h0 hlt => ?_) hb
    · have := value_gap (T := T) (a := v) (b := b') (by rw [abs_of_nonneg hV, abs_of_nonneg (by linarith)]; exact hlt)
      rwa [abs_of_nonneg hV, abs_of_nonneg (by linarith)] at this
    · have := value_gap (T := T) (a := b') (b := v) (by rw [abs_of_nonneg hV, abs_of_nonneg h0]; exact hlt)
      rwa [abs_of_nonneg hV, abs_of_nonneg h0] at this
  | true =>
    rw [hng] at hb hx' x1
    simp only [if_true] at hb hx' x1
    have hV : value T v ≤ 0 := by
      unfold value
      rw [if_pos (by rw [x2.2.2.1]; linarith)]; have := hmag v; linarith
    refine no_between_aux (x := -x) (V := -value T v) (B := -value T b') hX hs hP hPs ?_ ?_ (fun hlt => ?_) (fun h0 hlt => ?_) ?_
    · rw [← abs_neg]; convert x1 using 2; ring
    · rw [← abs_neg, ← abs_neg (-x - -value T b')]; convert hn using 2 <;> ring
    · have := value_gap (T := T) (a := v) (b := b') (by rw [abs_of_nonpos hV, abs_of_nonpos (by linarith)]; exact hlt)
      rwa [abs_of_nonpos hV, abs_of_nonpos (by linarith)] at this
    · have := value_gap (T := T) (a := b') (b := v) (by rw [abs_of_nonpos hV, abs_of_nonpos (by linarith)]; exact hlt)
      rwa [abs_of_nonpos hV, abs_of_nonpos (by linarith)] at this
    · rcases hb with hb | hb
      · exact Or.inr ⟨by linarith [hb.2], by linarith [hb.1]⟩
      · exact Or.inl ⟨by linarith [hb.2], by linarith [hb.1]⟩

/-- "7.5427024364", eleven significant digits. -/
def longFloat : Numeral := ⟨none, [7], some [5,4,2,7,0,2,4,3,6,4], none⟩

/-- "152060437230.5476226807", twenty two significant digits. -/
def longDouble : Numeral := ⟨none, [1,5,2,0,6,0,4,3,7,2,3,0], some [5,4,7,6,2,2,6,8,0,7], none⟩

theorem longFloat_at : NumeralAt (longFloat.text ++ [0]) 0 longFloat :=
  numeralAt_cstr ⟨by decide, by intro e he; cases he⟩ (by decide) (by intro e he; cases he)

theorem longDouble_at : NumeralAt (longDouble.text ++ [0]) 0 longDouble :=
  numeralAt_cstr ⟨by decide, by intro e he; cases he⟩ (by decide) (by intro e he; cases he)

theorem longFloat_abs : longFloat.absValue = 75427024364 / 10 ^ 10 := by
  norm_num [longFloat, Numeral.absValue, Numeral.fracDigits, Numeral.expValue, digitsVal]

theorem longDouble_abs : longDouble.absValue = 1520604372305476226807 / 10 ^ 10 := by
  norm_num [longDouble, Numeral.absValue, Numeral.fracDigits, Numeral.expValue, digitsVal]

/-- The hypotheses of C23 are met by these two numerals. -/
example (fb : Fallback) : ∃ r, atof .float fb 0 (longFloat.text ++ [0]) 0 = .ok r ∧ (r.fellBack = false →
      ((∀ b', IsFinite .float b' → ¬ (longFloat.value ≤ value .float b' ∧ value .float b' < value .float r.value) ∧
          ¬ (value .float r.value < value .float b' ∧ value .float b' ≤ longFloat.value)) ∨
        ∃ x b, |x - longFloat.value| ≤ longFloat.absValue * slack .float ∧ RoundsTo .float x b ∧ CarryLost .float x b r.value)) :=
  C23_neighbour .float fb 0 _ 0 longFloat longFloat_at
    (by rw [longFloat_abs]; norm_num [emin, FloatType.minExp, FloatType.p, slack])
    (by rw [longFloat_abs]; norm_num [overflowThreshold, FloatType.maxExp, FloatType.p, slack])
    (by rw [longFloat_abs]; norm_num)

example (fb : Fallback) : ∃ r, atof .double fb 0 (longDouble.text ++ [0]) 0 = .ok r ∧
      ((Delegated .double fb 0 (longDouble.text ++ [0]) 0 r ∧
          ∃ t, IsTieOrLimit .double t ∧ |t - longDouble.absValue| ≤ longDouble.absValue * slack .double) ∨
       ∃ x b v, |x - longDouble.value| ≤ longDouble.absValue * slack .double ∧ RoundsTo .double x b ∧
         Converted 0 0 longDouble v r ∧ (v = b ∨ CarryLost .double x b v)) := by
  have hb : (2 : ℚ) ^ (200 : Int) ≤ overflowThreshold .double := by
    unfold overflowThreshold
    have e1 : (2 : ℚ) ^ FloatType.double.maxExp = 2 ^ (FloatType.double.maxExp - FloatType.double.p - 1) * 2 ^ (54 : ℕ) := by
      rw [← zpow_natCast (2 : ℚ) 54, ← zpow_add₀ (by norm_num)]; rfl
    have e2 : (2 : ℚ) ^ (200 : Int) ≤ 2 ^ (FloatType.double.maxExp - FloatType.double.p - 1) :=
      zpow_le_zpow_right₀ (by norm_num) (by decide)
    rw [e1]
    linarith [show (0 : ℚ) < 2 ^ (FloatType.double.maxExp - FloatType.double.p - 1) by positivity]
  have hs : (2 : ℚ) ^ emin .double ≤ 1 := zpow_le_one_of_nonpos₀ (by norm_num) (by decide)
  refine C23_backward .double fb 0 _ 0 longDouble longDouble_at ?_ ?_ (by simp)
  · refine le_trans hs ?_
    rw [longDouble_abs]; norm_num [slack]
  · refine lt_of_lt_of_le ?_ hb
    rw [longDouble_abs]; norm_num [slack]

/-- **C23, correct rounding fails for long numerals (float):** "7.5427024364" is
read, without fallback and with status success, as a neighbour of the correctly
rounded value. -/
theorem C23_refuted_float (fb : Fallback) (errno : Nat) :
    atof .float fb errno (longFloat.text ++ [0]) 0 = .ok ⟨0x40f15dd2, .success, 12, errno, false⟩ ∧
      ¬ RoundsTo .float longFloat.value 0x40f15dd2 := by
  constructor
  · have : krosh .float (longFloat.text ++ [0]) 0 = .ok ⟨0x40f15dd2, 12, .success, true⟩ := by decide +kernel
    unfold atof; rw [this]; rfl
  · intro hr
    have hv : longFloat.value = longFloat.absValue := rfl
    have v1 : value .float 0x40f15dd2 = 15818194 / 2 ^ 21 := by
      norm_num [value, mag, signBit, expField, fracField, FloatType.W, FloatType.p, emin, FloatType.minExp]
    have v2 : value .float 0x40f15dd1 = 15818193 / 2 ^ 21 := by
      norm_num [value, mag, signBit, expField, fracField, FloatType.W, FloatType.p, emin, FloatType.minExp]
    have := hr.2.2.2 0x40f15dd1 ⟨by decide, by decide⟩ (by rw [v1, v2]; norm_num)
    rw [hv, longFloat_abs, v1, v2] at this
    norm_num [abs_of_pos, abs_of_neg] at this

/-- **C23, correct rounding fails for long numerals (double).** -/
theorem C23_refuted_double (fb : Fallback) (errno : Nat) :
    atof .double fb errno (longDouble.text ++ [0]) 0 = .ok ⟨0x4241b3c111774618, .success, 23, errno, false⟩ ∧
      ¬ RoundsTo .double longDouble.value 0x4241b3c111774618 := by
  constructor
  · have : krosh .double (longDouble.text ++ [0]) 0 = .ok ⟨0x4241b3c111774618, 23, .success, true⟩ := by decide +kernel
    unfold atof; rw [this]; rfl
  · intro hr
    have hv : longDouble.value = longDouble.absValue := rfl
    have v1 : value .double 0x4241b3c111774618 = 4982716407170584 / 2 ^ 15 := by
      norm_num [value, mag, signBit, expField, fracField, FloatType.W, FloatType.p, emin, FloatType.minExp]
    have v2 : value .double 0x4241b3c111774619 = 4982716407170585 / 2 ^ 15 := by
      norm_num [value, mag, signBit, expField, fracField, FloatType.W, FloatType.p, emin, FloatType.minExp]
    have := hr.2.2.2 0x4241b3c111774619 ⟨by decide, by decide⟩ (by rw [v1, v2]; norm_num)
    rw [hv, longDouble_abs, v1, v2] at this
    norm_num [abs_of_pos, abs_of_neg] at this

end Floaxie
