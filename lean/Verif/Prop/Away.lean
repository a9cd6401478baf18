import Verif.Prop.Near
import Verif.Prop.OneDigit
import Verif.Prop.Order
import Verif.Prop.Carry

/-!
# Numerals of any length away from the middles, and narrowing through text (C93)
-/

namespace Floaxie

open Spec FloatType

/-- Two numbers of the same sign whose magnitudes have no middle between them round to the same. -/
theorem roundsTo_between {T : FloatType} {x y : ℚ} {c b : Nat} (hx : x ≠ 0) (hy : y ≠ 0) (hs : x < 0 ↔ y < 0)
    (hc : RoundsTo T x c) (hb : RoundsTo T y b)
    (hclear : ∀ t, IsTieOrLimit T t → ¬ (|x| ≤ t ∧ t ≤ |y|) ∧ ¬ (|y| ≤ t ∧ t ≤ |x|)) : c = b := by
  have hu := emin_pos T
  have mc := roundsTo_magnitude hx hc
  have mb := roundsTo_magnitude hy hb
  have pc := absPat_lt_posInf hc.1
  have pb := absPat_lt_posInf hb.1
  have up : ∀ {z : ℚ} {a : Nat}, 0 < z → a + 1 < posInf T → RoundsTo T z a → z ≤ Mid T a := by
    intro z a hz ha hr
    have h1 := roundsTo_le hr (isFinite_of_lt ha)
    rw [value_of_lt ha, value_of_lt (by omega)] at h1
    have hlt : (N T a : ℚ) < N T (a + 1) := by exact_mod_cast N_lt (T := T) (Nat.lt_succ_self a)
    have hlt' := mul_lt_mul_of_pos_right hlt hu
    unfold Mid
    by_contra hcc
    push Not at hcc
    rw [abs_of_nonneg (by linarith)] at h1
    rcases le_total z (N T (a + 1) * 2 ^ emin T) with h2 | h2
    · rw [abs_of_nonpos (by linarith)] at h1; linarith
    · rw [abs_of_nonneg (by linarith)] at h1; linarith
  have down : ∀ {z : ℚ} {a : Nat}, 0 < z → a + 1 < posInf T → RoundsTo T z (a + 1) → Mid T a ≤ z := by
    intro z a hz ha hr
    have h1 := roundsTo_le hr (isFinite_of_lt (show a < posInf T by omega))
    rw [value_of_lt ha, value_of_lt (by omega)] at h1
    have hlt : (N T a : ℚ) < N T (a + 1) := by exact_mod_cast N_lt (T := T) (Nat.lt_succ_self a)
    have hlt' := mul_lt_mul_of_pos_right hlt hu
    unfold Mid
    by_contra hcc
    push Not at hcc
    rw [abs_of_nonpos (by linarith)] at h1
    rcases le_total z (N T a * 2 ^ emin T) with h2 | h2
    · rw [abs_of_nonpos (by linarith)] at h1; linarith
    · rw [abs_of_nonneg (by linarith)] at h1; linarith
  have hax : 0 < |x| := abs_pos.mpr hx
  have hay : 0 < |y| := abs_pos.mpr hy
  have heq : absPat T c = absPat T b := by
    rcases lt_trichotomy (absPat T c) (absPat T b) with h | h | h
    · exfalso
      have u1 := up hax (by omega) mc
      obtain ⟨b', hb'⟩ : ∃ b', absPat T b = b' + 1 := ⟨absPat T b - 1, by omega⟩
      rw [hb'] at mb
      have d1 := down hay (by omega) mb
      have m1 : Mid T (absPat T c) ≤ Mid T b' := Mid_mono' (by omega)
      exact (hclear _ (mid_tie pc)).1 ⟨u1, by linarith⟩
    · exact h
    · exfalso
      have u1 := up hay (by omega) mb
      obtain ⟨c', hc'⟩ : ∃ c', absPat T c = c' + 1 := ⟨absPat T c - 1, by omega⟩
      rw [hc'] at mc
      have d1 := down hax (by omega) mc
      have m1 : Mid T (absPat T b) ≤ Mid T c' := Mid_mono' (by omega)
      exact (hclear _ (mid_tie pb)).2 ⟨u1, by linarith⟩
  have hsb : signBit T c = 1 ↔ signBit T b = 1 := by rw [hc.2.2.1, hb.2.2.1, hs]
  have hsb' : signBit T c = signBit T b := by
    have := (pat_decomp hc.1.1).2
    have := (pat_decomp hb.1.1).2
    omega
  rw [(pat_decomp hc.1.1).1, (pat_decomp hb.1.1).1, hsb', heq]

/-- Two numbers of the same sign with no middle between two values near the second round to the same. -/
theorem roundsTo_same {T : FloatType} {x y δ : ℚ} {c b : Nat} (hx : x ≠ 0) (hy : y ≠ 0) (hs : x < 0 ↔ y < 0)
    (hc : RoundsTo T x c) (hb : RoundsTo T y b) (hd : abs (|x| - |y|) ≤ δ)
    (hclear : ∀ t, IsTieOrLimit T t → δ < abs (t - |y|)) : c = b := by
  have hd' := abs_le.mp hd
  refine roundsTo_between hx hy hs hc hb fun t ht => ?_
  have := hclear t ht
  constructor
  · rintro ⟨h1, h2⟩
    rw [abs_of_nonpos (by linarith)] at this
    linarith
  · rintro ⟨h1, h2⟩
    rw [abs_of_nonneg (by linarith)] at this
    linarith

/-- **C93.** A numeral of any length in the range of the type (`float`: not below `10^-42`). If no number half
way between two adjacent values (and not the overflow threshold) is relatively within `slack` of it
(25/2^32 for `float`, 17/2^64 for `double`), `atof` reads it without the fallback as the correctly rounded
value, with status success and the end pointer behind it - unless that is a power of two which the number
does not exceed by that much. -/
theorem C93_away (T : FloatType) (fb : Fallback) (errno : Nat) (mem : List Nat) (str : Nat) (n : Numeral)
    (h : NumeralAt mem str n) (hx1 : 2 ^ emin T ≤ n.absValue * (1 - slack T)) (hf : T = .float → 10 ^ (-42 : Int) ≤ n.absValue)
    (b : Nat) (hb : RoundsTo T n.value b)
    (hclear : ∀ t, IsTieOrLimit T t → n.absValue * slack T < |t - n.absValue|)
    (hp : ∀ j : Int, |value T b| = 2 ^ j → 2 ^ j ≤ n.absValue * (1 - slack T)) :
    atof T fb errno mem str = .ok ⟨b, .success, str + n.text.length, errno, false⟩ := by
  have hs := slack_pos T
  have hs1 : slack T < 1 := by cases T <;> norm_num [slack]
  have hu := emin_pos T
  have hab : |n.value| = n.absValue := abs_value_num n
  have hx0 : 0 < n.absValue := by
    by_contra hc
    have : n.absValue * (1 - slack T) ≤ 0 := mul_nonpos_of_nonpos_of_nonneg (by linarith) (by linarith)
    linarith
  have hth : n.absValue < overflowThreshold T := by have := hb.2.1; rwa [hab] at this
  have hx2 : n.absValue * (1 + slack T) < overflowThreshold T := by
    have := hclear (overflowThreshold T) (Or.inr (abs_of_pos (by linarith)))
    rw [abs_of_pos (by linarith)] at this
    linarith
  obtain ⟨r, r1, r2⟩ := C23_backward T fb errno mem str n h hx1 hx2 hf
  rcases r2 with ⟨-, t, t1, t2⟩ | ⟨x, c, v, x1, x2, x3, x4⟩
  · exact absurd t2 (not_le.mpr (hclear t t1))
  have hnv : n.value ≠ 0 := by rw [← abs_pos, hab]; exact hx0
  have hd : abs (|x| - |n.value|) ≤ n.absValue * slack T := le_trans (abs_abs_sub_abs_le _ _) x1
  have hsl : n.absValue * slack T < n.absValue := by nlinarith
  have hxx : 0 < |x| := by
    have := (abs_le.mp hd).1
    rw [hab] at this
    linarith
  have hsg : x < 0 ↔ n.value < 0 := by
    have h1 := abs_le.mp x1
    rw [← hab] at h1 hsl
    rw [hab] at hsl
    constructor
    · intro hx
      by_contra hc
      rw [abs_of_nonneg (not_lt.mp hc)] at h1 hab
      rw [← hab] at hsl
      linarith
    · intro hn
      rw [abs_of_neg hn] at h1 hab
      rw [← hab] at hsl
      linarith
  have hcb : c = b := roundsTo_same (abs_pos.mp hxx) hnv hsg x2 hb hd (by rw [hab]; exact hclear)
  subst hcb
  rcases x4 with rfl | ⟨-, -, j, -, j2, j3, -⟩
  · rw [r1, x3]
  · exfalso
    have h1 := hp j j2
    have h2 := (abs_le.mp hd).1
    rw [hab] at h2
    linarith

/-- A `double` of at least `10^-41` is a normal number. -/
theorem above_of_ge {d : Nat} (hd : IsFinite .double d) (hlo : 10 ^ (-41 : Int) ≤ |value .double d|) :
    AboveLeastNormal .double d := by
  refine ⟨hd, ?_⟩
  rw [absPat_mod]
  by_contra hc
  push Not at hc
  have h1 : |value .double d| ≤ N .double (2 ^ (FloatType.double.p - 1)) * 2 ^ emin .double := by
    rw [value_abs]
    apply mul_le_mul_of_nonneg_right _ (emin_pos _).le
    exact_mod_cast N_le hc
  have h2 : (N .double (2 ^ (FloatType.double.p - 1)) : ℚ) * 2 ^ emin .double < 10 ^ (-41 : Int) := by decide +kernel
  linarith

/-- The room that the text of a `double` needs when it is read as a `float`. -/
def narrowSlack : ℚ := 26 / 2 ^ 32

/-- **C93, narrowing through text.** The text of a `double` `d` (any numeral nearer to it than to other
`double`s, such as what `ftoa` prints), of magnitude at least `10^-41`, is read by `atof<float>` as `d` rounded to
`float` (round to nearest even), without the fallback, with status success and completely - unless a number half
way between two `float`s, or the threshold to overflow, is relatively within 26/2^32 of `d`, or that `float` is a
power of two which `d` does not exceed by that much. -/
theorem C93_narrow (fb : Fallback) (errno : Nat) (mem : List Nat) (str : Nat) (n : Numeral)
    (h : NumeralAt mem str n) (d f : Nat) (hd : IsFinite .double d) (hlo : 10 ^ (-41 : Int) ≤ |value .double d|)
    (hn : Identifies .double n.value d) (hf : RoundsTo .float (value .double d) f)
    (hclear : ∀ t, IsTieOrLimit .float t → |value .double d| * narrowSlack < abs (t - |value .double d|))
    (hp : ∀ j : Int, |value .float f| = 2 ^ j → 2 ^ j ≤ |value .double d| * (1 - narrowSlack)) :
    atof .float fb errno mem str = .ok ⟨f, .success, str + n.text.length, errno, false⟩ := by
  have h41 : (0 : ℚ) < 10 ^ (-41 : Int) := by positivity
  have hcl := identifies_close (above_of_ge hd hlo) hn
  set D := value .double d with hD
  have hV0 : 0 < |D| := by linarith
  have hD0 : D ≠ 0 := abs_pos.mp hV0
  have habn : |n.value| = n.absValue := abs_value_num n
  have hdiff : abs (n.absValue - |D|) ≤ |D| / 2 ^ 53 := by
    rw [← habn]
    exact le_trans (abs_abs_sub_abs_le _ _) hcl
  have hd1 := abs_le.mp hdiff
  have hsl : slack .float = 25 / 2 ^ 32 := rfl
  have e42 : (10 : ℚ) ^ (-42 : Int) * 10 = 10 ^ (-41 : Int) := by norm_num
  have h42 : (0 : ℚ) < 10 ^ (-42 : Int) := by positivity
  have hem : (2 : ℚ) ^ emin .float ≤ 10 ^ (-42 : Int) := by decide +kernel
  have hx0 : 0 < n.absValue := by
    have : |D| / 2 ^ 53 ≤ |D| / 2 := div_le_div_of_nonneg_left hV0.le (by norm_num) (by norm_num)
    linarith [hd1.1]
  have hclear' : ∀ t, IsTieOrLimit .float t → n.absValue * slack .float < |t - n.absValue| := by
    intro t ht
    have h1 := hclear t ht
    have h2 : abs (t - |D|) ≤ |t - n.absValue| + abs (n.absValue - |D|) := abs_sub_le _ _ _
    unfold narrowSlack at h1
    rw [hsl]
    have h3 := hd1.2
    generalize |t - n.absValue| = P at *
    generalize abs (t - |D|) = Q at *
    linarith
  have hsgn : n.value < 0 ↔ D < 0 := by
    have h1 := abs_le.mp hcl
    have hsm : |D| / 2 ^ FloatType.double.p < |D| := div_lt_self hV0 (by norm_num [FloatType.p])
    constructor
    · intro hx
      by_contra hc
      rw [abs_of_nonneg (not_lt.mp hc)] at h1 hsm
      linarith
    · intro hx
      rw [abs_of_neg hx] at h1 hsm
      linarith
  have hn0 : n.value ≠ 0 := by rw [← abs_pos, habn]; exact hx0
  -- what the numeral rounds to
  have hthr : n.absValue < overflowThreshold .float := by
    have h1 := hf.2.1
    have h2 := hclear (overflowThreshold .float) (Or.inr (abs_of_pos (by linarith)))
    rw [abs_of_pos (a := overflowThreshold .float - |D|) (by linarith)] at h2
    unfold narrowSlack at h2
    linarith [hd1.2]
  obtain ⟨b, hb, -⟩ := roundsTo_total (T := .float) (x := n.value) (by rw [habn]; exact hthr)
  have hbf : b = f := by
    refine roundsTo_same hn0 hD0 hsgn hb hf (δ := |D| / 2 ^ 53) (by rw [habn]; exact hdiff) ?_
    intro t ht
    refine lt_trans ?_ (hclear t ht)
    unfold narrowSlack
    linarith
  subst hbf
  refine C93_away .float fb errno mem str n h ?_ (fun _ => ?_) b hb hclear' ?_
  · rw [hsl]; linarith [hd1.1]
  · linarith [hd1.1]
  · intro j hj
    have := hp j hj
    rw [hsl]
    unfold narrowSlack at this
    linarith [hd1.1]

/-- **C93, narrowing, what `ftoa` prints.** -/
theorem C93_narrow_printed (fb : Fallback) (errno : Nat) (mem : List Nat) (str : Nat) (n : Numeral)
    (h : NumeralAt mem str n) (d f : Nat) (hd : IsFinite .double d) (hlo : 10 ^ (-41 : Int) ≤ |value .double d|)
    (hn : Prints .double d n.text) (hf : RoundsTo .float (value .double d) f)
    (hclear : ∀ t, IsTieOrLimit .float t → |value .double d| * narrowSlack < abs (t - |value .double d|))
    (hp : ∀ j : Int, |value .float f| = 2 ^ j → 2 ^ j ≤ |value .double d| * (1 - narrowSlack)) :
    atof .float fb errno mem str = .ok ⟨f, .success, str + n.text.length, errno, false⟩ := by
  have h0 : value .double d ≠ 0 := by
    intro c
    rw [c, abs_zero] at hlo
    have h41 : (0 : ℚ) < 10 ^ (-41 : Int) := by positivity
    linarith
  obtain ⟨m, -, m1, m2⟩ := C01_ftoa_identifies .double d hd h0
  have hnm : n = m := numeral_text_inj _ _ (prints_unique hn m1)
  rw [← hnm] at m2
  exact C93_narrow fb errno mem str n h d f hd hlo m2 hf hclear hp

/-- **C93, the exception is real:** the `double` 7.5427024364 is printed so, and read by `atof<float>`, without the
fallback, as the `float` above the one that is nearest to it. -/
theorem C93_refuted (fb : Fallback) (errno : Nat) :
    toBasicString .double 0x401e2bba2fff30a9 = .ok (chars "7.5427024364") ∧
    atof .float fb errno (chars "7.5427024364\x00") 0 = .ok ⟨0x40f15dd2, .success, 12, errno, false⟩ ∧
    RoundsTo .float (value .double 0x401e2bba2fff30a9) 0x40f15dd1 := by
  have h1 : krosh .float (chars "7.5427024364\x00") 0 = .ok ⟨0x40f15dd2, 12, .success, true⟩ := by decide +kernel
  refine ⟨by decide +kernel, ?_, ?_⟩
  · rw [atof_of_krosh h1 (by decide)]; rfl
  · have h2 := closest_pos (T := .float) (a := 0x40f15dd1) (X := value .double 0x401e2bba2fff30a9 * 2 ^ 149) (by decide)
      (by decide +kernel) (Or.inr (by decide +kernel)) (by decide +kernel)
    have h3 : value .double 0x401e2bba2fff30a9 * 2 ^ 149 * 2 ^ emin .float = value .double 0x401e2bba2fff30a9 := by
      decide +kernel
    rw [h3] at h2
    exact identifies_roundsTo h2 (by decide +kernel)

/-- Between two adjacent middles there is no other. -/
theorem clear_between {T : FloatType} {x s : ℚ} (a : Nat) (hs : s < 1) (hx : 0 < x) (h1 : Mid T a < x * (1 - s))
    (h2 : x * (1 + s) < Mid T (a + 1)) : ∀ t, IsTieOrLimit T t → x * s < |t - x| := by
  intro t ht
  rcases lt_or_ge t 0 with hneg | hpos
  · rw [abs_of_nonpos (by linarith)]
    nlinarith
  · obtain ⟨c, -, rfl⟩ := tie_mid hpos ht
    rcases Nat.lt_or_ge a c with hc | hc
    · have := Mid_mono' (T := T) (show a + 1 ≤ c from hc)
      exact lt_of_lt_of_le (by linarith) (le_abs_self _)
    · have := Mid_mono' (T := T) hc
      exact lt_of_lt_of_le (by linarith) (neg_le_abs _)

/-- 0.1000000000000000000012345 has 25 digits after the point. -/
def tenthAndMore : Numeral :=
  ⟨none, [0], some [1, 0, 0, 0, 0, 0, 0, 0, 0, 0, 0, 0, 0, 0, 0, 0, 0, 0, 0, 0, 1, 2, 3, 4, 5], none⟩

theorem not_pow2_between {v : ℚ} (i : Int) (h1 : 2 ^ i < v) (h2 : v < 2 ^ (i + 1)) (j : Int) : v ≠ 2 ^ j := by
  rintro rfl
  have a1 := (zpow_lt_zpow_iff_right₀ (by norm_num : (1 : ℚ) < 2)).mp h1
  have a2 := (zpow_lt_zpow_iff_right₀ (by norm_num : (1 : ℚ) < 2)).mp h2
  omega

/-- The hypotheses of `C93_away` are met. -/
example (fb : Fallback) (errno : Nat) :
    atof .double fb errno (tenthAndMore.text ++ [0]) 0 = .ok ⟨0x3FB999999999999A, .success, 27, errno, false⟩ := by
  have hat : NumeralAt (tenthAndMore.text ++ [0]) 0 tenthAndMore :=
    numeralAt_cstr ⟨by decide, by intro e he; cases he⟩ (by decide) (by intro e he; cases he)
  have hr : RoundsTo .double tenthAndMore.value 0x3FB999999999999A := by
    have h2 := closest_pos (T := .double) (a := 0x3FB999999999999A) (X := tenthAndMore.value * 2 ^ (1074 : Nat)) (by decide)
      (by decide +kernel) (Or.inr (by decide +kernel)) (by decide +kernel)
    have h3 : tenthAndMore.value * 2 ^ (1074 : Nat) * 2 ^ emin .double = tenthAndMore.value := by decide +kernel
    rw [h3] at h2
    exact identifies_roundsTo h2 (by decide +kernel)
  exact C93_away .double fb errno _ 0 tenthAndMore hat (by decide +kernel) (by simp) _ hr
    (clear_between 0x3FB9999999999999 (by decide +kernel) (by decide +kernel) (by decide +kernel) (by decide +kernel))
    (fun j hj => absurd hj (not_pow2_between (-4) (by decide +kernel) (by decide +kernel) j))

/-- The hypotheses of `C93_narrow_printed` are met: 0.3 as `double` read as `float`. -/
example (fb : Fallback) (errno : Nat) :
    atof .float fb errno (chars "0.3\x00") 0 = .ok ⟨0x3E99999A, .success, 3, errno, false⟩ := by
  let n : Numeral := ⟨none, [0], some [3], none⟩
  have hat : NumeralAt (n.text ++ [0]) 0 n :=
    numeralAt_cstr ⟨by decide, by intro e he; cases he⟩ (by decide) (by intro e he; cases he)
  have hr : RoundsTo .float (value .double 0x3FD3333333333333) 0x3E99999A := by
    have h2 := closest_pos (T := .float) (a := 0x3E99999A) (X := value .double 0x3FD3333333333333 * 2 ^ 149) (by decide)
      (by decide +kernel) (Or.inr (by decide +kernel)) (by decide +kernel)
    have h3 : value .double 0x3FD3333333333333 * 2 ^ 149 * 2 ^ emin .float = value .double 0x3FD3333333333333 := by
      decide +kernel
    rw [h3] at h2
    exact identifies_roundsTo h2 (by decide +kernel)
  exact C93_narrow_printed fb errno _ 0 n hat 0x3FD3333333333333 _ ⟨by decide, by decide⟩ (by decide +kernel)
    (prints_eval (by decide) (by decide +kernel)) hr
    (clear_between 0x3E999999 (by decide +kernel) (by decide +kernel) (by decide +kernel) (by decide +kernel))
    (fun j hj => absurd hj (not_pow2_between (-2) (by decide +kernel) (by decide +kernel) j))

/-- Every finite `float` value is a `double` value. -/
theorem widen {f : Nat} (hf : IsFinite .float f) : ∃ d, IsFinite .double d ∧ value .double d = value .float f := by
  have key : ∀ a, a < posInf .float → ∃ c, c < posInf .double ∧ (N .double c : ℚ) * 2 ^ emin .double = N .float a * 2 ^ emin .float := by
    intro a ha
    obtain ⟨q, t, hq, hN⟩ : ∃ q t, q < 2 ^ 24 ∧ N .float a = q * 2 ^ t := by
      have h1 : a % 2 ^ 23 < 2 ^ 23 := Nat.mod_lt _ (by norm_num)
      refine ⟨_, _, ?_, rfl⟩
      show (if a / 2 ^ 23 = 0 then a % 2 ^ 23 else 2 ^ 23 + a % 2 ^ 23) < 2 ^ 24
      split_ifs <;> omega
    obtain ⟨c, hc⟩ := exists_N (T := .double) (q := q) (t := t + 925) (lt_trans hq (by decide))
    have he : (2 : ℚ) ^ (925 : Nat) * 2 ^ emin .double = 2 ^ emin .float := by decide +kernel
    have hv : (N .double c : ℚ) * 2 ^ emin .double = N .float a * 2 ^ emin .float := by
      rw [hc, hN, pow_add, ← he]
      push_cast
      ring
    refine ⟨c, ?_, hv⟩
    have h1 : N .float a < N .float (posInf .float) := N_lt ha
    have h1' : (N .float a : ℚ) < N .float (posInf .float) := by exact_mod_cast h1
    have h2 : (N .float (posInf .float) : ℚ) * 2 ^ emin .float < N .double (posInf .double) * 2 ^ emin .double := by
      rw [N_posInf, N_posInf]; decide +kernel
    have h3 : (N .double c : ℚ) * 2 ^ emin .double < N .double (posInf .double) * 2 ^ emin .double := by
      rw [hv]; exact lt_trans (mul_lt_mul_of_pos_right h1' (emin_pos _)) h2
    have h4 : N .double c < N .double (posInf .double) := by
      exact_mod_cast lt_of_mul_lt_mul_right h3 (emin_pos _).le
    exact (N_strictMono _).lt_iff_lt.mp h4
  obtain ⟨c, hc, hv⟩ := key _ (absPat_lt_posInf hf)
  rw [← value_abs] at hv
  rcases le_total 0 (value .float f) with h | h
  · exact ⟨c, isFinite_of_lt hc, by rw [value_of_lt hc, hv, abs_of_nonneg h]⟩
  · exact ⟨neg .double c, isFinite_neg (isFinite_of_lt hc), by
      rw [value_neg (lt_posInf_lt hc), value_of_lt hc, hv, abs_of_nonpos h, neg_neg]⟩

/-- **C93, never far off.** The text of a `double` `d` in the range of `float` (not below `10^-41`), read by
`atof<float>` without the fallback: no `float` lies strictly between `d` and the result, so that it is one of the two
neighbours of `d` - the lost carry of C21 excepted. -/
theorem C93_neighbour (fb : Fallback) (errno : Nat) (mem : List Nat) (str : Nat) (n : Numeral)
    (h : NumeralAt mem str n) (d : Nat) (hd : IsFinite .double d) (hlo : 10 ^ (-41 : Int) ≤ |value .double d|)
    (hhi : |value .double d| * (1 + narrowSlack) < overflowThreshold .float)
    (hn : Identifies .double n.value d) :
    ∃ r, atof .float fb errno mem str = .ok r ∧ (r.fellBack = false →
      (∀ f, IsFinite .float f →
        ¬ (value .double d < value .float f ∧ value .float f < value .float r.value) ∧
        ¬ (value .float r.value < value .float f ∧ value .float f < value .double d)) ∨
      ∃ x b, |x - n.value| ≤ n.absValue * slack .float ∧ RoundsTo .float x b ∧ CarryLost .float x b r.value) := by
  have hcl := identifies_close (above_of_ge hd hlo) hn
  set D := value .double d with hD
  have h41 : (0 : ℚ) < 10 ^ (-41 : Int) := by positivity
  have hV0 : 0 < |D| := by linarith
  have habn : |n.value| = n.absValue := abs_value_num n
  have hdiff : abs (n.absValue - |D|) ≤ |D| / 2 ^ 53 := by
    rw [← habn]
    exact le_trans (abs_abs_sub_abs_le _ _) hcl
  have hd1 := abs_le.mp hdiff
  have hsl : slack .float = 25 / 2 ^ 32 := rfl
  have e42 : (10 : ℚ) ^ (-42 : Int) * 10 = 10 ^ (-41 : Int) := by norm_num
  have h42 : (0 : ℚ) < 10 ^ (-42 : Int) := by positivity
  have hem : (2 : ℚ) ^ emin .float ≤ 10 ^ (-42 : Int) := by decide +kernel
  obtain ⟨r, r1, r2⟩ := C23_neighbour .float fb errno mem str n h (by rw [hsl]; linarith [hd1.1])
    (by rw [hsl]; unfold narrowSlack at hhi; linarith [hd1.2]) (fun _ => by linarith [hd1.1])
  refine ⟨r, r1, fun hfb => ?_⟩
  rcases r2 hfb with h1 | h1
  · left
    intro f hf
    obtain ⟨f', w1, w2⟩ := widen hf
    have h2 := h1 f hf
    constructor
    · rintro ⟨a1, a2⟩
      have h3 := hn.2.2 f' w1 (by rw [w2]; exact a1.ne')
      rw [w2] at h3
      refine h2.1 ⟨?_, a2⟩
      by_contra hc
      push Not at hc
      rw [abs_of_pos (by linarith), abs_of_pos (by linarith)] at h3
      linarith
    · rintro ⟨a1, a2⟩
      have h3 := hn.2.2 f' w1 (by rw [w2]; exact a2.ne)
      rw [w2] at h3
      refine h2.2 ⟨a1, ?_⟩
      by_contra hc
      push Not at hc
      rw [abs_of_neg (by linarith), abs_of_neg (by linarith)] at h3
      linarith
  · exact Or.inr h1

/-- The hypotheses of `C93_neighbour` are met by the text that is misread. -/
example (fb : Fallback) (errno : Nat) :=
  have hr : Identifies .double longFloat.value 0x401e2bba2fff30a9 := by
    have h2 := closest_pos (T := .double) (a := 0x401e2bba2fff30a9) (X := longFloat.value * 2 ^ (1074 : Nat)) (by decide)
      (by decide +kernel) (Or.inr (by decide +kernel)) (by decide +kernel)
    have h3 : longFloat.value * 2 ^ (1074 : Nat) * 2 ^ emin .double = longFloat.value := by decide +kernel
    rwa [h3] at h2
  C93_neighbour fb errno (longFloat.text ++ [0]) 0 longFloat
    (numeralAt_cstr ⟨by decide, by intro e he; cases he⟩ (by decide) (by intro e he; cases he))
    0x401e2bba2fff30a9 ⟨by decide, by decide⟩ (by decide +kernel) (by decide +kernel) hr

end Floaxie
