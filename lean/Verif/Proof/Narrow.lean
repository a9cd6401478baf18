import Mathlib.Tactic.LinearCombination
import Verif.Proof.Grisu
import Verif.Proof.Pow2

/-!
# How far inside the rounding interval the decimals printed for `float` are

Far enough that rounding them to `double` does not leave the interval.
-/

namespace Floaxie

open FloatType Spec

/-- Error of a scaled product, for a table entry with an error of at most `t` units. -/
theorem mul_err_le (T : FloatType) (x c : DiyFp) (k : Int) (t : ℚ) (hx : x.f < 2 ^ T.W) (hc : c.f < 2 ^ T.W)
    (hcp : |(c.f : ℚ) * 2 ^ c.e - 10 ^ k| ≤ t * 2 ^ c.e) :
    |((x.mul T.W c).f : ℚ) * 2 ^ (x.mul T.W c).e - x.f * 2 ^ x.e * 10 ^ k| ≤
      (1 / 2 + t * x.f / 2 ^ T.W) * 2 ^ (x.mul T.W c).e := by
  rw [mul_f T x c hx hc, mul_e]
  have hu : (0 : ℚ) < 2 ^ c.e := by positivity
  obtain ⟨r, hr⟩ : ∃ r : ℚ, (10 : ℚ) ^ k = r * 2 ^ c.e := ⟨10 ^ k / 2 ^ c.e, by field_simp⟩
  rw [hr, ← sub_mul, abs_mul, abs_of_pos hu] at hcp
  have hcr : |(c.f : ℚ) - r| ≤ t := le_of_mul_le_mul_right hcp hu
  have hWpos : (0 : ℚ) < 2 ^ T.W := by positivity
  have hexp : (2 : ℚ) ^ (x.e + c.e + (T.W : Int)) = 2 ^ x.e * 2 ^ c.e * 2 ^ T.W := by
    rw [zpow_add₀ (by norm_num), zpow_add₀ (by norm_num), zpow_natCast]
  rw [hexp, hr]
  set q := (x.f * c.f + 2 ^ (T.W - 1)) / 2 ^ T.W with hq
  have hW1 : 2 ^ T.W = 2 * 2 ^ (T.W - 1) := by cases T <;> simp [FloatType.W]
  have hW1q : (2 : ℚ) ^ T.W = 2 * 2 ^ (T.W - 1) := by exact_mod_cast hW1
  have hdm := Nat.div_add_mod (x.f * c.f + 2 ^ (T.W - 1)) (2 ^ T.W)
  have hml := Nat.mod_lt (x.f * c.f + 2 ^ (T.W - 1)) (show 0 < 2 ^ T.W by positivity)
  rw [← hq] at hdm
  have hq1 : (2 : ℚ) ^ T.W * q ≤ x.f * c.f + 2 ^ (T.W - 1) := by
    exact_mod_cast (by omega : 2 ^ T.W * q ≤ x.f * c.f + 2 ^ (T.W - 1))
  have hq2 : (x.f * c.f + 2 ^ (T.W - 1) : ℚ) < 2 ^ T.W * q + 2 ^ T.W := by
    exact_mod_cast (by omega : x.f * c.f + 2 ^ (T.W - 1) < 2 ^ T.W * q + 2 ^ T.W)
  have hx0 : (0 : ℚ) ≤ x.f := by positivity
  have e : (q : ℚ) * (2 ^ x.e * 2 ^ c.e * 2 ^ T.W) - x.f * 2 ^ x.e * (r * 2 ^ c.e) =
      (q * 2 ^ T.W - x.f * r) * (2 ^ x.e * 2 ^ c.e) := by ring
  have e2 : (1 / 2 + t * x.f / 2 ^ T.W) * (2 ^ x.e * 2 ^ c.e * 2 ^ T.W) =
      (2 ^ T.W / 2 + t * x.f) * ((2 : ℚ) ^ x.e * 2 ^ c.e) := by field_simp
  have hpp : (0 : ℚ) < 2 ^ x.e * 2 ^ c.e := by positivity
  rw [e, e2, abs_mul, abs_of_pos hpp]
  apply mul_le_mul_of_nonneg_right _ hpp.le
  rw [abs_le] at hcr
  have h3 : (x.f : ℚ) * (c.f - r) ≤ x.f * t := mul_le_mul_of_nonneg_left hcr.2 hx0
  have h4 : (x.f : ℚ) * (-t) ≤ x.f * (c.f - r) := mul_le_mul_of_nonneg_left hcr.1 hx0
  rw [abs_le]
  constructor <;> linarith

/-- Integer form of "entry `i` of the table of `float` is within 0.49 units of the
power of ten". -/
def tabCheck49 (i : Nat) : Bool :=
  match FloatType.float.powF[i]?, FloatType.float.powE[i]? with
  | some f, some e =>
    let k : Int := (i : Int) - 50
    let A := 2 * f * 2 ^ e.toNat * 10 ^ (-k).toNat
    let B := 2 * 10 ^ k.toNat * 2 ^ (-e).toNat
    let U := 2 ^ e.toNat * 10 ^ (-k).toNat
    decide (50 * A ≤ 50 * B + 49 * U) && decide (50 * B ≤ 50 * A + 49 * U)
  | _, _ => false

/-- All entries but that of `10^14`, which is half way between two numbers. -/
theorem tabCheck49_all : (List.range 101).all (fun i => i == 64 || tabCheck49 i) = true := by decide +kernel

theorem cachedPower_49 {k : Int} {c : DiyFp} (h1 : -50 ≤ k) (h2 : k ≤ 50) (h : k ≠ 14) (hc : cachedPower .float k = .ok c) :
    |(c.f : ℚ) * 2 ^ c.e - 10 ^ k| ≤ 49 / 100 * 2 ^ c.e := by
  have hck := List.all_eq_true.mp tabCheck49_all ((50 : Int) + k).toNat (List.mem_range.mpr (by omega))
  have hne : (((50 : Int) + k).toNat == 64) = false := by rw [beq_eq_false_iff_ne]; omega
  rw [hne, Bool.false_or] at hck
  unfold tabCheck49 at hck
  have hk : ((((50 : Int) + k).toNat : Nat) : Int) - 50 = k := by omega
  rw [hk] at hck
  unfold cachedPower at hc
  have hoff : (FloatType.float.pow0Offset : Int) = 50 := rfl
  rw [hoff, assertM_true (by simpa using h1), ok_bind] at hc
  generalize ((50 : Int) + k).toNat = i at *
  cases hf : FloatType.float.powF[i]? with
  | none => rw [hf] at hck; simp at hck
  | some f =>
    cases he : FloatType.float.powE[i]? with
    | none => rw [hf, he] at hck; simp at hck
    | some e =>
      rw [hf, he] at hck
      simp only [Bool.and_eq_true, decide_eq_true_eq] at hck
      obtain ⟨c3, c4⟩ := hck
      simp only [hf, he, pure, Except.pure, Except.ok.injEq] at hc
      subst hc
      have c3' : (50 * (2 * f * 2 ^ e.toNat * 10 ^ (-k).toNat) : ℚ) ≤
        50 * (2 * 10 ^ k.toNat * 2 ^ (-e).toNat) + 49 * (2 ^ e.toNat * 10 ^ (-k).toNat) := by exact_mod_cast c3
      have c4' : (50 * (2 * 10 ^ k.toNat * 2 ^ (-e).toNat) : ℚ) ≤
        50 * (2 * f * 2 ^ e.toNat * 10 ^ (-k).toNat) + 49 * (2 ^ e.toNat * 10 ^ (-k).toNat) := by exact_mod_cast c4
      have z1 := zpow_split 10 (by norm_num) k
      have z2 := zpow_split 2 (by norm_num) e
      rw [← z1, ← z2] at c3' c4'
      have p1 : (0 : ℚ) < 10 ^ (-k).toNat * 2 ^ (-e).toNat := by positivity
      rw [abs_le]
      constructor
      · apply le_of_mul_le_mul_right _ p1
        linarith
      · apply le_of_mul_le_mul_right _ p1
        linarith

/-- `float` in units of the least subnormal, for evaluation. -/
def marginCheck (a : Nat) : Bool :=
  match grisu2P fastPower .float a (List.replicate 9 0) 0 with
  | .ok (buf, n, k) =>
    let A := 2 * charsVal (buf.take n) * 10 ^ k.toNat * 2 ^ 149
    let D := 10 ^ (-k).toNat
    decide ((N .float (a - 1) + N .float a) * D * (2 ^ 52 + 1) ≤ A * 2 ^ 52) &&
      decide (A * (2 ^ 52 + 1) ≤ (N .float a + N .float (a + 1)) * D * 2 ^ 52)
  | _ => false

/-- The largest significands with decimal scaling by `10^14`. -/
theorem marginCheck_14 : (List.range 32).all (fun i => [92, 93, 94].all fun e =>
    marginCheck (e * 2 ^ 23 + (2 ^ 23 - 1 - i))) = true := by decide +kernel

theorem scale14 : (List.range' 1 254).all (fun e : Nat =>
    [92, 93, 94].contains e || kCompExp (FloatType.alpha .float) (-149 + ((e : Int) - 1) - 1 - 7) != 14) = true := by
  decide +kernel

/-- And for the subnormal numbers. -/
theorem scale14_sub : (List.range 32).all (fun j : Nat =>
    kCompExp (FloatType.alpha .float) (-149 - 1 - (j : Int)) != 14) = true := by
  decide +kernel

theorem mul_lt (T : FloatType) (x y : DiyFp) (hx : x.f < 2 ^ T.W) (hy : y.f < 2 ^ T.W) : (x.mul T.W y).f < 2 ^ T.W := by
  rw [mul_f T x y hx hy]
  apply Nat.div_lt_of_lt_mul
  have h1 : x.f * y.f ≤ (2 ^ T.W - 1) * (2 ^ T.W - 1) := Nat.mul_le_mul (by omega) (by omega)
  have h2 : (2 ^ T.W - 1) * (2 ^ T.W - 1) + 2 ^ (T.W - 1) < 2 ^ T.W * 2 ^ T.W := by
    cases T <;> norm_num [FloatType.W]
  omega

theorem charsVal_digitChar (ds : List (Fin 10)) : charsVal (ds.map digitChar) = digitsVal ds := by
  unfold charsVal digitsVal
  rw [List.foldl_map]
  congr 1
  funext a d
  have : digitChar d = 48 + d.val := rfl
  rw [this, Nat.add_sub_cancel_left]

/-- The margin by evaluation. -/
theorem margin_of_check {a : Nat} {ds : List (Fin 10)} {k : Int} (hc : marginCheck a = true)
    (hg : grisu2 .float a (List.replicate 9 0) 0 = .ok (ds.map digitChar ++ (List.replicate 9 0).drop ds.length, ds.length, k)) :
    ((N .float (a - 1) : ℚ) + N .float a) * 2 ^ emin .float * (2 ^ 52 + 1) ≤ 2 * (digitsVal ds * 10 ^ k) * 2 ^ 52 ∧
      2 * (digitsVal ds * 10 ^ k) * (2 ^ 52 + 1) ≤ ((N .float a : ℚ) + N .float (a + 1)) * 2 ^ emin .float * 2 ^ 52 := by
  unfold marginCheck at hc
  rw [grisu2P_eq, hg] at hc
  simp only [Bool.and_eq_true, decide_eq_true_eq] at hc
  rw [List.take_left' (by simp), charsVal_digitChar] at hc
  obtain ⟨c1, c2⟩ := hc
  have hB : ((2 : ℚ) ^ 52) = ((2 ^ 52 : Nat) : ℚ) := by norm_num
  rw [hB]
  clear hB
  have z2 : (2 : ℚ) ^ emin .float * ((2 ^ 149 : Nat) : ℚ) = 1 := by
    norm_num [emin, FloatType.minExp, FloatType.p]
  have hy : 0 < (2 ^ 149 : Nat) := by positivity
  generalize (2 ^ 149 : Nat) = Y at *
  generalize (2 ^ 52 : Nat) = B at *
  have c1' : (((N .float (a - 1) + N .float a) * 10 ^ (-k).toNat * (B + 1) : Nat) : ℚ) ≤
    ((2 * digitsVal ds * 10 ^ k.toNat * Y * B : Nat) : ℚ) := by exact_mod_cast c1
  have c2' : ((2 * digitsVal ds * 10 ^ k.toNat * Y * (B + 1) : Nat) : ℚ) ≤
    (((N .float a + N .float (a + 1)) * 10 ^ (-k).toNat * B : Nat) : ℚ) := by exact_mod_cast c2
  push_cast at c1' c2'
  have z1 := zpow_split 10 (by norm_num) k
  rw [← z1] at c1' c2'
  have p1 : (0 : ℚ) < 10 ^ (-k).toNat * (Y : ℚ) := by positivity
  generalize (10 : ℚ) ^ k = x at *
  generalize (10 : ℚ) ^ (-k).toNat = z at *
  generalize (2 : ℚ) ^ emin .float = w at *
  constructor
  · apply le_of_mul_le_mul_right _ p1
    linear_combination c1' + (N .float (a - 1) + N .float a : ℚ) * (B + 1) * z * z2
  · apply le_of_mul_le_mul_right _ p1
    linear_combination c2' - (N .float a + N .float (a + 1) : ℚ) * B * z * z2

/-- From the place between the scaled boundaries to the margin. -/
theorem margin_core {mi pl c : DiyFp} {mk : Int} {x t : ℚ} (hme : mi.e = pl.e) (hmi : mi.f < pl.f) (hpl : pl.f < 2 ^ 32)
    (hc : c.f < 2 ^ 32) (ht0 : 0 ≤ t) (hcp : |(c.f : ℚ) * 2 ^ c.e - 10 ^ mk| ≤ t * 2 ^ c.e)
    (ht : t * pl.f ≤ 2 ^ 31 - 2 ^ 12)
    (h1 : (((mi.mul 32 c).f : ℚ) + 1) * 2 ^ (mi.mul 32 c).e ≤ x * 10 ^ mk)
    (h2 : x * 10 ^ mk ≤ ((pl.mul 32 c).f - 1) * 2 ^ (pl.mul 32 c).e) :
    (mi.f : ℚ) * 2 ^ mi.e * (2 ^ 52 + 1) ≤ x * 2 ^ 52 ∧ x * (2 ^ 52 + 1) ≤ pl.f * 2 ^ pl.e * 2 ^ 52 := by
  have hmi32 : mi.f < 2 ^ 32 := by omega
  have ep := mul_err_le .float pl c mk t hpl hc hcp
  have em := mul_err_le .float mi c mk t hmi32 hc hcp
  have hW : FloatType.float.W = 32 := rfl
  rw [hW] at ep em
  have hee : (mi.mul 32 c).e = (pl.mul 32 c).e := by rw [mul_e, mul_e, hme]
  rw [hee] at em h1
  have hP : (pl.mul 32 c).f < 2 ^ 32 := mul_lt .float pl c hpl hc
  have hQ : (mi.mul 32 c).f < 2 ^ 32 := mul_lt .float mi c hmi32 hc
  have hP' : ((pl.mul 32 c).f : ℚ) < 2 ^ 32 := by exact_mod_cast hP
  have hQ' : ((mi.mul 32 c).f : ℚ) + 1 ≤ 2 ^ 32 := by exact_mod_cast (by omega : (mi.mul 32 c).f + 1 ≤ 2 ^ 32)
  have hS : (0 : ℚ) < 10 ^ mk := by positivity
  have hu : (0 : ℚ) < 2 ^ (pl.mul 32 c).e := by positivity
  have hmf : (mi.f : ℚ) ≤ pl.f := by exact_mod_cast hmi.le
  have hb1 : 1 / 2 + t * pl.f / 2 ^ 32 ≤ 1 - 1 / 2 ^ 20 := by
    have : t * pl.f / 2 ^ 32 ≤ (2 ^ 31 - 2 ^ 12) / 2 ^ 32 := div_le_div_of_nonneg_right ht (by norm_num)
    have h : (2 ^ 31 - 2 ^ 12 : ℚ) / 2 ^ 32 = 1 / 2 - 1 / 2 ^ 20 := by norm_num
    linarith
  have hb2 : 1 / 2 + t * mi.f / 2 ^ 32 ≤ 1 - 1 / 2 ^ 20 := by
    refine le_trans ?_ hb1
    have : t * mi.f ≤ t * pl.f := mul_le_mul_of_nonneg_left hmf ht0
    have : t * mi.f / 2 ^ 32 ≤ t * pl.f / 2 ^ 32 := div_le_div_of_nonneg_right this (by norm_num)
    linarith
  generalize (2 : ℚ) ^ (pl.mul 32 c).e = u at *
  generalize ((pl.mul 32 c).f : ℚ) = P at *
  generalize ((mi.mul 32 c).f : ℚ) = Q at *
  generalize (1 / 2 + t * (pl.f : ℚ) / 2 ^ 32) = b1 at *
  generalize (1 / 2 + t * (mi.f : ℚ) / 2 ^ 32) = b2 at *
  generalize (pl.f : ℚ) * 2 ^ pl.e = pv at *
  generalize (mi.f : ℚ) * 2 ^ mi.e = mv at *
  generalize (10 : ℚ) ^ mk = S at *
  have e1 := (abs_le.mp ep).2
  have e2 := (abs_le.mp em).1
  have b1u : b1 * u ≤ (1 - 1 / 2 ^ 20) * u := mul_le_mul_of_nonneg_right hb1 hu.le
  have b2u : b2 * u ≤ (1 - 1 / 2 ^ 20) * u := mul_le_mul_of_nonneg_right hb2 hu.le
  have Pu : P * u ≤ 2 ^ 32 * u := mul_le_mul_of_nonneg_right hP'.le hu.le
  have Qu : (Q + 1) * u ≤ 2 ^ 32 * u := mul_le_mul_of_nonneg_right hQ' hu.le
  constructor
  · apply le_of_mul_le_mul_right _ hS
    linarith
  · apply le_of_mul_le_mul_right _ hS
    linarith

/-- The decimal digits of a positive `float`, and how far its value is from the
ends of the rounding interval. -/
theorem float_margin (a : Nat) (ha : a < posInf .float) (h0 : a ≠ 0) :
    ∃ (ds : List (Fin 10)) (k : Int), ds.length ≤ 9 ∧
      grisu2 .float a (List.replicate 9 0) 0 = .ok (ds.map digitChar ++ (List.replicate 9 0).drop ds.length, ds.length, k) ∧
      ((N .float (a - 1) : ℚ) + N .float a) * 2 ^ emin .float * (2 ^ 52 + 1) ≤ 2 * (digitsVal ds * 10 ^ k) * 2 ^ 52 ∧
      2 * (digitsVal ds * 10 ^ k) * (2 ^ 52 + 1) ≤ ((N .float a : ℚ) + N .float (a + 1)) * 2 ^ emin .float * 2 ^ 52 := by
  have hb : a < 2 ^ FloatType.float.W := lt_of_lt_of_le ha (by decide)
  have hab : absPat .float a = a := absPat_of_lt ha
  obtain ⟨ds, k, d1, -, -, -, -, ⟨mi, pl, c, mk, m1, m2, m3, m4, m5, m6, m7, m8, -⟩, d6⟩ :=
    grisu2_full .float a hb (by rw [hab]; exact ha) (by rw [hab]; exact h0)
  have hg := d6 0 [] (List.replicate 9 0) rfl (by rw [List.length_replicate]; exact d1)
  simp only [List.nil_append] at hg
  refine ⟨ds, k, d1, hg, ?_⟩
  obtain ⟨J, E, hE, hJ, hf0, hfp, hJn, hpl1, hpl2, hE1, hE2, hbd⟩ :=
    boundaries_ok .float a hb (by rw [hab]; exact ha) (by rw [hab]; exact h0)
  have hlow := lower_mid .float a h0
  have hNs := N_succ .float a
  have hNa : N .float a = sigN .float a * ulpN .float a := N_eq _ _
  have hulp : ulpN .float a = 2 ^ (a / 2 ^ 23 - 1) := rfl
  rw [hab] at hE hf0 hfp hJn hpl1 hpl2 hbd
  rw [m1, Except.ok.injEq, Prod.mk.injEq] at hbd
  obtain ⟨hmi, hpl⟩ := hbd
  have hp : FloatType.float.p - 1 = 23 := rfl
  rw [hp] at hE hJn hlow
  generalize hst : a / 2 ^ 23 - 1 = st at *
  have hu : (2 : ℚ) ^ E * 2 ^ J * 2 = 2 ^ emin .float * 2 ^ st := by
    rw [hE, ← zpow_natCast (2 : ℚ) J, ← zpow_natCast (2 : ℚ) st, ← zpow_add₀ (by norm_num),
      ← zpow_add_one₀ (by norm_num), ← zpow_add₀ (by norm_num)]
    congr 1
    show emin .float + (st : Int) - 1 - J + J + 1 = _
    ring
  -- the boundaries are the midpoints, or nearer
  have hpv : 2 * ((pl.f : ℚ) * 2 ^ pl.e) = ((N .float a : ℚ) + N .float (a + 1)) * 2 ^ emin .float := by
    rw [hpl, hNs, hNa, hulp]
    push_cast
    linear_combination (2 * (sigN .float a : ℚ) + 1) * hu
  have hsh : bshift .float (sigN .float a) ≤ J + 1 := by
    have : 7 ≤ J := hJ
    unfold bshift; split_ifs <;> omega
  have hsh0 : 0 < sigN .float a * 2 ^ bshift .float (sigN .float a) := by positivity
  have hmv : ((N .float (a - 1) : ℚ) + N .float a) * 2 ^ emin .float ≤ 2 * ((mi.f : ℚ) * 2 ^ mi.e) := by
    have h1 := mul_le_mul_of_nonneg_right hlow (emin_pos .float).le
    refine h1.trans (le_of_eq ?_)
    rw [hmi]
    have h2 : (2 : ℚ) ^ (J + 1 - bshift .float (sigN .float a)) * 2 ^ bshift .float (sigN .float a) = 2 ^ J * 2 := by
      rw [← pow_add, Nat.sub_add_cancel hsh, pow_succ]
    have h3 : (2 : ℚ) ^ bshift .float (sigN .float a) ≠ 0 := by positivity
    push_cast [Nat.cast_sub (show 1 ≤ sigN .float a * 2 ^ bshift .float (sigN .float a) from hsh0)]
    field_simp
    linear_combination (-((sigN .float a : ℚ) * 2 ^ bshift .float (sigN .float a) - 1)) * hu -
      (((sigN .float a : ℚ) * 2 ^ bshift .float (sigN .float a) - 1) * 2 ^ E) * h2
  obtain ⟨hk1, hk2, -, -⟩ := kComp_ok .float E hE1 hE2
  have hple : pl.e = E := by rw [hpl]
  rw [hple] at m5
  rw [← m5] at hk1 hk2
  obtain ⟨c', hc0, -, hc2, hc3⟩ := cachedPower_ok .float mk
    (by revert hk1; simp only [mkLo, FloatType.powLo]; omega)
    (by revert hk2; simp only [mkHi, FloatType.powHi]; omega)
  rw [m6, Except.ok.injEq] at hc0
  subst hc0
  have fin : ∀ t : ℚ, 0 ≤ t → |(c.f : ℚ) * 2 ^ c.e - 10 ^ mk| ≤ t * 2 ^ c.e → t * pl.f ≤ 2 ^ 31 - 2 ^ 12 →
      ((N .float (a - 1) : ℚ) + N .float a) * 2 ^ emin .float * (2 ^ 52 + 1) ≤ 2 * (digitsVal ds * 10 ^ k) * 2 ^ 52 ∧
      2 * (digitsVal ds * 10 ^ k) * (2 ^ 52 + 1) ≤ ((N .float a : ℚ) + N .float (a + 1)) * 2 ^ emin .float * 2 ^ 52 := by
    intro t t0 t1 t2
    obtain ⟨r1, r2⟩ := margin_core m2 m3 m4 hc2 t0 t1 t2 m7 m8
    rw [← hpv]
    constructor <;> linarith
  by_cases h14 : mk = 14
  · by_cases hbig : pl.f ≤ 2 ^ 32 - 2 ^ 13
    · refine fin (1 / 2) (by norm_num) hc3 ?_
      have : (pl.f : ℚ) ≤ 2 ^ 32 - 2 ^ 13 := by
        have : ((pl.f : Nat) : ℚ) ≤ ((2 ^ 32 - 2 ^ 13 : Nat) : ℚ) := by exact_mod_cast hbig
        refine this.trans (le_of_eq ?_); norm_num
      linarith
    · apply margin_of_check _ hg
      have hap : posInf .float = 255 * 2 ^ 23 := by decide
      rw [hap] at ha
      have hdm := Nat.div_add_mod a (2 ^ 23)
      have hml := Nat.mod_lt a (show 0 < 2 ^ 23 by norm_num)
      have hJ31 : J < 32 := by
        by_contra hc
        have : 2 ^ 32 ≤ 2 ^ J := Nat.pow_le_pow_right (by norm_num) (by omega)
        have : 2 ^ 32 ≤ (2 * sigN .float a + 1) * 2 ^ J := this.trans (Nat.le_mul_of_pos_left _ (by omega))
        exact absurd hpl2 (by simp only [FloatType.W]; omega)
      by_cases he : a / 2 ^ 23 = 0
      · exfalso
        have hst0 : st = 0 := by omega
        have := List.all_eq_true.mp scale14_sub J (List.mem_range.mpr hJ31)
        rw [bne_iff_ne] at this
        apply this
        rw [← h14, m5, hE, hst0]
        congr 1
      · have hsig : sigN .float a = 2 ^ 23 + a % 2 ^ 23 := by
          unfold sigN; rw [hp, if_neg he]
        have hJ7 : J = 7 := hJn (by omega)
        have h254 : a / 2 ^ 23 < 255 := by rw [Nat.div_lt_iff_lt_mul (by norm_num)]; exact ha
        have h92 := List.all_eq_true.mp scale14 (a / 2 ^ 23) (by rw [List.mem_range'_1]; omega)
        rw [Bool.or_eq_true, bne_iff_ne] at h92
        have h92' : [92, 93, 94].contains (a / 2 ^ 23) = true := by
          rcases h92 with h | h
          · exact h
          · exfalso
            apply h
            rw [← h14, m5, hE, hJ7]
            congr 1
            have : (st : Int) = ((a / 2 ^ 23 : Nat) : Int) - 1 := by omega
            rw [this]
            simp only [emin, FloatType.minExp, FloatType.p]
            push_cast; ring
        have hplf : pl.f = (2 * (2 ^ 23 + a % 2 ^ 23) + 1) * 2 ^ 7 := by rw [hpl, hsig, hJ7]
        have hfr : 2 ^ 23 - 32 ≤ a % 2 ^ 23 := by omega
        have := List.all_eq_true.mp marginCheck_14 (2 ^ 23 - 1 - a % 2 ^ 23) (List.mem_range.mpr (by omega))
        have := List.all_eq_true.mp this (a / 2 ^ 23) (by simpa using h92')
        have e : a / 2 ^ 23 * 2 ^ 23 + (2 ^ 23 - 1 - (2 ^ 23 - 1 - a % 2 ^ 23)) = a := by omega
        rwa [e] at this
  · refine fin (49 / 100) (by norm_num) (cachedPower_49 ?_ ?_ h14 m6) ?_
    · revert hk1; simp only [mkLo]; omega
    · revert hk2; simp only [mkHi]; omega
    · have : (pl.f : ℚ) < 2 ^ 32 := by exact_mod_cast m4
      linarith

end Floaxie
