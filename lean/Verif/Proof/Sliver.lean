import Verif.Proof.ShortMain
import Verif.Proof.OneDigit

/-!
# Where a shorter decimal number may be missed

If a decimal number with fewer digits than printed rounds to the value, then a multiple of a
certain power of ten (which depends only on the exponent of the value) lies within the rounding
interval, but very close to one of its ends.
-/

namespace Floaxie

open FloatType Spec

theorem closer_above {y L V : ℚ} {p : Prop} (hlt : L < V)
    (h : |y - V| < |y - L| ∨ |y - V| = |y - L| ∧ p) : (L + V) / 2 < y ∨ (L + V) / 2 = y ∧ p := by
  rcases h with h | ⟨h, hp⟩
  · left
    have := sq_lt_sq.mpr h
    nlinarith
  · right
    refine ⟨?_, hp⟩
    have := (sq_eq_sq_iff_abs_eq_abs _ _).mpr h
    have : (V - L) * ((L + V) / 2 - y) = 0 := by nlinarith
    rcases mul_eq_zero.mp this with h | h <;> linarith

theorem closer_below {y U V : ℚ} {p : Prop} (hlt : V < U)
    (h : |y - V| < |y - U| ∨ |y - V| = |y - U| ∧ p) : y < (V + U) / 2 ∨ y = (V + U) / 2 ∧ p := by
  rcases h with h | ⟨h, hp⟩
  · left
    have := sq_lt_sq.mpr h
    nlinarith
  · right
    refine ⟨?_, hp⟩
    have := (sq_eq_sq_iff_abs_eq_abs _ _).mpr h
    have : (U - V) * ((V + U) / 2 - y) = 0 := by nlinarith
    rcases mul_eq_zero.mp this with h | h <;> linarith

/-- What rounds to a pattern lies between the half-way points; on one of them only if the
pattern is even. -/
theorem rounds_between {T : FloatType} {a : Nat} {y : ℚ} (hy : 0 ≤ y) (ha : a < posInf T) (h0 : a ≠ 0)
    (h : RoundsTo T y a) :
    ((N T (a - 1) + N T a : ℚ) / 2 * 2 ^ emin T < y ∨
      (N T (a - 1) + N T a : ℚ) / 2 * 2 ^ emin T = y ∧ a % 2 = 0) ∧
    (y < (N T a + N T (a + 1) : ℚ) / 2 * 2 ^ emin T ∨
      y = (N T a + N T (a + 1) : ℚ) / 2 * 2 ^ emin T ∧ a % 2 = 0) := by
  have hu := emin_pos T
  have hfr : fracField T a % 2 = a % 2 := by rw [roundsTo_frac, absPat_of_lt ha]
  have h4 := h.2.2.2
  rw [value_of_lt ha, hfr] at h4
  constructor
  · have hlt : (N T (a - 1) : ℚ) < N T a := by exact_mod_cast N_lt (T := T) (show a - 1 < a by omega)
    have hlt' := mul_lt_mul_of_pos_right hlt hu
    have hne : value T (a - 1) ≠ N T a * 2 ^ emin T := by
      rw [value_of_lt (by omega)]
      exact hlt'.ne
    have h5 := h4 (a - 1) (isFinite_of_lt (by omega)) hne
    rw [value_of_lt (show a - 1 < posInf T by omega)] at h5
    have := closer_above hlt' h5
    rwa [show (N T (a - 1) + N T a : ℚ) / 2 * 2 ^ emin T =
      (N T (a - 1) * 2 ^ emin T + N T a * 2 ^ emin T) / 2 by ring]
  · have hlt : (N T a : ℚ) < N T (a + 1) := by exact_mod_cast N_lt (T := T) (show a < a + 1 by omega)
    have hlt' := mul_lt_mul_of_pos_right hlt hu
    rcases Nat.lt_or_ge (a + 1) (posInf T) with hp | hp
    · have hne : value T (a + 1) ≠ N T a * 2 ^ emin T := by
        rw [value_of_lt hp]
        exact hlt'.ne'
      have h5 := h4 (a + 1) (isFinite_of_lt hp) hne
      rw [value_of_lt hp] at h5
      have := closer_below hlt' h5
      rwa [show (N T a + N T (a + 1) : ℚ) / 2 * 2 ^ emin T =
        (N T a * 2 ^ emin T + N T (a + 1) * 2 ^ emin T) / 2 by ring]
    · left
      have e : a = posInf T - 1 := by omega
      have h6 := h.2.1
      rw [abs_of_nonneg hy, ← mid_limit, ← e] at h6
      exact h6

/-- Printing a number of at least half a word of bits: the interval that is searched. -/
theorem searched (T : FloatType) (a : Nat) (ha : a < posInf T) (hb : 2 ^ (T.W / 2) ≤ a)
    (hn : sigN T a ≠ 2 ^ (T.p - 1)) :
    ∃ (A B : ℚ) (ds : List (Fin 10)) (k : Int), 0 < A ∧
      A ≤ digitsVal ds * 10 ^ k ∧ (digitsVal ds * 10 ^ k : ℚ) ≤ B ∧
      (∀ (n : Nat) (k' : Int), k < k' → ¬ (A ≤ n * 10 ^ k' ∧ (n * 10 ^ k' : ℚ) ≤ B)) ∧
      ds.length ≤ maxSigDigits T ∧
      (∃ h : ds ≠ [], ds.head h ≠ 0 ∧ ds.getLast h ≠ 0) ∧ k.natAbs ≤ 343 ∧
      (∀ (bits : Nat), bits < 2 ^ T.W → absPat T bits = a →
        Prints T bits (fmtNumeral (decide (signBit T bits = 1)) ds k).text) ∧
      ∃ (J : Nat) (E : Int) (c : DiyFp),
        E = emin T + ((a / 2 ^ (T.p - 1) - 1 : Nat) : Int) - 1 - J ∧
        2 ^ (T.W - 1) ≤ (2 * sigN T a + 1) * 2 ^ J ∧ (2 * sigN T a + 1) * 2 ^ J < 2 ^ T.W ∧
        cachedPower T (kCompExp T.alpha E) = .ok c ∧
        A * 10 ^ kCompExp T.alpha E ≤
          ((2 * sigN T a - 1) * 2 ^ J * c.f + 3 * 2 ^ (T.W - 1)) * (2 ^ E * 2 ^ c.e) ∧
        ((2 * sigN T a + 1) * 2 ^ J * c.f - 3 * 2 ^ (T.W - 1)) * (2 ^ E * 2 ^ c.e) ≤
          B * 10 ^ kCompExp T.alpha E ∧
        (N T (a - 1) + N T a : ℚ) / 2 * 2 ^ emin T = (2 * sigN T a - 1) * 2 ^ J * 2 ^ E ∧
        (N T a + N T (a + 1) : ℚ) / 2 * 2 ^ emin T = (2 * sigN T a + 1) * 2 ^ J * 2 ^ E := by
  have hid : absPat T a = a := absPat_of_lt ha
  have h0 : a ≠ 0 := by have := Nat.two_pow_pos (T.W / 2); omega
  have hnor : a ≠ 2 ^ (T.p - 1) := by
    rintro rfl
    apply hn
    unfold sigN
    have hp : 0 < 2 ^ (T.p - 1) := by positivity
    rw [Nat.div_self hp, if_neg (by norm_num), Nat.mod_self]; rfl
  obtain ⟨A, B, ds, k, a1, a2, a3, -, a5, -, ⟨L, hg⟩, J, E, c, hE, hJ1, hJ2, hc, hA, hB⟩ :=
    grisu2_brief' T a (lt_posInf_lt ha) (by rw [hid]; exact ha) (by rw [hid]; exact h0)
      (by rw [hid]; exact hnor)
  rw [hid] at *
  obtain ⟨ds', k', b1, b2, b3, b4, -, -, hg', b5⟩ := ftoa_main'' T a ha h0
  have e1 := hg (List.replicate (L + ds'.length) 0) (by simp)
  have e2 := hg' (List.replicate (L + ds'.length) 0) (by simp)
  rw [e1] at e2
  simp only [Except.ok.injEq, Prod.mk.injEq] at e2
  obtain ⟨e3, e4, e5⟩ := e2
  have hds : ds = ds' := by
    apply map_digitChar_inj
    exact (List.append_inj e3 (by simp [e4])).1
  subst hds; subst e5
  have hbs : bshift T (sigN T a) = 1 := by unfold bshift; rw [if_neg hn]
  rw [hbs] at hA
  have hs0 : 0 < sigN T a := by
    rcases Nat.eq_zero_or_pos (sigN T a) with h | h
    · have : N T a = N T 0 := by rw [N_eq, h, N_zero, zero_mul]
      exact absurd (N_inj this) h0
    · exact h
  have hcast : (((sigN T a * 2 ^ 1 - 1) * 2 ^ (J + 1 - 1) : Nat) : ℚ) = (2 * sigN T a - 1) * 2 ^ J := by
    rw [Nat.add_sub_cancel, pow_one]
    push_cast [Nat.cast_sub (show 1 ≤ sigN T a * 2 by omega)]
    ring
  rw [hcast] at hA
  have hscale : (2 : ℚ) ^ (a / 2 ^ (T.p - 1) - 1) / 2 * 2 ^ emin T = 2 ^ J * 2 ^ E := by
    rw [hE, zpow_sub₀ (by norm_num), zpow_sub₀ (by norm_num), zpow_add₀ (by norm_num), zpow_natCast,
      zpow_natCast, zpow_one]
    have : (2 : ℚ) ^ J ≠ 0 := by positivity
    field_simp
  refine ⟨A, B, ds, k, a1, a2, a3, a5 (Or.inl hb), b1, b2, b4, b5, J, E, c, hE, hJ1, hJ2, hc, hA, ?_, ?_, ?_⟩
  · push_cast at hB
    exact hB
  · rw [lower_mid_eq' T a h0 hnor, hbs]
    calc ((sigN T a : ℚ) * 2 ^ 1 - 1) * (2 ^ (a / 2 ^ (T.p - 1) - 1) * 2 / 2 ^ 1) / 2 * 2 ^ emin T
        = (2 * sigN T a - 1) * (2 ^ (a / 2 ^ (T.p - 1) - 1) / 2 * 2 ^ emin T) := by ring
      _ = _ := by rw [hscale]; ring
  · rw [N_succ, N_eq]
    unfold ulpN
    push_cast
    calc ((sigN T a : ℚ) * 2 ^ (a / 2 ^ (T.p - 1) - 1) + (sigN T a * 2 ^ (a / 2 ^ (T.p - 1) - 1) + 2 ^ (a / 2 ^ (T.p - 1) - 1))) / 2 * 2 ^ emin T
        = (2 * sigN T a + 1) * (2 ^ (a / 2 ^ (T.p - 1) - 1) / 2 * 2 ^ emin T) := by ring
      _ = _ := by rw [hscale]; ring

/-- A positive multiple of a power of ten in a closed interval at least that long. -/
theorem multiple_in {x y g : ℚ} (hg : 0 < g) (hx : 0 ≤ x) (h : g ≤ y - x) : ∃ n : Nat, x ≤ n * g ∧ n * g ≤ y := by
  refine ⟨⌈x / g⌉₊, ?_, ?_⟩
  · rw [← div_le_iff₀ hg]; exact Nat.le_ceil _
  · have : (⌈x / g⌉₊ : ℚ) < x / g + 1 := Nat.ceil_lt_add_one (by positivity)
    have := mul_lt_mul_of_pos_right this hg
    rw [add_mul, div_mul_cancel₀ _ hg.ne'] at this
    linarith

/-- If fewer digits would do, a multiple of `10^κ` is close to the end of the rounding interval. -/
theorem sliver (T : FloatType) (a : Nat) (ha : a < posInf T) (hb : 2 ^ (T.W / 2) ≤ a)
    (hn : sigN T a ≠ 2 ^ (T.p - 1)) :
    ∃ (ds : List (Fin 10)) (k : Int), 
      ds.length ≤ maxSigDigits T ∧
      (∃ h : ds ≠ [], ds.head h ≠ 0 ∧ ds.getLast h ≠ 0) ∧ k.natAbs ≤ 343 ∧
      (∀ (bits : Nat), bits < 2 ^ T.W → absPat T bits = a →
        Prints T bits (fmtNumeral (decide (signBit T bits = 1)) ds k).text) ∧
      ∃ (J : Nat) (E : Int) (c : DiyFp),
        E = emin T + ((a / 2 ^ (T.p - 1) - 1 : Nat) : Int) - 1 - J ∧
        2 ^ (T.W - 1) ≤ (2 * sigN T a + 1) * 2 ^ J ∧ (2 * sigN T a + 1) * 2 ^ J < 2 ^ T.W ∧
        cachedPower T (kCompExp T.alpha E) = .ok c ∧
        ∀ (P Q : ℚ) (κ : Int) (d : Nat) (j : Int),
          3 * 2 ^ (T.W - 1) * 2 ^ c.e ≤ P * 10 ^ kCompExp T.alpha E →
          3 * 2 ^ (T.W - 1) * 2 ^ c.e + 2 ^ T.W * (10 ^ kCompExp T.alpha E - c.f * 2 ^ c.e) ≤
            P * 10 ^ kCompExp T.alpha E →
          3 * 2 ^ (T.W - 1) * 2 ^ c.e ≤ Q * 10 ^ kCompExp T.alpha E →
          3 * 2 ^ (T.W - 1) * 2 ^ c.e + 2 ^ T.W * (c.f * 2 ^ c.e - 10 ^ kCompExp T.alpha E) ≤
            Q * 10 ^ kCompExp T.alpha E →
          10 ^ κ ≤ 10 * ((2 ^ (J + 1) - P - Q) * 2 ^ E : ℚ) →
          RoundsTo T (d * 10 ^ j) a → d < 10 ^ (ds.length - 1) →
          (∃ n : Nat, ((2 * sigN T a + 1) * 2 ^ J - P) * 2 ^ E < n * 10 ^ κ ∧
            (n * 10 ^ κ < ((2 * sigN T a + 1) * 2 ^ J : ℚ) * 2 ^ E ∨
              n * 10 ^ κ = ((2 * sigN T a + 1) * 2 ^ J : ℚ) * 2 ^ E ∧ a % 2 = 0)) ∨
          (∃ n : Nat, (n * 10 ^ κ : ℚ) < ((2 * sigN T a - 1) * 2 ^ J + Q) * 2 ^ E ∧
            (((2 * sigN T a - 1) * 2 ^ J : ℚ) * 2 ^ E < n * 10 ^ κ ∨
              ((2 * sigN T a - 1) * 2 ^ J : ℚ) * 2 ^ E = n * 10 ^ κ ∧ a % 2 = 0)) := by
  obtain ⟨A, B, ds, k, a1, a2, a3, a5, b1, ⟨hne, hh, hl⟩, b4, b5, J, E, c, hE, hJ1, hJ2, hc, hA, hB, hlo, hhi⟩ :=
    searched T a ha hb hn
  have h0 : a ≠ 0 := by have := Nat.two_pow_pos (T.W / 2); omega
  refine ⟨ds, k, b1, ⟨hne, hh, hl⟩, b4, b5, J, E, c, hE, hJ1, hJ2, hc, ?_⟩
  intro P Q κ d j p1 p2 q1 q2 hκ hr hd
  have hy0 : (0 : ℚ) ≤ d * 10 ^ j := by positivity
  obtain ⟨r1, r2⟩ := rounds_between hy0 ha h0 hr
  rw [hlo] at r1
  rw [hhi] at r2
  have hs0 : 0 < sigN T a := by
    rcases Nat.eq_zero_or_pos (sigN T a) with h | h
    · have : N T a = N T 0 := by rw [N_eq, h, N_zero, zero_mul]
      exact absurd (N_inj this) h0
    · exact h
  have hs1 : (1 : ℚ) ≤ sigN T a := by exact_mod_cast hs0
  have hJ2' : (2 * sigN T a + 1 : ℚ) * 2 ^ J < 2 ^ T.W := by exact_mod_cast hJ2
  have hJ0 : (0 : ℚ) < 2 ^ J := by positivity
  have hmi0 : (0 : ℚ) < (2 * sigN T a - 1) * 2 ^ J := mul_pos (by linarith) hJ0
  have hdiff : (2 * sigN T a + 1 : ℚ) * 2 ^ J = (2 * sigN T a - 1) * 2 ^ J + 2 ^ (J + 1) := by
    rw [pow_succ]; ring
  have hmile : (2 * sigN T a - 1 : ℚ) * 2 ^ J ≤ 2 ^ T.W := by
    have : (0 : ℚ) < 2 ^ (J + 1) := by positivity
    linarith
  have hEp : (0 : ℚ) < 2 ^ E := by positivity
  have hep : (0 : ℚ) < 2 ^ c.e := by positivity
  have h10 : (0 : ℚ) < 10 ^ kCompExp T.alpha E := by positivity
  generalize (10 : ℚ) ^ kCompExp T.alpha E = t at *
  generalize (2 * sigN T a - 1 : ℚ) * 2 ^ J = mi at *
  generalize (2 * sigN T a + 1 : ℚ) * 2 ^ J = pl at *
  have hpl0 : 0 < pl := by
    have : (0 : ℚ) < 2 ^ (J + 1) := by positivity
    linarith
  -- the searched interval is long enough
  have hA' : A ≤ (mi + Q) * 2 ^ E := by
    have h1 : mi * c.f * 2 ^ c.e + 3 * 2 ^ (T.W - 1) * 2 ^ c.e ≤ (mi + Q) * t := by
      rcases le_total ((c.f : ℚ) * 2 ^ c.e) t with h | h
      · have := mul_le_mul_of_nonneg_left h hmi0.le
        linarith
      · have := mul_le_mul_of_nonneg_right hmile (sub_nonneg.mpr h)
        linarith
    have h2 : A * t ≤ (mi + Q) * 2 ^ E * t := by
      calc A * t ≤ _ := hA
        _ = (mi * c.f * 2 ^ c.e + 3 * 2 ^ (T.W - 1) * 2 ^ c.e) * 2 ^ E := by ring
        _ ≤ (mi + Q) * t * 2 ^ E := mul_le_mul_of_nonneg_right h1 hEp.le
        _ = _ := by ring
    exact le_of_mul_le_mul_right h2 h10
  have hB' : (pl - P) * 2 ^ E ≤ B := by
    have h1 : (pl - P) * t ≤ pl * c.f * 2 ^ c.e - 3 * 2 ^ (T.W - 1) * 2 ^ c.e := by
      rcases le_total ((c.f : ℚ) * 2 ^ c.e) t with h | h
      · have := mul_le_mul_of_nonneg_right hJ2'.le (sub_nonneg.mpr h)
        linarith
      · have := mul_le_mul_of_nonneg_left h hpl0.le
        linarith
    have h2 : (pl - P) * 2 ^ E * t ≤ B * t := by
      calc (pl - P) * 2 ^ E * t = (pl - P) * t * 2 ^ E := by ring
        _ ≤ (pl * c.f * 2 ^ c.e - 3 * 2 ^ (T.W - 1) * 2 ^ c.e) * 2 ^ E := mul_le_mul_of_nonneg_right h1 hEp.le
        _ = (pl * c.f - 3 * 2 ^ (T.W - 1)) * (2 ^ E * 2 ^ c.e) := by ring
        _ ≤ _ := hB
    exact le_of_mul_le_mul_right h2 h10
  have hQ0 : 0 ≤ Q := by
    by_contra hneg
    have h1 : Q * t ≤ 0 := mul_nonpos_of_nonpos_of_nonneg (not_le.mp hneg).le h10.le
    have h2 : (0 : ℚ) < 3 * 2 ^ (T.W - 1) * 2 ^ c.e := by positivity
    linarith
  have hk : κ ≤ k + 1 := by
    by_contra hlt
    obtain ⟨n, n1, n2⟩ := multiple_in (x := (mi + Q) * 2 ^ E) (y := (pl - P) * 2 ^ E) (g := 10 ^ (κ - 1))
      (by positivity) (by positivity) (by
        rw [zpow_sub_one₀ (by norm_num), hdiff]
        have : (10 : ℚ) ^ κ * 10⁻¹ ≤ (2 ^ (J + 1) - P - Q) * 2 ^ E := by
          rw [← div_eq_mul_inv, div_le_iff₀ (by norm_num)]; linarith
        linarith)
    exact a5 n (κ - 1) (by omega) ⟨hA'.trans n1, n2.trans hB'⟩
  have hmul : ∀ (n : Nat) (i : Int), k < i → ∃ n' : Nat, (n * 10 ^ i : ℚ) = n' * 10 ^ κ := by
    intro n i hi
    refine ⟨n * 10 ^ (i - κ).toNat, ?_⟩
    push_cast
    rw [mul_assoc, ← zpow_natCast, ← zpow_add₀ (by norm_num)]
    congr 2
    omega
  have hypos : (0 : ℚ) < d * 10 ^ j := by
    have : 0 < mi * 2 ^ E := by positivity
    rcases r1 with r | ⟨r, -⟩ <;> linarith
  rcases lt_or_ge k j with hkj | hkj
  · have hnot := a5 d j hkj
    obtain ⟨n, hn'⟩ := hmul d j hkj
    rw [hn'] at r1 r2 hnot
    rcases lt_or_ge ((n : ℚ) * 10 ^ κ) A with h | h
    · right
      exact ⟨n, lt_of_lt_of_le h hA', r1⟩
    · left
      have : B < n * 10 ^ κ := by
        by_contra h'
        exact hnot ⟨h, not_lt.mp h'⟩
      exact ⟨n, lt_of_le_of_lt hB' this, r2⟩
  · -- a power of ten in between
    have hd0 : 0 < d := by
      rcases Nat.eq_zero_or_pos d with rfl | h
      · simp at hypos
      · exact h
    have hlen : 2 ≤ ds.length := by
      by_contra hlt
      rw [show ds.length - 1 = 0 by omega] at hd
      omega
    have hw1 : (d * 10 ^ j : ℚ) < 10 ^ (ds.length - 1) * 10 ^ k := by
      have e1 : (d : ℚ) < 10 ^ (ds.length - 1) := by exact_mod_cast hd
      have e2 : (10 : ℚ) ^ j ≤ 10 ^ k := zpow_le_zpow_right₀ (by norm_num) hkj
      have e3 : (0 : ℚ) < 10 ^ j := by positivity
      calc (d * 10 ^ j : ℚ) < 10 ^ (ds.length - 1) * 10 ^ j := mul_lt_mul_of_pos_right e1 e3
        _ ≤ _ := mul_le_mul_of_nonneg_left e2 (by positivity)
    have hw2 : (10 ^ (ds.length - 1) * 10 ^ k : ℚ) ≤ digitsVal ds * 10 ^ k := by
      have : ((10 ^ (ds.length - 1) : Nat) : ℚ) ≤ digitsVal ds := by exact_mod_cast digitsVal_ge hne hh
      push_cast at this
      exact mul_le_mul_of_nonneg_right this (by positivity)
    have hw3 : (10 ^ (ds.length - 1) * 10 ^ k : ℚ) = ((1 : Nat) : ℚ) * 10 ^ (k + (ds.length - 1 : Nat)) := by
      rw [zpow_add₀ (by norm_num), zpow_natCast]; push_cast; ring
    have hnot := a5 1 (k + (ds.length - 1 : Nat)) (by omega)
    obtain ⟨n, hn'⟩ := hmul 1 (k + (ds.length - 1 : Nat)) (by omega)
    rw [hw3, hn'] at hw1 hw2
    rw [hn'] at hnot
    right
    refine ⟨n, ?_, Or.inl ?_⟩
    · refine lt_of_lt_of_le ?_ hA'
      by_contra h
      exact hnot ⟨not_lt.mp h, hw2.trans a3⟩
    · rcases r1 with r | ⟨r, -⟩ <;> linarith

end Floaxie
