import Verif.Prop.Away

/-!
# Reading as `double` and narrowing to `float` (C96)
-/

namespace Floaxie

open Spec FloatType

/-- The middles between adjacent `float`s, and the threshold to overflow, are `double`s. -/
theorem mid_double {a : Nat} (ha : a < posInf .float) : ∃ c, c < posInf .double ∧ value .double c = Mid .float a := by
  obtain ⟨q, t, hq, hN⟩ : ∃ q t, q < 2 ^ 25 ∧ N .float a + N .float (a + 1) = q * 2 ^ t := by
    have h1 : a % 2 ^ 23 < 2 ^ 23 := Nat.mod_lt _ (by norm_num)
    rw [N_succ]
    refine ⟨2 * (if a / 2 ^ 23 = 0 then a % 2 ^ 23 else 2 ^ 23 + a % 2 ^ 23) + 1, a / 2 ^ 23 - 1, ?_, ?_⟩
    · split_ifs <;> omega
    · show (if a / 2 ^ 23 = 0 then a % 2 ^ 23 else 2 ^ 23 + a % 2 ^ 23) * 2 ^ (a / 2 ^ 23 - 1) +
        ((if a / 2 ^ 23 = 0 then a % 2 ^ 23 else 2 ^ 23 + a % 2 ^ 23) * 2 ^ (a / 2 ^ 23 - 1) + 2 ^ (a / 2 ^ 23 - 1)) = _
      ring
  obtain ⟨c, hc⟩ := exists_N (T := .double) (q := q) (t := t + 924) (lt_trans hq (by decide))
  have he : (2 : ℚ) ^ (924 : Nat) * 2 ^ emin .double * 2 = 2 ^ emin .float := by decide +kernel
  have hv : (N .double c : ℚ) * 2 ^ emin .double = Mid .float a := by
    have hN' : (N .float a : ℚ) + N .float (a + 1) = q * 2 ^ t := by exact_mod_cast hN
    unfold Mid
    rw [hN', hc, pow_add, ← he]
    push_cast
    ring
  have hcl : c < posInf .double := by
    have h1 : Mid .float a ≤ Mid .float (posInf .float) := Mid_mono' ha.le
    have h2 : Mid .float (posInf .float) < N .double (posInf .double) * 2 ^ emin .double := by
      rw [N_posInf]; unfold Mid; decide +kernel
    have h3 : (N .double c : ℚ) * 2 ^ emin .double < N .double (posInf .double) * 2 ^ emin .double := by
      rw [hv]; linarith
    have h4 : N .double c < N .double (posInf .double) := by
      exact_mod_cast lt_of_mul_lt_mul_right h3 (emin_pos _).le
    exact (N_strictMono _).lt_iff_lt.mp h4
  exact ⟨c, hcl, by rw [value_of_lt hcl, hv]⟩

/-- Rounding does not pass a `double`. -/
theorem round_not_past {x : ℚ} {d c : Nat} (hx : x ≠ 0) (hd : RoundsTo .double x d) (hc : c < posInf .double) :
    (|x| ≤ value .double c → |value .double d| ≤ value .double c) ∧
    (value .double c ≤ |x| → value .double c ≤ |value .double d|) := by
  have hm := roundsTo_magnitude hx hd
  have hle := roundsTo_le hm (isFinite_of_lt hc)
  have ev : value .double (absPat .double d) = |value .double d| := by
    rw [value_of_lt (absPat_lt_posInf hd.1), value_abs]
  rw [ev] at hle
  generalize |x| = X at *
  generalize |value .double d| = V at *
  constructor
  · intro h
    by_contra hcc
    rw [abs_of_nonpos (by linarith), abs_of_nonpos (by linarith)] at hle
    linarith
  · intro h
    by_contra hcc
    rw [abs_of_nonneg (by linarith), abs_of_nonneg (by linarith)] at hle
    linarith

/-- **C96, the numbers.** A number in the range of `float` (and not below the least positive `double`) rounded to
`double` and then to `float` is the number rounded to `float` at once, unless the `double` lies exactly half way
between two adjacent `float`s (or is the threshold to overflow). -/
theorem C96_numbers (x : ℚ) (d : Nat) (hx1 : 2 ^ emin .double ≤ |x|) (hx2 : |x| < overflowThreshold .float)
    (hd : RoundsTo .double x d) (hmid : ¬ IsTieOrLimit .float |value .double d|) (f : Nat) :
    RoundsTo .float (value .double d) f ↔ RoundsTo .float x f := by
  have hx0 : x ≠ 0 := abs_pos.mp (lt_of_lt_of_le (emin_pos _) hx1)
  have hV : 2 ^ emin .double ≤ |value .double d| := by
    have h1 : value .double 1 = 2 ^ emin .double := by
      rw [value_of_lt (by decide), show N .double 1 = 1 by decide]; simp
    have := (round_not_past hx0 hd (c := 1) (by decide)).2
    rw [h1] at this
    exact this hx1
  have hV0 : value .double d ≠ 0 := abs_pos.mp (lt_of_lt_of_le (emin_pos _) hV)
  have hs : x < 0 ↔ value .double d < 0 := by rw [← hd.2.2.1, value_sign hd.1 hV0]
  have hclear : ∀ t, IsTieOrLimit .float t →
      ¬ (|x| ≤ t ∧ t ≤ |value .double d|) ∧ ¬ (|value .double d| ≤ t ∧ t ≤ |x|) := by
    intro t ht
    constructor
    · rintro ⟨h1, h2⟩
      obtain ⟨a, ha, rfl⟩ := tie_mid (le_trans (abs_nonneg _) h1) ht
      obtain ⟨c, hc, hv⟩ := mid_double ha
      have := (round_not_past hx0 hd hc).1
      rw [hv] at this
      exact hmid (le_antisymm (this h1) h2 ▸ ht)
    · rintro ⟨h1, h2⟩
      obtain ⟨a, ha, rfl⟩ := tie_mid (le_trans (abs_nonneg _) h1) ht
      obtain ⟨c, hc, hv⟩ := mid_double ha
      have := (round_not_past hx0 hd hc).2
      rw [hv] at this
      exact hmid (le_antisymm h1 (this h2) ▸ ht)
  have hVt : |value .double d| < overflowThreshold .float := by
    by_contra hc
    exact (hclear (overflowThreshold .float) (Or.inr (abs_of_pos (by linarith [abs_nonneg x])))).1 ⟨hx2.le, not_lt.mp hc⟩
  obtain ⟨b, hb, hbu⟩ := roundsTo_total hVt
  obtain ⟨c, hc, hcu⟩ := roundsTo_total hx2
  have hcb : c = b := roundsTo_between hx0 hV0 hs hc hb hclear
  constructor
  · intro h; rw [hbu f h, ← hcb]; exact hc
  · intro h; rw [hcu f h, hcb]; exact hb

/-- **C96, in place of `atof<float>`.** A numeral of at most 19 significant digits in the range of `float`, read by
`atof<double>` (whose fallback, if asked, reads correctly) and narrowed to `float`, is correctly rounded - unless
the `double` is half way between two `float`s or the numeral rounds up to a power of two in `double`. -/
theorem C96_narrowed (fb : Fallback) (errno : Nat) (mem : List Nat) (str : Nat)
    (n : Numeral) (h : NumeralAt mem str n) (m : Nat) (k : Int) (hm : m < 10 ^ FloatType.digits10 .double)
    (hmk : n.absValue = m * 10 ^ k) (hx1 : 2 ^ emin .double ≤ n.absValue) (hx2 : n.absValue < overflowThreshold .float)
    (hfb : FallbackReads .double fb errno mem str n) (hp : ¬ RoundsUpToPow2 .double n.value) :
    ∃ r, atof .double fb errno mem str = .ok r ∧ r.status = .success ∧ r.strEnd = str + n.text.length ∧
      (¬ IsTieOrLimit .float |value .double r.value| →
        ∀ f, RoundsTo .float (value .double r.value) f ↔ RoundsTo .float n.value f) := by
  have hdt : overflowThreshold .float < overflowThreshold .double := by decide +kernel
  obtain ⟨r, r1, r2, r3, r4⟩ := C20_correctly_rounded_given_fallback .double fb errno mem str n h m k hm hmk
    (fun hc => by cases hc) hx1 (lt_trans hx2 hdt) hfb hp
  rw [← abs_value_num] at hx1 hx2
  exact ⟨r, r1, r3, r4, fun hmid f => C96_numbers n.value r.value hx1 hx2 r2 hmid f⟩

/-- **C96, both ways of reading.** A numeral of at most 9 significant digits in the range of `float`, last place not
below `10^-50`: reading it as `double` and narrowing gives what `atof<float>` gives. -/
theorem C96_both (fbf fbd : Fallback) (errno : Nat) (mem : List Nat) (str : Nat)
    (n : Numeral) (h : NumeralAt mem str n) (m : Nat) (k : Int) (hm : m < 10 ^ FloatType.digits10 .float)
    (hmk : n.absValue = m * 10 ^ k) (hk : -50 ≤ k) (hx1 : 2 ^ emin .float ≤ n.absValue)
    (hx2 : n.absValue < overflowThreshold .float)
    (hf : FallbackReads .float fbf errno mem str n) (hd : FallbackReads .double fbd errno mem str n)
    (hpf : ¬ RoundsUpToPow2 .float n.value) (hpd : ¬ RoundsUpToPow2 .double n.value) :
    ∃ r s, atof .float fbf errno mem str = .ok r ∧ atof .double fbd errno mem str = .ok s ∧
      r.status = s.status ∧ r.strEnd = s.strEnd ∧
      (¬ IsTieOrLimit .float |value .double s.value| → ∀ f, RoundsTo .float (value .double s.value) f ↔ f = r.value) := by
  obtain ⟨r, r1, r2, r3, r4⟩ := C20_correctly_rounded_given_fallback .float fbf errno mem str n h m k hm hmk
    (fun _ => hk) hx1 hx2 hf hpf
  have h1 : (2 : ℚ) ^ emin .double ≤ 2 ^ emin .float := by decide +kernel
  obtain ⟨s, s1, s2, s3, s4⟩ := C96_narrowed fbd errno mem str n h m k (lt_trans hm (by decide)) hmk (le_trans h1 hx1) hx2 hd hpd
  refine ⟨r, s, r1, s1, by rw [r3, s2], by rw [r4, s3], fun hmid f => ?_⟩
  rw [s4 hmid f]
  obtain ⟨b, -, hbu⟩ := roundsTo_total (T := .float) (x := n.value) (by rw [abs_value_num]; exact hx2)
  exact ⟨fun hr => by rw [hbu f hr, hbu _ r2], fun hr => hr ▸ r2⟩

/-- 967498269e-19 -/
def twiceRounded : Numeral := ⟨none, [9, 6, 7, 4, 9, 8, 2, 6, 9], none, some ⟨false, some true, [1, 9]⟩⟩

/-- **C96, the exception is real.** "967498269e-19" is read by `atof<double>`, without the fallback, as the nearest
`double`, which lies half way between two `float`s; the nearest `float` of the number is not the one the `double`
is rounded to. -/
theorem C96_exception (fb : Fallback) (errno : Nat) :
    atof .double fb errno (chars "967498269e-19\x00") 0 = .ok ⟨0x3dda9829f0000000, .success, 13, errno, false⟩ ∧
    RoundsTo .double (967498269 * 10 ^ (-19 : Int)) 0x3dda9829f0000000 ∧
    RoundsTo .float (967498269 * 10 ^ (-19 : Int)) 0x2ed4c14f ∧
    ¬ RoundsTo .float (value .double 0x3dda9829f0000000) 0x2ed4c14f := by
  have h1 : krosh .double (chars "967498269e-19\x00") 0 = .ok ⟨0x3dda9829f0000000, 13, .success, true⟩ := by decide +kernel
  refine ⟨by rw [atof_of_krosh h1 (by decide)]; rfl, ?_, ?_, ?_⟩
  · have h2 := closest_pos (T := .double) (a := 0x3dda9829f0000000) (X := 967498269 * 10 ^ (-19 : Int) * 2 ^ (1074 : Nat)) (by decide)
      (by decide +kernel) (Or.inr (by decide +kernel)) (by decide +kernel)
    have h3 : (967498269 * 10 ^ (-19 : Int) * 2 ^ (1074 : Nat) : ℚ) * 2 ^ emin .double = 967498269 * 10 ^ (-19 : Int) := by decide +kernel
    rw [h3] at h2
    exact identifies_roundsTo h2 (by decide +kernel)
  · have h2 := closest_pos (T := .float) (a := 0x2ed4c14f) (X := 967498269 * 10 ^ (-19 : Int) * 2 ^ 149) (by decide)
      (by decide +kernel) (Or.inr (by decide +kernel)) (by decide +kernel)
    have h3 : (967498269 * 10 ^ (-19 : Int) * 2 ^ 149 : ℚ) * 2 ^ emin .float = 967498269 * 10 ^ (-19 : Int) := by decide +kernel
    rw [h3] at h2
    exact identifies_roundsTo h2 (by decide +kernel)
  · intro h
    rcases h.2.2.2 0x2ed4c150 ⟨by decide, by decide⟩ (by decide +kernel) with h | h
    · exact absurd h (by decide +kernel)
    · exact absurd h.2 (by decide)

/-- 0.1 -/
def aTenth : Numeral := ⟨none, [0], some [1], none⟩

theorem not_up {T : FloatType} {x : ℚ} {b : Nat} (i : Int) (h : RoundsTo T x b) (h1 : 2 ^ i < |value T b|)
    (h2 : |value T b| < 2 ^ (i + 1)) (hx : |x| < overflowThreshold T) : ¬ RoundsUpToPow2 T x := by
  rintro ⟨c, j, c1, -, c2, -⟩
  obtain ⟨d, -, hu⟩ := roundsTo_total hx
  rw [hu c c1, ← hu b h] at c2
  exact not_pow2_between i h1 h2 j c2

/-- The hypotheses of `C96_both` (and so of `C96_narrowed`) are met by "0.1", and the conclusion says something:
0.1 read as `double` is not half way between two `float`s. -/
example (fbf fbd : Fallback) (errno : Nat) :
    ∃ r s, atof .float fbf errno (chars "0.1\x00") 0 = .ok r ∧ atof .double fbd errno (chars "0.1\x00") 0 = .ok s ∧
      r.status = s.status ∧ r.strEnd = s.strEnd ∧ ∀ f, RoundsTo .float (value .double s.value) f ↔ f = r.value := by
  have hat : NumeralAt (aTenth.text ++ [0]) 0 aTenth :=
    numeralAt_cstr ⟨by decide, by intro e he; cases he⟩ (by decide) (by intro e he; cases he)
  have hkf : krosh .float (aTenth.text ++ [0]) 0 = .ok ⟨0x3dcccccd, 3, .success, true⟩ := by decide +kernel
  have hkd : krosh .double (aTenth.text ++ [0]) 0 = .ok ⟨0x3fb999999999999a, 3, .success, true⟩ := by decide +kernel
  have haf : ∀ fb : Fallback, atof .float fb errno (aTenth.text ++ [0]) 0 = .ok ⟨0x3dcccccd, .success, 3, errno, false⟩ :=
    fun fb => by rw [atof_of_krosh hkf (by decide)]; rfl
  have had : ∀ fb : Fallback, atof .double fb errno (aTenth.text ++ [0]) 0 = .ok ⟨0x3fb999999999999a, .success, 3, errno, false⟩ :=
    fun fb => by rw [atof_of_krosh hkd (by decide)]; rfl
  have hff : FallbackReads .float fbf errno (aTenth.text ++ [0]) 0 aTenth := by
    intro r hr hb; rw [haf] at hr; cases hr; cases hb
  have hfd : FallbackReads .double fbd errno (aTenth.text ++ [0]) 0 aTenth := by
    intro r hr hb; rw [had] at hr; cases hr; cases hb
  have hrf : RoundsTo .float aTenth.value 0x3dcccccd := by
    have h2 := closest_pos (T := .float) (a := 0x3dcccccd) (X := aTenth.value * 2 ^ 149) (by decide)
      (by decide +kernel) (Or.inr (by decide +kernel)) (by decide +kernel)
    have h3 : aTenth.value * 2 ^ 149 * 2 ^ emin .float = aTenth.value := by decide +kernel
    rw [h3] at h2
    exact identifies_roundsTo h2 (by decide +kernel)
  have hrd : RoundsTo .double aTenth.value 0x3fb999999999999a := by
    have h2 := closest_pos (T := .double) (a := 0x3fb999999999999a) (X := aTenth.value * 2 ^ (1074 : Nat)) (by decide)
      (by decide +kernel) (Or.inr (by decide +kernel)) (by decide +kernel)
    have h3 : aTenth.value * 2 ^ (1074 : Nat) * 2 ^ emin .double = aTenth.value := by decide +kernel
    rw [h3] at h2
    exact identifies_roundsTo h2 (by decide +kernel)
  obtain ⟨r, s, r1, s1, e1, e2, e3⟩ := C96_both fbf fbd errno _ 0 aTenth hat 1 (-1) (by decide) (by decide +kernel) (by decide)
    (by decide +kernel) (by decide +kernel) hff hfd
    (not_up (-4) hrf (by decide +kernel) (by decide +kernel) (by decide +kernel))
    (not_up (-4) hrd (by decide +kernel) (by decide +kernel) (by decide +kernel))
  refine ⟨r, s, r1, s1, e1, e2, e3 ?_⟩
  rw [had] at s1
  cases s1
  intro ht
  obtain ⟨a, -, ha⟩ := tie_mid (abs_nonneg _) ht
  have l : Mid .float 0x3dcccccc < |value .double 0x3fb999999999999a| ∧ |value .double 0x3fb999999999999a| < Mid .float 0x3dcccccd := by
    unfold Mid; decide +kernel
  rw [ha] at l
  rcases Nat.lt_or_ge 0x3dcccccc a with h | h
  · exact absurd l.2 (not_lt.mpr (Mid_mono' h))
  · exact absurd l.1 (not_lt.mpr (Mid_mono' h))

end Floaxie
