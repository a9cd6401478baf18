import Verif.Prop.RoundTrip
import Verif.Prop.Strings
import Mathlib.Logic.Relation

/-!
# C70: saving and loading again and again

A value is printed, the text is read, the result is printed, that text is read, and
so on, any number of times.
-/

namespace Floaxie
open Spec FloatType

/-- One cycle: the value `b` is printed, and the text - anywhere in memory, followed by NUL - is
read as the value `b'`.  If the value is finite and not zero, the fallback, should it be asked, reads the
text correctly. -/
def Cycle (T : FloatType) (b b' : Nat) : Prop :=
  ∃ (s pre rest : List Nat) (fb : Fallback) (errno : Nat) (r : AtofResult), Prints T b s ∧
    (IsFinite T b → value T b ≠ 0 → ∀ n : Numeral, n.text = s → FallbackReads T fb errno (pre ++ (s ++ 0 :: rest)) pre.length n) ∧
    atof T fb errno (pre ++ (s ++ 0 :: rest)) pre.length = .ok r ∧ r.value = b'

/-- As many halvings can happen, one after the other. -/
def maxDrift : FloatType → Nat
  | .float => 5
  | .double => 9

/-- What a cycle does to a finite value other than zero. -/
theorem cycle_finite {T : FloatType} {b b' : Nat} (hf : IsFinite T b) (h0 : value T b ≠ 0) (h : Cycle T b b') :
    ((∀ j ∈ lostExponents T, |value T b| ≠ 2 ^ j) → b' = b) ∧
    ((∃ j ∈ lostExponents T, |value T b| = 2 ^ j) → IsFinite T b' ∧ value T b' = value T b / 2) := by
  obtain ⟨s, pre, rest, fb, errno, r, h1, h2, h3, rfl⟩ := h
  obtain ⟨n, hv, hp, hid⟩ := C01_ftoa_identifies T b hf h0
  have hs := prints_unique h1 hp
  subst hs
  obtain ⟨r', r1, -, -, r4, r5⟩ := C22_round_trip T b hf h0 n h1 fb errno pre rest (h2 hf h0 n rfl)
  rw [h3, Except.ok.injEq] at r1
  subst r1
  exact ⟨r4, r5⟩

/-- The runs in the list of lost exponents. -/
theorem lost_runs (T : FloatType) : ∀ i ∈ lostExponents T, ∃ j ∈ List.range (maxDrift T + 1), i - (j : Int) ∉ lostExponents T := by
  cases T <;> decide +kernel

theorem run_bound {T : FloatType} {i : Int} {j : Nat} (h : ∀ j' : Nat, j' < j → i - (j' : Int) ∈ lostExponents T) : j ≤ maxDrift T := by
  by_contra hj
  have h0 := h 0 (by omega)
  rw [Nat.cast_zero, sub_zero] at h0
  obtain ⟨j', h1, h2⟩ := lost_runs T i h0
  rw [List.mem_range] at h1
  exact h2 (h j' (by omega))

/-- **C70, drift.** After any number of cycles starting from a finite value other than
zero, the value is still the same, or it was a power of two and has been halved once or
several times - at most 5 times (`float`) or 9 times (`double`). -/
theorem C70_drift (T : FloatType) (b b' : Nat) (hf : IsFinite T b) (h0 : value T b ≠ 0) (h : Relation.ReflTransGen (Cycle T) b b') :
    b' = b ∨ (IsFinite T b' ∧ ∃ (i : Int) (j : Nat), 1 ≤ j ∧ j ≤ maxDrift T ∧ |value T b| = 2 ^ i ∧ i ∈ lostExponents T ∧
      value T b' = value T b / 2 ^ j) := by
  have key : IsFinite T b' ∧ (b' = b ∨ ∃ (i : Int) (j : Nat), 1 ≤ j ∧ |value T b| = 2 ^ i ∧
      (∀ j' : Nat, j' < j → i - (j' : Int) ∈ lostExponents T) ∧ value T b' = value T b / 2 ^ j) := by
    induction h with
    | refl => exact ⟨hf, Or.inl rfl⟩
    | @tail c d _ hc ih =>
      obtain ⟨hcf, ih⟩ := ih
      have hc0 : value T c ≠ 0 := by
        rcases ih with rfl | ⟨i, j, -, -, -, e⟩
        · exact h0
        · rw [e]; exact div_ne_zero h0 (by positivity)
      have hcyc := cycle_finite hcf hc0 hc
      by_cases hl : ∃ j ∈ lostExponents T, |value T c| = 2 ^ j
      · obtain ⟨hd, hv⟩ := hcyc.2 hl
        refine ⟨hd, Or.inr ?_⟩
        obtain ⟨i', hi', hi2⟩ := hl
        rcases ih with rfl | ⟨i, j, j1, e1, e2, e3⟩
        · refine ⟨i', 1, le_rfl, hi2, fun j' hj' => ?_, by rw [hv, pow_one]⟩
          obtain rfl : j' = 0 := by omega
          simpa using hi'
        · have : i' = i - j := by
            rw [e3, abs_div, e1, abs_of_pos (by positivity : (0 : ℚ) < 2 ^ j), ← zpow_natCast, ← zpow_sub₀ (by norm_num)] at hi2
            exact (zpow_right_injective₀ (by norm_num : (0 : ℚ) < 2) (by norm_num) hi2).symm
          refine ⟨i, j + 1, by omega, e1, fun j' hj' => ?_, by rw [hv, e3, pow_succ]; field_simp⟩
          rcases Nat.lt_or_ge j' j with h | h
          · exact e2 j' h
          · obtain rfl : j' = j := by omega
            rw [← this]; exact hi'
      · push Not at hl
        have := hcyc.1 hl
        subst this
        exact ⟨hcf, ih⟩
  obtain ⟨hf', h⟩ := key
  rcases h with h | ⟨i, j, j1, e1, e2, e3⟩
  · exact Or.inl h
  · refine Or.inr ⟨hf', i, j, j1, run_bound e2, e1, ?_, e3⟩
    simpa using e2 0 (by omega)


/-- The text of a value that is no number, or zero, read anywhere in memory. -/
theorem read_word {T : FloatType} {s pre rest : List Nat} {fb : Fallback} {errno v e : Nat}
    (h : krosh T (s ++ [0]) 0 = .ok ⟨v, e, .success, true⟩) (he : e ≠ 0) :
    atof T fb errno (pre ++ (s ++ 0 :: rest)) pre.length = .ok ⟨v, .success, e + pre.length, errno, false⟩ := by
  have h1 := krosh_moved (T := T) (pre := pre) (s := s) (post := rest)
  rw [h, List.append_assoc] at h1
  rw [atof_of_krosh h1 (by dsimp only; omega), if_pos rfl]

theorem krosh_words (T : FloatType) :
    krosh T (chars "nan" ++ [0]) 0 = .ok ⟨T.qnanBits, 3, .success, true⟩ ∧
    krosh T (chars "inf" ++ [0]) 0 = .ok ⟨T.infBits, 3, .success, true⟩ ∧
    krosh T (chars "-inf" ++ [0]) 0 = .ok ⟨negBits T T.infBits, 4, .success, true⟩ ∧
    krosh T (chars "0" ++ [0]) 0 = .ok ⟨0, 1, .success, true⟩ := by
  cases T <;> decide +kernel

/-- What a cycle does to the other values. -/
theorem cycle_special {T : FloatType} {b b' : Nat} (h : Cycle T b b') :
    (IsNaN T b → b' = T.qnanBits) ∧ (IsInf T b → b' = b) ∧ (IsFinite T b → value T b = 0 → b' = 0) := by
  obtain ⟨s, pre, rest, fb, errno, r, h1, -, h3, rfl⟩ := h
  obtain ⟨c1, c2, c3⟩ := C08_ftoa_special T b
  obtain ⟨k1, k2, k3, k4⟩ := krosh_words T
  have use : ∀ {w : List Nat} {v e : Nat}, s = w → krosh T (w ++ [0]) 0 = .ok ⟨v, e, .success, true⟩ → e ≠ 0 → r.value = v := by
    intro w v e hw hk he
    subst hw
    rw [read_word hk he, Except.ok.injEq] at h3
    rw [← h3]
  refine ⟨fun h => use (prints_unique h1 (c1 h)) k1 (by decide), fun h => ?_, fun h h0 => use (prints_unique h1 (c3 h h0)) k4 (by decide)⟩
  have e := prints_unique h1 (c2 h)
  have ha := isInf_abs h
  obtain ⟨d1, d2⟩ := pat_decomp h.1
  rcases d2 with d2 | d2
  · rw [d2, if_neg (by decide)] at e
    rw [use e k2 (by decide), d1, ha, d2]
    cases T <;> decide
  · rw [d2, if_pos rfl] at e
    rw [use e k3 (by decide), d1, ha, d2]
    cases T <;> decide

/-- A cycle gives a value of the type. -/
theorem cycle_lt {T : FloatType} {b b' : Nat} (hb : b < 2 ^ T.W) (h : Cycle T b b') : b' < 2 ^ T.W := by
  obtain ⟨c1, c2, c3⟩ := cycle_special h
  rcases datum_kinds hb with k | k | k
  · rw [c1 k]; cases T <;> decide
  · rw [c2 k]; exact hb
  · by_cases h0 : value T b = 0
    · rw [c3 k h0]; exact Nat.two_pow_pos _
    · obtain ⟨d1, d2⟩ := cycle_finite k h0 h
      by_cases hl : ∃ j ∈ lostExponents T, |value T b| = 2 ^ j
      · exact (d2 hl).1.1
      · push Not at hl
        rw [d1 hl]; exact hb

/-- A cycle that changes nothing will change nothing the next time. -/
theorem cycle_fixed {T : FloatType} {b b' : Nat} (hb : b < 2 ^ T.W) (h : Cycle T b b) (h' : Cycle T b b') : b' = b := by
  obtain ⟨c1, c2, c3⟩ := cycle_special h
  obtain ⟨c1', c2', c3'⟩ := cycle_special h'
  rcases datum_kinds hb with k | k | k
  · rw [c1' k]; exact (c1 k).symm
  · exact c2' k
  · by_cases h0 : value T b = 0
    · rw [c3' k h0]; exact (c3 k h0).symm
    · obtain ⟨-, d2⟩ := cycle_finite k h0 h
      refine (cycle_finite k h0 h').1 fun j hj e => ?_
      have := (d2 ⟨j, hj, e⟩).2
      exact h0 (by linarith)

/-- **C70, NaN, infinities and zeros.** After one cycle a NaN is the positive quiet NaN
without payload, an infinity is what it was, and a zero is plus zero. -/
theorem C70_special (T : FloatType) (b b' : Nat) (h : Cycle T b b') :
    (IsNaN T b → IsQuietNaN T b' ∧ signBit T b' = 0 ∧ fracField T b' = 2 ^ (T.p - 2)) ∧ (IsInf T b → b' = b) ∧
      (IsFinite T b → value T b = 0 → b' = 0) := by
  obtain ⟨h1, h2, h3⟩ := cycle_special h
  refine ⟨fun hn => ?_, h2, h3⟩
  rw [h1 hn]
  cases T <;> exact ⟨⟨⟨by decide, by decide, by decide⟩, by decide⟩, by decide, by decide⟩

/-- **C70, stability.** Whatever is stored, after 5 (`float`) or 9 (`double`) cycles
nothing changes any more. -/
theorem C70_stable (T : FloatType) (f : Nat → Nat) (hb : f 0 < 2 ^ T.W) (h : ∀ i, Cycle T (f i) (f (i + 1))) :
    ∀ i, maxDrift T ≤ i → f i = f (maxDrift T) := by
  have hlt : ∀ i, f i < 2 ^ T.W := fun i => by
    induction i with
    | zero => exact hb
    | succ i ih => exact cycle_lt ih (h i)
  have hfix : ∀ i, f (i + 1) = f i → ∀ j, f (i + j) = f i := by
    intro i hi j
    induction j with
    | zero => rfl
    | succ j ih =>
      have h1 := h (i + j)
      rw [ih] at h1
      have h2 := h i
      rw [hi] at h2
      exact cycle_fixed (hlt i) h2 h1
  suffices f (maxDrift T + 1) = f (maxDrift T) by
    intro i hi
    obtain ⟨j, rfl⟩ := Nat.exists_eq_add_of_le hi
    exact hfix _ this j
  by_contra hne
  have hne' : ∀ i, i ≤ maxDrift T → f (i + 1) ≠ f i := by
    intro i hi e
    obtain ⟨j, hj⟩ := Nat.exists_eq_add_of_le hi
    have h1 := hfix i e j
    have h2 := hfix i e (j + 1)
    rw [← add_assoc, ← hj, ← h1] at h2
    rw [hj] at h2 hne
    exact hne h2
  have key : ∀ i, i ≤ maxDrift T + 1 → IsFinite T (f i) ∧ value T (f 0) ≠ 0 ∧ value T (f i) = value T (f 0) / 2 ^ i ∧
      (∀ i', i' < i → ∃ j ∈ lostExponents T, |value T (f i')| = 2 ^ j) := by
    have h1 := hne' 0 (Nat.zero_le _)
    have h2 : 1 ≤ maxDrift T := by cases T <;> decide
    have h3 := hne' 1 h2
    obtain ⟨c1, c2, c3⟩ := cycle_special (h 0)
    have hfin : IsFinite T (f 0) ∧ value T (f 0) ≠ 0 := by
      rcases datum_kinds hb with k | k | k
      · exfalso
        have e := c1 k
        have hq : IsNaN T (f 1) := by
          rw [show f 1 = T.qnanBits from e]
          cases T <;> exact ⟨by decide, by decide, by decide⟩
        exact h3 (((cycle_special (h 1)).1 hq).trans e.symm)
      · exact absurd (c2 k) h1
      · refine ⟨k, fun h0 => ?_⟩
        have e := c3 k h0
        have hz : IsFinite T (f 1) ∧ value T (f 1) = 0 := by
          rw [show f 1 = 0 from e]
          exact ⟨isFinite_of_lt (posInf_pos T), value_zero_iff.mpr (by simp [absPat])⟩
        exact h3 (((cycle_special (h 1)).2.2 hz.1 hz.2).trans e.symm)
    intro i
    induction i with
    | zero => exact fun _ => ⟨hfin.1, hfin.2, by simp, fun _ h => absurd h (Nat.not_lt_zero _)⟩
    | succ i ih =>
      intro hi
      obtain ⟨i1, i2, i3, i4⟩ := ih (by omega)
      have h0 : value T (f i) ≠ 0 := by rw [i3]; exact div_ne_zero i2 (by positivity)
      obtain ⟨d1, d2⟩ := cycle_finite i1 h0 (h i)
      have hl : ∃ j ∈ lostExponents T, |value T (f i)| = 2 ^ j := by
        by_contra hl
        push Not at hl
        exact hne' i (by omega) (d1 hl)
      obtain ⟨e1, e2⟩ := d2 hl
      refine ⟨e1, i2, by rw [e2, i3, pow_succ]; field_simp, fun i' hi' => ?_⟩
      rcases Nat.lt_or_ge i' i with h | h
      · exact i4 i' h
      · obtain rfl : i' = i := by omega
        exact hl
  obtain ⟨-, -, -, k4⟩ := key _ le_rfl
  obtain ⟨i, hi, ei⟩ := k4 0 (by omega)
  have : maxDrift T + 1 ≤ maxDrift T := by
    refine run_bound (T := T) (i := i) fun j' hj' => ?_
    obtain ⟨i2, hi2, ei2⟩ := k4 j' hj'
    rw [(key j' (by omega)).2.2.1, abs_div, ei, abs_of_pos (by positivity : (0 : ℚ) < 2 ^ j'), ← zpow_natCast,
      ← zpow_sub₀ (by norm_num)] at ei2
    rw [show i - (j' : Int) = i2 from zpow_right_injective₀ (by norm_num : (0 : ℚ) < 2) (by norm_num) ei2]
    exact hi2
  omega

/-- **C70, existence.** Every value of the type goes through a cycle. -/
theorem C70_total (T : FloatType) (b : Nat) (hb : b < 2 ^ T.W) : ∃ b', Cycle T b b' := by
  obtain ⟨c1, c2, c3⟩ := C08_ftoa_special T b
  obtain ⟨k1, k2, k3, k4⟩ := krosh_words T
  have word : ∀ {w : List Nat} {v e : Nat}, Prints T b w → krosh T (w ++ [0]) 0 = .ok ⟨v, e, .success, true⟩ → e ≠ 0 →
      ¬ (IsFinite T b ∧ value T b ≠ 0) → ∃ b', Cycle T b b' := by
    intro w v e h1 h2 h3 h4
    exact ⟨_, w, [], [], fun _ _ _ => ⟨0, 0, 0⟩, 0, _, h1, fun x y => absurd ⟨x, y⟩ h4, read_word h2 h3, rfl⟩
  rcases datum_kinds hb with k | k | k
  · exact word (c1 k) k1 (by decide) fun h => h.1.2 k.2.1
  · have hp := c2 k
    by_cases hs : signBit T b = 1
    · rw [if_pos hs] at hp
      exact word hp k3 (by decide) fun h => h.1.2 k.2.1
    · rw [if_neg hs] at hp
      exact word hp k2 (by decide) fun h => h.1.2 k.2.1
  · by_cases h0 : value T b = 0
    · exact word (c3 k h0) k4 (by decide) fun h => h.2 h0
    · obtain ⟨n, fb, h1, h2⟩ := C22_hypotheses T b k h0 0 0 []
      have hv : ∀ n' : Numeral, n'.text = n.text → RoundsTo T n'.value b := fun n' e =>
        (C01_reader T b k h0 n' (by rw [e]; exact h1) b).mpr rfl
      have hfb : ∀ n' : Numeral, n'.text = n.text →
          FallbackReads T (fun _ i _ => ⟨b, i + n.text.length, 0⟩) 0 ([] ++ (n.text ++ 0 :: [])) 0 n' :=
        fun n' e _ _ _ => ⟨hv n' e, by rw [e], (by decide : (0 : Nat) ≠ ERANGE)⟩
      obtain ⟨r, r1, -⟩ := C22_round_trip T b k h0 n h1 _ 0 [] [] (hfb n rfl)
      exact ⟨_, n.text, [], [], _, 0, r, h1, fun _ _ n' e => hfb n' e, r1, rfl⟩

/-- One lost cycle. -/
theorem cycle_halves {T : FloatType} {b b' : Nat} {j : Int} (hf : IsFinite T b) (hj : |value T b| = 2 ^ j) (hl : j ∈ lostExponents T)
    (h : Cycle T b b') : IsFinite T b' ∧ value T b' = value T b / 2 := by
  refine (cycle_finite hf (fun h0 => ?_) h).2 ⟨j, hl, hj⟩
  rw [h0, abs_zero] at hj
  exact (zpow_ne_zero j (by norm_num : (2 : ℚ) ≠ 0)) hj.symm

/-- **C70, the drift is real.** Starting at `2^-50` (`float`) or `2^856` (`double`), every
one of the first 5 or 9 cycles halves the value: the last is 32 or 512 times smaller than
the first. -/
theorem C70_drift_happens (T : FloatType) (f : Nat → Nat) (hf : IsFinite T (f 0))
    (h0 : value T (f 0) = match T with | .float => 2 ^ (-50 : Int) | .double => 2 ^ (856 : Int))
    (h : ∀ i, Cycle T (f i) (f (i + 1))) :
    value T (f (maxDrift T)) = value T (f 0) / 2 ^ maxDrift T := by
  have key : ∀ i, i ≤ maxDrift T → IsFinite T (f i) ∧ value T (f i) = value T (f 0) / 2 ^ i := by
    intro i
    induction i with
    | zero => exact fun _ => ⟨hf, by simp⟩
    | succ i ih =>
      intro hi
      obtain ⟨i1, i2⟩ := ih (by omega)
      have : ∃ j ∈ lostExponents T, |value T (f i)| = 2 ^ j := by
        cases T
        · have h' : ∀ i ∈ List.range 5, (-50 : Int) - i ∈ lostExponents .float := by decide +kernel
          refine ⟨-50 - i, h' i (List.mem_range.mpr (show i < 5 from hi)), ?_⟩
          rw [i2, h0, zpow_sub₀ (by norm_num), zpow_natCast, abs_of_pos (by positivity)]
        · have h' : ∀ i ∈ List.range 9, (856 : Int) - i ∈ lostExponents .double := by decide +kernel
          refine ⟨856 - i, h' i (List.mem_range.mpr (show i < 9 from hi)), ?_⟩
          rw [i2, h0, zpow_sub₀ (by norm_num), zpow_natCast, abs_of_pos (by positivity)]
      obtain ⟨j, j1, j2⟩ := this
      obtain ⟨e1, e2⟩ := cycle_halves i1 j2 j1 (h i)
      exact ⟨e1, by rw [e2, i2, pow_succ]; field_simp⟩
  exact (key _ le_rfl).2

/-- There are sequences of cycles from every value: the statements above are about something. -/
theorem C70_sequence (T : FloatType) (b : Nat) (hb : b < 2 ^ T.W) : ∃ f : Nat → Nat, f 0 = b ∧ ∀ i, Cycle T (f i) (f (i + 1)) := by
  classical
  have H : ∀ c : { c : Nat // c < 2 ^ T.W }, ∃ c' : { c : Nat // c < 2 ^ T.W }, Cycle T c.1 c'.1 := by
    rintro ⟨c, hc⟩
    obtain ⟨c', h⟩ := C70_total T c hc
    exact ⟨⟨c', cycle_lt hc h⟩, h⟩
  choose g hg using H
  refine ⟨fun i => (g^[i] ⟨b, hb⟩).1, rfl, fun i => ?_⟩
  dsimp only
  rw [Function.iterate_succ_apply']
  exact hg _

/-- `2^856` is the `double` with the bits `0x7570000000000000`: 2^847 is stored after nine cycles, and for ever. -/
example : ∃ f : Nat → Nat, f 0 = 0x7570000000000000 ∧ (∀ i, Cycle .double (f i) (f (i + 1))) ∧
    ∀ i, 9 ≤ i → value .double (f i) = 2 ^ (847 : Int) := by
  obtain ⟨f, f0, hf⟩ := C70_sequence .double 0x7570000000000000 (by decide)
  refine ⟨f, f0, hf, fun i hi => ?_⟩
  have hv : value .double (f 0) = 2 ^ (856 : Int) := by
    have e1 : signBit .double 0x7570000000000000 = 0 := by decide
    have e2 : expField .double 0x7570000000000000 = 1879 := by decide
    have e3 : fracField .double 0x7570000000000000 = 0 := by decide
    have e4 : emin .double = -1074 := by decide
    have e5 : (2 ^ (FloatType.double.p - 1) + 0 : Nat) = 2 ^ 52 := by decide
    rw [f0, value, e1, if_neg (by decide), mag, e2, if_neg (by decide), e3, e4, e5, Nat.cast_pow, ← zpow_natCast,
      Nat.cast_ofNat, ← zpow_add₀ (by norm_num)]
    rfl
  rw [C70_stable .double f (by rw [f0]; decide) hf i hi,
    C70_drift_happens .double f (by rw [f0]; exact ⟨by decide, by decide⟩) hv hf, hv]
  show (2 : ℚ) ^ (856 : Int) / 2 ^ 9 = _
  rw [← zpow_natCast, ← zpow_sub₀ (by norm_num)]
  norm_num

end Floaxie
