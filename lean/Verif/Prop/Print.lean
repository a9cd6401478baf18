import Verif.Model.Print
import Verif.Spec.Binary
import Verif.Spec.Ieee
import Verif.Proof.IeeeMore
import Verif.Proof.Ftoa
import Mathlib.Tactic.IntervalCases

/-!
# Debug output (C52)
-/

namespace Floaxie

open FloatType Spec

theorem bitsetString_succ (N v : Nat) :
    bitsetString (N + 1) v = (if v.testBit N then '1'.toNat else '0'.toNat) :: bitsetString N v := by
  unfold bitsetString
  rw [List.range_succ_eq_map]
  simp only [List.map_cons, List.map_map]
  congr 1
  apply List.map_congr_left
  intro i hi
  simp only [Function.comp]
  rw [show N + 1 - 1 - (i + 1) = N - 1 - i by omega]

theorem bitsetString_length (N v : Nat) : (bitsetString N v).length = N := by
  simp [bitsetString]

theorem nat_repr_inj {a b : Nat} (h : a.repr = b.repr) : a = b := by
  have h1 := congrArg String.toList h
  rw [Nat.toList_repr, Nat.toList_repr] at h1
  rw [← Nat.ofDigitChars_ten_toDigits (n := a), h1, Nat.ofDigitChars_ten_toDigits]

theorem int_repr_inj {a b : Int} (h : a.repr = b.repr) : a = b := by
  have key : ∀ a b : Nat, "-" ++ a.repr ≠ b.repr := by
    intro a b h
    have h1 := congrArg String.toList h
    rw [String.toList_append, Nat.toList_repr, Nat.toList_repr] at h1
    have : '-' ∈ Nat.toDigits 10 b := by rw [← h1]; simp
    have := Nat.isDigit_of_mem_toDigits (by norm_num) (by norm_num) this
    revert this; decide
  rw [Int.repr_eq_if, Int.repr_eq_if] at h
  split_ifs at h with h1 h2 h2
  · have := nat_repr_inj h; omega
  · exact (key _ _ h.symm).elim
  · exact (key _ _ h).elim
  · have := nat_repr_inj ((String.append_right_inj _).mp h); omega

theorem foldl_bits (N v : Nat) : ∀ a, (bitsetString N v).foldl (fun a c => 2 * a + (c - '0'.toNat)) a =
    a * 2 ^ N + v % 2 ^ N := by
  induction N with
  | zero => intro a; simp [bitsetString, Nat.mod_one]
  | succ N ih =>
    intro a
    rw [bitsetString_succ, List.foldl_cons, ih, Nat.mod_pow_succ, pow_succ,
      Nat.testBit_eq_decide_div_mod_eq]
    rcases Nat.mod_two_eq_zero_or_one (v / 2 ^ N) with h | h
    · rw [h]; simp; ring
    · rw [h]; simp; ring

theorem bitsetString_isBinary (N v : Nat) : IsBinary N (v % 2 ^ N) (bitsetString N v) := by
  refine ⟨bitsetString_length N v, ?_, ?_⟩
  · intro c hc
    unfold bitsetString at hc
    obtain ⟨i, -, rfl⟩ := List.mem_map.mp hc
    split_ifs
    · exact Or.inr rfl
    · exact Or.inl rfl
  · unfold binaryVal
    rw [foldl_bits]; simp

theorem bitsetString_add (a b v : Nat) :
    bitsetString (a + b) v = bitsetString a (v / 2 ^ b) ++ bitsetString b v := by
  induction a with
  | zero => simp [bitsetString]
  | succ a ih =>
    rw [show a + 1 + b = a + b + 1 by omega, bitsetString_succ, bitsetString_succ, ih,
      List.cons_append, ← Nat.shiftRight_eq_div_pow, Nat.testBit_shiftRight, Nat.add_comm b a]

theorem isBinary_inj {n v w : Nat} {s : List Nat} (h : IsBinary n v s) (h' : IsBinary n w s) :
    v = w := by rw [← h.2.2, h'.2.2]

theorem insertChar_append {a b : List Nat} {c n : Nat} (h : a.length = n) :
    insertChar (a ++ b) n c = some (a ++ c :: b) := by
  subst h
  unfold insertChar
  rw [if_pos (by simp)]
  simp

/-- **C52, `double`.** The sign bit, the eleven bits of the exponent field and the
fifty-two bits of the fraction field, separated by blanks. -/
theorem C52_print_binary_double (bits : Nat) :
    ∃ s e f, printBinaryDouble bits = some (s ++ ' '.toNat :: e ++ ' '.toNat :: f) ∧
      IsBinary 1 (signBit .double bits) s ∧ IsBinary 11 (expField .double bits) e ∧
      IsBinary 52 (fracField .double bits) f := by
  refine ⟨bitsetString 1 (bits / 2 ^ 63), bitsetString 11 (bits / 2 ^ 52), bitsetString 52 bits,
    ?_, bitsetString_isBinary 1 _, bitsetString_isBinary 11 _, bitsetString_isBinary 52 _⟩
  unfold printBinaryDouble
  rw [show 64 = 1 + 63 by rfl, bitsetString_add, show 63 = 11 + 52 by rfl, bitsetString_add]
  simp only [Option.bind_eq_bind]
  rw [insertChar_append (bitsetString_length _ _), Option.bind_some,
    show bitsetString 1 (bits / 2 ^ (11 + 52)) ++ ' '.toNat :: (bitsetString 11 (bits / 2 ^ 52) ++ bitsetString 52 bits) =
      (bitsetString 1 (bits / 2 ^ (11 + 52)) ++ ' '.toNat :: bitsetString 11 (bits / 2 ^ 52)) ++ bitsetString 52 bits by simp,
    insertChar_append (by simp [bitsetString_length])]

/-- **C52, integers.** An integer type of `N` bits: the `N` binary digits of the
value, two's complement if it is negative. -/
theorem C52_print_binary_int (N : Nat) (hN : N ≤ 64) (v : Int) :
    ∃ n : Nat, IsBinary N n (printBinaryInt N v) ∧ (n : Int) = v % 2 ^ N := by
  refine ⟨_, bitsetString_isBinary N _, ?_⟩
  have h1 : (0 : Int) ≤ v % 2 ^ 64 := Int.emod_nonneg _ (by norm_num)
  rw [Int.natCast_mod, Int.toNat_of_nonneg h1]
  push_cast
  exact Int.emod_emod_of_dvd _ (pow_dvd_pow 2 hN)

/-- **C52, as if it were a `double`.** The 64 bits of the value in groups of 1,
52, 1 and 10 (hidden bit, fraction, rounding bit, rest). -/
theorem C52_print_double_presentation (v : Nat) (hv : v < 2 ^ 64) :
    ∃ a b c d, printDoublePresentation v =
        some (a ++ ' '.toNat :: b ++ ' '.toNat :: c ++ ' '.toNat :: d) ∧
      IsBinary 1 (v / 2 ^ 63) a ∧ IsBinary 52 (v / 2 ^ 11 % 2 ^ 52) b ∧
      IsBinary 1 (v / 2 ^ 10 % 2) c ∧ IsBinary 10 (v % 2 ^ 10) d := by
  refine ⟨bitsetString 1 (v / 2 ^ 63), bitsetString 52 (v / 2 ^ 11), bitsetString 1 (v / 2 ^ 10),
    bitsetString 10 v, ?_, ?_, bitsetString_isBinary 52 _, bitsetString_isBinary 1 _,
    bitsetString_isBinary 10 _⟩
  · have e : ((v : Int) % 2 ^ 64).toNat = v := by
      rw [Int.emod_eq_of_lt (by omega) (by exact_mod_cast hv)]; simp
    unfold printDoublePresentation
    rw [e, show 64 = 1 + 63 by rfl, bitsetString_add, show 63 = 52 + 11 by rfl, bitsetString_add,
      show 11 = 1 + 10 by rfl, bitsetString_add]
    simp only [Option.bind_eq_bind]
    generalize hA : bitsetString 1 (v / 2 ^ (52 + (1 + 10))) = A
    generalize hB : bitsetString 52 (v / 2 ^ (1 + 10)) = B
    generalize hC : bitsetString 1 (v / 2 ^ 10) = C
    generalize hD : bitsetString 10 v = D
    have lA : A.length = 1 := by rw [← hA, bitsetString_length]
    have lB : B.length = 52 := by rw [← hB, bitsetString_length]
    have lC : C.length = 1 := by rw [← hC, bitsetString_length]
    rw [insertChar_append lA, Option.bind_some,
      show A ++ ' '.toNat :: (B ++ (C ++ D)) = (A ++ ' '.toNat :: B) ++ (C ++ D) by simp,
      insertChar_append (by simp [lA, lB]), Option.bind_some,
      show A ++ ' '.toNat :: B ++ ' '.toNat :: (C ++ D) = (A ++ ' '.toNat :: B ++ ' '.toNat :: C) ++ D by simp,
      insertChar_append (by simp [lA, lB, lC])]
  · have := bitsetString_isBinary 1 (v / 2 ^ 63)
    rwa [Nat.mod_eq_of_lt (Nat.div_lt_of_lt_mul (by norm_num at hv ⊢; omega))] at this

/-- Different doubles print different bits. -/
theorem C52_injective (a b : Nat) (ha : a < 2 ^ 64) (hb : b < 2 ^ 64)
    (h : printBinaryDouble a = printBinaryDouble b) : a = b := by
  obtain ⟨s, e, f, h1, h2, h3, h4⟩ := C52_print_binary_double a
  obtain ⟨s', e', f', h1', h2', h3', h4'⟩ := C52_print_binary_double b
  rw [h1, h1', Option.some.injEq] at h
  simp only [List.append_assoc, List.cons_append] at h
  obtain ⟨i1, i2⟩ := List.append_inj h (by rw [h2.1, h2'.1])
  rw [List.cons.injEq] at i2
  obtain ⟨i3, i4⟩ := List.append_inj i2.2 (by rw [h3.1, h3'.1])
  rw [List.cons.injEq] at i4
  rw [i1] at h2; rw [i3] at h3; rw [i4.2] at h4
  have k1 := isBinary_inj h2 h2'
  have k2 := isBinary_inj h3 h3'
  have k3 := isBinary_inj h4 h4'
  simp only [signBit, expField, fracField, FloatType.W, FloatType.p] at k1 k2 k3
  norm_num at k1 k2 k3 ha hb
  omega

/-- **C52, `float`.** `print_binary(float)` shows the integral part of the value,
towards zero, modulo 2^32, when that is in the range of `unsigned long long`; beyond
that range the call is undefined. -/
theorem C52_print_binary_float (bits : Nat) :
    (IsFinite .float bits → -1 < value .float bits → value .float bits < 2 ^ 64 →
      ∀ n : Nat, (n : ℚ) ≤ |value .float bits| → |value .float bits| < n + 1 →
      ∃ s, printBinaryFloat bits = some s ∧ IsBinary 32 (n % 2 ^ 32) s) ∧
    (IsFinite .float bits → value .float bits ≤ -1 ∨ 2 ^ 64 ≤ value .float bits → printBinaryFloat bits = none) ∧
    (IsNaN .float bits ∨ IsInf .float bits → printBinaryFloat bits = none) := by
  obtain ⟨t, ht⟩ : ∃ t, t = (if (DiyFp.ofFloat .float bits).e ≥ 0 then
      (DiyFp.ofFloat .float bits).f <<< (DiyFp.ofFloat .float bits).e.toNat
      else (DiyFp.ofFloat .float bits).f >>> (-(DiyFp.ofFloat .float bits).e).toNat) := ⟨_, rfl⟩
  have hpb : printBinaryFloat bits = if isNan .float bits || isInf .float bits then none
      else if (isNegative .float bits && t != 0) || decide (t ≥ 2 ^ 64) then none
      else some (bitsetString 32 t) := by rw [ht]; rfl
  have hfin : IsFinite .float bits → ((t : ℚ) ≤ |value .float bits| ∧ |value .float bits| < t + 1) ∧
      printBinaryFloat bits = if (signBit .float bits = 1 ∧ t ≠ 0) ∨ t ≥ 2 ^ 64 then none else some (bitsetString 32 t) := by
    intro hf
    have hl := absPat_lt_posInf hf
    have hnn : isNan .float bits = false := by
      unfold isNan; rw [absBits_eq, infBits_eq]; simp; omega
    have hni : isInf .float bits = false := by
      unfold isInf; rw [absBits_eq, infBits_eq]; simp; omega
    refine ⟨?_, ?_⟩
    · have hva : |value .float bits| = N .float (absPat .float bits) * 2 ^ emin .float := by
        have hm0 : 0 ≤ mag .float bits := by rw [mag_eq]; have := emin_pos .float; positivity
        rw [← mag_eq]
        unfold value
        split_ifs
        · rw [abs_neg, abs_of_nonneg hm0]
        · rw [abs_of_nonneg hm0]
      rw [ht, hva, ofFloat_eq _ _ hf.1]
      dsimp only
      generalize absPat .float bits = a
      have hN : (N .float a : ℚ) * 2 ^ emin .float = sigN .float a * 2 ^ (emin .float + ((a / 2 ^ (FloatType.float.p - 1) - 1 : Nat) : Int)) := by
        rw [N_eq, ulpN]
        push_cast
        rw [zpow_add₀ (by norm_num), zpow_natCast]; ring
      rw [hN]
      generalize emin .float + ((a / 2 ^ (FloatType.float.p - 1) - 1 : Nat) : Int) = e
      generalize sigN .float a = f
      split_ifs with he
      · obtain ⟨k, rfl⟩ := Int.eq_ofNat_of_zero_le he
        rw [Nat.shiftLeft_eq, Int.toNat_natCast, zpow_natCast]
        push_cast
        exact ⟨le_refl _, by linarith⟩
      · obtain ⟨k, rfl⟩ : ∃ k : Nat, e = -(k : Int) := ⟨(-e).toNat, by omega⟩
        rw [neg_neg, Int.toNat_natCast, Nat.shiftRight_eq_div_pow, zpow_neg, zpow_natCast, ← div_eq_mul_inv]
        have hp : (0 : ℚ) < 2 ^ k := by positivity
        constructor
        · rw [le_div_iff₀ hp]
          exact_mod_cast Nat.div_mul_le_self f (2 ^ k)
        · rw [div_lt_iff₀ hp]
          have := Nat.lt_mul_of_div_lt (Nat.lt_succ_self (f / 2 ^ k)) (by positivity)
          exact_mod_cast this
    · rw [hpb, hnn, hni, isNegative_eq hf.1]
      simp
  refine ⟨?_, ?_, ?_⟩
  · intro hf h1 h2 n hn1 hn2
    obtain ⟨⟨t1, t2⟩, hp⟩ := hfin hf
    have htn : t = n := by
      have a1 : (t : ℚ) < n + 1 := by linarith
      have a2 : (n : ℚ) < t + 1 := by linarith
      have a1' : t < n + 1 := by exact_mod_cast a1
      have a2' : n < t + 1 := by exact_mod_cast a2
      omega
    subst htn
    refine ⟨_, ?_, bitsetString_isBinary 32 t⟩
    rw [hp, if_neg]
    rintro (⟨c1, c2⟩ | c)
    · have hm : value .float bits = -mag .float bits := by unfold value; rw [if_pos c1]
      have hm0 : 0 ≤ mag .float bits := by rw [mag_eq]; have := emin_pos .float; positivity
      rw [abs_of_nonpos (by linarith)] at t1
      have : (1 : ℚ) ≤ t := by exact_mod_cast Nat.one_le_iff_ne_zero.mpr c2
      linarith
    · have c' : (2 : ℚ) ^ 64 ≤ t := by exact_mod_cast c
      have : |value .float bits| < 2 ^ 64 := abs_lt.mpr ⟨by norm_num at h1 ⊢; linarith, h2⟩
      linarith
  · intro hf h
    obtain ⟨⟨t1, t2⟩, hp⟩ := hfin hf
    rw [hp, if_pos]
    rcases h with h | h
    · left
      refine ⟨?_, ?_⟩
      · rw [value_sign hf (by intro c; rw [c] at h; norm_num at h)]
        linarith
      · rintro rfl
        rw [abs_of_neg (by linarith)] at t2
        push_cast at t2; linarith
    · right
      rw [abs_of_nonneg (by have : (0 : ℚ) ≤ 2 ^ 64 := by positivity
                            linarith)] at t2
      have : (2 : ℚ) ^ 64 < t + 1 := by linarith
      have : 2 ^ 64 < t + 1 := by exact_mod_cast this
      omega
  · intro h
    rw [hpb, if_pos]
    have hE : ¬ IsFinite .float bits := by
      rcases h with h | h <;> exact fun hf => hf.2 h.2.1
    have hlt : bits < 2 ^ FloatType.float.W := by rcases h with h | h <;> exact h.1
    by_contra hc
    rw [Bool.or_eq_true, not_or] at hc
    apply hE
    unfold isNan isInf at hc
    rw [absBits_eq, infBits_eq] at hc
    simp at hc
    have hl : absPat .float bits < posInf .float := by omega
    refine ⟨hlt, fun he => ?_⟩
    rw [expField_eq] at he
    have hdiv : posInf .float / 2 ^ (FloatType.float.p - 1) = expMax .float := by decide
    have := (isFinite_of_lt hl).2
    rw [expField_eq, absPat_idem] at this
    exact this he

/-- **C52, refuted for `float`.** `print_binary(float)` does not show the
representation of the value but its integral part: 1.5f and 1.25f print the same
digits, and -2.0f has undefined behaviour. -/
theorem C52_float_refuted :
    printBinaryFloat 0x3fc00000 = printBinaryFloat 0x3fa00000 ∧
    printBinaryFloat 0x3fc00000 = some (chars "00000000000000000000000000000001") ∧
    printBinaryFloat 0xc0000000 = none := by
  decide +kernel

/-- The usual decimal spelling of a natural number. -/
theorem toDigits_decimal (n : Nat) : ∃ ds : List (Fin 10), ds ≠ [] ∧ (ds.head? = some 0 → ds = [0]) ∧ digitsVal ds = n ∧
    (Nat.toDigits 10 n).map Char.toNat = ds.map digitChar := by
  induction n using Nat.strong_induction_on with
  | _ n ih =>
    rcases lt_or_ge n 10 with h | h
    · refine ⟨[⟨n, h⟩], by simp, ?_, by simp [digitsVal], ?_⟩
      · intro h0
        rw [List.head?_cons, Option.some.injEq] at h0
        rw [h0]
      · rw [Nat.toDigits_of_lt_base h]
        interval_cases n <;> rfl
    · obtain ⟨ds, h1, h2, h3, h4⟩ := ih (n / 10) (by omega)
      refine ⟨ds ++ [⟨n % 10, by omega⟩], by simp, ?_, ?_, ?_⟩
      · intro h0
        rw [List.head?_append_of_ne_nil _ h1] at h0
        rw [h2 h0] at h3
        simp [digitsVal] at h3
        omega
      · unfold digitsVal at h3 ⊢
        rw [List.foldl_append, h3]
        simp only [List.foldl_cons, List.foldl_nil]
        omega
      · rw [Nat.toDigits_of_base_le (by norm_num) h, List.map_append, h4, List.map_append]
        congr 1
        have : n % 10 < 10 := by omega
        have key : ∀ r (hr : r < 10), [r.digitChar].map Char.toNat = [(⟨r, hr⟩ : Fin 10)].map digitChar := by
          intro r hr
          interval_cases r <;> rfl
        exact key _ this

/-- **C52, `diy_fp`.** The stream output is `(f = F, e = E)` with the mantissa in all
its binary digits and the exponent as a decimal integer. -/
theorem C52_stream (W : Nat) (hW : W ≤ 64) (v : DiyFp) (hv : v.f < 2 ^ W) :
    ∃ s t, v.stream W = chars "(f = " ++ s ++ chars ", e = " ++ t ++ chars ")" ∧ IsBinary W v.f s ∧ IsDecimal v.e t := by
  refine ⟨_, _, rfl, ?_, ?_⟩
  · obtain ⟨n, b1, b2⟩ := C52_print_binary_int W hW v.f
    rw [Int.emod_eq_of_lt (by omega) (by exact_mod_cast hv)] at b2
    have : n = v.f := by omega
    rwa [this] at b1
  · obtain ⟨ds, h1, h2, h3, h4⟩ := toDigits_decimal v.e.natAbs
    refine ⟨ds, h1, h2, h3, ?_⟩
    show chars v.e.repr = _
    rw [Int.repr_eq_if, ← h4]
    unfold chars
    split_ifs with g1 g2 g2
    · omega
    · rw [Nat.toList_repr, List.nil_append]
      congr 2; omega
    · rw [String.toList_append, Nat.toList_repr, List.map_append]
      congr 3; omega
    · omega

/-- The stream output of a `diy_fp` determines it. -/
theorem C52_stream_injective (W : Nat) (hW : W ≤ 64) (v w : DiyFp) (hv : v.f < 2 ^ W)
    (hw : w.f < 2 ^ W) (h : v.stream W = w.stream W) : v = w := by
  unfold DiyFp.stream at h
  simp only [List.append_assoc] at h
  obtain ⟨-, h1⟩ := List.append_inj h rfl
  obtain ⟨n, b1, b2⟩ := C52_print_binary_int W hW v.f
  obtain ⟨m, c1, c2⟩ := C52_print_binary_int W hW w.f
  obtain ⟨h2, h3⟩ := List.append_inj h1 (by rw [b1.1, c1.1])
  obtain ⟨-, h4⟩ := List.append_inj h3 rfl
  obtain ⟨h5, -⟩ := List.append_inj' h4 rfl
  rw [h2] at b1
  have hnm := isBinary_inj b1 c1
  rw [Int.emod_eq_of_lt (by omega) (by exact_mod_cast hv)] at b2
  rw [Int.emod_eq_of_lt (by omega) (by exact_mod_cast hw)] at c2
  have hf : v.f = w.f := by omega
  have he : v.e = w.e := by
    unfold chars at h5
    have h6 := List.map_injective_iff.mpr (fun a b h => Char.toNat_inj.mp h) h5
    have h7 : toString v.e = toString w.e := String.toList_inj.mp h6
    exact int_repr_inj h7
  obtain ⟨a, b⟩ := v
  obtain ⟨c, d⟩ := w
  simp_all

/-- 5.75f and 2^40 are printed by their integral parts. -/
example : printBinaryFloat 0x40B80000 = some (chars "00000000000000000000000000000101") ∧
    printBinaryFloat 0x53800000 = some (chars "00000000000000000000000000000000") := by
  decide +kernel

/-- pi -/
example : printBinaryDouble 0x400921fb54442d18 =
    some (chars "0 10000000000 1001001000011111101101010100010001000010110100011000") := by
  decide +kernel

example : (⟨5, -3⟩ : DiyFp).stream 32 = chars "(f = 00000000000000000000000000000101, e = -3)" := by
  decide +kernel

end Floaxie
