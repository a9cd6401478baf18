import Verif.Spec.Text
import Verif.Spec.Ieee
import Mathlib.Data.List.DropRight

/-!
# Specification: numerals as input of `atof`
-/

namespace Floaxie.Spec

open FloatType

/-- A number with at most `κ` significant digits. -/
def Short (κ : Nat) (x : ℚ) : Prop := ∃ (m : Nat) (k : Int), m < 10 ^ κ ∧ x = m * 10 ^ k

/-- Exponent parts that are read exactly: below `10^9` and with at most three
trailing zeros (not counting zero itself).  Everything below `10^4` qualifies. -/
def ExpPart.Readable (e : ExpPart) : Prop :=
  digitsVal e.digits < 10 ^ 9 ∧ (digitsVal e.digits ≠ 0 → ¬ 10 ^ 4 ∣ digitsVal e.digits)

/-- A character `c` after the text of `n` that cannot extend it; a point after
the exponent part is excluded too (the exponent reader accepts it). -/
structure EndsAt (n : Numeral) (c : Nat) : Prop where
  notDigit : ¬ ('0'.toNat ≤ c ∧ c ≤ '9'.toNat)
  noExp : n.exp = none → c ≠ 'e'.toNat ∧ c ≠ 'E'.toNat ∧ (c = '.'.toNat → n.frac ≠ none)
  noDot : n.exp ≠ none → c ≠ '.'.toNat

/-- The memory `mem` holds at index `str` the text of the numeral `n`, followed
by a character that cannot extend it; digits and point, and exponent digits, are
within the 2 KB limit; the exponent is `Readable`. -/
structure NumeralAt (mem : List Nat) (str : Nat) (n : Numeral) : Prop where
  valid : n.Valid
  text : ∃ c R, mem.drop str = n.text ++ c :: R ∧ EndsAt n c
  mantLen : (signText n.sign ++ n.mantText).length ≤ 2049
  expLen : ∀ e, n.exp = some e → e.text.length ≤ 2050
  exp : ∀ e, n.exp = some e → e.Readable

/-- `x` is exactly half way between two adjacent finite values, or is the first
number that rounds to infinity. -/
def IsTieOrLimit (T : FloatType) (x : ℚ) : Prop := IsTie T x ∨ |x| = overflowThreshold T

/-- The carry was lost while rounding `x` away from zero to `b`, whose magnitude
is a power of two: the datum `v` has the sign of `b` and half its magnitude
(zero if `b` is the smallest normal number). -/
def CarryLost (T : FloatType) (x : ℚ) (b v : Nat) : Prop :=
  IsFinite T v ∧ signBit T v = signBit T b ∧
  ∃ j : Int, T.minExp - 1 ≤ j ∧ |value T b| = 2 ^ j ∧ |x| < 2 ^ j ∧
    |value T v| = if j = T.minExp - 1 then 0 else 2 ^ (j - 1)

/-- The same number up to redundant spelling: equal digits before the point up to
leading zeros, equal digits after the point up to trailing zeros (and a point
with nothing after it), exponent parts of equal value (any case of `e`, any
sign spelling and leading zeros; none counting as zero).  The sign may differ. -/
structure SameMagnitude (n n' : Numeral) : Prop where
  int : n.int.dropWhile (· = 0) = n'.int.dropWhile (· = 0)
  frac : n.fracDigits.rdropWhile (· = 0) = n'.fracDigits.rdropWhile (· = 0)
  exp : n.expValue = n'.expValue

/-- The exponents `j` for which `2^j` is printed as a decimal slightly below it
that `atof` then rounds up to `2^j` losing the carry: 39 for `float`, 272 for
`double`. -/
def lostExponents : FloatType → List Int
  | .float => [-117, -116, -100, -86, -81, -80, -66, -54, -53, -52, -51, -50, -40, -35, -34, -33, -20, -16, -13, 29,
    30, 38, 39, 40, 43, 50, 53, 60, 61, 62, 63, 68, 69, 70, 79, 80, 109, 110, 126]
  | .double => [-997, -987, -984, -983, -982, -981, -939, -938, -931, -930, -929, -928, -915, -895, -894, -888, -871, -861, -848, -839,
    -838, -837, -836, -835, -795, -722, -710, -709, -708, -692, -679, -678, -675, -659, -655, -649, -640, -639, -625, -624,
    -623, -622, -613, -612, -603, -602, -601, -600, -599, -564, -563, -562, -542, -516, -469, -468, -467, -466, -456, -446,
    -437, -436, -430, -429, -396, -386, -377, -376, -356, -347, -346, -310, -304, -303, -285, -284, -283, -277, -273, -243,
    -240, -239, -238, -237, -221, -220, -210, -203, -190, -170, -167, -164, -149, -148, -147, -125, -124, -123, -122, -121,
    -120, -119, -118, -117, -101, -100, -74, -65, -64, -59, -58, -52, -51, -41, -29, -28, -27, 72, 73, 74,
    75, 92, 99, 104, 105, 114, 115, 177, 178, 202, 208, 209, 210, 211, 212, 235, 251, 265, 271, 280,
    281, 285, 291, 295, 298, 299, 300, 301, 312, 313, 314, 315, 318, 319, 320, 321, 322, 323, 324, 334,
    335, 351, 358, 364, 368, 401, 414, 424, 428, 437, 438, 444, 451, 452, 453, 454, 470, 486, 487, 488,
    489, 490, 491, 517, 526, 527, 528, 529, 530, 540, 547, 563, 564, 581, 582, 583, 584, 597, 617, 618,
    619, 620, 630, 631, 632, 633, 634, 635, 636, 637, 640, 641, 642, 643, 666, 667, 676, 706, 707, 715,
    716, 717, 720, 758, 759, 760, 783, 792, 793, 799, 819, 820, 828, 829, 830, 831, 832, 833, 839, 840,
    841, 842, 843, 848, 849, 850, 851, 852, 853, 854, 855, 856, 860, 876, 903, 904, 905, 906, 916, 933,
    934, 935, 936, 937, 938, 939, 944, 945, 946, 981, 982, 1019]

end Floaxie.Spec
