import Verif.Spec.Ieee

/-!
# Specification: a number rounded to a given count of digits
-/

namespace Floaxie.Spec

/-- `m * 10^e` is the positive number `mag` rounded to `N` significant digits (either
way in case of a tie), as `printf("%.*e", N - 1, mag)` prints it. -/
structure RoundedDecimal (N : Nat) (mag : ℚ) (m : Nat) (e : Int) : Prop where
  lo : 10 ^ (N - 1) ≤ m
  hi : m ≤ 10 ^ N
  near : |(m : ℚ) * 10 ^ e - mag| ≤ 10 ^ e / 2

end Floaxie.Spec
