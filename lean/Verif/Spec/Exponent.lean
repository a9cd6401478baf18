import Verif.Spec.Input
import Mathlib.Data.Nat.Log

/-!
# Specification: arbitrary exponent parts in the input of `atof`
-/

namespace Floaxie.Spec

open FloatType

/-- Exponent digits (`int`, and `frac` after a point, which the exponent reader
accepts too) for which `atof` has undefined behaviour, a lookup outside a
four-entry table of powers of ten: non-zero multiples of `10^4`, anything from
`10^12` on, and numbers below `10^8` with a fractional part. -/
def ExpFault (int frac : List (Fin 10)) : Prop :=
  10 ^ 12 ≤ digitsVal int ∨
    if ∀ d ∈ frac, d = 0 then digitsVal int ≠ 0 ∧ 10 ^ 4 ∣ digitsVal int else digitsVal int < 10 ^ 8

/-- `mem` holds at `str` the sign, digits and point of the numeral `n`, not all
digits being zero, then `e` or `E`, then sign, digits and point of `x`, read up
to a character `c` that is neither a digit nor a first point (or up to the limit
of 2050 characters). -/
structure WithExponent (mem : List Nat) (str : Nat) (n x : Numeral) : Prop where
  text : ∃ e R, (e = 'e'.toNat ∨ e = 'E'.toNat) ∧
    mem.drop str = (signText n.sign ++ n.mantText) ++ e :: ((signText x.sign ++ x.mantText) ++ R) ∧
    (((signText x.sign ++ x.mantText).length ≤ 2049 ∧ ∃ c R', R = c :: R' ∧ ¬ ('0'.toNat ≤ c ∧ c ≤ '9'.toNat) ∧
        (c = '.'.toNat → x.frac ≠ none)) ∨ (signText x.sign ++ x.mantText).length = 2050)
  len : (signText n.sign ++ n.mantText).length ≤ 2049
  nonzero : digitsVal (n.int ++ n.fracDigits) ≠ 0
  digits : x.int ++ x.fracDigits ≠ []

/-- A natural number with all but its first nine decimal digits replaced by zeros. -/
def cut9 (E : Nat) : Nat := E / 10 ^ (Nat.log 10 E - 8) * 10 ^ (Nat.log 10 E - 8)

/-- The 32-bit two's complement number congruent to `z`. -/
def wrap32 (z : Int) : Int := (z + 2 ^ 31) % 2 ^ 32 - 2 ^ 31

/-- What `atof` makes of the exponent with the digits of `x` before its point
and the sign of `x`: it keeps nine digits and computes in 32 bits. -/
def expMeaning (x : Numeral) : Int :=
  let v := wrap32 (cut9 (digitsVal x.int))
  if x.isNeg then -v else v

/-- A NUL-terminated string `s` (without NULs inside) in memory, between other
things. -/
def Str (s : List Nat) : Prop := ∀ c ∈ s, c ≠ 0

end Floaxie.Spec
