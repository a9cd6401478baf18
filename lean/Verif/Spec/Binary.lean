import Verif.Spec.Text
import Verif.Spec.Numeral

/-!
# Specification: binary digits
-/

namespace Floaxie.Spec

/-- Value of a string of binary digits. -/
def binaryVal (s : List Nat) : Nat := s.foldl (fun a c => 2 * a + (c - '0'.toNat)) 0

/-- `s` is `v` written with `n` binary digits. -/
def IsBinary (n v : Nat) (s : List Nat) : Prop :=
  s.length = n ∧ (∀ c ∈ s, c = '0'.toNat ∨ c = '1'.toNat) ∧ binaryVal s = v

/-- `s` is the integer `v` written in decimal: '-' if it is negative, and the digits
without leading zeros. -/
def IsDecimal (v : Int) (s : List Nat) : Prop :=
  ∃ ds : List (Fin 10), ds ≠ [] ∧ (ds.head? = some 0 → ds = [0]) ∧ digitsVal ds = v.natAbs ∧
    s = (if v < 0 then ['-'.toNat] else []) ++ ds.map digitChar

end Floaxie.Spec
