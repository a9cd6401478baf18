import Verif.Spec.Numeral

/-!
# Specification: characters that matter to the parser
-/

namespace Floaxie.Spec

/-- Digits, letters, point, signs, underscore and parentheses. -/
def Matters (c : Nat) : Prop :=
  ('0'.toNat ≤ c ∧ c ≤ '9'.toNat) ∨ ('a'.toNat ≤ c ∧ c ≤ 'z'.toNat) ∨ ('A'.toNat ≤ c ∧ c ≤ 'Z'.toNat) ∨
  c = '.'.toNat ∨ c = '+'.toNat ∨ c = '-'.toNat ∨ c = '_'.toNat ∨ c = '('.toNat ∨ c = ')'.toNat

instance (c : Nat) : Decidable (Matters c) := by unfold Matters; infer_instance

/-- The same character, or two characters that do not matter. -/
def Alike (c c' : Nat) : Prop := c = c' ∨ (¬ Matters c ∧ ¬ Matters c')

instance (c c' : Nat) : Decidable (Alike c c') := by unfold Alike; infer_instance

/-- In a locale with the given `tolower`: also the characters it takes to the letters a to z. -/
def MattersIn (lower : Nat → Nat) (c : Nat) : Prop := Matters c ∨ ('a'.toNat ≤ lower c ∧ lower c ≤ 'z'.toNat)

/-- The same character, or two characters that do not matter in that locale. -/
def AlikeIn (lower : Nat → Nat) (c c' : Nat) : Prop := c = c' ∨ (¬ MattersIn lower c ∧ ¬ MattersIn lower c')

end Floaxie.Spec
