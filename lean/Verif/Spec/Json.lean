/-!
# Specification: JSON numbers (RFC 8259, section 6)

On code units, independent of everything else.
-/

namespace Floaxie.Spec

/-- DIGIT -/
def JsonDigit (c : Nat) : Prop := '0'.toNat ≤ c ∧ c ≤ '9'.toNat

/-- 1*DIGIT -/
def JsonDigits (s : List Nat) : Prop := s ≠ [] ∧ ∀ c ∈ s, JsonDigit c

/-- int = zero / ( digit1-9 *DIGIT ) -/
def JsonInt (s : List Nat) : Prop :=
  s = ['0'.toNat] ∨ ∃ c cs, s = c :: cs ∧ '1'.toNat ≤ c ∧ c ≤ '9'.toNat ∧ ∀ x ∈ cs, JsonDigit x

/-- frac = decimal-point 1*DIGIT -/
def JsonFrac (s : List Nat) : Prop := ∃ cs, s = '.'.toNat :: cs ∧ JsonDigits cs

/-- exp = e [ minus / plus ] 1*DIGIT -/
def JsonExp (s : List Nat) : Prop :=
  ∃ e sg cs, s = e :: (sg ++ cs) ∧ (e = 'e'.toNat ∨ e = 'E'.toNat) ∧
    (sg = [] ∨ sg = ['-'.toNat] ∨ sg = ['+'.toNat]) ∧ JsonDigits cs

/-- number = [ minus ] int [ frac ] [ exp ] -/
def JsonNumber (s : List Nat) : Prop :=
  ∃ m i f x, s = m ++ i ++ f ++ x ∧ (m = [] ∨ m = ['-'.toNat]) ∧ JsonInt i ∧ (f = [] ∨ JsonFrac f) ∧ (x = [] ∨ JsonExp x)

/-- What follows a number in a JSON text: white space, a separator, a closing
bracket, or the end of the text (NUL). -/
def JsonDelimiter (c : Nat) : Prop :=
  c ∈ [0, ' '.toNat, '\t'.toNat, '\n'.toNat, '\r'.toNat, ','.toNat, ']'.toNat, '}'.toNat]

end Floaxie.Spec
