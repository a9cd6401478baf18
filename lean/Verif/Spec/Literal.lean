import Verif.Spec.Json

/-!
# Specification: numbers in source code and in data formats

On code units, independent of everything else (the digits are those of `Spec/Json`).
-/

namespace Floaxie.Spec

/-- C11 6.4.4.1, decimal integer constants without suffix (`0` is formally an octal one); C++ [lex.icon]. -/
def CInteger (s : List Nat) : Prop := JsonInt s

/-- C11 6.4.4.2, fractional-constant: `digits . digits` (the first possibly empty) or `digits .`; C++ [lex.fcon]. -/
def CFractional (s : List Nat) : Prop :=
  (∃ a b, s = a ++ '.'.toNat :: b ∧ (∀ c ∈ a, JsonDigit c) ∧ JsonDigits b) ∨ ∃ a, s = a ++ ['.'.toNat] ∧ JsonDigits a

/-- C11 6.4.4.2, decimal-floating-constant without suffix: a fractional-constant and possibly an exponent-part (which is
that of JSON), or digits and an exponent-part. -/
def CFloating (s : List Nat) : Prop :=
  (∃ f x, s = f ++ x ∧ CFractional f ∧ (x = [] ∨ JsonExp x)) ∨ ∃ a x, s = a ++ x ∧ JsonDigits a ∧ JsonExp x

/-- TOML 1.0, `DIGIT *( DIGIT / underscore DIGIT )`. -/
inductive TomlDigits : List Nat → Prop
  | one {c} : JsonDigit c → TomlDigits [c]
  | digit {c s} : JsonDigit c → TomlDigits s → TomlDigits (c :: s)
  | underscore {c s} : JsonDigit c → TomlDigits s → TomlDigits (c :: '_'.toNat :: s)

/-- An optional sign. -/
def OptSign (s : List Nat) : Prop := s = [] ∨ s = ['-'.toNat] ∨ s = ['+'.toNat]

/-- TOML 1.0, `dec-int`: an optional sign; then one digit, or digits that do not start with `0`. -/
def TomlInt (s : List Nat) : Prop :=
  ∃ m d, s = m ++ d ∧ OptSign m ∧ TomlDigits d ∧ (d = ['0'.toNat] ∨ d.head? ≠ some '0'.toNat)

/-- TOML 1.0, `exp = "e" [ minus / plus ] zero-prefixable-int` (either case). -/
def TomlExp (s : List Nat) : Prop :=
  ∃ e m d, s = e :: (m ++ d) ∧ (e = 'e'.toNat ∨ e = 'E'.toNat) ∧ OptSign m ∧ TomlDigits d

/-- TOML 1.0, `float = dec-int ( exp / "." zero-prefixable-int [ exp ] )` or an optional sign and `inf` or `nan`. -/
def TomlFloat (s : List Nat) : Prop :=
  (∃ i x, s = i ++ x ∧ TomlInt i ∧ TomlExp x) ∨
  (∃ i f x, s = i ++ '.'.toNat :: (f ++ x) ∧ TomlInt i ∧ TomlDigits f ∧ (x = [] ∨ TomlExp x)) ∨
  ∃ m, OptSign m ∧ (s = m ++ ['i'.toNat, 'n'.toNat, 'f'.toNat] ∨ s = m ++ ['n'.toNat, 'a'.toNat, 'n'.toNat])

/-- XML Schema 1.1, the numbers in the lexical space of `xs:double`: an optional sign, then digits with a point anywhere
or none, then possibly an exponent. -/
def XsdNumber (s : List Nat) : Prop :=
  ∃ m a x, s = m ++ (a ++ x) ∧ OptSign m ∧ (JsonDigits a ∨ CFractional a) ∧ (x = [] ∨ JsonExp x)

/-- The lexical space of `xs:double`: these, or `INF` with an optional sign, or `NaN`. -/
def XsdDouble (s : List Nat) : Prop :=
  XsdNumber s ∨ (∃ m, OptSign m ∧ s = m ++ ['I'.toNat, 'N'.toNat, 'F'.toNat]) ∨ s = ['N'.toNat, 'a'.toNat, 'N'.toNat]

end Floaxie.Spec
