import Mathlib.Algebra.Order.Field.Power
import Mathlib.Data.Rat.Cast.Order

/-!
# Specification: decimal numerals

The documented input grammar of `atof` (atof.h:60-70) and output grammar of
`ftoa` (ftoa.h:61-74) as a syntax tree with its text (code units) and its exact
rational value.  Independent of the model.
-/

namespace Floaxie.Spec

/-- Value of a digit string, most significant digit first. -/
def digitsVal (ds : List (Fin 10)) : Nat := ds.foldl (fun a d => a * 10 + d.val) 0

/-- Code unit of a digit. -/
def digitChar (d : Fin 10) : Nat := '0'.toNat + d.val

/-- Exponent part: `e` or `E`, optional sign, digits. -/
structure ExpPart where
  upper : Bool
  /-- `none`: no sign, `some false`: '+', `some true`: '-' -/
  sign : Option Bool
  digits : List (Fin 10)

/-- A decimal numeral. -/
structure Numeral where
  /-- `none`: no sign, `some false`: '+', `some true`: '-' -/
  sign : Option Bool
  /-- digits before the point -/
  int : List (Fin 10)
  /-- `none`: no point, `some ds`: point followed by digits `ds` -/
  frac : Option (List (Fin 10))
  exp : Option ExpPart

/-- Text of an optional sign. -/
def signText : Option Bool → List Nat
  | none => []
  | some false => ['+'.toNat]
  | some true => ['-'.toNat]

def ExpPart.text (e : ExpPart) : List Nat :=
  (if e.upper then 'E'.toNat else 'e'.toNat) :: (signText e.sign ++ e.digits.map digitChar)

def ExpPart.value (e : ExpPart) : Int :=
  if e.sign = some true then -(digitsVal e.digits : Int) else digitsVal e.digits

namespace Numeral

/-- Digits after the point. -/
def fracDigits (n : Numeral) : List (Fin 10) := n.frac.getD []

/-- Text of the digits and the point. -/
def mantText (n : Numeral) : List Nat :=
  n.int.map digitChar ++
    (match n.frac with
     | none => []
     | some ds => '.'.toNat :: ds.map digitChar)

/-- Text of the exponent part. -/
def expText (n : Numeral) : List Nat :=
  match n.exp with
  | none => []
  | some e => e.text

/-- The characters of the numeral. -/
def text (n : Numeral) : List Nat := signText n.sign ++ n.mantText ++ n.expText

/-- Value of the exponent part. -/
def expValue (n : Numeral) : Int :=
  match n.exp with
  | none => 0
  | some e => e.value

/-- At least one digit, and at least one exponent digit if there is an exponent. -/
def Valid (n : Numeral) : Prop :=
  n.int ++ n.fracDigits ≠ [] ∧ ∀ e, n.exp = some e → e.digits ≠ []

/-- Magnitude of the numeral. -/
def absValue (n : Numeral) : ℚ :=
  (digitsVal (n.int ++ n.fracDigits) : ℚ) * 10 ^ (n.expValue - n.fracDigits.length)

/-- The sign is '-'. -/
def isNeg (n : Numeral) : Bool := n.sign == some true

/-- Exact value of the numeral. -/
def value (n : Numeral) : ℚ := if n.isNeg then -n.absValue else n.absValue

end Numeral

end Floaxie.Spec
