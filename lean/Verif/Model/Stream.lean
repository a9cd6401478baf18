import Verif.Model.Print
import Mathlib.Data.Nat.Digits.Defs

/-!
# Model of `diy_fp`'s stream output on a stream in any state

`Model/Print` has the characters written to a stream in its initial state.  Here the
format flags, the field width, the fill character, the state, the buffer and the digit
grouping (`std::numpunct`) of the stream are arguments.

Simplified: no exception mask is set; the standard does not say whether the base prefix of an
octal or hexadecimal number belongs to the digits that are grouped: as in libstdc++ and libc++ it
does not.
-/

namespace Floaxie

open Spec

/-- `ios_base::basefield`; anything other than `oct` and `hex` alone counts as `dec`
([facet.num.put.virtuals]). -/
inductive StreamBase | dec | oct | hex
deriving DecidableEq

/-- `ios_base::adjustfield`; anything other than `left` and `internal` alone counts as
`right`. -/
inductive StreamAdjust | left | internal | right
deriving DecidableEq

/-- The format flags, the fill character, and the locale's `thousands_sep` and `grouping`
(as `signed char`). -/
structure StreamFormat where
  base : StreamBase := .dec
  adjust : StreamAdjust := .right
  showbase : Bool := false
  showpos : Bool := false
  uppercase : Bool := false
  fill : Nat := ' '.toNat
  sep : Nat := ','.toNat
  grouping : List Int := []

/-- A stream: `accepts` is its buffer, which takes a character or refuses it, depending
on what it has taken before; `out` what it has taken. -/
structure Stream where
  fmt : StreamFormat
  width : Int
  good : Bool
  accepts : List Nat → Nat → Bool
  out : List Nat

/-- Characters are handed to the buffer until one is refused, which sets `badbit`. -/
def Stream.put (s : Stream) : List Nat → Stream
  | [] => s
  | c :: cs => if s.accepts s.out c then ({ s with out := s.out ++ [c] } : Stream).put cs else { s with good := false }

/-- Fill characters for a sequence of `n` characters. -/
def Stream.filling (s : Stream) (n : Nat) : List Nat :=
  List.replicate (s.width - n).toNat s.fmt.fill

/-- A formatted output function ([ostream.formatted.reqmts]): does nothing on a stream
that is not good; resets the width. -/
def Stream.formatted (s : Stream) (seq : List Nat) : Stream :=
  if s.good then { s.put seq with width := 0 } else s

/-- `operator<<` for `const char*`, `std::string` and `char`. -/
def Stream.insertChars (s : Stream) (cs : List Nat) : Stream :=
  s.formatted (match s.fmt.adjust with
    | .left => cs ++ s.filling cs.length
    | _ => s.filling cs.length ++ cs)

/-- A digit as `printf` prints it. -/
def digitOf (upper : Bool) (d : Nat) : Nat :=
  if d < 10 then '0'.toNat + d else (if upper then 'A'.toNat else 'a'.toNat) + (d - 10)

/-- The digits of `printf`'s `%u`, `%o` and `%x`. -/
def unsignedDigits (b : Nat) (upper : Bool) (n : Nat) : List Nat :=
  if n = 0 then ['0'.toNat] else ((Nat.digits b n).reverse).map (digitOf upper)

/-- Digits, the last one first, with separators: each entry of `grouping` is the size of a
group, the last one also of all further groups; an entry that is not positive or is `CHAR_MAX`
ends the grouping ([locale.numpunct]). -/
def groupRev (sep : Nat) (gs : List Int) (r : List Nat) : List Nat :=
  match gs with
  | [] => r
  | g :: gs =>
    if 0 < g ∧ g < 127 ∧ g.toNat < r.length then
      r.take g.toNat ++ sep :: groupRev sep (if gs = [] then [g] else gs) (r.drop g.toNat)
    else r
termination_by r.length
decreasing_by simp; omega

/-- Digits with separators. -/
def StreamFormat.grouped (f : StreamFormat) (digits : List Nat) : List Nat :=
  (groupRev f.sep f.grouping digits.reverse).reverse

/-- What an `int` is converted to ([facet.num.put.virtuals], stages 1 and 2): what
internal padding comes after (sign or `0x`), and the rest.  `int` has 32 bits; in octal and
hexadecimal it is converted to `unsigned` ([ostream.inserters.arithmetic]). -/
def StreamFormat.int (f : StreamFormat) (v : Int) : List Nat × List Nat :=
  match f.base with
  | .dec => (if v < 0 then ['-'.toNat] else if f.showpos then ['+'.toNat] else [],
    f.grouped (unsignedDigits 10 f.uppercase v.natAbs))
  | .oct =>
    let n := (v % 2 ^ 32).toNat
    ([], (if f.showbase && n != 0 then ['0'.toNat] else []) ++ f.grouped (unsignedDigits 8 f.uppercase n))
  | .hex =>
    let n := (v % 2 ^ 32).toNat
    (if f.showbase && n != 0 then ['0'.toNat, if f.uppercase then 'X'.toNat else 'x'.toNat] else [],
      f.grouped (unsignedDigits 16 f.uppercase n))

/-- `operator<<` for `int`. -/
def Stream.insertInt (s : Stream) (v : Int) : Stream :=
  let (pre, digits) := s.fmt.int v
  let filling := s.filling (pre.length + digits.length)
  s.formatted (match s.fmt.adjust with
    | .left => pre ++ digits ++ filling
    | .internal => pre ++ filling ++ digits
    | .right => filling ++ (pre ++ digits))

/-- `operator<<(os, v)` for `diy_fp` (diy_fp.h:472-477). -/
def DiyFp.insertInto (W : Nat) (v : DiyFp) (s : Stream) : Stream :=
  let s := s.insertChars (chars "(f = ")
  let s := s.insertChars (printBinaryInt W v.f)
  let s := s.insertChars (chars ", e = ")
  let s := s.insertInt v.e
  s.insertChars [')'.toNat]

end Floaxie
