import Verif.Model.DiyFp

/-!
# Model of the remaining helpers of `static_pow.h`, `bit_ops.h` and `diy_fp.h`
-/

namespace Floaxie

open FloatType

/-- `static_pow_helper<base, pow>::value` (static_pow.h:37-52): `unsigned int`
arithmetic, 32 bits; `static_pow` (static_pow.h:62-66) widens the result. -/
def staticPow (base : Nat) : (pow : Nat) → Nat
  | 0 => 1
  | pow + 1 => base * staticPow base pow % 2 ^ 32

/-- `pow_sequencer<T, base, current_pow>::value` (static_pow.h:122-145), `T` an
unsigned type of `W` bits. -/
def powSequencerValue (W base : Nat) : (pow : Nat) → Nat
  | 0 => 1
  | pow + 1 => powSequencerValue W base pow * base % 2 ^ W

/-- `pow_sequencer<T, base, current_pow>::sequence_type` (static_pow.h:122-145) with
`concat_sequence` (static_pow.h:78-90), which appends. -/
def powSequence (W base : Nat) : (pow : Nat) → List Nat
  | 0 => [1]
  | pow + 1 => powSequence W base pow ++ [powSequencerValue W base (pow + 1)]

/-- `seq_pow<T, base, max_pow>(pow)` (static_pow.h:154-160) with
`make_integer_array` (static_pow.h:105-119): element `pow` of the array. -/
def seqPowArray (W base maxPow pow : Nat) : M Nat :=
  match (powSequence W base maxPow)[pow]? with
  | some v => .ok v
  | none => .error .badIndex

/-- `max_integer_value<FloatType>()` (bit_ops.h:97-101). -/
def maxIntegerValue (W : Nat) : Nat := 2 ^ W - 1

/-- `constexpr_abs(value)` (bit_ops.h:215-218) for a signed type of `W` bits. -/
def constexprAbs (W : Nat) (v : Int) : M Int :=
  if 0 < v then .ok v
  else if -v < 2 ^ (W - 1) then .ok (-v) else .error .signedOverflow

/-- `operator++(int)` (diy_fp.h:366-371): the returned value and the object. -/
def DiyFp.postInc (W : Nat) (w : DiyFp) : DiyFp × DiyFp := (w, w.inc W)

/-- `operator--(int)` (diy_fp.h:390-395): the returned value and the object. -/
def DiyFp.postDec (W : Nat) (w : DiyFp) : DiyFp × DiyFp := (w, w.dec W)

/-- `operator==` (diy_fp.h:401-404). -/
def DiyFp.eqOp (a b : DiyFp) : Bool := a.f == b.f && a.e == b.e

/-- `operator!=` (diy_fp.h:411-414). -/
def DiyFp.neOp (a b : DiyFp) : Bool := !a.eqOp b

end Floaxie
