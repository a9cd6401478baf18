import Verif.Spec.Types

/-!
# Model: outcomes and memory

Every function of the model that could run into undefined behaviour or a failed
`assert` returns in `Except UB`.
-/

namespace Floaxie

/-- What can go wrong in the C++ code. -/
inductive UB where
  /-- read outside the input buffer -/
  | oobRead
  /-- write outside the output buffer -/
  | oobWrite
  /-- array index out of range (tables, `seq_pow`) -/
  | badIndex
  /-- an `assert` fails -/
  | assertFail
  /-- signed integer overflow -/
  | signedOverflow
  /-- shift by a negative amount or by at least the word size -/
  | badShift
  /-- division by zero -/
  | divByZero
  /-- the loop does not terminate within the model's budget -/
  | noTermination
  deriving DecidableEq, Repr

/-- Outcome of a C++ function. -/
abbrev M := Except UB

/-- `assert(c)`. -/
def assertM (c : Bool) : M Unit := if c then .ok () else .error .assertFail

/-- Read `mem[i]`; `mem` is the object the pointer points into. -/
def rd (mem : List Nat) (i : Nat) : M Nat :=
  match mem[i]? with
  | some c => .ok c
  | none => .error .oobRead

/-- Write `buf[i] = c`. -/
def wr (buf : List Nat) (i c : Nat) : M (List Nat) :=
  if i < buf.length then .ok (buf.set i c) else .error .oobWrite

/-- `wrap::memset(buf + i, c, n)` (memwrap.h:36-44). -/
def memset (buf : List Nat) (i c n : Nat) : M (List Nat) :=
  if i + n ≤ buf.length then
    .ok (buf.take i ++ List.replicate n c ++ buf.drop (i + n))
  else .error .oobWrite

/-- `wrap::memmove(buf + dst, buf + src, n)` (memwrap.h:53-61). -/
def memmove (buf : List Nat) (dst src n : Nat) : M (List Nat) :=
  if src + n ≤ buf.length then
    if dst + n ≤ buf.length then
      .ok (buf.take dst ++ (buf.drop src).take n ++ buf.drop (dst + n))
    else .error .oobWrite
  else .error .oobRead

/-- Subtraction on `std::size_t` (64 bit). -/
def subSz (a b : Nat) : Nat := (a + 2 ^ 64 - b) % 2 ^ 64

/-- Conversion of an unsigned value to 32-bit `int` (two's complement). -/
def toInt32 (n : Nat) : Int :=
  let m : Nat := n % 2 ^ 32
  if m < 2 ^ 31 then (m : Int) else (m : Int) - 2 ^ 32

/-- Result of signed `int` arithmetic: undefined outside the 32-bit range. -/
def chkInt (x : Int) : M Int :=
  if -(2 ^ 31) ≤ x ∧ x < 2 ^ 31 then .ok x else .error .signedOverflow

end Floaxie
