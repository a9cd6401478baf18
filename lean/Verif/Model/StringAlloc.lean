import Verif.Model.Alloc
import Verif.Model.Ftoa

/-!
# Model of `to_basic_string` with dynamic memory

`to_basic_string` (ftoa.h:165-175) and, as far as it uses it, `std::basic_string`.  The C++ standard
leaves to the library how many characters fit into the string object itself, how much
more memory than necessary is requested and what `shrink_to_fit` does; these are the
parameters in `StringLib`.  `to_basic_string` is not `noexcept`: a refused request
throws `std::bad_alloc`, and the destructor of the local string gives its block back.
-/

namespace Floaxie

/-- What the standard leaves open about `std::basic_string<CharType>`. -/
structure StringLib where
  /-- `sizeof(CharType)` -/
  charSize : Nat
  /-- number of characters (without terminator) that fit into the object -/
  inObject : Nat
  /-- capacity of the block requested for `n` characters -/
  room : Nat → Nat
  /-- what `shrink_to_fit` does with a block, from size and capacity: nothing, or change to this capacity -/
  fit : Nat → Nat → Option Nat
  /-- whether `shrink_to_fit` throws if no smaller block is granted, or does nothing then -/
  fitThrows : Bool

/-- What the standard demands of it. -/
structure StringLib.Lawful (lib : StringLib) : Prop where
  room_enough : ∀ n, n ≤ lib.room n
  fit_smaller : ∀ n c c', lib.fit n c = some c' → n ≤ c' ∧ c' ≤ c

/-- A `std::basic_string`: its characters, and the capacity of its block on the heap, if it has one. -/
structure StrObj where
  chars : List Nat
  block : Option Nat
  deriving DecidableEq, Repr

/-- Size in bytes of a block of capacity `c` (with room for the terminator). -/
def StringLib.bytes (lib : StringLib) (c : Nat) : Nat := (c + 1) * lib.charSize

/-- Requesting `n` bytes where an exception may be thrown. -/
def A.allocThrow (H : Heap) (n : Nat) : A Unit := fun l =>
  (if H l n then .ok () else .error .badAlloc, l ++ [.request n (H l n)])

/-- Requesting `n` bytes where a refusal is noticed and dealt with. -/
def A.allocTry (H : Heap) (n : Nat) : A Bool := fun l => (.ok (H l n), l ++ [.request n (H l n)])

/-- `std::basic_string<CharType>(n, CharType())` (ftoa.h:167). -/
def strMake (lib : StringLib) (H : Heap) (n : Nat) : A StrObj :=
  if n ≤ lib.inObject then pure ⟨List.replicate n 0, none⟩
  else do
    A.allocThrow H (lib.bytes (lib.room n))
    pure ⟨List.replicate n 0, some (lib.room n)⟩

/-- The destructor. -/
def strDestroy (lib : StringLib) (s : StrObj) : A Unit :=
  match s.block with
  | none => pure ()
  | some c => A.free (lib.bytes c)

/-- `resize(n)` (ftoa.h:171), for `n` not above the size: nothing is requested or given back. -/
def strResize (s : StrObj) (n : Nat) : StrObj := { s with chars := s.chars.take n }

/-- `shrink_to_fit()` (ftoa.h:172).  If it throws, `to_basic_string` is left and the string
destroyed. -/
def strShrink (lib : StringLib) (H : Heap) (s : StrObj) : A StrObj :=
  match s.block with
  | none => pure s
  | some c =>
    match lib.fit s.chars.length c with
    | none => pure s
    | some c' =>
      if c' ≤ lib.inObject then do
        A.free (lib.bytes c)
        pure { s with block := none }
      else do
        let granted ← A.allocTry H (lib.bytes c')
        if granted then do
          A.free (lib.bytes c)
          pure { s with block := some c' }
        else if lib.fitThrows then do
          strDestroy lib s
          fun l => (.error .badAlloc, l)
        else pure s

/-- `to_basic_string<FloatType, CharType>(v)` (ftoa.h:165-175).  `ftoa` writes into the
`max_buffer_size` characters of the string; the string is returned without a copy. -/
def toBasicStringA [FpEval] (lib : StringLib) (H : Heap) (T : FloatType) (bits : Nat) : A StrObj := do
  let s ← strMake lib H (maxBufferSize T)
  let (buf, _) ← A.lift (ftoa T bits s.chars)
  let s := { s with chars := buf }
  let s := strResize s (s.chars.takeWhile (· ≠ 0)).length
  strShrink lib H s

end Floaxie
