import Verif.Model.Base

/-!
# Model of `k_comp.h`

`k_comp_exp` computes in `double`.  All values involved are integer multiples of
`2^-54`, so a `double` is represented here by the integer `n` standing for
`n * 2^-54`, and every arithmetic operation is followed by rounding to 53
significant bits, ties to even.
-/

namespace Floaxie

/-- IEEE-754 rounding to double precision (53 significant bits, ties to even)
of the number `n * 2^-54` (no overflow or underflow can occur at this scale). -/
def rne53 (n : Int) : Int :=
  let a := n.natAbs
  let len := Nat.log2 a + 1
  if len ≤ 53 then n
  else
    let s := len - 53
    let q := a >>> s
    let r := a % 2 ^ s
    let q' := if r > 2 ^ (s - 1) ∨ (r = 2 ^ (s - 1) ∧ q % 2 = 1) then q + 1 else q
    n.sign * ((q' <<< s : Nat) : Int)

/-- `constexpr auto lg_2(0.30102999566398114)` (k_comp.h:28): the double nearest
to that literal is `5422874305198590 * 2^-54`. -/
def lg2 : Int := 5422874305198590

/-- `k_comp_exp<alpha, gamma>(e)` (k_comp.h:48-51):
`(alpha - e - 1) * lg_2 + (e + 1 < alpha)` in `double`, truncated to `int`. -/
def kCompExp (alpha e : Int) : Int :=
  let prod := rne53 ((alpha - e - 1) * lg2)
  let bit : Int := if e + 1 < alpha then 2 ^ 54 else 0
  Int.tdiv (rne53 (prod + bit)) (2 ^ 54)

/-- What `k_comp_exp<alpha, gamma>(e)` (k_comp.h:48-51) evaluates to: an
implementation may evaluate the `double` expression in a wider type
(`FLT_EVAL_METHOD`) or contract it to a fused multiply-add.  A parameter of the
functions that print. -/
class FpEval where
  kComp : (alpha e : Int) → Int

/-- Evaluation in `double`, each operation rounded to nearest.  Where nothing
else is mentioned, this one is meant. -/
instance doubleEval : FpEval := ⟨kCompExp⟩

end Floaxie
