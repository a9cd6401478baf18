import Verif.Prop.SizeT
import Verif.Prop.Total
import Verif.Prop.Ftoa

/-!
# C86: integer arithmetic

In `Model/SizeT.lean` every `int` operation on binary and decimal exponents, lengths and
positions is checked for overflow, every `unsigned int` operation is reduced modulo `2^32`
and every `std::size_t` operation modulo `2^sz`.
-/

namespace Floaxie

open Spec FloatType

/-- **C86, printing.** No call of `ftoa` with a buffer of the documented size has a signed overflow
(or any other undefined behaviour), and the result is the one of the model without
machine integers. -/
theorem C86_ftoa (T : FloatType) (E : FpEval) (hE : Reasonable E) (bits : Nat) (hb : bits < 2 ^ T.W) (sz : Nat)
    (hsz : 32 ≤ sz) (buf : List Nat) (hbuf : maxBufferSize T ≤ buf.length) :
    ∃ s, Prints T bits s ∧ @ftoaW E sz T bits buf = .ok (s ++ 0 :: buf.drop (s.length + 1), s.length) := by
  obtain ⟨t, h0, h2, h3⟩ := ftoa_total T bits hb
  refine ⟨t, prints_of_ok h0 h2 h3, ?_⟩
  rw [C83_ftoa T E hE bits hb sz hsz, (C66_same_text T E hE bits hb buf).1]
  exact h3 buf (by omega)

/-- **C86, reading.** The only calls of `atof` on terminated strings with undefined behaviour, signed overflow
included, are those whose exponent part is one of the two kinds of C31. -/
theorem C86_atof (T : FloatType) (fb : Fallback) (errno sz : Nat) (hsz : 32 ≤ sz) (mem : List Nat)
    (hmem : mem.length < 2 ^ (sz - 1)) (str : Nat) (hm : Nul mem str) (u : UB)
    (h : @atofW cLocale sz T fb errno mem str = .error u) :
    ∃ n x, WithExponent mem str n x ∧
      ((u = .badIndex ∧ ExpFault x.int x.fracDigits) ∨ (u = .signedOverflow ∧ 10 ^ 9 ≤ digitsVal x.int)) := by
  rw [C83_atof cLocale T fb errno sz hsz mem hmem str] at h
  by_cases hu : u = .badIndex
  · subst hu
    obtain ⟨n, x, hx, hf⟩ := (C31_badIndex_iff T fb errno mem str hm).mp h
    exact ⟨n, x, hx, Or.inl ⟨rfl, hf⟩⟩
  · obtain ⟨rfl, n, x, hx, hd⟩ := C31_other_errors T fb errno mem str hm u h hu
    exact ⟨n, x, hx, Or.inr ⟨rfl, hd⟩⟩

/-- The hypotheses of `C86_atof` are met, by both kinds of text. -/
example (fb : Fallback) :
    @atofW cLocale 32 .double fb 0 (chars "1e10000" ++ [0]) 0 = .error .badIndex ∧
    @atofW cLocale 32 .double fb 0 (chars "1000000000e2147483640" ++ [0]) 0 = .error .signedOverflow := by
  rw [C83_atof cLocale .double fb 0 32 (by decide) _ (by decide) 0,
    C83_atof cLocale .double fb 0 32 (by decide) _ (by decide) 0]
  exact ⟨(C31_refuted fb).1, (C31_refuted fb).2.2.2.2.1⟩

/-- The exponents of the largest double and of the smallest one, checked on 32-bit machine integers. -/
example : (∃ s, ftoaW 32 .double 0x7FEFFFFFFFFFFFFF (List.replicate 34 0) = .ok (s, 22)) ∧
    (∃ s, ftoaW 32 .double 1 (List.replicate 34 0) = .ok (s, 15)) := by
  constructor
  · exact ⟨chars "1.7976931348623158e308" ++ List.replicate 12 0, by decide +kernel⟩
  · exact ⟨chars "7.41098468e-324" ++ List.replicate 19 0, by decide +kernel⟩

end Floaxie
