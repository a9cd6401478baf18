import Verif.Proof.CostParse
import Verif.Prop.Threads

/-!
# C69: how many characters are read and written

The number of character accesses of a call, as a function of the text.  (Not counted
are accesses to the library's own tables and local variables.)
-/

namespace Floaxie
open Spec FloatType Prog

/-- **C69, printing.** A call of `ftoa` that returns the length `n` makes at most
`3 n + 2` accesses to the buffer, however the implementation evaluates the scaling
exponent. -/
theorem C69_print [FpEval] (T : FloatType) (v : Nat) (buf buf' : List Nat) (n : Nat) (h : ftoa T v buf = .ok (buf', n)) :
    run (ftoaP T v) buf = .ok (buf', n) ∧ cost (ftoaP T v) buf ≤ 3 * n + 2 :=
  ⟨run_ftoa T v h, costs_ftoa T v h⟩

/-- **C69, printing.** So for no value there are more than three times
`max_buffer_size` accesses. -/
theorem C69_print_bounded (T : FloatType) (v : Nat) (hv : v < 2 ^ T.W) (buf : List Nat) (hl : maxBufferSize T ≤ buf.length) :
    cost (ftoaP T v) buf < 3 * maxBufferSize T := by
  obtain ⟨s, h1, h2, h3⟩ := ftoa_total T v hv
  have := (C69_print T v buf _ _ (h3 buf (by omega))).2
  omega

/-- **C69, parsing.** Parsing the string `s` (in a locale that maps NUL to itself) reads
each character once, apart from twenty; in addition the fallback may read the string, if
it is asked.  This holds for any characters in `s`, also if the call runs into undefined
behaviour. -/
theorem C69_parse [L : Locale] (hL : L.lower 0 = 0) (T : FloatType) (fb : Nat → Prog FallbackResult) (errno : Nat) (s : List Nat)
    (hfb : NoStore (fb errno)) :
    cost (atofP T fb errno (s.length + 2)) (s ++ [0]) ≤ s.length + 20 + cost (fb errno) (s ++ [0]) := by
  have := (cost_atof (m := s ++ [0]) (z := s.length) hL (by simp) (by simp) T hfb).1
  simpa using this

/-- **C69, parsing.** Strings without an opening parenthesis, however long: no more
than 4111 characters are read. -/
theorem C69_parse_bounded [L : Locale] (hL : L.lower 0 = 0) (T : FloatType) (fb : Nat → Prog FallbackResult) (errno : Nat) (s : List Nat)
    (hfb : NoStore (fb errno)) (hp : '('.toNat ∉ s) :
    cost (atofP T fb errno (s.length + 2)) (s ++ [0]) ≤ 4111 + cost (fb errno) (s ++ [0]) := by
  have := (cost_atof (m := s ++ [0]) (z := s.length) hL (by simp) (by simp) T hfb).2 (by
    rw [List.mem_append, not_or]
    exact ⟨hp, by decide⟩)
  simpa using this

/-- **C69, the limit does not cover NaN payloads.** That there is a bound for all strings
is refuted: of "nan(aaa...", at least all the letters in parentheses are read. -/
theorem C69_parse_unbounded (T : FloatType) (fb : Nat → Prog FallbackResult) (errno N : Nat) :
    N ≤ cost (atofP T fb errno (N + 6)) (chars "nan(" ++ List.replicate N 'a'.toNat ++ [0]) := by
  have e : (chars "nan(" ++ List.replicate N 'a'.toNat ++ [0]).length + 1 = N + 6 := by simp [chars]
  rw [← e]
  refine cost_atof_long (by decide) T fb errno N (by omega) rfl rfl rfl rfl fun i hi => ?_
  rw [List.getElem?_append_left (by simp [chars]; omega), List.getElem?_append_right (by simp [chars])]
  rw [List.getElem?_replicate, if_pos (by simp [chars]; omega)]

/-- The hypotheses are met, and the numbers are not far off: printing 0.1 takes 8
accesses (text of 3 characters), parsing "1.5e3" takes 7. -/
example : cost (ftoaP .double 0x3FB999999999999A) (List.replicate 40 0) = 8 ∧
    cost (atofP .double peek 0 7) (chars "1.5e3" ++ [0]) = 7 := by decide +kernel

end Floaxie
