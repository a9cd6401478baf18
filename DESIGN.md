# Formal model of aclex/floaxie in Lean 4

## 1. Approach

floaxie is a pure-function library: `ftoa` (Grisu2 printing) and `atof` (Krosh
parsing), for `float` and `double`, on top of a 64/32-bit "do it yourself"
floating point type and generated tables of powers of ten.  The model is one
Lean development, parametric in `T : FloatType` (`float | double`):

* machine words are `Nat` with an explicit `% 2^W` wherever C++ wraps;
* C `int`s are `Int`, range-checked (`chkInt`) wherever the code could overflow (everywhere in `Model/SizeT`, C83/C86);
* characters are natural-number code units, buffers and input strings are
  `List Nat`; every read and write is checked;
* every function that can hit undefined behaviour returns in `Except UB`, where
  `UB` distinguishes out-of-bounds read/write, bad table index, failed `assert`,
  signed overflow, over-wide shift, division by zero, non-terminating loop.
  Nothing is assumed away: "no undefined behaviour" is a theorem (C02, C31).
* loops of the code are structural recursions with a budget; exhausting the
  budget is the error `noTermination`, proved impossible.
* the C library's `strtof/strtod/wcsto*` (the *fallback*) is a parameter: an
  arbitrary function of the memory and `errno`.  Theorems hold for all
  fallbacks, or state what they need of it (e.g. "correctly rounding"); C71 is
  about all fallbacks that do what ISO C demands (`Spec/Strtod.lean`, in the
  forms common to all locales).

Layout (`lean/Verif/`):

| directory | content |
|---|---|
| `Spec/` | independent specification.  Imports nothing from `Model/`: IEEE-754 value of a bit pattern as a rational (`Ieee`), round-to-nearest-even as a relation (`RoundsTo`), the decimal numeral grammar and its exact rational value (`Numeral`), texts, shapes of input strings, words for NaN/infinity, binary numerals |
| `Model/` | the code, function by function, each definition citing `/repo` |
| `Proof/` | lemmas |
| `Prop/` | the property theorems `Cnn_…`, with examples showing that their hypotheses are met |

The specification itself is validated: `roundsTo_total` (every rational rounds to
some datum), `roundsTo_unique` (only one, up to the sign of zero),
`roundsTo_mono` (rounding is monotone), `roundsTo_neg` in `Proof/RoundFun`.

Conventions for claims that turned out to be **false of the code**: the ideal
claim is kept in the property's statement, a theorem `Cnn_refuted` proves its
negation with a concrete run of the model, and the property is restated as what
the code really does (the exact set of exceptions where possible), which is
proved.  See section 3 for the list.

## 2. How each property is modelled and proved

### Printing

| id | modelled by | proof |
|---|---|---|
| C01 | `ftoa` | table error (C13) + product rounding (C15): the scaled, inward-rounded boundaries lie strictly inside the true rounding interval; digit loop invariant `digits·10^k = M⁺ − rest, rest ≤ δ`; the text denotes `digits·10^k` |
| C02, C03, C12 | checked buffer writes | digit-count bound + case analysis of `prettify`; induction over the digit loops |
| C04, C06 | `prettify`, `fill_exponent` | the text is exhibited as a numeral of the grammar |
| C05 | digit loops | lower bound on δ for each scaling exponent |
| C07, C08, C09 | `ftoa` | case analysis on the bit pattern |
| C10 | | C01 + disjointness of rounding intervals |
| C11 | `toBasicString` | C03 + C12 |
| C13 | tables generated from the headers | kernel `decide` over each *whole* table, lifted to a lemma about all indices |
| C14 | `k_comp_exp` with the double arithmetic modelled exactly | kernel `decide` over the whole finite exponent range |
| C45, C46, C47 | `ftoa` | completeness of the digit loop (stops at the first position where a decimal of that length fits in the safe interval); comparison of safe and true interval; the same for subnormal numbers as long as fractional digits are generated (above 2^32 / 2^16 least units, or more than 10 / 5 digits), the least normal number by evaluation |
| C48 | `diy_fp::boundaries` | arithmetic over all finite bit patterns |
| C57 | `ftoa` | C05 + layout; witnesses by evaluation |
| C55 | `prettify`, `print_scientific`, `print_decimal`, `fill_exponent` on arbitrary digit strings | symbolic execution of the buffer writes |

### Parsing

| id | modelled by | proof |
|---|---|---|
| C20 | `krosh`, `parse_*`, `diy_fp` product, `downsample` | P·10^K exact; product within half an ulp + table half ulp; rounding position lies outside the error band unless a tie is flagged |
| C21 | `downsample` | false: refutation + the general theorem that the carry is always lost; `C21_carry_lost_decimals` gives it for every short numeral just below a power of two |
| C22, C49, C51 | composition of both models | C01 + C20 + kernel check over all powers of two of both types (finite, whole domain) |
| C23 | long numerals | backward error analysis |
| C24 | `parse_digits` | loop invariant over the digit string |
| C25, C26 | exponent tests in `krosh`/`downsample` | exact threshold, with the relative slack of C23; ideal claims refuted |
| C27 | whole `atof` | sign is only looked at on entry and in the result; exactly when it is lost in terms of the place of the last digit read (`Spec/LastPlace`) |
| C28, C29, C30, C41 | checked reads | the scan is *local*: it depends on a prefix of memory only |
| C31 | `Except UB` | exact characterisation of the strings with a bad table index |
| C32, C33, C34, C44 | scanning of words and signs | exhaustive classification `InputShape` of all strings |
| C35, C36, C43 | | C24 + C20: the result is a function of the rational value |
| C37, C38 | fallback and `errno` | `atof` unfolded; `errno` is explicit state |
| C39 | `convert_numerator` | arithmetic for all digits; both bounds attained |
| C40 | the 2 KB limit | invariant of the scan with the budget exhausted |
| C42 | `parse_exponent` | chunked Horner evaluation through `seq_pow` |
| C56 | | seventeen/nine digits identify a value (spacing of data vs. decimals), and are too far from midpoints for `round_up` to report a tie; + C20 |
| C50 | | C20 + `roundsTo_mono` |
| C58 | client loops over both models | induction over the list; C22/C33/C34 transferred to any separator (the result depends on the numeral only) |
| C59, C60 | long numerals | C23 backward error + spacing of data; ideal claims for powers of two refuted |
| C64 | JSON numbers (RFC 8259 grammar as a separate specification) | C04's shape and C28; JSON numbers are numerals; ideal claim fails for zeros with exponents and non-finite values |
| C65 | which of the shortest decimals is printed | `digit_gen` truncates the upper boundary: the next larger decimal of that length is outside; nearest refuted |
| C66 | `k_comp_exp` in any floating point evaluation (`FpEval`) | its exact value stays 2^-12 away from the integers for all exponents (kernel evaluation), so every evaluation with relative error 2^-24 truncates to `⌈(α-e-1) log₁₀ 2⌉` |
| C67 | `std::tolower` of any global locale (`Locale`) | relational proof through the whole parser: the two runs differ at most in the end of a word |
| C68 | `Model/Steps.lean`: all functions touching memory once more, one character access per step; `Model/Threads.lean`: interleaving, data races | simulation: the step programs run alone equal the functions of the model (`run_ftoa`, `ro_atof`); invariant: the rest of each call, run alone on its object as it is now, still ends as planned |
| C69 | number of character accesses | cost of the step programs of C68; a potential argument over the scanning loops (every pass advances, one re-reading of four characters, one word); unbounded NaN payload refutes a bound for all strings |
| C70 | saving and loading again and again | relation Cycle (print, place anywhere, parse); induction over the reflexive transitive closure with C22 giving each step; the runs in the list of lost powers of two have at most 5/9 members (kernel check over the finite list) |
| C71 | the C library's function as fallback: `Spec/Strtod.lean` (ISO C 7.22.1.3: white space, subject sequence as longest match over decimal, hexadecimal and word forms, rounding, `ERANGE`), any locale | the fallback is only asked about non-zero decimal numbers (classification of all strings), so the longest subject is decimal; numerals are determined by their text; locale and status claims refuted |
| C72 | the same parser on the consumed text alone | two runs of the scan side by side: every character read is below the reported end, or decides only that the scan stops there (also the four characters read ahead for the discarded digits, and the look-ahead for words); induction over the loop |
| C73 | `Model/Alloc.lean`: the parser with the capacity of its vector and a heap that may refuse any request (growth as usual, twice the capacity; refusal in `noexcept` code is `std::terminate`) | invariant: the size never exceeds the reserved capacity, so the growing branches are dead; refinement of the plain model, composed over `>>=` with a plan of requests that does not depend on the heap |
| C74 | the whole reader and printer; `Spec/Amount.lean`: usual spelling | a decimal with `k` places is an odd multiple of `ulp/(2*5^k)` away from every midpoint (parity), so the scaled product cannot hit a tie, no carry can be lost (a decimal below a power of two is too far from it), and the number is well inside the rounding interval (C47); the layout of the digits is the usual spelling because digits and position are determined by the value |
| C75 | a whole number is half way / just below a power of two / neither, in terms of natural numbers (`Spec/Whole.lean`) | the product of mantissa and cached power is exact when it has fewer bits than the mantissa (`Proof/Exact.lean`), so `downsample` decides on the exact number |
| C76 | the digit reader and the fraction digits | digits of the mantissa, decimal exponent and the four fraction digits are functions of the common prefix (`ReadsExact`), and everything after the digit reader depends on these alone |
| C77 | `ClearOfPow2` (`Spec/Error.lean`) | backward error and neighbour property of C23 for both numerals; away from powers of two no carry is lost; `roundsTo_mono` |
| C78 | `ftoa` on finite numbers | no multiple of ten units and no larger multiple of the unit lies in the safe interval (completeness of the digit loop); linear arithmetic |
| C79 | `ftoa` and `atof` on values that are short decimals | 5^(-j) divides d, so such a value is at least 10^-21, hence normal; C47 at the value itself; C35 |
| C80 | `grisu2` for every `alpha`, the static assertions | `k_comp_exp` depends on alpha - e only (kernel-checked table of 2123 / 289 differences gives the window [alpha, alpha+3]); digit loop lemma of C01; relative width of the interval bounds the digits; counterexamples evaluated |
| C81 | `RoundsTo`, `oneDigitLong` (Spec/OneDigit) list the exceptions; printing as in C47 | safely inside the interval: C47; the few others, and the exceptions, by kernel evaluation of `grisu2` over all normal exponents; other exponents are excluded by range |
| C82 | `Strtod` (Spec/Strtod) is the relation between text and every result ISO C allows; `atof` with a conforming fallback | C71 gives the correctly rounded value; uniqueness of the longest subject sequence and of rounding gives equality; subject sequences of words, zeros and of texts without a number are computed by splitting off the sign; out of range C25 and C26 say what `atof` gives, the definition of `Strtod` what the C library gives |
| C83 | `Model/SizeT`: the functions of diy_fp.h, grisu.h, k_comp.h, krosh.h, atof.h, prettify.h, ftoa.h on machine integers: `std::size_t` of `sz` bits, every sum and difference reduced modulo `2^sz`, `unsigned int` modulo `2^32`, every `int` result range-checked; objects shorter than `2^(sz-1)` | invariant of the scan (counters at most 2050, position at most 2050 or the end of the memory) shows that no sum wraps and that the differences only wrap modulo a multiple of `2^32`; printing: bounds on length and exponent from C01/C04, ranges of the binary exponents of both types |
| C84 | `Model/StringAlloc`: `to_basic_string` with the heap; what the standard leaves to the library (characters inside the string object, spare room, what `shrink_to_fit` does and whether it throws) is a parameter | case analysis of the two requests; the contents by C11 |
| C85 | `atof` in any locale on two memories that differ in characters that do not matter (Spec/Alike) | every test of a character in the parser is false for them: congruence function by function; that the others matter by a text for each |
| C86 | the same model; undefined behaviour is an outcome (`signedOverflow`, `badIndex`, out of bounds) | C83 transfers C02 (printing never fails) and C31 (the exponent parts for which reading does) to machine integers |
| C87 | `Model/CharType`: the parser over integer characters of 8, 16 or 32 bits, signed or unsigned, with promotions, conversions to `unsigned char` and checked `int` differences | function by function: a character and its bit pattern are equal or both outside ASCII, and every test is of ASCII ranges; printing: all printed characters are ASCII |
| C88 | `Model/Release`: the functions with assertions and their callers as compiled with `NDEBUG`; shifts, indices and conversions to `size_t` the assertions guard are checked where they happen | relation "the debug build asserts or both do the same", kept by every construct; the left case excluded by C02 and C31 |
| C89 | no new model: what `ftoa` prints, and `Spec/Strtod` for the reader | by kind of value: words by C33 and C82, zero by C34 and C82, finite values by C01 (only the value itself is rounded to) and the uniqueness of the subject sequence; `errno` by the text of the least normal number |
| C90 | no new model: what `ftoa` prints | a value not printed shortest has a multiple of the next power of ten in one of the two slivers between the safe interval `grisu2` searches and the true rounding interval (`Proof/Sliver`); scaled by the cached power this is a residue condition on the significand, so the values of one binary exponent are counted exactly by a floor sum (`Proof/FloorSum`, Euclid-like, proved correct), which the kernel evaluates (`decide +kernel`) for each of the exponents of the type and each length of subnormal significands from 16 / 32 bits on; the remaining subnormal values are all counted as long |
| C91 | no new model: `atof` on numerals | the exact product of mantissa and table entry decides whether the rounding is a tie (`kroshTail_exact`), a residue condition on the significand; the significands of one binary length are counted by the floor sum of C90 (`Proof/AskCount`), evaluated by the kernel for each of the 615 / 75 exponents |
| C92 | no new model: `atof` and `ftoa` on numerals | C49 (full circle for numbers well inside the rounding interval) turned into a residue condition on the significand; the significands that miss it are counted by floor sums (`Proof/SurviveCount`), evaluated by the kernel for each of the exponents (`Proof/SurviveEval`) |
| C93 | no new model: `atof` on numerals, `ftoa` | from the backward error of C23: no middle between the numeral and the number that is rounded instead of it, hence the same rounding; narrowing: the text of a double is within 2^-53 of it, every float is a double |
| C94 | client loop `readAll` of C58 around the model of `atof` | induction over the list; the call at each numeral equals the call on the numeral alone (`atof_same`, C41); correctly rounded lists by C20, C33, C34 and C71 |
| C95 | `Model/Flush`: `ftoa`, `to_string`, `check_errno`, `atof` with the comparisons made by a processor that takes subnormal operands as zeros (a parameter `daz`; the only floating point comparisons in the code) | for `daz` off, and for all values that are not subnormal, the functions of this model equal those used elsewhere; case analysis for the rest; witnesses for both differences |
| C96 | no new model: `atof` for both types | the middles between adjacent floats are doubles, rounding to double does not pass them (monotonicity), so number and double lie strictly between the same two middles unless the double is one; C20 for the two calls; witness by the nearest-value criterion |
| C97 | `Model/Indeterminate`: the functions with objects lacking an initialiser, again, assignment by assignment; reading an unset member is an error; per `return` a choice whether the copy is elided | equality with the plain model function by function; a word at the start iff `parse_digits` reports one (from C33) |
| C98 | `Model/Stream`: `operator<<` for `diy_fp` in terms of the standard's formatted output functions (width, fill, flags, digit grouping, failing buffer) | each insertion is a relation "written as far as accepted", composed over the five of them; the text is determined by a specification in digits |
| C99 | `krosh` on numerals of one digit; `oneDigitAsked` (Spec/OneDigit) lists the numbers handed over | the mantissa is determined by the value (uniqueness of the last place); scaling and rounding of the ≈ 6400 pairs (digit, exponent) in range evaluated by the kernel, each result checked to be the nearest datum; spellings by the induction behind C20 |
| C100 | `Model/LocaleChange`: the parser again, each evaluation of `std::tolower` in the locale found at that moment (a function of the position looked at and of which of the two looks it is; no position is visited twice) | relational proof as for C67, between two arbitrary histories; with a constant history the functions of `Model/Krosh` |
| C101 | `Model/RawBuffer`: the programs of single accesses of `Model/Steps` run on a memory object in which characters may have no value (reading one is an error), completely or up to the k-th access | Hoare triples for all functions of printing (`Proof/RawBuffer`: what has a value when), then the text from C02 with two different fillings; interruption: frame argument; parsing from C68 |
| C102 | `Model/AnyFallback`: `atof` and its overload for `nullptr` with an end pointer that may be null, a `*str_end` that need not have a value, and a fallback that is an arbitrary function of arguments and world, may throw, not return or be a null pointer | by cases on what the scanner returns; linked to `Model/Atof` by fallbacks that behave like functions |
| C103 | the model of `ftoa` and `atof`; `Spec/Literal`: the grammars of C11/C++, TOML 1.0 and XML Schema 1.1 | from C04, C01, C46 (a text without point and exponent stands for a whole number, and is nearest only to one), C08 and C28 |
| C63 | `atof`, `krosh`, `downsample`: value against status | case analysis through all successful paths; no assumption on the memory |
| C62 | `parse_exponent`, exponents of any size | nine digits kept, product modulo 2^32 (`cut9`, `wrap32`); outcome reduced to that of a short exponent; C31's signed overflow exactly |
| C61 | ftoa<float>, atof<double> | margin of the safe interval against the relative error of one double rounding (table error 0.49 units, 10^14 by evaluation); lost carry excluded by evaluation at the 277 powers of two |

### Building blocks

| id | modelled by | proof |
|---|---|---|
| C15–C18, C53 | `diy_fp` operators | arithmetic for all words |
| C19 | `round_up` | bit arithmetic for all words and positions |
| C52 | `print.h`, `operator<<` | binary numeral specification |
| C54 | `bit_ops.h`, `static_pow.h`, `fraction.h` | arithmetic for all arguments; for `convert_numerator` an error bound by induction on the binary places |

No property of the list is inexpressible in the model.

## 3. Behaviour of the code that contradicts its documentation

All are proved as theorems about the model (names in parentheses).

1. Carry lost when rounding up to a power of two: `"9223372036854775807"` is read
   as 2^62, `"2.2250738585072012e-308"` as 0, status success (C21_*).  As a
   consequence `atof(ftoa(v)) = v/2` for 39 float / 272 double powers of two (C22).
2. Overflow unnoticed up to 2^159 / 2^1087: `"2e308"` gives NaN, `"1e309"` a tiny
   negative number, status success (C25_*).
3. Premature underflow below the least subnormal number and, for float, below
   10^-42 (C26_*).
4. `"-5e577"` gives plus infinity (C27_minus_lost).
5. Undefined behaviour for some exponents: `"1e10000"`, `"1e5.5"` (C31_*).
6. `"1e5."` consumes the point, `"0e5"` does not consume the exponent; `"-"`,
   `"."`, `"null"` consume characters without a number (C32, C34, C42, C44).
7. The 2050th character is used but not consumed (C40).
8. `errno` is not cleared before the fallback (C38_refuted).
9. Numerals with more than 19/9 digits can be misrounded by one ulp (C23_refuted_*).
10. Subnormal numbers are printed with too many digits (5e-324 as 7.41098468e-324);
    near the ends of the rounding interval the printed number is not the shortest (C45; the number listed in ERRATA.GRISU2 is one case, `C45_errata`).
11. `boundaries` treats the least normal number as if the gap below were smaller (C48_refuted).
12. `print_binary(float)` prints the integral part of the value (C52_float_refuted).
13. The least double printed with 17 digits (`4.9406564584124654e-324`) is read as zero (C56_refuted).
14. `-0.0` is printed as `0` (C09).
15. The exact decimal spelling of 2^163 is read as 2^162 by `atof<double>`, that of 2^87 as
    2^86 by `atof<float>` (C59_refuted_pow2); 2^100 printed as a double is read by
    `atof<float>` as 2^99, the widened least float as 0 (C60_refuted).
16. Exponents from 10^9 on wrap around: `"1e4294967301"` is read as 10^4, status success;
    `"1e2147483650"` underflows to zero (C62_refuted).
17. In a global locale where `tolower('I')` is not `'i'` (Turkish) only three letters of
    `"INFINITY"` are consumed (C67_end_refuted). If the locale
    changes during the call, more may be consumed than with each of the locales
    (C100_mixed_refuted, C100_two_looks_refuted).
18. Saving and loading `2^856` (double) nine times gives `2^847` (C70_drift_happens).
19. Where the locale's decimal point is a comma, numbers for which the fallback is asked lose
    their fraction and exponent (C71_locale_refuted); where `strtod` sets `ERANGE` for subnormal
    results, `"101739e-313"` is reported as overflow (C71_underflow_as_overflow).
20. `"0.99999999999999999"` is read as 0.5, status success (C21_carry_lost_decimals).
21. Reading back a printed text can consult the fallback although the text is no tie:
    `0.02956622` (float), `3.758201963921495e-03` (double) (C22_fallback_asked).
22. With more than 9 (19) significant digits the spelling matters: `1019636781.9e-3` and
    `10196367819e-4` are read as different floats (C43_long_refuted).
23. A smaller number can be read as a larger one: `101963678189e-5` and `1019636781.9e-3`
    (float), `1012093765169056987789e-11` and `10120937651690569877.9e-9` (double)
    (C50_long_refuted).
24. The static assertions of `grisu2` let parameters through that give wrong digits:
    with `alpha = -61` 3.8 becomes 3.0, with `alpha = -34, gamma = 32` 464 becomes
    34.5032704, as `float` with `alpha = -29` 58 becomes 50 (C80_outside).
25. `parse_mantissa` returns an object with unset members for `"nan"` and `"inf"`; this is
    harmless only because compilers elide the copy, which C++14 does not require
    (C97_without_elision).

## 4. Trusted base

* Lean 4's kernel (v4.33.0) and the axioms `propext`, `Classical.choice`,
  `Quot.sound`, which are all any theorem in `MANIFEST.json` depends on (each may
  use all three, through Mathlib).  No axioms are added, nothing is compiled code.
* The reading of the C++ in `/repo` into `Model/*`, cited line by line.  The tables
  in `Model/Tables.lean` were generated by a script from the headers and are
  checked against the mathematical definition by C13.
  `lean/Verif/Conformance.lean` evaluates the model on every fixed test vector of
  `/repo/test` (tests of the reading, not proofs).
* Platform: `CHAR_BIT = 8`, two's complement 32-bit `int`, 64-bit `size_t` (C83: any width from 32 bits on gives the same; C86: no `int` overflows there except in the exponent parts of C31),
  IEEE-754 `float`/`double`; ASCII-compatible execution character set.  The two
  places where the code depends on more than that are parameters of the model:
  `Locale` (what `std::tolower` does in the program's global locale) and `FpEval`
  (how the one floating point expression, in `k_comp_exp`, is evaluated).  Theorems
  that do not mention them are about the "C" locale and `FLT_EVAL_METHOD = 0`;
  C67 and C66 say what changes otherwise (the end of words in odd locales; nothing).
  Floating point comparisons are IEEE's; C95 says what changes where the processor
  takes subnormal operands as zeros.  Options that let the compiler assume that there
  are no NaNs or infinities (`-ffinite-math-only`) are not modelled.
  `HUGE_VAL` is infinity, and `quiet_NaN()` the pattern with only the leading
  fraction bit set (as on x86 and ARM); other platforms may use another NaN pattern.

## 5. Modelled and not modelled

Modelled: `ftoa.h`, `grisu.h`, `prettify.h`, `k_comp.h`, `cached_power.h`,
`powers_ten*.h`, `diy_fp.h`, `bit_ops.h`, `static_pow.h`, `fraction.h`, `krosh.h`,
`atof.h`, `default_fallback.h` (dispatch and status; the C function itself is a
parameter), `huge_val.h`, `type_punning_cast.h`, `memwrap.h`, `integer_of_size.h`
(as the word size of `T`), `conversion_status.h`, `print.h`.

Not modelled:

* which exceptions the default fallback could throw (for exceptions of fallbacks see C102, for the parser C73, for `to_string` C84); a stream's exception mask (for the rest of the stream's state see C98);
* `long double`, and `char16_t`/`char32_t` wrappers (they do not link: no `memwrap`
  specialisation); `operator<<` on wide streams (does not compile);
* `from_string` with fallbacks that throw (it is `atof` with a null `str_end`, see C102);
* weaker memory orders than sequential consistency (C++ promises it to programs
  without data races, which is part of C68); other threads changing the global
  locale while the fallback runs (for the parser itself see C100);
* CMake, examples, tests, `bc/` scripts;
* running time other than the number of character accesses (C69).
