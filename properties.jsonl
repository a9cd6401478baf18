{"id": "C01", "title": "ftoa prints a decimal that identifies the value", "statement": "For every finite non-zero float or double v, the text written by ftoa(v, buf) is a decimal numeral whose exact mathematical value is strictly closer to v than to any other finite value of the type (and, next to the largest finite value, inside its rounding interval). So every correctly rounding reader of the text gets v back.", "quantifier": "all finite non-zero bit patterns of float and double, all buffer contents", "why_tests_cant": "2^64 doubles cannot be enumerated; the failing values of such algorithms sit at isolated boundaries", "anchors": ["include/floaxie/grisu.h: grisu2, digit_gen_select<false>::gen", "include/floaxie/diy_fp.h: boundaries, operator*=, operator++, operator--", "include/floaxie/k_comp.h: k_comp_exp", "include/floaxie/cached_power.h", "include/floaxie/powers_ten_single.h", "include/floaxie/powers_ten_double.h", "include/floaxie/prettify.h", "include/floaxie/ftoa.h: ftoa"]}
{"id": "C02", "title": "ftoa never leaves its buffer", "statement": "For every value v (including NaN, infinities, zeros, subnormals) ftoa(v, buf) performs no out-of-bounds access, no out-of-range table lookup and trips no assertion when buf has at least max_buffer_size<T>() characters, and it leaves every character after the first max_buffer_size<T>() untouched; intermediate writes included. Precisely, it stays inside buf if and only if buf has room for the text and its terminator.", "quantifier": "all bit patterns, all buffers of at least the documented size, all previous contents", "why_tests_cant": "the longest intermediate write is reached only by a few values; a sanitizer run sees only the values it is given", "anchors": ["include/floaxie/ftoa.h: ftoa, max_buffer_size", "include/floaxie/grisu.h: max_digits, digit_gen_select<false>::gen", "include/floaxie/prettify.h: print_decimal, print_scientific, fill_exponent", "include/floaxie/memwrap.h"]}
{"id": "C03", "title": "ftoa return value is the string length", "statement": "ftoa(v, buf) returns exactly strlen(buf): the character at the returned index is NUL, no earlier character is NUL, and the returned length plus the terminator fits in max_buffer_size<T>().", "quantifier": "all bit patterns of float and double, all buffers of documented size", "why_tests_cant": "test/ftoa_len.cpp samples; the length is computed by a formula separate from the writes", "anchors": ["include/floaxie/ftoa.h: ftoa", "include/floaxie/prettify.h: prettify"]}
{"id": "C04", "title": "ftoa output follows the documented grammar", "statement": "For every finite v the text is: optional '-', one or more digits with at most one '.', which has a digit on both sides, optionally followed by 'e', optional '-', and two or three digits; nothing else; no leading zero on the integer part unless the integer part is just '0'.", "quantifier": "all finite bit patterns", "why_tests_cant": "a grammar claim over all outputs", "anchors": ["include/floaxie/ftoa.h: ftoa", "include/floaxie/prettify.h"]}
{"id": "C05", "title": "ftoa digit count bound", "statement": "The significant digit sequence printed has at most 17 digits for double and 9 for float, starts with a non-zero digit and ends with a non-zero digit.", "quantifier": "all finite non-zero values", "why_tests_cant": "the maximum is reached at rare values; documented bound max_digits() is 28/18", "anchors": ["include/floaxie/grisu.h: max_digits, digit_gen_select<false>::gen, calculate_kappa_div"]}
{"id": "C06", "title": "ftoa chooses decimal or scientific notation by the documented threshold", "statement": "With decimal point position d and least digit position k of the printed number, ftoa uses scientific notation exactly when more than 16 places on either side of the point would be needed (max(d,-k) > 16), decimal notation otherwise.", "quantifier": "all finite non-zero values", "why_tests_cant": "threshold behaviour over all values", "anchors": ["include/floaxie/prettify.h: prettify, choose_format"]}
{"id": "C07", "title": "ftoa sign symmetry", "statement": "For every finite non-zero v, ftoa(-v) is '-' followed by exactly the text of ftoa(v), and the returned length is one larger.", "quantifier": "all finite non-zero values and infinities", "why_tests_cant": "relation between pairs of runs over all values", "anchors": ["include/floaxie/ftoa.h: ftoa"]}
{"id": "C08", "title": "ftoa special values", "statement": "Every NaN bit pattern prints nan, +infinity inf, -infinity -inf, and both zeros print 0.", "quantifier": "all NaN payloads, both infinities, both zeros", "why_tests_cant": "2^53 NaN payloads", "anchors": ["include/floaxie/ftoa.h: ftoa"]}
{"id": "C09", "title": "ftoa loses the sign of zero", "statement": "ftoa(-0.0) prints the same text as ftoa(+0.0): the bit-exact round trip 'every value other than NaN is recovered bit for bit by a correct reader' fails at -0.0 and only there.", "quantifier": "all non-NaN bit patterns", "why_tests_cant": "it is a statement about which values are distinguishable", "anchors": ["include/floaxie/ftoa.h: ftoa (v == 0 branch)"]}
{"id": "C10", "title": "ftoa is injective and order preserving", "statement": "For finite values u < v of the type the decimal number printed for u is strictly smaller than the one printed for v; in particular distinct non-zero values never print the same text.", "quantifier": "all pairs of finite values", "why_tests_cant": "pairs of 64-bit values", "anchors": ["include/floaxie/ftoa.h: ftoa", "include/floaxie/grisu.h: grisu2"]}
{"id": "C11", "title": "to_string agrees with ftoa", "statement": "to_string(v)/to_basic_string(v) returns exactly the characters ftoa writes before the terminator, with no stray NULs and no dependence on uninitialised memory.", "quantifier": "all bit patterns", "why_tests_cant": "depends on the NUL position for every value", "anchors": ["include/floaxie/ftoa.h: to_basic_string, to_string"]}
{"id": "C12", "title": "ftoa does not depend on previous buffer contents", "statement": "Two calls of ftoa with the same value on buffers with different previous contents write the same text and return the same length.", "quantifier": "all values, all pairs of buffers", "why_tests_cant": "hyperproperty over buffers", "anchors": ["include/floaxie/ftoa.h: ftoa", "include/floaxie/prettify.h: print_decimal"]}
{"id": "C13", "title": "Power-of-ten tables are correctly rounded", "statement": "For every exponent k in the supported range [-50,50] (float) / [-343,343] (double) cached_power(k) is normalized (top bit set) and differs from 10^k by at most half a unit in its last place.", "quantifier": "all table indices of both tables", "why_tests_cant": "788 constants copied from a generator; an error in one digit affects few values", "anchors": ["include/floaxie/powers_ten_single.h", "include/floaxie/powers_ten_double.h", "include/floaxie/cached_power.h: cached_power"]}
{"id": "C14", "title": "Scaling exponent selection hits the Grisu window", "statement": "For every binary exponent a normalized boundary of a finite value can have, k_comp_exp (computed in double arithmetic) yields a supported power of ten and the scaled product's exponent lies in [alpha, gamma].", "quantifier": "all binary exponents reachable from finite values", "why_tests_cant": "relies on rounding of a floating point product for every exponent", "anchors": ["include/floaxie/k_comp.h: k_comp_exp", "include/floaxie/grisu.h: grisu_parameters"]}
{"id": "C15", "title": "diy_fp multiplication is correctly rounded", "statement": "For all mantissas, a * b has mantissa floor(a*b/2^W + 1/2) (no carry is lost, no overflow) and exponent the sum of exponents plus W.", "quantifier": "all pairs of W-bit mantissas and all exponents, W = 32, 64", "why_tests_cant": "2^128 pairs; documentation says carries are ignored", "anchors": ["include/floaxie/diy_fp.h: operator*="]}
{"id": "C16", "title": "diy_fp normalization preserves the value", "statement": "For every non-zero mantissa normalize() terminates with the top bit set and leaves mantissa * 2^exponent unchanged.", "quantifier": "all non-zero mantissas and exponents", "why_tests_cant": "2^64 mantissas", "anchors": ["include/floaxie/diy_fp.h: normalize, is_normalized"]}
{"id": "C17", "title": "diy_fp from/to floating point round trip", "statement": "For every finite non-zero value v, diy_fp(v) holds exactly |v|, and normalizing and downsampling it returns |v| with status success and is_accurate set.", "quantifier": "all finite non-zero bit patterns", "why_tests_cant": "test/diy_fp_conversion.cpp checks pi only", "anchors": ["include/floaxie/diy_fp.h: diy_fp(FloatType), downsample, normalize"]}
{"id": "C18", "title": "diy_fp increment and decrement step by one unit", "statement": "++ adds exactly one unit of the last place to the value for every mantissa (including the all-ones mantissa, where it renormalizes); -- subtracts exactly one unit whenever the mantissa exceeds 1.", "quantifier": "all mantissas and exponents", "why_tests_cant": "2^64 mantissas", "anchors": ["include/floaxie/diy_fp.h: operator++, operator--"]}
{"id": "C19", "title": "round_up is round-half-to-even and flags exactly the ties", "statement": "For every word x and every target bit position n > 0 inside the word, round_up reports true exactly when x/2^n rounds upward under round-half-to-even, and is_accurate is false exactly when x lies half way.", "quantifier": "all words, all positions, all word widths", "why_tests_cant": "all words and positions", "anchors": ["include/floaxie/bit_ops.h: round_up, mask, raised_bit"]}
{"id": "C20", "title": "atof is correctly rounded for short numerals, away from powers of two", "statement": "For every numeral of the documented grammar whose value has at most 19 (double) / 9 (float) significant digits and lies between the smallest subnormal and the overflow threshold (for float: last significant digit not below 10^-50), atof returns the IEEE round-to-nearest-even value with status success, or delegates to the fallback; the only exception is a number just below a power of two that should be rounded up to it (see C21).", "quantifier": "all such numerals (all signs, digit strings, dot positions, exponents)", "why_tests_cant": "infinitely many numerals; misrounding needs a value within 2^-11 ulp of a boundary", "anchors": ["include/floaxie/krosh.h: krosh, parse_mantissa, parse_digits, parse_exponent", "include/floaxie/diy_fp.h: downsample, operator*=, normalize", "include/floaxie/atof.h: atof"]}
{"id": "C21", "title": "Rounding up to a power of two loses the carry", "statement": "When rounding the parsed number up overflows the mantissa (the number is less than half a unit below a power of two), the result should be that power of two; the code returns half of it (zero for the smallest normal number), silently, with status success. So every numeral of at most 19/9 significant digits below a power of two, above the middle to its lower neighbour and not within a relative 5/2^64 (5/2^32) of either is read as half that power (\"0.99999999999999999\" is read as 0.5), without asking the fallback.", "quantifier": "all numerals just below a power of two", "why_tests_cant": "needs a numeral whose 53-bit prefix is all ones", "anchors": ["include/floaxie/diy_fp.h: downsample (parts |= ... & mantissa_mask)"]}
{"id": "C22", "title": "Printing and parsing compose to the identity, except for listed powers of two", "statement": "For every finite non-zero v, atof(ftoa(v)) returns v exactly, with status success and the end pointer at the terminator, provided the fallback is correctly rounding - except when |v| is one of 39 (float) / 272 (double) powers of two, for which it returns v/2.", "quantifier": "all finite non-zero values of float and double", "why_tests_cant": "2^64 doubles cannot be enumerated; the failing values of such algorithms sit at isolated boundaries", "anchors": ["include/floaxie/ftoa.h", "include/floaxie/atof.h", "test/fullcircle.cpp"]}
{"id": "C23", "title": "atof error bound for long numerals", "statement": "For numerals with any number of significant digits in the finite range (float: not below 10^-42), the value returned without fallback is the correct rounding of a number relatively within 17/2^64 (double) / 25/2^32 (float) of the numeral, hence one of the two representable neighbours of the numeral (the numeral itself if that is representable) and nearest up to twice that error - carry loss (C21) excepted; the fallback is asked only if a tie is that near. Correct rounding for more than 19/9 digits does not hold.", "quantifier": "all numerals of the documented grammar, any digit count", "why_tests_cant": "unbounded digit strings", "anchors": ["include/floaxie/krosh.h: parse_digits, parse_mantissa, extract_fraction_digits", "include/floaxie/fraction.h: convert_numerator"]}
{"id": "C24", "title": "Digit accumulation is exact", "statement": "For every digit string with optional dot, the mantissa and decimal exponent extracted satisfy P*10^K <= x < (P+1)*10^K for the exact value x, with equality P*10^K = x whenever x has at most 19/9 significant digits; leading and trailing zeros do not matter.", "quantifier": "all digit strings up to the 2048 character limit", "why_tests_cant": "unbounded digit strings, zero runs crossing the dot and the digit limit", "anchors": ["include/floaxie/krosh.h: parse_digits"]}
{"id": "C25", "title": "Overflow", "statement": "Numerals of magnitude at least 2^159 (float) / 2^1087 (double) (up to the relative error of C23) yield infinity with status overflow (the minus sign may be lost from 10^51 / 10^344 on), and only those. Between the largest finite value and that bound overflow goes unnoticed: status success with half of 2^128 / 2^1024 (up to that power), a non-finite datum (up to twice that power, a NaN of the sign of the numeral except near the ends), or a tiny number of the opposite sign, namely, in the next octave, the subnormal number (x - 2^129)/2^255 or (x - 2^1025)/2^2047 for the magnitude x (up to rounding; zero at the end of the octave), from 2^130 / 2^1026 on, the opposite of the number divided by 2^256 / 2^2048 (rounded, with the error of C23 and the lost carry of C21); the ideal claim (every numeral beyond the largest finite value gives infinity and overflow) is refuted.", "quantifier": "all numerals of too large magnitude", "why_tests_cant": "the band between the largest finite value and the point where detection works is never sampled by test/overflow.cpp", "anchors": ["include/floaxie/diy_fp.h: downsample", "include/floaxie/krosh.h: krosh"]}
{"id": "C26", "title": "Underflow", "statement": "Non-zero numerals below the smallest subnormal (up to the relative error of C23) yield zero and status underflow (a minus may be lost below 10^-42 / 10^-325); otherwise underflow is reported only by float, for numbers below 10^-42 that cannot be written with 9 digits and an exponent of at least -50. So numerals between half the smallest subnormal and the smallest subnormal, which round to the latter, are read as zero: the ideal claim is refuted.", "quantifier": "all non-zero numerals of tiny magnitude", "why_tests_cant": "thresholds depend on digit count and exponent jointly", "anchors": ["include/floaxie/diy_fp.h: downsample", "include/floaxie/krosh.h: krosh"]}
{"id": "C27", "title": "Sign handling of atof", "statement": "atof('-' s) is the negation of atof(s) and atof('+' s) equals atof(s), same status, end pointer one further, for every unsigned numeral s - except that the '-' is lost (plain zero or plus infinity) when the decimal exponent is outside the table of powers, e.g. \"-5e577\" gives plus infinity.", "quantifier": "all unsigned numerals and special words", "why_tests_cant": "relation over all inputs", "anchors": ["include/floaxie/krosh.h: parse_digits, krosh"]}
{"id": "C28", "title": "atof consumes exactly the numeral", "statement": "For every numeral of the documented grammar followed by any character that cannot extend it, the end pointer returned is just after the numeral (after its digits and point, if it is a zero with an exponent part, see C34), unless the fallback is asked, which then decides.", "quantifier": "all numerals, all following text", "why_tests_cant": "all texts", "anchors": ["include/floaxie/krosh.h: parse_digits, parse_exponent, krosh", "include/floaxie/atof.h: atof"]}
{"id": "C29", "title": "atof end pointer stays inside the string", "statement": "For every NUL-terminated string on which the call completes, the reported end pointer lies between the start of the string and its terminator (inclusive) unless the fallback was asked, in which case it is exactly the end pointer the fallback reported.", "quantifier": "all NUL-terminated strings of any content and length", "why_tests_cant": "all strings", "anchors": ["include/floaxie/krosh.h", "include/floaxie/atof.h"]}
{"id": "C30", "title": "atof never reads past the terminator", "statement": "For every NUL-terminated string, no character beyond the terminator is ever read: the outcome does not depend on, and does not access, memory after it.", "quantifier": "all NUL-terminated strings, all memory after the terminator", "why_tests_cant": "memory safety over all strings", "anchors": ["include/floaxie/krosh.h: parse_digits, extract_fraction_digits, eat_nan, eat_inf, parse_exponent"]}
{"id": "C31", "title": "When atof is undefined", "statement": "For every NUL-terminated string atof either completes without undefined behaviour or failed assertion, or the string starts with a non-zero numeral followed by an exponent part that triggers a table lookup out of range (exactly: exponent a non-zero multiple of 10000, at least 10^12, or with a non-zero fractional part and below 10^8), or a signed overflow (only for exponents of at least 10^9). The ideal claim, that atof is always defined, is refuted (\"1e10000\", \"1e5.5\").", "quantifier": "all NUL-terminated strings", "why_tests_cant": "needs an unusual exponent part", "anchors": ["include/floaxie/krosh.h: parse_exponent (seq_pow index), krosh (mp.K += ep.value)", "include/floaxie/static_pow.h: seq_pow"]}
{"id": "C32", "title": "Strings without a number", "statement": "Every NUL-terminated string starts with a number, 2050 characters of a number, a word for NaN/infinity, or none of them; in the last case atof returns zero with status success without asking the fallback, but the end pointer is after the sign, point or word letter (n, N, i, I) the string starts with, and a leading - makes the zero negative. The end pointer is at the start if and only if the first character is no digit, point, sign or word letter.", "quantifier": "all strings with no numeric prefix", "why_tests_cant": "all strings", "anchors": ["include/floaxie/krosh.h: parse_digits", "include/floaxie/atof.h: atof"]}
{"id": "C33", "title": "NaN and infinity words", "statement": "For every capitalisation and optional sign, nan, nan(chars), inf and infinity parse to a quiet NaN / infinity of that sign, with status success and without the fallback being asked, and the longest such word is consumed.", "quantifier": "all capitalisations, all n-char sequences, all following text", "why_tests_cant": "unbounded n-char sequences", "anchors": ["include/floaxie/krosh.h: eat_nan, eat_inf, parse_digits"]}
{"id": "C34", "title": "Zero numerals", "statement": "Every numeral whose digits are all zero parses to zero of the numeral's sign with status success; the end pointer is after its digits and point: an exponent part of a zero numeral is not consumed.", "quantifier": "all all-zero numerals", "why_tests_cant": "all lengths and dot positions", "anchors": ["include/floaxie/krosh.h: krosh (mantissa zero branch)"]}
{"id": "C35", "title": "Representable integers parse exactly", "statement": "Every non-zero decimal integer of magnitude at most 2^53 (double) / 2^24 (float), with any sign and any number of leading zeros, parses to exactly that number, with status success and without calling the fallback (for zero see C34). The same holds for every numeral of at most 19/9 significant digits whose exact value is a finite non-zero value of the type (float: last place not below 10^-50).", "quantifier": "all such integers and paddings", "why_tests_cant": "2^53 integers", "anchors": ["include/floaxie/krosh.h", "include/floaxie/diy_fp.h: downsample"]}
{"id": "C36", "title": "Redundant spelling is irrelevant", "statement": "Leading zeros, trailing fraction zeros, a leading '+', 'E' for 'e', '+' or leading zeros in the exponent do not change the value or status returned.", "quantifier": "all numerals and all amounts of padding within the length limit", "why_tests_cant": "unbounded padding", "anchors": ["include/floaxie/krosh.h: parse_digits, parse_exponent"]}
{"id": "C37", "title": "The fallback is consulted on ties, with the original string", "statement": "For a numeral of at most 19/9 significant digits in the range of the type (float: last place not below 10^-50): if its value is exactly half way between two neighbours, atof asks the fallback and returns exactly the value and end the fallback gives for the original string; and it asks the fallback only if the value is within a relative 5/2^64 (5/2^32 for float) of such a half-way point or of the overflow limit. When the fallback is not asked, the result is the same for every fallback (any string).", "quantifier": "all numerals of at most 19/9 significant digits in range; all fallback functions", "why_tests_cant": "quantifies over fallback functions", "anchors": ["include/floaxie/atof.h: atof", "include/floaxie/diy_fp.h: downsample", "include/floaxie/bit_ops.h: round_up"]}
{"id": "C38", "title": "errno and the status", "statement": "Whether the fallback is asked depends neither on errno nor on the fallback. Without fallback the result does not depend on errno and errno is left alone. With fallback the status is read off errno as the fallback leaves it (overflow for ERANGE and non-zero value, underflow for ERANGE and zero, else success), so with a C-library-like fallback the result is independent of errno provided errno was not ERANGE before the call; a stale ERANGE turns a success into overflow.", "quantifier": "all strings, all histories of earlier library calls", "why_tests_cant": "needs a particular call history", "anchors": ["include/floaxie/default_fallback.h: check_errno", "include/floaxie/atof.h: atof"]}
{"id": "C39", "title": "Fraction tail conversion", "statement": "convert_numerator maps the first four decimals t of the discarded tail to a 7-bit binary fraction c below 128; c/128 is at most 9872/1280000 below t/10^4 and at most 112/1280000 above it (so less than 1/128 away), both bounds are attained, and c is monotone in t. For any other sizes the result fits the number of binary digits asked for.", "quantifier": "all t < 10^4", "why_tests_cant": "needs all inputs", "anchors": ["include/floaxie/fraction.h: fraction_converter, convert_numerator", "include/floaxie/krosh.h: extract_fraction_digits"]}
{"id": "C40", "title": "Texts longer than the 2 KB limit", "statement": "For a string starting with 2050 characters of sign, digits and point the call is defined, the end pointer (unless the fallback is asked) is after the first 2049 characters, although the 2050th takes part in the value: value, status and use of the fallback are those of any numeral of at most 19/9 significant digits with the value spelled by all 2050 characters.", "quantifier": "all digit strings longer than 2049 characters", "why_tests_cant": "needs very long inputs", "anchors": ["include/floaxie/krosh.h: parse_digits (maximum_offset)"]}
{"id": "C41", "title": "Parsing ignores what follows the parsed text", "statement": "The result for a string depends only on the characters up to and including the first character that cannot extend the numeral.", "quantifier": "all numerals, all continuations", "why_tests_cant": "pairs of runs", "anchors": ["include/floaxie/krosh.h", "include/floaxie/atof.h"]}
{"id": "C42", "title": "Exponent parts", "statement": "Every exponent part with value below 10^4, any sign, either case of e and any leading zeros, is read as exactly that integer, consumed entirely, and never causes undefined behaviour; a point and digits following the exponent digits are swallowed and ignored.", "quantifier": "all exponent parts with value below 10^4", "why_tests_cant": "all digit strings", "anchors": ["include/floaxie/krosh.h: parse_exponent"]}
{"id": "C43", "title": "The value alone decides", "statement": "Two numerals with at most 19/9 significant digits that denote the same non-zero number (whatever their digits, point position and exponent) get the same value, status and use of the fallback. With more digits it is refuted: 1019636781.9e-3 and 10196367819e-4 are the same number but are read as different floats.", "quantifier": "all pairs of numerals of equal value", "why_tests_cant": "infinitely many spellings of each number; the claim relates pairs of inputs", "anchors": ["include/floaxie/krosh.h: parse_digits, parse_exponent, krosh"]}
{"id": "C44", "title": "A number followed by e without exponent digits", "statement": "A non-zero number followed by e or E and no exponent digits gets the value, status and use of the fallback it has without the e; but the e, and a sign, point, letter or word after it are consumed.", "quantifier": "all numerals, all texts after the e", "why_tests_cant": "all texts", "anchors": ["include/floaxie/krosh.h: parse_exponent, parse_digits"]}
{"id": "C45", "title": "Shortness of the printed number", "statement": "For every finite value other than zero: if its magnitude is at least 2^32 (float: 2^16) times the least positive value (that is, every normal number and every larger subnormal one), or if it is printed with more than 10 (float: 5) significant digits, then no decimal number that lies safely inside the rounding interval (at least 1/511 (double), 1/63 (float) of the distance to the next larger number away from either end) has fewer significant digits than the printed one. The ideal claim (no decimal that identifies the number is shorter) is refuted near the ends of the interval (among others by the number listed in ERRATA.GRISU2, 0.546653, printed as 0.5466529999999999) and for the smallest subnormal numbers (the least double is printed with nine digits; ten resp. five digits are printed for some where nine resp. four would do).", "quantifier": "all finite non-zero values, all decimals d*10^j", "why_tests_cant": "2^64 values, and the claim ranges over all competing decimals", "anchors": ["include/floaxie/grisu.h: grisu2", "include/floaxie/grisu.h: digit_gen, digit_gen_select", "include/floaxie/diy_fp.h: boundaries"]}
{"id": "C46", "title": "Integers are printed exactly", "statement": "Every integer n with 0 < |n| <= 2^53 (double) / 2^24 (float) is printed as its decimal digits without leading zero, point or exponent, with '-' in front if negative.", "quantifier": "all integers up to 2^p in magnitude", "why_tests_cant": "2^53 integers", "anchors": ["include/floaxie/ftoa.h: ftoa", "include/floaxie/prettify.h: prettify", "include/floaxie/grisu.h: grisu2"]}
{"id": "C47", "title": "Short decimals survive", "statement": "A decimal number of at most 15 (double) / 6 (float) significant digits that lies safely inside the rounding interval of a normal number (1/511 resp. 1/63 of the distance to the next larger number away from the ends) is the number printed for it. The same for a decimal of at most D digits and every finite value, subnormal ones included, whose magnitude is more than 10^D times and at least 2^32 (float: 2^16) times the least positive value; below 2^32 (2^16) times the least value it is refuted (23470564e-322 is printed as 2.347056402e-315). Without the margin it is refuted: 8.3e26 is printed as 8.299999999999999e26.", "quantifier": "all decimals of at most 15/6 digits, all normal values and all subnormal values of the magnitude stated", "why_tests_cant": "10^15 digit strings times all exponents", "anchors": ["include/floaxie/grisu.h: grisu2", "include/floaxie/grisu.h: digit_gen, digit_gen_select"]}
{"id": "C48", "title": "Boundaries of a value", "statement": "For every finite non-zero value the boundaries helper returns exactly the two midpoints to its neighbours, with equal exponents, the upper one normalized - except that for the least normal number the lower boundary is only a quarter of the way to the lower neighbour (the documented claim, that every number between the boundaries and no other rounds to the value, fails there).", "quantifier": "all finite non-zero values", "why_tests_cant": "2^64 values", "anchors": ["include/floaxie/diy_fp.h: boundaries"]}
{"id": "C49", "title": "Decimal to binary and back", "statement": "A numeral of at most 15/6 significant digits well inside the rounding interval of a normal number (1/383 resp. 1/47 of its length away from the ends) is read by atof as that number and printed by ftoa as a numeral of exactly the same value, without consulting the fallback, if the number is not a power of two the numeral is below of. The same for a numeral of at most D digits and every finite number, subnormal ones included, whose magnitude is more than 10^D times and at least 2^32 (float: 2^16) times the least positive value.", "quantifier": "all numerals of at most 15/6 significant digits, all normal values and all subnormal values of the magnitude stated", "why_tests_cant": "all decimals of up to 15 digits in all spellings", "anchors": ["include/floaxie/atof.h: atof", "include/floaxie/ftoa.h: ftoa"]}
{"id": "C50", "title": "Reading preserves the order", "statement": "Under the conditions of C20 (short, in range, not rounding up to a power of two; the fallback, if asked, correct) a larger numeral never gets a smaller value, and numerals of equal value get the same datum. Without the exception for powers of two it is refuted: 9223372036854775807 is read as a smaller number than 9223372036854774784; and it is refuted for numerals with more significant digits: 101963678189e-5 is read as a larger float than the larger 1019636781.9e-3.", "quantifier": "all pairs of numerals, strings, memories, fallbacks", "why_tests_cant": "relates pairs of inputs", "anchors": ["include/floaxie/atof.h: atof", "include/floaxie/krosh.h: krosh"]}
{"id": "C51", "title": "String interface", "statement": "from_string(to_string(v)), for every bit pattern: NaN stays a NaN (quiet and positive afterwards), infinities are kept, zeros become plus zero, all other values come back bit for bit (except the powers of two of C22), with status success, and are printed again with the same text. from_string sees a string up to its first NUL.", "quantifier": "all bit patterns of float and double; all strings", "why_tests_cant": "2^64 values", "anchors": ["include/floaxie/ftoa.h: to_basic_string, to_string", "include/floaxie/atof.h: from_string"]}
{"id": "C52", "title": "Debug output", "statement": "print_binary(double) shows sign bit, 11 exponent bits and 52 fraction bits separated by blanks and determines the value; print_binary of an integer type shows all its bits; print_double_presentation groups 64 bits as 1, 52, 1, 10; the stream output of a diy_fp is (f = F, e = E) with all binary digits of the mantissa and the exponent in decimal, and determines it. For float the claim is refuted: print_binary(float) shows the integral part of the value modulo 2^32, and is undefined exactly for NaN, infinities and values outside (-1, 2^64).", "quantifier": "all values of the types", "why_tests_cant": "2^64 values", "anchors": ["include/floaxie/print.h: print_binary, print_double_presentation", "include/floaxie/diy_fp.h: operator<<"]}
{"id": "C53", "title": "diy_fp operators", "statement": "Subtraction is exact when defined and asserts otherwise; multiplication is commutative, within half a unit of the exact product, and loses at most one leading bit on normalized numbers; ++ and -- undo each other except at the ends of the mantissa range; postfix forms return the old value; == is equality of mantissa and exponent, not of value.", "quantifier": "all pairs of diy_fp values", "why_tests_cant": "2^128 pairs of mantissas", "anchors": ["include/floaxie/diy_fp.h: operator-, operator*, operator++, operator--, operator==, operator!="]}
{"id": "C54", "title": "Bit operations and powers", "statement": "mask, nth_bit, highest_bit, raised_bit, msb_value, positive_part, constexpr_abs compute what their documentation says for every word size; static_pow is the power modulo 2^32; seq_pow is the power for every index within its table and out of bounds beyond (in ascending, not the documented descending order); convert_numerator is exact, rounded down, when no more binary than decimal digits are asked for; for any numbers of digits its error is bounded: as a binary fraction the result is less than as many units of the last decimal place above its argument as there are binary digits, and less than that and one unit of the last binary place below it.", "quantifier": "all word sizes, values, bit positions, bases and exponents", "why_tests_cant": "unbounded families of template instances", "anchors": ["include/floaxie/bit_ops.h", "include/floaxie/static_pow.h", "include/floaxie/fraction.h: convert_numerator"]}
{"id": "C55", "title": "Layout of arbitrary digits", "statement": "prettify, given any digit string (first digit non-zero), any decimal exponent and any threshold, writes the numeral of the documented shape with those digits and that value, in exponential notation exactly when more than threshold places are needed on a side of the point, terminates it, returns its length and touches nothing else.", "quantifier": "all digit strings of any length, exponents with at most three digits, thresholds, buffers and surrounding contents", "why_tests_cant": "unbounded digit strings and buffers", "anchors": ["include/floaxie/prettify.h: prettify, print_decimal, print_scientific, fill_exponent, choose_format", "include/floaxie/memwrap.h"]}
{"id": "C56", "title": "Numbers printed elsewhere with enough digits are read back", "statement": "A numeral that is a finite non-zero value correctly rounded to 17, 18 or 19 (double) / 9 (float) digits, as printf prints it, is read by atof as exactly that value with status success, consumed entirely, and never passed to the fallback - except for numerals below the least subnormal number (the least double printed with 17 digits is read as zero), float numerals with digits below 10^-50, and numerals below a power of two that is the value.", "quantifier": "all finite non-zero values, all numerals, memories and fallbacks", "why_tests_cant": "2^64 values", "anchors": ["include/floaxie/atof.h: atof", "include/floaxie/krosh.h: krosh"]}
{"id": "C57", "title": "Longest text", "statement": "No value is printed with more than 24 (double) / 19 (float) characters, and texts of that length occur; so a buffer of 25 / 20 characters is enough for every value and no smaller one is.", "quantifier": "all bit patterns", "why_tests_cant": "2^64 values", "anchors": ["include/floaxie/ftoa.h: ftoa, max_buffer_size", "include/floaxie/grisu.h: max_digits"]}
{"id": "C58", "title": "Sequences of numbers in one buffer", "statement": "Any number of values (infinities, plus zero, finite values other than the powers of two listed in C22) written one after another with ftoa, advancing by the returned length and putting a separator after each, into a buffer with max_buffer_size characters per value, are read back in order with atof, advancing to the returned end pointer, bit for bit and each with status success, if a consulted fallback is correct. Memory before the start is untouched.", "quantifier": "all lists of values of any length, all separators other than a digit, point, e, E, i, I; all buffers and offsets", "why_tests_cant": "histories of unbounded length over 2^64 values", "anchors": ["include/floaxie/ftoa.h: ftoa", "include/floaxie/atof.h: atof"]}
{"id": "C59", "title": "Numerals of any length near a value", "statement": "A numeral of any length that is relatively within 2^-(p+2) of a finite non-zero value that is not a power of two is read as that value with status success, without consulting the fallback (for float if at least 1e-42). This covers full decimal expansions and values printed elsewhere with at least 18 (double) / 9 (float) correctly rounded digits. For powers of two it is refuted: the 50 digits of 2^163 are read as 2^162.", "quantifier": "all numerals with any number of digits within the 2 KB limit, all strings containing them, all fallbacks, both types", "why_tests_cant": "infinitely many numerals around each of 2^64 values", "anchors": ["include/floaxie/krosh.h: krosh, parse_digits, parse_mantissa", "include/floaxie/diy_fp.h: downsample"]}
{"id": "C60", "title": "Texts of a double read as float", "statement": "A numeral that stands for a double (nearest to it) whose value is a float value, not a power of two and at least 1e-41 in magnitude, is read by atof<float> as that float, without fallback; in particular what ftoa prints for a widened float. Refuted outside: 2^100 printed as double is read by atof<float> as 2^99, the least float printed as double is read as zero.", "quantifier": "all pairs of float and double of equal value, all numerals standing for the double", "why_tests_cant": "2^32 values times all texts", "anchors": ["include/floaxie/atof.h: atof", "include/floaxie/krosh.h: krosh", "include/floaxie/ftoa.h: ftoa"]}
{"id": "C61", "title": "Texts of a float read as double", "statement": "The text ftoa prints for a finite non-zero float, read as the nearest double (by any correctly rounding reader) and then narrowed to float, gives that float bit for bit, in any round-to-nearest mode. With atof<double> as the reader: status success, the text is consumed, the double is the correctly rounded one (no lost carry), and narrowing it gives the float - also for the powers of two atof<float> misreads.", "quantifier": "all finite non-zero float bit patterns, all surrounding memory, all fallbacks that are correct when asked", "why_tests_cant": "double rounding fails only within 2^-53 of a midpoint; 2^32 values, all memories and fallbacks", "anchors": ["include/floaxie/ftoa.h: ftoa", "include/floaxie/grisu.h: grisu2", "include/floaxie/atof.h: atof", "include/floaxie/krosh.h: krosh"]}
{"id": "C62", "title": "Exponent parts of any size", "statement": "A non-zero number followed by an exponent part of any size (other than those of C31 that index a table out of range) is read as if the exponent were its first nine digits padded with zeros, reduced to 32 bits; the call is undefined (signed overflow) exactly if negating that or adding it to the place of the last digit kept leaves the range of int. Up to 10^9 this is the exponent written, and from 10^4 on gives infinity/overflow or zero/underflow. The ideal claim for larger exponents is refuted: 1e4294967301 is read as 10^4 with status success, 1e2147483650 underflows to zero.", "quantifier": "all NUL-terminated strings with an exponent part of any length, both types, all fallbacks", "why_tests_cant": "unbounded exponents", "anchors": ["include/floaxie/krosh.h: parse_exponent, krosh", "include/floaxie/static_pow.h: seq_pow"]}
{"id": "C63", "title": "Value and status agree", "statement": "Whenever atof returns without consulting the fallback, whatever the input, the value is a bit pattern of the target type, errno is untouched, status overflow is only reported with plus or minus infinity and status underflow only with plus or minus zero. When the fallback was consulted, value, end pointer and errno are exactly those it produced, and the status is success unless errno then equals ERANGE, in which case it is overflow for a non-zero value and underflow for zero.", "quantifier": "every input in memory, every prior errno, every fallback behaviour, both types", "why_tests_cant": "the agreement must hold on every path through the parser for every text, not only the tested ones", "anchors": ["include/floaxie/atof.h: atof", "include/floaxie/krosh.h: krosh", "include/floaxie/diy_fp.h: downsample", "include/floaxie/default_fallback.h: check_errno"]}
{"id": "C64", "title": "JSON numbers", "statement": "The text ftoa prints is a number of the JSON grammar (RFC 8259) if and only if the value is finite. Every JSON number of at most 2049 characters with an exponent below 10^4, followed by white space, comma, closing bracket or the end, is read by atof without undefined behaviour and consumed exactly (unless the fallback is asked) - except that of a zero with an exponent part the exponent part is left.", "quantifier": "every value of both types; every JSON number text, position, memory and fallback", "why_tests_cant": "all values and all texts of the grammar", "anchors": ["include/floaxie/ftoa.h: ftoa", "include/floaxie/prettify.h: prettify", "include/floaxie/krosh.h: parse_digits, parse_exponent"]}
{"id": "C65", "title": "The printed number is the greatest of its length", "statement": "For every finite value other than zero (subnormal ones included) the printed decimal lies strictly inside the rounding interval and is at least as great as every decimal with its last place, or a higher one, that keeps a distance from its upper end of 1/63 (float) or 1/511 (double) of the distance to the next larger value: the last printed digit can never be increased without coming that near to the end or leaving the interval. It is not always the one nearest to the value: the largest double prints as 1.7976931348623158e308 although 1.7976931348623157e308 is nearer.", "quantifier": "every finite non-zero value of both types; all decimals with that last place", "why_tests_cant": "all values", "anchors": ["include/floaxie/grisu.h: digit_gen_select::gen, grisu2"]}
{"id": "C66", "title": "Printing does not depend on the floating point environment", "statement": "The text ftoa and to_string produce, and the buffer ftoa leaves, are the same for every way an implementation may evaluate the one floating point expression in the printer (wider intermediate types, fused multiply-add, any rounding mode) as long as each operation has a relative error of at most 2^-24 (the mode that takes subnormal operands as zeros is C95); the decimal scaling exponent is exactly the ceiling of (alpha-e-1)*log10(2) for every finite non-zero value.", "quantifier": "all values of both types, all buffers, all evaluations of the expression within the error bound", "why_tests_cant": "tests run on one platform; the claim is about all evaluation methods", "anchors": ["include/floaxie/k_comp.h: k_comp_exp, lg_2", "include/floaxie/grisu.h: grisu2", "include/floaxie/ftoa.h: ftoa"]}
{"id": "C67", "title": "Parsing and the global locale", "statement": "Whatever global locale the program has set (one that leaves NUL alone), atof on a NUL-terminated string fails exactly when it does in the \"C\" locale and otherwise gives the same value, status, errno and use of the fallback; the end pointer can differ only for words (nan, infinity) and stays inside the string. Nothing changes for strings without the letters n and i, or in locales treating the letters a-z as usual. That the locale has no influence at all is refuted: where tolower of I is not i only the first three letters of INFINITY are consumed.", "quantifier": "all locales, strings, positions, memories, fallbacks, both types", "why_tests_cant": "tests run in one locale", "anchors": ["include/floaxie/krosh.h: eat_nan, eat_inf, parse_digits", "include/floaxie/atof.h: atof"]}
{"id": "C68", "title": "Calls from several threads", "statement": "Any number of ftoa and atof calls run at the same time, in any interleaving of their character accesses, on objects of their own (strings that are only parsed may be shared) do not disturb each other: there is never a data race or an access outside the own object, no call gets stuck, every schedule ends after the same number of accesses, each call returns what it would have returned alone and leaves its object as it would have left it alone, and nothing outside the output buffers changes. Two calls printing into one buffer do race.", "quantifier": "any number of calls, all values, strings, memories and placements, every schedule", "why_tests_cant": "schedules", "anchors": ["include/floaxie/ftoa.h: ftoa", "include/floaxie/atof.h: atof", "include/floaxie/krosh.h: krosh", "include/floaxie/grisu.h: grisu2", "include/floaxie/prettify.h: prettify", "include/floaxie/memwrap.h"]}
{"id": "C69", "title": "How many characters are read and written", "statement": "A call of ftoa that prints n characters makes at most 3n+2 accesses to the buffer (fewer than three times max_buffer_size for every value). A call of atof on a string of n characters reads at most n+20 characters besides what the fallback reads, even where it runs into undefined behaviour, and at most 4111 if the string contains no opening parenthesis, however long the string is. That the limit of 2048 characters bounds the work for all strings is refuted: of a NaN payload in parentheses every character is read.", "quantifier": "all values, buffers, evaluation methods; all strings, locales that keep NUL, fallbacks", "why_tests_cant": "all strings of every length; the bound is on the number of steps, not on a result", "anchors": ["include/floaxie/ftoa.h: ftoa", "include/floaxie/prettify.h: prettify", "include/floaxie/krosh.h: parse_digits, parse_exponent, eat_nan, maximum_offset", "include/floaxie/atof.h: atof"]}
{"id": "C70", "title": "Saving and loading again and again", "statement": "A value is printed, the text read, the result printed, and so on, any number of times. Every value can go through this for ever. NaN, infinities and zeros settle at once (NaN becomes the positive quiet NaN without payload, minus zero becomes zero). A finite value other than zero stays what it is, unless it is a power of two: those of C22 are halved, and may be halved again the next time, but never more than 5 times (float) or 9 times (double) in all; after that many cycles nothing changes any more. The drift is real: 2^856 (double) is 2^847 after nine cycles, 2^-50 (float) is 2^-55 after five.", "quantifier": "all values of both types, any number of cycles, all placements in memory, fallbacks that read correctly", "why_tests_cant": "histories of unbounded length over all values", "anchors": ["include/floaxie/ftoa.h: ftoa", "include/floaxie/atof.h: atof", "include/floaxie/diy_fp.h: downsample", "include/floaxie/grisu.h: grisu2"]}
{"id": "C71", "title": "The default fallback", "statement": "With the C library function ISO C prescribes as fallback (strtof, strtod, wcstof, wcstod; correctly rounding) and a locale whose decimal point is the full stop: whenever atof asks it, the text starts with a decimal number other than zero, and the result is the longest decimal number at the start, correctly rounded however many digits it has (infinity and overflow if it is too large), with the end pointer behind it and status success if errno was not ERANGE and the number is in the normal range; numbers of at most 19/9 significant digits are read correctly rounded (or with the lost carry of C21) and consumed exactly without any further assumption; what ftoa printed comes back (C22). In every locale the end pointer stays inside the string. Where the decimal point is another character, everything from the point on is ignored whenever the fallback is asked: 562949953421313.9375 is read as 562949953421313 if the decimal point is a comma. The claim that the status is right is refuted: where the library sets ERANGE for subnormal results (ISO C allows it), 101739e-313 is reported as overflow.", "quantifier": "all NUL-terminated strings, all values, all conforming libraries and locales, both types, all prior errno", "why_tests_cant": "all strings and all conforming libraries", "anchors": ["include/floaxie/default_fallback.h: default_fallback, check_errno", "include/floaxie/atof.h: atof", "include/floaxie/krosh.h: krosh"]}
{"id": "C72", "title": "The text that was consumed, alone", "statement": "Whatever string is read - a number, a word, something malformed - unless the fallback is asked or the limit of 2048 characters is reached: the text between the start and the reported end, passed alone to from_string, gives the same value and status, without asking the fallback, and is consumed completely. At the limit this is refuted: of 2049 zeros followed by 5e3 the zeros are consumed and the value is 5, alone they give 0.", "quantifier": "all NUL-terminated strings at any place in memory, both types, all fallbacks, all prior errno", "why_tests_cant": "all strings; pairs of runs", "anchors": ["include/floaxie/krosh.h: parse_digits, eat_nan, eat_inf, extract_fraction_digits, parse_exponent, krosh", "include/floaxie/atof.h: atof, from_string"]}
{"id": "C73", "title": "Dynamic memory", "statement": "Whatever the text, the locale and the fallback, a call of atof requests one block of 19 (double) or 9 (float) bytes from the heap, or that and - after it was given back - one block of 9 bytes; the latter, for a numeral, exactly if it is not zero and has an exponent part. The blocks are never enlarged, everything is given back, and never more than one block is in use. If all requests are granted the result does not depend on the heap; if one is refused the program is terminated (the functions are noexcept), never continued with a wrong result.", "quantifier": "all texts in memory, locales, fallbacks, both types; all heaps, i.e. all ways of granting or refusing requests depending on the history", "why_tests_cant": "all strings; allocation failures at every point", "anchors": ["include/floaxie/krosh.h: parse_digits (parsed_digits), parse_exponent, krosh", "include/floaxie/atof.h: atof"]}
{"id": "C74", "title": "Amounts with few decimals survive", "statement": "A number of at most 15 digits (double) or 6 digits (float), at most 3 or 2 of them after the decimal point, in whatever spelling, is read as the nearest value, with status success and without the fallback being called, however it would answer. For what was read ftoa prints a number of exactly the same value - and the same characters, if they were in the usual spelling (no plus sign, no superfluous zeros, no exponent). With one more place this fails: 35918967393.6236 (double) is printed as 35918967393.623599, 619.931 (float) as 619.93106.", "quantifier": "all amounts and their spellings at any place in memory, both types, all fallbacks, all prior errno", "why_tests_cant": "10^15 amounts and all fallbacks", "anchors": ["include/floaxie/atof.h: atof", "include/floaxie/ftoa.h: ftoa", "include/floaxie/krosh.h: krosh", "include/floaxie/grisu.h: grisu2", "include/floaxie/prettify.h: prettify"]}
{"id": "C75", "title": "Whole numbers: a complete account", "statement": "A numeral, however spelled, whose magnitude is a whole number M of at most 19 (double) / 9 (float) digits, or such a number followed by a few zeros: atof asks the fallback if and only if M is exactly half way between two adjacent values of the type; if M is just below a power of two (so that it should be rounded up to it) atof returns half that power, with the right sign and status success; in every other case it returns the correctly rounded value. In the last two cases it consumes exactly the numeral, reports success and leaves errno alone. The three cases exclude each other and are described by the binary digits of M alone.", "quantifier": "all whole numbers below 10^19 / 10^9 (and longer ones with trailing zeros), all spellings, memories, fallbacks and prior errno, both types", "why_tests_cant": "10^19 numbers and all spellings and fallbacks", "anchors": ["include/floaxie/atof.h: atof", "include/floaxie/krosh.h: krosh", "include/floaxie/diy_fp.h: downsample"]}
{"id": "C76", "title": "Late digits are ignored", "statement": "Of a numeral with more than 19 (double) / 9 (float) significant digits only the first 23 / 13 significant digits count, and if the decimal point comes after the 20th (10th) significant digit or later, only those of them before the point. Changing, adding or removing later digits after the point (keeping the number of digits before the point, the sign and the value of the exponent, and keeping a non-zero digit after the 19th / 9th) changes neither the value, nor the status, nor whether the fallback is asked.", "quantifier": "all pairs of numerals with these common digits, all memories, fallbacks and prior errno", "why_tests_cant": "relates infinitely many pairs of inputs of unbounded length", "anchors": ["include/floaxie/krosh.h: parse_digits, extract_fraction_digits, parse_mantissa", "include/floaxie/fraction.h: convert_numerator"]}
{"id": "C77", "title": "Order of numerals of any length: off by at most one step", "statement": "Two numerals with any number of digits and any spelling, in the finite range (float: not below 10^-42), not just below a power of two, the fallback (if asked) correct: if the first is at most the second, but is read as a larger value, then the two values are adjacent (no finite value lies between them). The order is kept if a finite value lies between the two numbers (or is one of them), and if the numbers differ by more than relatively 17/2^64 (double) / 25/2^32 (float). (C50 shows that a reversal by one step does happen.)", "quantifier": "all pairs of numerals of any length, all spellings, memories, fallbacks and prior errno, both types", "why_tests_cant": "relates infinitely many pairs of inputs of unbounded length; reversals occur only within 2^-57 (2^-27) of a midpoint", "anchors": ["include/floaxie/atof.h: atof", "include/floaxie/krosh.h: parse_digits, parse_mantissa, krosh"]}
{"id": "C78", "title": "Distance of the printed number from the value", "statement": "For every finite value other than zero, the number ftoa prints is less than 0.6 (double: 0.52) units of its last printed digit below the magnitude of the value. If that magnitude is at least 2^32 (float: 2^16) times the least positive value (every normal number and every larger subnormal one), or the text has more than 10 (float: 5) significant digits, it is less than 4.6 units above it (6.2 if the value is a normal power of two). The bounds are nearly attained (4.5, 5.88, 0.49 units), so the text is in general not the correctly rounded one of its length; for the smallest subnormal numbers the distance can exceed 10^8 units.", "quantifier": "all finite non-zero values of both types", "why_tests_cant": "2^64 values; the extreme distances occur at isolated values", "anchors": ["include/floaxie/grisu.h: grisu2, digit_gen", "include/floaxie/ftoa.h: ftoa"]}
{"id": "C79", "title": "Values that are short decimals", "statement": "A finite value that is exactly a decimal number of at most 15 (double) / 6 (float) significant digits (0.5, 0.375, 1024, 1e9, ...) is printed as a numeral of exactly that value, and every numeral of exactly that value, however spelled, is read as it with status success, to the end of the numeral and without the fallback; powers of two included.", "quantifier": "all such values of both types, all spellings of numerals of that value at any place of any memory, all fallbacks and errno values", "why_tests_cant": "there are some 10^16 such values and each has unboundedly many spellings", "anchors": ["include/floaxie/ftoa.h: ftoa", "include/floaxie/atof.h: atof", "include/floaxie/krosh.h: krosh", "include/floaxie/grisu.h: grisu2"]}
{"id": "C80", "title": "Parameters of the printing algorithm", "statement": "grisu2 may be instantiated with other values of its template parameters alpha and gamma. For every pair that compiles with alpha >= -60 (double) / -28 (float) and, for double, alpha <= -35, grisu2 on every finite non-zero value completes, writes at most 17/9 digits (first and last not zero) at the given place and nothing else, and digits and exponent identify the magnitude of the value. Outside that range there are pairs that pass the static assertions and give wrong digits (3.8 becomes 3.0, 464 becomes 34.5, 58 becomes 50). For the same pairs the cached power chosen brings the exponent of the upper boundary between alpha and gamma, as the message of the static assertion promises; a window of one exponent less is rejected and would not suffice.", "quantifier": "all accepted pairs of template arguments in the range, all finite non-zero values of both types, all buffers and places in them", "why_tests_cant": "tests instantiate the one pair ftoa uses; here 39 instantiations times 2^64 values are covered", "anchors": ["include/floaxie/grisu.h: grisu2, digit_gen, digit_gen_select, grisu_parameters", "include/floaxie/k_comp.h: k_comp_exp"]}
{"id": "C81", "title": "Numbers of one decimal digit", "statement": "Let x = +-d*10^j, 1 <= d <= 9, round (to nearest even) to a normal value b above the least normal one. ftoa and to_string print b as a numeral of exactly the value x, that is with the one significant digit d, except for 8 numbers of float (1e-22, 2e-22, 3e-23, 5e-23, 6e-23, 9e9, 3e10, 6e10) and 12 of double (1e23, 2e23, 4e23, 8e23, 5e22, 7e22, 1e126, 2e126, 4e126, 8e126, 5e125, 9e-265), up to sign, which are printed longer, such as 1e23 as 9.999999999999999e22.", "quantifier": "all digits 1..9, all integer exponents, both signs, both types", "why_tests_cant": "the claim is that the list of exceptions is complete over the whole exponent range of both types; a test shows only that chosen numbers print short", "anchors": ["include/floaxie/grisu.h:grisu2", "include/floaxie/grisu.h:digit_gen", "include/floaxie/ftoa.h:ftoa"]}
{"id": "C82", "title": "In place of strtod", "statement": "Decimal point \".\", default fallback. On a numeral of at most 19/9 significant digits (double/float; for float the last place not below 10^-50) between the smallest subnormal and the overflow threshold that does not round up to a power of two, atof returns the same bits and end pointer as any strtod/strtof conforming to ISO C, and the same errno in the normal range; on NaN and infinity words the same end pointer, errno and infinity (a NaN for a NaN); on zeros without exponent part not followed by x the same signed zero, end pointer and errno. They differ on texts without a number (strtod does not move the end pointer, atof skips a sign, point or letter and returns -0 for a minus sign), on leading white space (skipped by strtod, ends atof), on zeros with an exponent part (the same signed zero, but atof stops in front of the exponent part) and on hexadecimal numbers (atof returns a signed zero and stops behind the 0). Out of range, for any number of digits: from 2^159/2^1087 on both give infinity with the same end (the same infinity, but for a minus sign atof loses from 10^51/10^344 on), strtod with errno ERANGE, atof with its status; below half the least positive value both give zero with the same end (the same zero, but for a minus sign atof loses below 10^-42/10^-325). They differ between the largest finite value and 2^maxExp and again from 2^(maxExp+1) on up to 2^159/2^1087, where strtod gives infinity but atof (unless it asks the fallback) a finite value, and between half the least positive value and it, where strtod gives the least positive value but atof zero.", "quantifier": "all such texts at any place of any memory, every result the C standard allows for strtod, every locale with that decimal point, both types, all errno values", "why_tests_cant": "it compares two functions over all texts, and over every implementation of the C library the standard permits", "anchors": ["include/floaxie/atof.h: atof", "include/floaxie/default_fallback.h: default_fallback", "include/floaxie/krosh.h: krosh, parse_digits, parse_mantissa"]}
{"id": "C83", "title": "Width of std::size_t", "statement": "atof, from_string, ftoa and to_string have the same outcome on platforms with a std::size_t of 32, 64 or any larger number of bits, for every input, memory and buffer (objects shorter than half the address space), although the code computes differences of std::size_t counters modulo 2^width and converts them to int and back.", "quantifier": "all widths from 32 bits on, all memories, positions, locales, fallbacks, errno values; all values and buffers of both types", "why_tests_cant": "tests run on one platform; a counter difference that is negative wraps modulo 2^width", "anchors": ["include/floaxie/krosh.h: parse_digits, parse_mantissa, parse_exponent", "include/floaxie/prettify.h: prettify", "include/floaxie/ftoa.h: ftoa", "include/floaxie/atof.h: atof"]}
{"id": "C84", "title": "Dynamic memory of to_string", "statement": "Whatever the standard library does where it has a choice (how many characters fit into a string object, how much spare memory it requests, whether shrink_to_fit does anything and whether it throws) and whichever requests the heap refuses: to_string either returns a string with exactly the text of ftoa, with room for it, and the only memory still in use is that string's, given back when it is destroyed; or it throws std::bad_alloc because a request was refused, and has given everything back. There are at most two requests, none if max_buffer_size characters fit into the object, and only the first can lead to the exception if shrink_to_fit does not throw.", "quantifier": "all values of both types, all lawful implementations of std::basic_string, all heaps (ways of granting or refusing requests depending on the history)", "why_tests_cant": "tests see one library and a heap that never refuses", "anchors": ["include/floaxie/ftoa.h: to_basic_string, to_string, to_wstring"]}
{"id": "C85", "title": "Which characters matter", "statement": "To atof (in the \"C\" locale) all characters other than digits, letters, point, plus, minus, underscore and parentheses are alike: replacing any of them, anywhere in memory, by any other of them (NUL, white space, other punctuation, bytes of UTF-8) changes neither value, status, end pointer nor whether the call is defined, unless the fallback makes a difference. Each of the others matters in some text. In any other global locale the same holds if the characters that std::tolower takes to the letters a to z are added to those that matter; there they can matter indeed.", "quantifier": "all memories, positions, replacements of any number of characters, locales, fallbacks, errno values, both types; all characters", "why_tests_cant": "it compares calls on all pairs of texts", "anchors": ["include/floaxie/krosh.h: parse_digits, eat_nan, eat_inf, extract_fraction_digits, parse_exponent", "include/floaxie/atof.h: atof"]}
{"id": "C86", "title": "Integer arithmetic", "statement": "No call of ftoa with a buffer of the documented size has a signed integer overflow (or other undefined behaviour) in any int computation, of binary and decimal exponents, lengths and positions, and no reduction of an unsigned computation modulo 2^32 or of size_t modulo its width changes the text. A call of atof on a terminated string has a signed overflow or other undefined behaviour only for the two kinds of exponent parts of C31 (too many digits for the table of powers; 10^9 or more).", "quantifier": "all values of both types, buffers of at least the documented size, floating point evaluations within the error bound; all terminated strings at any place of a memory, fallbacks, errno values; all widths of size_t from 32 bits on", "why_tests_cant": "every value and string, and every intermediate result on the way", "anchors": ["include/floaxie/diy_fp.h: diy_fp, normalize, boundaries, downsample, operator*", "include/floaxie/grisu.h: grisu2, digit_gen", "include/floaxie/k_comp.h: k_comp_exp", "include/floaxie/krosh.h: krosh, parse_mantissa, parse_exponent, parse_digits", "include/floaxie/prettify.h: prettify", "include/floaxie/ftoa.h: ftoa"]}
{"id": "C87", "title": "Character types", "statement": "Whether char is signed or unsigned and whether wchar_t has 16 or 32 bits, signed or unsigned, makes no difference: atof gives for the same bit patterns the same value, status, end pointer and the same undefined behaviour, in every locale whose tolower treats corresponding characters alike (the C locale does), and every character ftoa prints is an ASCII character, the same value in every character type. The one exception: with a signed 32-bit wchar_t a character below INT_MIN+48 (no character at all) behind more digits than fit makes an int difference overflow.", "quantifier": "all character types of 8, 16, 32 bits, all memories, positions, locales, fallbacks, errno values, both types; all values printed", "why_tests_cant": "tests run on a platform with one signedness, and with few of the texts", "anchors": ["include/floaxie/krosh.h: parse_digits, extract_fraction_digits, eat_nan, eat_inf, parse_exponent", "include/floaxie/atof.h: atof", "include/floaxie/ftoa.h: ftoa"]}
{"id": "C88", "title": "Release builds", "statement": "Compiled with NDEBUG (assertions removed) the library does the same as the debug build: ftoa into a buffer with room for the text and to_string, for every value and evaluation method; atof and from_string on every terminated string, in every locale that leaves NUL alone, with every fallback - the same value, status, end pointer, errno, and the same undefined behaviour in the cases of C31. No assertion ever fails in these calls. Below the interface it is refuted: diy_fp subtraction with a smaller minuend or unequal exponents, normalization of zero, cached_power below its table, round_up to zero bits and raised_bit beyond the word stop the debug build, while the release build wraps around, ignores the exponent, does not terminate, reads outside the table or shifts by too much.", "quantifier": "all values, buffers, evaluation methods; all terminated strings, locales, fallbacks; all misuses of the listed helpers", "why_tests_cant": "the test suite runs one build type; that no assertion guards a reachable state is a statement about all inputs", "anchors": ["include/floaxie/diy_fp.h: downsample, normalize, operator-=, is_normalized, normalize_from_ieee754", "include/floaxie/bit_ops.h: raised_bit, round_up", "include/floaxie/cached_power.h: cached_power", "include/floaxie/grisu.h: digit_gen_select::gen", "include/floaxie/krosh.h: parse_mantissa"]}
{"id": "C89", "title": "Any C library reads the text back", "statement": "The text ftoa prints for any value, read by strtof / strtod / wcstof / wcstod of any C library (conforming to ISO C and rounding correctly) in a locale whose decimal point is '.', with anything behind the terminator: the whole text is consumed; a NaN is read as a NaN, negative zero as zero and every other value - infinities and subnormal numbers included, and the powers of two that atof halves - bit for bit; errno is left alone, except that ERANGE may be set for subnormal values other than zero. In a locale with a decimal comma this fails: 1.5 is read as 1, and one character is consumed.", "quantifier": "all values (bit patterns), conforming functions and their permitted results, locales with decimal point, errno before the call, memory behind the text", "why_tests_cant": "ranges over all bit patterns and over every C library; tests run with one library", "anchors": ["include/floaxie/ftoa.h: ftoa", "include/floaxie/grisu.h", "include/floaxie/prettify.h", "include/floaxie/default_fallback.h", "README.md"]}
{"id": "C90", "title": "How often the text is the shortest", "statement": "README.md says Grisu2 'guarantees the best possible efficiency of more, than 99%'. Of all finite values of float (of either sign, subnormal values included) less than 0.9%, of double less than 0.12%, are printed with more significant digits than the fewest any decimal number rounding (to nearest, ties to even) to the value has. The share is not zero: for some values the text is longer than necessary.", "quantifier": "the set of all finite values of a type (2^32 - 2^24, 2^64 - 2^53 bit patterns), and, for each of them, all decimal numbers", "why_tests_cant": "a share of 2^64 values: tests can only estimate it from a sample", "anchors": ["README.md", "include/floaxie/grisu.h: grisu2, digit_gen_select::gen", "include/floaxie/diy_fp.h: boundaries"]}
{"id": "C91", "title": "How often the fallback is asked", "statement": "The slower fallback conversion is the exception: for every decimal exponent k such that all numbers of exactly 17 (double) / 9 (float) significant digits and last place 10^k are in the normal range, less than 0.11% / 0.88% of these numbers are not read by atof alone (same value, status success, end pointer behind the numeral and errno untouched whatever the fallback would do), in whatever spelling and at whatever place of memory they stand. Exceptions are the last places around the decimal point, where many numbers lie half way between two values: less than 6.18% for k = -1, 1, 2, 3 and 18.23% for k = 0 (double), less than 3.5% for k = -2, -1, 0 (float). Some numbers do need the fallback.", "quantifier": "all decimal exponents of the normal range, the set of all 81*10^15 / 81*10^7 significands of full length, all their spellings and places, all fallbacks and errno values", "why_tests_cant": "a share of 8.1*10^16 numerals for each of 615 exponents: tests can only estimate it from a sample", "anchors": ["README.md", "include/floaxie/krosh.h: krosh", "include/floaxie/diy_fp.h: downsample, operator*", "include/floaxie/bit_ops.h: round_up", "include/floaxie/atof.h: atof"]}
{"id": "C92", "title": "How many short decimals survive", "statement": "digits10 works for nearly all numbers: for every decimal exponent k such that all numbers of 15 (double) / 6 (float) digits and last place 10^k are in the normal range, less than 0.53% / 4.26% of these numbers have a spelling that is not read by atof alone (same value, status success, end behind the numeral, errno untouched whatever the fallback would do) as a value which ftoa prints as the very same number. Around the decimal point the bound is larger: double 27.78% for k = 2, 13.4% for 3, 2.69% for 4, 0.65% for k from -6 to 5 otherwise; float 21.35% for k = 3, 18.28% for 2, 8.01% for -2, 5.42% for -3 and 4. Some of the numbers do not survive.", "quantifier": "all decimal exponents of the normal range, the set of all 9*10^14 / 9*10^5 significands, all their spellings and places in memory, all fallbacks and errno values", "why_tests_cant": "a share of 9*10^14 numerals for each of 601 exponents: tests can only estimate it from a sample", "anchors": ["include/floaxie/krosh.h: krosh", "include/floaxie/grisu.h: grisu2", "include/floaxie/grisu.h: digit_gen, digit_gen_select", "include/floaxie/atof.h: atof", "include/floaxie/ftoa.h: ftoa"]}
{"id": "C93", "title": "Long numerals away from the middles; narrowing through text", "statement": "A numeral of any length in the range of the type (float: not below 10^-42) that keeps a relative distance of 17/2^64 (double) / 25/2^32 (float) from every number half way between two adjacent values and from the overflow threshold is read by atof without the fallback as the correctly rounded value, with status success and the end pointer behind it - unless that value is a power of two which the number does not exceed by as much. So what ftoa prints for a double d (or any numeral that stands for d), of at least 10^-41, read by atof<float>, is d rounded to float, unless d is relatively within 26/2^32 of a middle between two floats or just at or below a power of two; and whenever it is in the range of float it is one of the two floats next to d (lost carry excepted). The ideal claim (always d rounded to float) is refuted: 7.5427024364.", "quantifier": "all numerals of any length at that distance, all doubles in the range of float, all spellings, memories, fallbacks and errno values", "why_tests_cant": "infinitely many numerals; 2^62 doubles", "anchors": ["include/floaxie/krosh.h: parse_digits, krosh", "include/floaxie/fraction.h: convert_numerator", "include/floaxie/diy_fp.h: downsample", "include/floaxie/ftoa.h: ftoa", "include/floaxie/atof.h: atof"]}
{"id": "C94", "title": "A line of numbers from elsewhere", "statement": "Numerals written by anybody one after another, each followed by a separator (a character other than digits, point, e, E, i and I), anywhere in memory and with anything around: the loop that calls atof and goes on behind the character after the reported end gets for every one of them, in order, the value and status from_string gives for that numeral alone, provided these calls consume it completely and do not ask the fallback; errno is left alone. If the list consists of zeros without exponent, numbers of at most 19 (float: 9) significant digits in range that do not round up to a power of two, and words for NaN and infinity with optional signs, with separators that occur in neither (no letter, digit, underscore, point, parenthesis), each is read as the datum it stands for (the correctly rounded number, the zero of its sign, a quiet NaN, the infinity) with status success, if the fallback reads correctly; any fallback that does what ISO C demands of strtod will do when the numbers are in the normal range and errno is not ERANGE at the start. A character that can extend a number does not separate.", "quantifier": "all lists of numerals and words of any length, all separators, all surrounding memory, all fallbacks and errno values", "why_tests_cant": "lists of any length of arbitrary numerals in arbitrary surroundings", "anchors": ["include/floaxie/atof.h: atof, from_string", "include/floaxie/krosh.h: parse_digits, parse_exponent"]}
{"id": "C95", "title": "Processors that flush subnormal numbers", "statement": "In the mode in which floating point operations take subnormal operands as zeros (denormals-are-zero), every value that is not subnormal is printed as without the mode, with the same buffer and length; every subnormal number of either sign is printed as \"0\" (so the claim that printing does not depend on the mode is refuted). atof gives the same value, end pointer and errno, and the same status except where the fallback is asked, sets errno to ERANGE and returns a subnormal number: that is reported as underflow instead of overflow.", "quantifier": "all values of both types, all buffers; all texts in memory, locales, fallbacks and prior errno values", "why_tests_cant": "all values and strings; tests run in one processor mode", "anchors": ["include/floaxie/ftoa.h: ftoa, to_string", "include/floaxie/default_fallback.h: check_errno", "include/floaxie/atof.h: atof"]}
{"id": "C96", "title": "Reading as double and narrowing", "statement": "A numeral of at most 19 significant digits in the range of float that is read by atof<double> and converted to float (round to nearest even) gives the float nearest to the number, unless the double lies exactly half way between two adjacent floats (or is the threshold to overflow); if it has at most 9 significant digits (last place not below 10^-50) this is what atof<float> gives, with the same status and end pointer. Fallbacks, if asked, must read correctly, and the number must not round up to a power of two. Without the exception it is refuted: 967498269e-19 is read as a double half way between two floats, which is converted to a float that is not the nearest one.", "quantifier": "all numerals of at most 19 (9) significant digits in the range, at any place in memory, all correct fallbacks and errno values", "why_tests_cant": "all numerals; the exceptions are a few in 10^9", "anchors": ["include/floaxie/atof.h: atof", "include/floaxie/krosh.h: krosh", "include/floaxie/diy_fp.h: downsample"]}
{"id": "C97", "title": "No result depends on an uninitialised object", "statement": "Neither parsing nor printing ever uses the value of an object before it has been given one, whatever the input: results are determined by the input alone, provided the compiler constructs the result of the mantissa parser in place (copy elision, which every compiler does and the language permits but does not require). Without that, atof copies indeterminate integers for exactly those strings that start with a word for NaN or infinity, and for no other.", "quantifier": "all bit patterns and buffers; all memories, locales, fallbacks, errno values, both types; every choice of which of the five structure returns are elided", "why_tests_cant": "uninitialised members normally hold harmless values, so tests pass whether or not they are used; which members are set depends on the path through the code, over all inputs", "anchors": ["include/floaxie/krosh.h: mantissa_parse_result, parse_mantissa, parse_exponent, krosh", "include/floaxie/diy_fp.h: downsample, diy_fp()", "include/floaxie/bit_ops.h: round_up", "include/floaxie/ftoa.h: ftoa (len, K)", "include/floaxie/grisu.h: grisu2, digit_gen"]}
{"id": "C98", "title": "Writing a diy_fp to a stream in any state", "statement": "Whatever the format flags, width, fill character and digit grouping of the stream's locale: if its buffer refuses nothing, operator<< for diy_fp writes (f = F, e = E) with the mantissa in binary (the flags do not matter to it) and the exponent as the flags say (decimal, or octal / hexadecimal modulo 2^32; sign, base prefix and capitals as asked for, the digits in groups from the right of the sizes the locale gives, with its separator between them), the padding up to the width being put before or after the first five characters; the width is zero afterwards, the format unchanged; in every format the text determines mantissa and exponent. If the buffer refuses a character, the characters written are the beginning of that text up to there and the stream is not good; on a stream that is not good nothing happens. That the width applies to the whole text is refuted.", "quantifier": "all diy_fp values, formats, widths, fill characters, digit groupings and separators, stream states and buffers (any way of accepting or refusing characters depending on those taken before)", "why_tests_cant": "unboundedly many widths and buffer behaviours, all values", "anchors": ["include/floaxie/diy_fp.h: operator<<", "include/floaxie/print.h: print_binary"]}
{"id": "C99", "title": "Reading numbers of one decimal digit", "statement": "Let a numeral of the documented grammar (within the 2 KB limit), however written, stand for +-d*10^j with 1 <= d <= 9, in magnitude at least the least subnormal value and below the overflow limit. atof reads it itself, correctly rounded, with status success, consuming all of it - no carry is lost (C21) - except for 3 numbers of float (9e9, 3e10, 6e10) and 13 of double (1e23, 2e23, 4e23, 8e23, 5e22, 7e22, 1e126, 2e126, 4e126, 8e126, 5e125, 5e209, 9e-265), up to sign, for which it always asks the fallback; the last seven of double are no ties. If the value read without fallback is normal and above the least normal value, it is printed as a numeral of the same value (for float not 1e-22, 2e-22, 3e-23, 5e-23, 6e-23, see C81).", "quantifier": "all digits 1..9, all exponents in range, both signs, all spellings, all surroundings in memory, fallbacks and errno values, both types", "why_tests_cant": "a number of one digit has unboundedly many spellings; that the exceptions are all has to be shown for every exponent", "anchors": ["include/floaxie/atof.h: atof", "include/floaxie/krosh.h: krosh", "include/floaxie/diy_fp.h: operator*=, downsample", "include/floaxie/cached_power.h: cached_power"]}
{"id": "C100", "title": "The global locale changing during a call", "statement": "If other threads set another global locale while atof is running - any number of times, at any moment, to any locales that leave NUL alone -, atof on a NUL-terminated string still fails exactly when it does in an unchanging \"C\" locale, and otherwise gives the same value, status, errno and use of the fallback (the fallback itself assumed not to depend on it); only for words (nan, infinity) can the end pointer differ, and it stays inside the string. Nothing changes for strings without the letters n and i, or if all these locales treat the letters a-z as usual and agree on which characters have lower case before a. That the result is the one with one of the locales is refuted: with one locale that does not lower T and one that does not lower I, INFINITY is consumed up to its third letter in each, and completely if the locale changes in between; and a character of nan(...) is looked up twice and can be taken for a letter that it is in no locale.", "quantifier": "all histories of the global locale during the call, all locales, strings, positions, memories, fallbacks, both types", "why_tests_cant": "schedules: every interleaving of locale changes with the look-ups", "anchors": ["include/floaxie/krosh.h: eat_nan, eat_inf, parse_digits", "include/floaxie/atof.h: atof"]}
{"id": "C101", "title": "Buffers that were not initialised, and interrupted calls", "statement": "The buffer passed to ftoa need not be initialised, not even in part: ftoa reads no character of it that it has not written before; afterwards exactly the text and its terminator have their values and every other character is as it was (with or without a value). Wherever the call is interrupted (by a signal, or seen by another thread), after any number of accesses, everything behind the place of the terminator is as it was before. atof never reads behind the terminator of its string, so a string can be parsed in a buffer whose rest never had a value.", "quantifier": "all values of both types, all buffers large enough (initialised, partly initialised or not), all reasonable floating point evaluation methods, every point of interruption; all strings and locales, and fallbacks that read only the string", "why_tests_cant": "characters never written normally hold harmless values; every value and every interruption point", "anchors": ["include/floaxie/ftoa.h: ftoa", "include/floaxie/grisu.h: digit_gen, grisu2", "include/floaxie/prettify.h: print_decimal, print_scientific, fill_exponent", "include/floaxie/atof.h: atof"]}
{"id": "C102", "title": "Fallbacks of any kind, and calls without end pointer", "statement": "The fallback passed to atof may be any callable: it may throw, not return, have effects, ignore the end pointer, or be a null pointer. When atof decides by itself, the fallback plays no part (not even a null pointer or one that always throws) and nothing changes but *str_end, and that only if str_end is not null. When it asks, it calls the fallback exactly once, with the string and end pointer the caller passed (null included); what the fallback throws passes through, with everything as the fallback has left it; a value it returns is the result, with the status from errno afterwards, and *str_end is what the fallback has made of it; with a null pointer for the fallback the behaviour is undefined. A null fallback is safe for representable numerals of at most 19/9 significant digits, words and texts without a number, and is not for ties. With a null end pointer (also through the overload for nullptr) value, status and errno are the same as with one; *str_end need have no value before the call. That it has one afterwards is refuted: the fallback need not store one.", "quantifier": "all callables (state, exceptions and non-return included), null pointers for the fallback and the end pointer, all strings, memories, errno values, locales, both types", "why_tests_cant": "behaviour with every possible callable and every string", "anchors": ["include/floaxie/atof.h: atof (all overloads)", "include/floaxie/default_fallback.h: check_errno"]}
{"id": "C103", "title": "Printed numbers in source code and data formats", "statement": "The text ftoa prints for a finite number is, after a possible minus sign, a decimal constant of C and C++: an integer constant for zero and whole numbers of magnitude up to 2^53 (double) / 2^24 (float), a floating constant for every number that is not whole; nan and inf are no numeric constants. Every printed text, those of NaN and the infinities included, is an integer or float of TOML. It is in the lexical space of xs:double of XML Schema if and only if the value is finite. Every C or C++ decimal constant or number of XML Schema, with or without sign, of at most 2049 characters and with an exponent below 10^4, is read by atof without undefined behaviour and consumed completely (unless the fallback is asked, and but for the exponent part of a zero), whatever follows other than digits, point, e and E - a suffix f or L, for instance. That the text of a double is always a floating constant is refuted (3.0 is printed as 3), and that atof reads all numbers of TOML (of 1_000 it reads 1).", "quantifier": "all values of both types; all constants and numbers of these grammars, whatever follows them, all memories, errno values and fallbacks", "why_tests_cant": "all values; unboundedly many constants", "anchors": ["include/floaxie/ftoa.h: ftoa", "include/floaxie/prettify.h: prettify", "include/floaxie/atof.h: atof"]}
