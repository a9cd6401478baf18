{
 "claims": [
  {
   "property": "C01",
   "status": "proved",
   "theorems": [
    "Floaxie.C01_ftoa_identifies",
    "Floaxie.C01_reader"
   ],
   "note": ""
  },
  {
   "property": "C02",
   "status": "proved",
   "theorems": [
    "Floaxie.C02_ftoa_memory_safe",
    "Floaxie.C02_ftoa_exact_fit",
    "Floaxie.C02_ftoa_needs"
   ],
   "note": ""
  },
  {
   "property": "C03",
   "status": "proved",
   "theorems": [
    "Floaxie.C03_ftoa_length"
   ],
   "note": ""
  },
  {
   "property": "C04",
   "status": "proved",
   "theorems": [
    "Floaxie.C04_ftoa_grammar"
   ],
   "note": ""
  },
  {
   "property": "C05",
   "status": "proved",
   "theorems": [
    "Floaxie.C05_ftoa_digit_count",
    "Floaxie.C05_C06_digits"
   ],
   "note": ""
  },
  {
   "property": "C06",
   "status": "proved",
   "theorems": [
    "Floaxie.C06_ftoa_notation",
    "Floaxie.C05_C06_digits"
   ],
   "note": ""
  },
  {
   "property": "C07",
   "status": "proved",
   "theorems": [
    "Floaxie.C07_ftoa_sign",
    "Floaxie.C07_infinity"
   ],
   "note": ""
  },
  {
   "property": "C08",
   "status": "proved",
   "theorems": [
    "Floaxie.C08_ftoa_special"
   ],
   "note": ""
  },
  {
   "property": "C09",
   "status": "proved",
   "theorems": [
    "Floaxie.C09_ftoa_negative_zero"
   ],
   "note": ""
  },
  {
   "property": "C10",
   "status": "proved",
   "theorems": [
    "Floaxie.C10_ftoa_monotone",
    "Floaxie.C10_ftoa_injective"
   ],
   "note": ""
  },
  {
   "property": "C11",
   "status": "proved",
   "theorems": [
    "Floaxie.C11_to_string"
   ],
   "note": ""
  },
  {
   "property": "C12",
   "status": "proved",
   "theorems": [
    "Floaxie.C12_ftoa_contents"
   ],
   "note": ""
  },
  {
   "property": "C13",
   "status": "proved",
   "theorems": [
    "Floaxie.C13_tables"
   ],
   "note": ""
  },
  {
   "property": "C14",
   "status": "proved",
   "theorems": [
    "Floaxie.C14_scaling_window"
   ],
   "note": ""
  },
  {
   "property": "C15",
   "status": "proved",
   "theorems": [
    "Floaxie.C15_mul"
   ],
   "note": ""
  },
  {
   "property": "C16",
   "status": "proved",
   "theorems": [
    "Floaxie.C16_normalize"
   ],
   "note": ""
  },
  {
   "property": "C17",
   "status": "proved",
   "theorems": [
    "Floaxie.C17_ofFloat_exact",
    "Floaxie.C17_roundtrip"
   ],
   "note": ""
  },
  {
   "property": "C18",
   "status": "proved",
   "theorems": [
    "Floaxie.C18_increment",
    "Floaxie.C18_decrement"
   ],
   "note": ""
  },
  {
   "property": "C19",
   "status": "proved",
   "theorems": [
    "Floaxie.C19_round_up"
   ],
   "note": ""
  },
  {
   "property": "C20",
   "status": "proved",
   "theorems": [
    "Floaxie.C20_short_correctly_rounded",
    "Floaxie.C20_correctly_rounded_given_fallback"
   ],
   "note": ""
  },
  {
   "property": "C21",
   "status": "proved",
   "theorems": [
    "Floaxie.C21_carry_lost",
    "Floaxie.C21_refuted",
    "Floaxie.C21_carry_lost_decimals"
   ],
   "note": ""
  },
  {
   "property": "C22",
   "status": "proved",
   "theorems": [
    "Floaxie.C22_round_trip",
    "Floaxie.C22_round_trip_not_pow2",
    "Floaxie.C22_refuted",
    "Floaxie.C22_hypotheses",
    "Floaxie.C22_fallback_asked"
   ],
   "note": ""
  },
  {
   "property": "C23",
   "status": "proved",
   "theorems": [
    "Floaxie.C23_backward",
    "Floaxie.C23_error",
    "Floaxie.C23_neighbour",
    "Floaxie.C23_refuted_float",
    "Floaxie.C23_refuted_double"
   ],
   "note": "correct rounding of long numerals is false and refuted; the stated error bounds are proved"
  },
  {
   "property": "C24",
   "status": "proved",
   "theorems": [
    "Floaxie.C24_digits"
   ],
   "note": ""
  },
  {
   "property": "C25",
   "status": "proved",
   "theorems": [
    "Floaxie.C25_overflow",
    "Floaxie.C25_overflow_only",
    "Floaxie.C25_missed",
    "Floaxie.C25_nan",
    "Floaxie.C25_wrapped_subnormal",
    "Floaxie.C25_wrapped",
    "Floaxie.C25_refuted"
   ],
   "note": "the ideal claim is false and refuted; the restated property is proved"
  },
  {
   "property": "C26",
   "status": "proved",
   "theorems": [
    "Floaxie.C26_underflow",
    "Floaxie.C26_underflow_only",
    "Floaxie.C26_premature",
    "Floaxie.C26_refuted",
    "Floaxie.C26_refuted_float"
   ],
   "note": "the ideal claim is false and refuted; the restated property is proved"
  },
  {
   "property": "C27",
   "status": "proved",
   "theorems": [
    "Floaxie.C27_sign",
    "Floaxie.C27_minus",
    "Floaxie.C27_out_of_table",
    "Floaxie.C27_minus_lost"
   ],
   "note": ""
  },
  {
   "property": "C28",
   "status": "proved",
   "theorems": [
    "Floaxie.C28_consumes",
    "Floaxie.C28_consumes_plain"
   ],
   "note": ""
  },
  {
   "property": "C29",
   "status": "proved",
   "theorems": [
    "Floaxie.C29_end_inside",
    "Floaxie.C29_end_delegated"
   ],
   "note": ""
  },
  {
   "property": "C30",
   "status": "proved",
   "theorems": [
    "Floaxie.C30_only_the_string"
   ],
   "note": ""
  },
  {
   "property": "C31",
   "status": "proved",
   "theorems": [
    "Floaxie.C31_defined_without_exponent",
    "Floaxie.C31_badIndex_iff",
    "Floaxie.C31_other_errors",
    "Floaxie.C31_signedOverflow_iff",
    "Floaxie.C31_small_exponent_defined",
    "Floaxie.C31_refuted"
   ],
   "note": ""
  },
  {
   "property": "C32",
   "status": "proved",
   "theorems": [
    "Floaxie.C32_no_number",
    "Floaxie.C32_every_string",
    "Floaxie.C32_end_at_start_iff",
    "Floaxie.C32_refuted"
   ],
   "note": "the ideal claim (end pointer always at the start) is false and refuted; the restated property is proved"
  },
  {
   "property": "C33",
   "status": "proved",
   "theorems": [
    "Floaxie.C33_words"
   ],
   "note": ""
  },
  {
   "property": "C34",
   "status": "proved",
   "theorems": [
    "Floaxie.C34_zero",
    "Floaxie.C34_zero_exponent_not_consumed"
   ],
   "note": ""
  },
  {
   "property": "C35",
   "status": "proved",
   "theorems": [
    "Floaxie.C35_representable_exact",
    "Floaxie.C35_integers"
   ],
   "note": ""
  },
  {
   "property": "C36",
   "status": "proved",
   "theorems": [
    "Floaxie.C36_spelling"
   ],
   "note": ""
  },
  {
   "property": "C37",
   "status": "proved",
   "theorems": [
    "Floaxie.C37_fallback_on_ties",
    "Floaxie.C38_own_result"
   ],
   "note": ""
  },
  {
   "property": "C38",
   "status": "proved",
   "theorems": [
    "Floaxie.C38_own_result",
    "Floaxie.C38_fallback_result",
    "Floaxie.C38_clean_errno",
    "Floaxie.C38_refuted"
   ],
   "note": "the ideal claim (independence of errno) is false and refuted; the restated property is proved"
  },
  {
   "property": "C39",
   "status": "proved",
   "theorems": [
    "Floaxie.C39_convert",
    "Floaxie.C39_attained",
    "Floaxie.C39_monotone",
    "Floaxie.C39_fits"
   ],
   "note": ""
  },
  {
   "property": "C40",
   "status": "proved",
   "theorems": [
    "Floaxie.C40_long",
    "Floaxie.C40_zero",
    "Floaxie.C40_refuted"
   ],
   "note": "the ideal claim is false and refuted; the restated property is proved"
  },
  {
   "property": "C41",
   "status": "proved",
   "theorems": [
    "Floaxie.C41_ignores_rest"
   ],
   "note": ""
  },
  {
   "property": "C42",
   "status": "proved",
   "theorems": [
    "Floaxie.C42_exponent",
    "Floaxie.C42_reads",
    "Floaxie.C43_value_decides",
    "Floaxie.C42_point_swallowed"
   ],
   "note": ""
  },
  {
   "property": "C43",
   "status": "proved",
   "theorems": [
    "Floaxie.C43_value_decides",
    "Floaxie.C43_long_refuted"
   ],
   "note": "refuted for longer numerals"
  },
  {
   "property": "C44",
   "status": "proved",
   "theorems": [
    "Floaxie.C44_no_exponent_digits",
    "Floaxie.C44_refuted"
   ],
   "note": ""
  },
  {
   "property": "C45",
   "status": "proved",
   "theorems": [
    "Floaxie.C45_shortest",
    "Floaxie.C45_not_shortest",
    "Floaxie.C45_errata",
    "Floaxie.C45_subnormal",
    "Floaxie.C45_few_digits"
   ],
   "note": "all finite non-zero values: shortest among the decimals safely inside the rounding interval, if normal, larger subnormal, or printed with more than 10/5 digits; the ideal claim and the claim for the smallest subnormals are refuted"
  },
  {
   "property": "C46",
   "status": "proved",
   "theorems": [
    "Floaxie.C46_integers"
   ],
   "note": ""
  },
  {
   "property": "C47",
   "status": "proved",
   "theorems": [
    "Floaxie.C47_short_decimal",
    "Floaxie.C47_small",
    "Floaxie.C47_margin_needed",
    "Floaxie.C47_small_needed"
   ],
   "note": "with the margin; refuted without it"
  },
  {
   "property": "C48",
   "status": "proved",
   "theorems": [
    "Floaxie.C48_boundaries",
    "Floaxie.C48_refuted"
   ],
   "note": "exact midpoints; the least normal number is the exception"
  },
  {
   "property": "C49",
   "status": "proved",
   "theorems": [
    "Floaxie.C49_full_circle",
    "Floaxie.C49_small"
   ],
   "note": ""
  },
  {
   "property": "C50",
   "status": "proved",
   "theorems": [
    "Floaxie.C50_monotone",
    "Floaxie.C50_refuted",
    "Floaxie.C50_long_refuted"
   ],
   "note": "under the conditions of C20; refuted without"
  },
  {
   "property": "C51",
   "status": "proved",
   "theorems": [
    "Floaxie.C51_string_round_trip",
    "Floaxie.C51_embedded_nul"
   ],
   "note": ""
  },
  {
   "property": "C52",
   "status": "proved",
   "theorems": [
    "Floaxie.C52_print_binary_double",
    "Floaxie.C52_print_binary_int",
    "Floaxie.C52_print_double_presentation",
    "Floaxie.C52_injective",
    "Floaxie.C52_stream",
    "Floaxie.C52_stream_injective",
    "Floaxie.C52_print_binary_float",
    "Floaxie.C52_float_refuted"
   ],
   "note": ""
  },
  {
   "property": "C53",
   "status": "proved",
   "theorems": [
    "Floaxie.C53_sub",
    "Floaxie.C53_mul",
    "Floaxie.C53_inc_dec",
    "Floaxie.C53_eq",
    "Floaxie.C53_eq_not_value"
   ],
   "note": ""
  },
  {
   "property": "C54",
   "status": "proved",
   "theorems": [
    "Floaxie.C54_bits",
    "Floaxie.C54_abs",
    "Floaxie.C54_static_pow",
    "Floaxie.C54_seq_pow",
    "Floaxie.C54_convert_numerator",
    "Floaxie.C54_convert_numerator_error"
   ],
   "note": ""
  },
  {
   "property": "C55",
   "status": "proved",
   "theorems": [
    "Floaxie.C55_prettify"
   ],
   "note": ""
  },
  {
   "property": "C56",
   "status": "proved",
   "theorems": [
    "Floaxie.C56_enough_digits",
    "Floaxie.C56_reads_back",
    "Floaxie.C56_refuted"
   ],
   "note": "the ideal claim without exceptions is refuted (C56_refuted); reads_back states the exceptions; no fallback is ever consulted"
  },
  {
   "property": "C57",
   "status": "proved",
   "theorems": [
    "Floaxie.C57_longest"
   ],
   "note": ""
  },
  {
   "property": "C58",
   "status": "proved",
   "theorems": [
    "Floaxie.C58_sequence",
    "Floaxie.C58_fallback_exists"
   ],
   "note": ""
  },
  {
   "property": "C59",
   "status": "proved",
   "theorems": [
    "Floaxie.C59_near",
    "Floaxie.C59_exact",
    "Floaxie.C59_many_digits",
    "Floaxie.C59_refuted_pow2"
   ],
   "note": "powers of two are the exception and refuted"
  },
  {
   "property": "C60",
   "status": "proved",
   "theorems": [
    "Floaxie.C60_double_text_as_float",
    "Floaxie.C60_widened",
    "Floaxie.C60_refuted"
   ],
   "note": "with the two exceptions, both refuted without"
  },
  {
   "property": "C61",
   "status": "proved",
   "theorems": [
    "Floaxie.C61_float_text_as_double",
    "Floaxie.C61_atof_double"
   ],
   "note": "any correctly rounding reader of double; and atof<double> given a fallback that is correct if asked"
  },
  {
   "property": "C62",
   "status": "proved",
   "theorems": [
    "Floaxie.C62_any_exponent",
    "Floaxie.C62_large_exponent",
    "Floaxie.C62_refuted"
   ],
   "note": "exact meaning of every exponent part; the ideal claim for exponents from 10^9 on is refuted"
  },
  {
   "property": "C63",
   "status": "proved",
   "theorems": [
    "Floaxie.C63_value_status"
   ],
   "note": "every input in any memory, every fallback"
  },
  {
   "property": "C64",
   "status": "proved",
   "theorems": [
    "Floaxie.C64_json_printed",
    "Floaxie.C64_json_read"
   ],
   "note": "a zero with an exponent part is not consumed entirely (stated)"
  },
  {
   "property": "C65",
   "status": "proved",
   "theorems": [
    "Floaxie.C65_largest",
    "Floaxie.C65_not_closest"
   ],
   "note": "for all finite non-zero values; that it is the nearest is refuted"
  },
  {
   "property": "C66",
   "status": "proved",
   "theorems": [
    "Floaxie.C66_same_text",
    "Floaxie.C66_scaling_exponent",
    "Floaxie.C66_double_evaluation"
   ],
   "note": "the hypothesis holds of double evaluation (C66_double_evaluation), of exact evaluation and of fused multiply-add (examples)"
  },
  {
   "property": "C67",
   "status": "proved",
   "theorems": [
    "Floaxie.C67_same_value",
    "Floaxie.C67_usual_locale",
    "Floaxie.C67_plain_string",
    "Floaxie.C67_end_refuted"
   ],
   "note": "independence of the end pointer is refuted for words"
  },
  {
   "property": "C68",
   "status": "proved",
   "theorems": [
    "Floaxie.C68_any_schedule",
    "Floaxie.C68_all_finish",
    "Floaxie.C68_print_alone",
    "Floaxie.C68_shared_buffer_races"
   ],
   "note": "sequentially consistent interleaving of character accesses; race freedom is part of the theorem"
  },
  {
   "property": "C69",
   "status": "proved",
   "theorems": [
    "Floaxie.C69_print",
    "Floaxie.C69_print_bounded",
    "Floaxie.C69_parse",
    "Floaxie.C69_parse_bounded",
    "Floaxie.C69_parse_unbounded"
   ],
   "note": "bounds on the number of character accesses; that there is a bound for all strings is refuted (NaN payload)"
  },
  {
   "property": "C70",
   "status": "proved",
   "theorems": [
    "Floaxie.C70_drift",
    "Floaxie.C70_special",
    "Floaxie.C70_stable",
    "Floaxie.C70_total",
    "Floaxie.C70_drift_happens",
    "Floaxie.C70_sequence"
   ],
   "note": "repeated printing and parsing settles after at most 5/9 cycles; the drift of powers of two is exact and happens"
  },
  {
   "property": "C71",
   "status": "proved",
   "theorems": [
    "Floaxie.C71_asked",
    "Floaxie.C71_short",
    "Floaxie.C71_end_inside",
    "Floaxie.C71_other_point",
    "Floaxie.C71_round_trip",
    "Floaxie.C71_cycle",
    "Floaxie.C71_locale_refuted",
    "Floaxie.C71_underflow_as_overflow",
    "Floaxie.C71_underflow_hypotheses"
   ],
   "note": "ISO C strtod specified in Spec/Strtod.lean; locale independence and the status of subnormal results are refuted"
  },
  {
   "property": "C72",
   "status": "proved",
   "theorems": [
    "Floaxie.C72_alone",
    "Floaxie.C72_limit_refuted"
   ],
   "note": "refuted at the 2048 character limit"
  },
  {
   "property": "C73",
   "status": "proved",
   "theorems": [
    "Floaxie.C73_blocks",
    "Floaxie.C73_numeral",
    "Floaxie.C73_peak"
   ],
   "note": "memory the fallback itself uses is not counted"
  },
  {
   "property": "C74",
   "status": "proved",
   "theorems": [
    "Floaxie.C74_amount_read",
    "Floaxie.C74_amount_kept",
    "Floaxie.C74_amount_text",
    "Floaxie.C74_more_places"
   ],
   "note": ""
  },
  {
   "property": "C75",
   "status": "proved",
   "theorems": [
    "Floaxie.C75_whole_numbers"
   ],
   "note": "the middle case is the lost carry of C21, here characterised exactly"
  },
  {
   "property": "C76",
   "status": "proved",
   "theorems": [
    "Floaxie.C76_late_digits"
   ],
   "note": ""
  },
  {
   "property": "C77",
   "status": "proved",
   "theorems": [
    "Floaxie.C77_order"
   ],
   "note": ""
  },
  {
   "property": "C78",
   "status": "proved",
   "theorems": [
    "Floaxie.C78_distance",
    "Floaxie.C78_sharp",
    "Floaxie.C78_subnormal"
   ],
   "note": "bounds in units of the last printed digit, nearly attained; for the upper one the smallest subnormal numbers are excluded (refuted)"
  },
  {
   "property": "C79",
   "status": "proved",
   "theorems": [
    "Floaxie.C79_exact_short"
   ],
   "note": "no margin and no restriction on powers of two needed: such a value is at least 10^-21"
  },
  {
   "property": "C80",
   "status": "proved",
   "theorems": [
    "Floaxie.C80_parameters",
    "Floaxie.C80_own",
    "Floaxie.C80_outside",
    "Floaxie.C80_window",
    "Floaxie.C80_window_least"
   ],
   "note": "the range is sharp; arguments just outside pass the static assertions and give wrong digits"
  },
  {
   "property": "C81",
   "status": "proved",
   "theorems": [
    "Floaxie.C81_one_digit"
   ],
   "note": "complete list of the one-digit numbers printed with more digits; evaluation of the finitely many normal exponents by the kernel, the rest by range arguments"
  },
  {
   "property": "C82",
   "status": "proved",
   "theorems": [
    "Floaxie.C82_numbers",
    "Floaxie.C82_words",
    "Floaxie.C82_zero",
    "Floaxie.C82_no_number",
    "Floaxie.C82_white_space",
    "Floaxie.C82_zero_exponent",
    "Floaxie.C82_hexadecimal",
    "Floaxie.C82_refuted",
    "Floaxie.C82_overflow",
    "Floaxie.C82_overflow_missed",
    "Floaxie.C82_underflow",
    "Floaxie.C82_underflow_premature"
   ],
   "note": "agreement with every conforming strtod on short numerals, words, zeros, and on numbers noticed to be out of range; the exact difference on texts without a number and on white space; 0e5 and 0x10 refute the ideal claim"
  },
  {
   "property": "C83",
   "status": "proved",
   "theorems": [
    "Floaxie.C83_atof",
    "Floaxie.C83_from_string",
    "Floaxie.C83_ftoa",
    "Floaxie.C83_to_string",
    "Floaxie.C83_not_16"
   ],
   "note": "every width from 32 bits on; with 16 bits 0.5 would be read as infinity"
  },
  {
   "property": "C84",
   "status": "proved",
   "theorems": [
    "Floaxie.C84_to_string",
    "Floaxie.C84_destroyed"
   ],
   "note": "for every lawful std::basic_string and every heap"
  },
  {
   "property": "C85",
   "status": "proved",
   "theorems": [
    "Floaxie.C85_alike",
    "Floaxie.C85_matter",
    "Floaxie.C85_locale",
    "Floaxie.C85_locale_matter"
   ],
   "note": "C85_locale: any locale"
  },
  {
   "property": "C86",
   "status": "proved",
   "theorems": [
    "Floaxie.C86_ftoa",
    "Floaxie.C86_atof"
   ],
   "note": "size_t of any width from 32 bits on; reading: C locale, NUL-terminated strings"
  },
  {
   "property": "C87",
   "status": "proved",
   "theorems": [
    "Floaxie.C87_atof",
    "Floaxie.C87_c_locale",
    "Floaxie.C87_signedness",
    "Floaxie.C87_printed",
    "Floaxie.C87_refuted"
   ],
   "note": "signed 32-bit characters below INT_MIN+48 excluded (refuted there)"
  },
  {
   "property": "C88",
   "status": "proved",
   "theorems": [
    "Floaxie.C88_ftoa",
    "Floaxie.C88_to_string",
    "Floaxie.C88_no_assertion",
    "Floaxie.C88_atof",
    "Floaxie.C88_from_string",
    "Floaxie.C88_misuse"
   ],
   "note": "the model of the NDEBUG build checks the operations the assertions guard"
  },
  {
   "property": "C89",
   "status": "proved",
   "theorems": [
    "Floaxie.C89_any_reader",
    "Floaxie.C89_hypotheses",
    "Floaxie.C89_locale_refuted"
   ],
   "note": "Spec/Strtod is the specification of the C library's functions"
  },
  {
   "property": "C90",
   "status": "proved",
   "theorems": [
    "Floaxie.C90_efficiency",
    "Floaxie.C90_not_all"
   ],
   "note": "counts all finite bit patterns; zeros count as not shortest, so the bound is on the safe side"
  },
  {
   "property": "C91",
   "status": "proved",
   "theorems": [
    "Floaxie.C91_fallback_share",
    "Floaxie.C91_some_asked"
   ],
   "note": "for each last place 10^k separately; numbers of exactly 17 / 9 significant digits"
  },
  {
   "property": "C92",
   "status": "proved",
   "theorems": [
    "Floaxie.C92_survivors",
    "Floaxie.C92_not_all"
   ],
   "note": "for each last place 10^k separately; the counted set contains all numbers that do not survive in some spelling"
  },
  {
   "property": "C93",
   "status": "proved",
   "theorems": [
    "Floaxie.C93_away",
    "Floaxie.C93_narrow",
    "Floaxie.C93_narrow_printed",
    "Floaxie.C93_neighbour",
    "Floaxie.C93_refuted"
   ],
   "note": "the unconditional claim (the text of every double is read as the float nearest to it) is refuted by C93_refuted"
  },
  {
   "property": "C94",
   "status": "proved",
   "theorems": [
    "Floaxie.C94_list",
    "Floaxie.C94_items",
    "Floaxie.C94_conforming",
    "Floaxie.C94_separator_needed"
   ],
   "note": "C94_list: numerals whose calls do not ask the fallback; C94_items, C94_conforming: correct rounding with a correct fallback (C58 covers the texts ftoa writes)"
  },
  {
   "property": "C95",
   "status": "proved",
   "theorems": [
    "Floaxie.C95_off",
    "Floaxie.C95_print",
    "Floaxie.C95_parse",
    "Floaxie.C95_print_differs",
    "Floaxie.C95_parse_differs"
   ],
   "note": "the comparison mode is a parameter of Model/Flush; C95_off: without it the model is the one of the other theorems"
  },
  {
   "property": "C96",
   "status": "proved",
   "theorems": [
    "Floaxie.C96_numbers",
    "Floaxie.C96_narrowed",
    "Floaxie.C96_both",
    "Floaxie.C96_exception"
   ],
   "note": "C96_numbers is about all numbers; the range condition of C20 applies to the calls"
  },
  {
   "property": "C97",
   "status": "proved",
   "theorems": [
    "Floaxie.C97_print",
    "Floaxie.C97_parse",
    "Floaxie.C97_without_elision"
   ],
   "note": "a second transcription (Model/Indeterminate) with members that may be indeterminate; proved equal to the first one. The 2 KB etc. restrictions do not apply: C97_parse is about all memories, C97_without_elision about NUL-terminated strings in the C locale"
  },
  {
   "property": "C98",
   "status": "proved",
   "theorems": [
    "Floaxie.C98_text",
    "Floaxie.C98_default",
    "Floaxie.C98_refused",
    "Floaxie.C98_determines",
    "Floaxie.C98_width_refuted"
   ],
   "note": "digit grouping of the stream's locale included (base prefix not grouped, as in libstdc++ and libc++); no exception mask set; narrow streams (operator<< does not compile for wide ones). That the width applies to the whole text is refuted"
  },
  {
   "property": "C99",
   "status": "proved",
   "theorems": [
    "Floaxie.C99_one_digit_read",
    "Floaxie.C99_correctly_rounded",
    "Floaxie.C99_read_printed",
    "Floaxie.C99_ties"
   ],
   "note": "the finitely many (digit, exponent) pairs in range evaluated by the kernel on the scaling and rounding steps; all spellings by induction over the text"
  },
  {
   "property": "C100",
   "status": "proved",
   "theorems": [
    "Floaxie.C100_same_value",
    "Floaxie.C100_no_change",
    "Floaxie.C100_usual_locales",
    "Floaxie.C100_plain_string",
    "Floaxie.C100_mixed_refuted",
    "Floaxie.C100_two_looks_refuted"
   ],
   "note": "a second transcription of the parser (Model/LocaleChange) in which every std::tolower may find another locale. That the result is as with one of the locales is refuted (end of a word). The fallback is the same function in both calls"
  },
  {
   "property": "C101",
   "status": "proved",
   "theorems": [
    "Floaxie.C101_print_into_raw",
    "Floaxie.C101_interrupted",
    "Floaxie.C101_read_in_raw"
   ],
   "note": "on the single-step programs of Model/Steps, run on a memory object some of whose characters have no value; the fallback of the last is assumed to read only the string"
  },
  {
   "property": "C102",
   "status": "proved",
   "theorems": [
    "Floaxie.C102_own",
    "Floaxie.C102_asked",
    "Floaxie.C102_undefined",
    "Floaxie.C102_with_and_without_end",
    "Floaxie.C102_strong_guarantee",
    "Floaxie.C102_one_call",
    "Floaxie.C102_null_fallback",
    "Floaxie.C102_end_refuted"
   ],
   "note": "whether atof asks is characterised by the other model (and C20, C37, C91, C99); state inside a function object is copied with it and therefore not in the world. That *str_end always has a value afterwards is refuted"
  },
  {
   "property": "C103",
   "status": "proved",
   "theorems": [
    "Floaxie.C103_source_code",
    "Floaxie.C103_toml",
    "Floaxie.C103_xsd",
    "Floaxie.C103_read",
    "Floaxie.C103_refuted"
   ],
   "note": "for whole numbers above 2^p it is left open which kind of constant is printed; that every double is printed as a floating constant, and that all TOML numbers are read, is refuted"
  }
 ]
}