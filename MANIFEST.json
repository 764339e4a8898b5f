{
 "claims": [
  {
   "property": "C01",
   "status": "proved",
   "theorems": [
    "Hmath.Props.C01_add",
    "Hmath.Props.C01_add_mut",
    "Hmath.Props.C01_add_u32"
   ],
   "note": "add, add_mut, add_u32, add_u32_mut for all valid vectors of any length"
  },
  {
   "property": "C02",
   "status": "proved",
   "theorems": [
    "Hmath.Props.C02_sub",
    "Hmath.Props.C02_sub_panics",
    "Hmath.Props.C02_sub_u32",
    "Hmath.Props.C02_sub_u32_panics",
    "Hmath.Props.C02_abs_diff",
    "Hmath.Props.C02_abs_diff_u32"
   ],
   "note": "sub family exact when b<=a and panics otherwise; abs_diff family total"
  },
  {
   "property": "C03",
   "status": "proved",
   "theorems": [
    "Hmath.Props.C03_mul",
    "Hmath.Props.C03_mul_u32"
   ],
   "note": "schoolbook and Karatsuba branches, all lengths"
  },
  {
   "property": "C04",
   "status": "proved",
   "theorems": [
    "Hmath.Props.C04_div_rem",
    "Hmath.Props.C04_div_rem_mut",
    "Hmath.Props.C04_div_zero"
   ],
   "note": "termination, Euclidean law, canonical results; zero divisor panics"
  },
  {
   "property": "C05",
   "status": "partial",
   "theorems": [
    "Hmath.Props.C05_div_u32",
    "Hmath.Props.C05_div_u32_zero",
    "Hmath.Props.C05_rem_u32_partial",
    "Hmath.Props.C05_rem_u32_zero",
    "Hmath.Props.C05_rem_u32_mut_overflow",
    "Hmath.Props.C05_rem_u32_mut_partial",
    "Hmath.Props.C05_rem_u32_mut_returned",
    "Hmath.Props.C05_rem_u32_mut_one",
    "Hmath.Props.C05_rem_u32_mut_panic_iff"
   ],
   "note": "div_u32 complete; rem_u32 needs at most 2^32 limbs; rem_u32_mut overflows u32 (C05_rem_u32_mut_overflow), proved for moduli <= 2^16 and for one limb; every value it returns is right (C05_rem_u32_mut_returned); the exact condition for the overflow is C05_rem_u32_mut_panic_iff"
  },
  {
   "property": "C06",
   "status": "proved",
   "theorems": [
    "Hmath.Props.C06_lt",
    "Hmath.Props.C06_gt",
    "Hmath.Props.C06_leq",
    "Hmath.Props.C06_geq",
    "Hmath.Props.C06_eq",
    "Hmath.Props.C06_neq",
    "Hmath.Props.C06_comp",
    "Hmath.Props.C06_u32",
    "Hmath.Props.C06_is_zero_one"
   ],
   "note": "all comparisons equal the order of the represented naturals"
  },
  {
   "property": "C07",
   "status": "partial",
   "theorems": [
    "Hmath.Props.C07_pow2_bi",
    "Hmath.Props.C07_pow_u32_partial",
    "Hmath.Props.C07_pow_u32_overflow",
    "Hmath.Props.C07_pow2",
    "Hmath.Props.C07_exp2"
   ],
   "note": "pow_u32 exact for exponents < 2^31; every exponent >= 2^31 panics (C07_pow_u32_overflow), so the full claim is false; pow2/exp2 complete"
  },
  {
   "property": "C08",
   "status": "proved",
   "theorems": [
    "Hmath.Props.C08_slice_right_bi",
    "Hmath.Props.C08_mul_pow2",
    "Hmath.Props.C08_rem_pow2",
    "Hmath.Props.C08_shift_left",
    "Hmath.Props.C08_shift_right",
    "Hmath.Props.C08_slice_right"
   ],
   "note": "mul_pow2, rem_pow2, shift_left, shift_right, slice_right"
  },
  {
   "property": "C09",
   "status": "proved",
   "theorems": [
    "Hmath.Props.C09_log2_bi",
    "Hmath.Props.C09_log2"
   ],
   "note": "floor logarithm; number length bounded by 2^58 limbs (beyond any address space the u64 product would overflow)"
  },
  {
   "property": "C10",
   "status": "partial",
   "theorems": [
    "Hmath.Props.C10_sqrt_returned",
    "Hmath.Props.C10_sqrt_partial",
    "Hmath.Props.C10_sqrt_counterexample"
   ],
   "note": "false as claimed: every number whose two leading limbs form a number of at least 2^64-120283536^2 panics (C10_sqrt_counterexample), every other one gets its integer square root (C10_sqrt_partial); every returned value is the integer square root for all inputs (C10_sqrt_returned)"
  },
  {
   "property": "C11",
   "status": "proved",
   "theorems": [
    "Hmath.Props.C11_gcd_bi",
    "Hmath.Props.C11_gcd_ubi",
    "Hmath.Props.C11_gcd_ubi_zero"
   ],
   "note": "gcd_ubi and gcd_bi: divides both, every common divisor divides it, canonical non-negative"
  },
  {
   "property": "C12",
   "status": "partial",
   "theorems": [
    "Hmath.Props.C12_is_prime_returned",
    "Hmath.Props.C12_is_prime_partial",
    "Hmath.Props.C12_is_prime_counterexample"
   ],
   "note": "inherits the overflow of sqrt (C12_is_prime_counterexample); otherwise decides primality, every returned answer is right (C12_is_prime_returned); at most 2^32 limbs"
  },
  {
   "property": "C13",
   "status": "partial",
   "theorems": [
    "Hmath.Props.C13_prime_factorial_returned",
    "Hmath.Props.C13_prime_factorial_partial",
    "Hmath.Props.C13_prime_factorial_counterexample",
    "Hmath.Props.C13_prime_factorial_panic_iff",
    "Hmath.Props.C13_prime_factorial_exact"
   ],
   "note": "false as claimed: it panics exactly on the numbers with a divisor of at least (2^32-1)^2 that has no prime factor below 2^32 (C13_prime_factorial_panic_iff), such as the primes above it (C13_prime_factorial_counterexample); every other number gets its factorisation (C13_prime_factorial_exact)"
  },
  {
   "property": "C14",
   "status": "proved",
   "theorems": [
    "Hmath.Props.C14_factorial",
    "Hmath.Props.C14_fibonacci"
   ],
   "note": "all u32 n, including the constants 20!, 128!, F185, F186 and the batching loops"
  },
  {
   "property": "C15",
   "status": "proved",
   "theorems": [
    "Hmath.Props.C15_dec",
    "Hmath.Props.C15_hex_oct_bin",
    "Hmath.Props.C15_signed"
   ],
   "note": "decimal, hex, octal, binary; signed and unsigned; decimal printing for numbers of at most 2^32 limbs"
  },
  {
   "property": "C16",
   "status": "proved",
   "theorems": [
    "Hmath.Props.C16_to_string_dec",
    "Hmath.Props.C16_to_string_hex",
    "Hmath.Props.C16_to_string_oct",
    "Hmath.Props.C16_to_string_bin",
    "Hmath.Props.C16_numeral",
    "Hmath.Props.C16_signed"
   ],
   "note": "exact equality with the standard numeral Nat.toDigits, which C16_numeral characterises digit by digit"
  },
  {
   "property": "C17",
   "status": "proved",
   "theorems": [
    "Hmath.Props.C17_from_string",
    "Hmath.Props.C17_from_string_signed",
    "Hmath.Props.C17_accepts_decimal",
    "Hmath.Props.C17_rejects"
   ],
   "note": "from_string equals the independent grammar parseNat / parseInt on every character list; no panic"
  },
  {
   "property": "C18",
   "status": "partial",
   "theorems": [
    "Hmath.Props.C18_u32_roundtrip",
    "Hmath.Props.C18_u64_roundtrip",
    "Hmath.Props.C18_u128_roundtrip",
    "Hmath.Props.C18_from_unsigned",
    "Hmath.Props.C18_to_unsigned",
    "Hmath.Props.C18_usize_counterexample",
    "Hmath.Props.C18_usize_partial",
    "Hmath.Props.C18_to_signed_partial",
    "Hmath.Props.C18_to_i128_counterexample",
    "Hmath.Props.C18_signed_roundtrip_partial",
    "Hmath.Props.C18_signed_min_counterexample",
    "Hmath.Props.C18_ubi_into",
    "Hmath.Props.C18_ubi_from",
    "Hmath.Props.C18_ubi_small",
    "Hmath.Props.C18_bi_into",
    "Hmath.Props.C18_bi_from",
    "Hmath.Props.C18_ubi_bi"
   ],
   "note": "unsigned conversions complete; false parts refuted: usize round trip for values >= 2^32, from_iN(MIN) panics, to_i128 rejects i128::MIN; everything else proved"
  },
  {
   "property": "C19",
   "status": "partial",
   "theorems": [
    "Hmath.Props.C19_add",
    "Hmath.Props.C19_sub",
    "Hmath.Props.C19_mul",
    "Hmath.Props.C19_mul_pow2",
    "Hmath.Props.C19_neg_abs",
    "Hmath.Props.C19_pow_partial",
    "Hmath.Props.C19_pow_counterexample",
    "Hmath.Props.C19_shift"
   ],
   "note": "add, sub, mul, neg, abs, mul_pow2, limb shifts complete; pow_u32 exact for exponents < 2^31 and panics from 2^31 on (C19_pow_counterexample)"
  },
  {
   "property": "C20",
   "status": "proved",
   "theorems": [
    "Hmath.Props.C20_div",
    "Hmath.Props.C20_div_zero_panics"
   ],
   "note": "truncated quotient and remainder with sign of the dividend; zero divisor panics"
  },
  {
   "property": "C21",
   "status": "partial",
   "theorems": [
    "Hmath.Props.C21_arith_i32_partial",
    "Hmath.Props.C21_div_i32_partial",
    "Hmath.Props.C21_div_i32_zero_panics",
    "Hmath.Props.C21_rem_i32_partial",
    "Hmath.Props.C21_rem_i32_mut_partial",
    "Hmath.Props.C21_rem_i32_mut_counterexample",
    "Hmath.Props.C21_i32_min_counterexample"
   ],
   "note": "exact for every i32 except i32::MIN, on which all ten operations panic (C21_i32_min_counterexample); rem_i32_mut overflows for large divisors (counterexample)"
  },
  {
   "property": "C22",
   "status": "partial",
   "theorems": [
    "Hmath.Props.C22_comp",
    "Hmath.Props.C22_comp_i32_partial",
    "Hmath.Props.C22_eq_i32_partial",
    "Hmath.Props.C22_eq_i32_counterexample",
    "Hmath.Props.C22_i32_min_counterexample"
   ],
   "note": "big/big comparisons complete; i32 comparisons proved except i32::MIN vs negative (panics); eq_i32 panics on large same-sign numbers (C22_eq_i32_counterexample)"
  },
  {
   "property": "C23",
   "status": "partial",
   "theorems": [
    "Hmath.Props.C23_add",
    "Hmath.Props.C23_sub",
    "Hmath.Props.C23_mul",
    "Hmath.Props.C23_div",
    "Hmath.Props.C23_neg_abs",
    "Hmath.Props.C23_reci",
    "Hmath.Props.C23_bi",
    "Hmath.Props.C23_i32_partial",
    "Hmath.Props.C23_i32_min_counterexample",
    "Hmath.Props.C23_from_denom_and_numer",
    "Hmath.Props.C23_from_denom_and_numer_i32_partial",
    "Hmath.Props.C23_from_i32_min_counterexample",
    "Hmath.Props.C23_common_denom"
   ],
   "note": "add, sub, mul, div, neg, abs, reci, _bi forms, from_denom_and_numer complete; _i32 forms exact for every i32 except i32::MIN, on which all panic (counterexamples proved)"
  },
  {
   "property": "C24",
   "status": "partial",
   "theorems": [
    "Hmath.Props.C24_panics_bi_reci",
    "Hmath.Props.C24_div_partial",
    "Hmath.Props.C24_counterexample"
   ],
   "note": "false as claimed: div, div_mut, div_i32, div_i32_mut and from_denom_and_numer return a Ratio with denominator 0 for every nonzero dividend (C24_counterexample); div_bi, reci and 0/0 do panic"
  },
  {
   "property": "C25",
   "status": "partial",
   "theorems": [
    "Hmath.Props.C25_comp",
    "Hmath.Props.C25_one_zero_int",
    "Hmath.Props.C25_i32_partial",
    "Hmath.Props.C25_eq_i32_partial",
    "Hmath.Props.C25_eq_i32_counterexample",
    "Hmath.Props.C25_i32_min_counterexample"
   ],
   "note": "big comparisons, lt_one, gt_one and predicates complete; i32 comparisons except i32::MIN (panics); eq_i32 panics on large integers (counterexamples proved)"
  },
  {
   "property": "C26",
   "status": "proved",
   "theorems": [
    "Hmath.Props.C26_truncate",
    "Hmath.Props.C26_frac",
    "Hmath.Props.C26_floor",
    "Hmath.Props.C26_round"
   ],
   "note": "truncate, frac, truncate_and_frac, floor, round characterised by their defining inequalities"
  },
  {
   "property": "C27",
   "status": "partial",
   "theorems": [
    "Hmath.Props.C27_pow_partial",
    "Hmath.Props.C27_min_counterexample",
    "Hmath.Props.C27_zero_neg_panics"
   ],
   "note": "exact for every exponent except i32::MIN, which panics (C27_min_counterexample); 0^negative panics"
  },
  {
   "property": "C28",
   "status": "partial",
   "theorems": [
    "Hmath.Props.C28_accepts",
    "Hmath.Props.C28_exponent_range",
    "Hmath.Props.C28_min_exponent_panics",
    "Hmath.Props.C28_min_exponent_counterexample",
    "Hmath.Props.C28_sound",
    "Hmath.Props.C28_rejects",
    "Hmath.Props.C28_integer",
    "Hmath.Props.C28_underscore_counterexample",
    "Hmath.Props.C28_integer_counterexample",
    "Hmath.Props.C28_to_ratio_string"
   ],
   "note": "every literal of fewer than 2^33 characters is read exactly, everything accepted is a literal or integer numeral with that value, all else is an error. Exception: exponent -2^31 panics (C28_min_exponent_counterexample)"
  },
  {
   "property": "C29",
   "status": "proved",
   "theorems": [
    "Hmath.Props.C29_from",
    "Hmath.Props.C29_bigint",
    "Hmath.Props.C29_ubigint"
   ],
   "note": ""
  },
  {
   "property": "C30",
   "status": "partial",
   "theorems": [
    "Hmath.Props.C30_normal_partial",
    "Hmath.Props.C30_carry_partial",
    "Hmath.Props.C30_carry_wrong",
    "Hmath.Props.C30_carry_counterexample",
    "Hmath.Props.C30_subnormal",
    "Hmath.Props.C30_subnormal_counterexample",
    "Hmath.Props.C30_too_big_partial",
    "Hmath.Props.C30_overflow_returned",
    "Hmath.Props.C30_overflow_counterexample",
    "Hmath.Props.C30_round_to_infinity",
    "Hmath.Props.C30_zero",
    "Hmath.Props.C30_round_trip",
    "Hmath.Props.C30_exact",
    "Hmath.Props.C30_total",
    "Hmath.Props.C30_bigint"
   ],
   "note": "round trip of every finite float; half a unit of error in the normal range, 3/4 unit below it, where the result need not be nearest (C30_subnormal_counterexample); never panics. False for numbers that round up to a power of two with even exponent (result is half as large, C30_carry_counterexample) and just above the finite range (infinity or NaN instead of an error, C30_overflow_counterexample, C30_round_to_infinity)"
  },
  {
   "property": "C31",
   "status": "partial",
   "theorems": [
    "Hmath.Props.C31_ubig",
    "Hmath.Props.C31_ubig_word",
    "Hmath.Props.C31_rem_u32_partial",
    "Hmath.Props.C31_rem_u32_counterexample",
    "Hmath.Props.C31_bigint",
    "Hmath.Props.C31_bigint_shift",
    "Hmath.Props.C31_bigint_i32",
    "Hmath.Props.C31_ratio",
    "Hmath.Props.C31_ratio_bi",
    "Hmath.Props.C31_ratio_i32"
   ],
   "note": "proved for all pairs of forms, panics included; the one exception is rem_u32_mut, which overflows where rem_u32 returns (C31_rem_u32_counterexample)"
  },
  {
   "property": "C32",
   "status": "proved",
   "theorems": [
    "Hmath.Props.C32_sum",
    "Hmath.Props.C32_overflow",
    "Hmath.Props.C32_below_e",
    "Hmath.Props.C32_increasing"
   ],
   "note": "exact sum, below e, error bound and monotonicity for k <= 2^31-21; overflow panic above"
  },
  {
   "property": "C33",
   "status": "proved",
   "theorems": [
    "Hmath.Props.C33_e",
    "Hmath.Props.C33_pi",
    "Hmath.Props.C33_ln2",
    "Hmath.Props.C33_accuracy"
   ],
   "note": "limb for limb equality and real error bounds"
  },
  {
   "property": "C34",
   "status": "proved",
   "theorems": [
    "Hmath.Props.C34_minor",
    "Hmath.Props.C34_determinant",
    "Hmath.Props.C34_determinant_empty",
    "Hmath.Props.C34_determinant_not_square"
   ],
   "note": "Leibniz determinant for every n >= 1 (closed forms 1..4, Laplace expansion above); empty and non-square matrices reported"
  },
  {
   "property": "C35",
   "status": "partial",
   "theorems": [
    "Hmath.Props.C35_inverse_partial",
    "Hmath.Props.C35_inverse_singular",
    "Hmath.Props.C35_inverse_error",
    "Hmath.Props.C35_one_by_one",
    "Hmath.Props.C35_one_by_one_counterexample"
   ],
   "note": "two-sided inverse for every n >= 2 and error reporting for singular, empty and non-square matrices; false for n = 1: the inverse of [[a]] is given as [[1]] (C35_one_by_one_counterexample)"
  },
  {
   "property": "C36",
   "status": "proved",
   "theorems": [
    "Hmath.Props.C36_from_vec_generic",
    "Hmath.Props.C36_add",
    "Hmath.Props.C36_add_mut",
    "Hmath.Props.C36_add_error",
    "Hmath.Props.C36_mul_k",
    "Hmath.Props.C36_mul",
    "Hmath.Props.C36_mul_error",
    "Hmath.Props.C36_transpose",
    "Hmath.Props.C36_zeros",
    "Hmath.Props.C36_identity",
    "Hmath.Props.C36_generate",
    "Hmath.Props.C36_from_vec",
    "Hmath.Props.C36_mul_assoc",
    "Hmath.Props.C36_identity_neutral",
    "Hmath.Props.C36_transpose_involution",
    "Hmath.Props.C36_transpose_mul"
   ],
   "note": "sum, product, scaling, transpose, identity, zeros, generate, from_vec; associativity, neutrality, involution and (AB)^T between calls of the code; dimension errors"
  },
  {
   "property": "C37",
   "status": "partial",
   "theorems": [
    "Hmath.Props.C37_from_vec",
    "Hmath.Props.C37_from_vec_generic",
    "Hmath.Props.C37_from_vec_generic_counterexample",
    "Hmath.Props.C37_calc",
    "Hmath.Props.C37_mul_k",
    "Hmath.Props.C37_mul_k_mut",
    "Hmath.Props.C37_differentiate",
    "Hmath.Props.C37_differentiate_mut"
   ],
   "note": "from_vec, calc, mul_k, differentiate and the in-place forms denote the right polynomial and are normalised (vectors of at most 2^31 coefficients for the derivative, whose exponent is cast by `as i32`). The no-superfluous-zeros part fails for from_vec_generic (counterexample)."
  },
  {
   "property": "C38",
   "status": "proved",
   "theorems": [
    "Hmath.Props.C38_from_points_generic",
    "Hmath.Props.C38_from_points",
    "Hmath.Props.C38_from_points_duplicate",
    "Hmath.Props.C38_linear",
    "Hmath.Props.C38_linear_same",
    "Hmath.Props.C38_quadratic",
    "Hmath.Props.C38_quadratic_degenerate",
    "Hmath.Props.C38_cubic",
    "Hmath.Props.C38_cubic_same"
   ],
   "note": ""
  },
  {
   "property": "C39",
   "status": "proved",
   "theorems": [
    "Hmath.Props.C39_cmp",
    "Hmath.Props.C39_eq",
    "Hmath.Props.C39_ops"
   ],
   "note": ""
  },
  {
   "property": "C40",
   "status": "partial",
   "theorems": [
    "Hmath.Props.C40_from_uint",
    "Hmath.Props.C40_from_int_partial",
    "Hmath.Props.C40_from_int_counterexample",
    "Hmath.Props.C40_to_uint_partial",
    "Hmath.Props.C40_to_uint_panics",
    "Hmath.Props.C40_to_uint_counterexample",
    "Hmath.Props.C40_to_int_partial",
    "Hmath.Props.C40_to_int_counterexample",
    "Hmath.Props.C40_round_trip",
    "Hmath.Props.C40_round_trip_int"
   ],
   "note": "false for i128::MIN (panics, C40_from_int_counterexample), for fractions below one that shift by the word width (panic, C40_to_uint_panics) and out of range; everything else proved, with round trip"
  },
  {
   "property": "C41",
   "status": "partial",
   "theorems": [
    "Hmath.Props.C41_add_same",
    "Hmath.Props.C41_add_counterexample",
    "Hmath.Props.C41_add_partial",
    "Hmath.Props.C41_sub_partial",
    "Hmath.Props.C41_sub_counterexample",
    "Hmath.Props.C41_mul",
    "Hmath.Props.C41_mul_underflow",
    "Hmath.Props.C41_mul_overflow",
    "Hmath.Props.C41_mul_one_counterexample",
    "Hmath.Props.C41_mul_i32_returned",
    "Hmath.Props.C41_mul_i32_partial",
    "Hmath.Props.C41_mul_i32_counterexample",
    "Hmath.Props.C41_div_i32_partial",
    "Hmath.Props.C41_div_i32_counterexample",
    "Hmath.Props.C41_sub_all",
    "Hmath.Props.C41_sub_range_counterexample",
    "Hmath.Props.C41_add_all",
    "Hmath.Props.C41_add_same_all",
    "Hmath.Props.C41_sub_opposite_all",
    "Hmath.Props.C41_mul_i32_panic_iff",
    "Hmath.Props.C41_div_i32_all"
   ],
   "note": "same-sign sums, products and small factors proved with their exact rounding; differences are the nearest number unless rounding carries out of the mantissa, when sign and size are wrong (C41_sub_counterexample). mul_i32 panics on some mantissas (C41_mul_i32_counterexample); the exponent of a sum can overflow (C41_add_counterexample). For all exponents: same-sign sums are right or overflow (C41_add_same_all, C41_sub_opposite_all); differences first remove a multiple of 2^32 from both exponents (C41_sub_all, C41_add_all), so numbers with the same digits whose exponents differ by 2^32 have difference zero (C41_sub_range_counterexample); the exact conditions for the panics of mul_i32 and div_i32 are C41_mul_i32_panic_iff and C41_div_i32_all"
  },
  {
   "property": "C42",
   "status": "partial",
   "theorems": [
    "Hmath.Props.C42_from_ratio_partial",
    "Hmath.Props.C42_from_ratio_zero",
    "Hmath.Props.C42_from_ratio_carry",
    "Hmath.Props.C42_from_ratio_counterexample",
    "Hmath.Props.C42_to_ratio_partial",
    "Hmath.Props.C42_round_trip",
    "Hmath.Props.C42_to_ratio_counterexample",
    "Hmath.Props.C42_to_ratio_all",
    "Hmath.Props.C42_to_ratio_iff"
   ],
   "note": "nearest number and exact round trip; false when rounding carries (sign lost and half the size, C42_from_ratio_carry); to_ratio described for every number (C42_to_ratio_all), it is right exactly for exponents below 2^32 in magnitude (C42_to_ratio_iff)"
  },
  {
   "property": "C43",
   "status": "partial",
   "theorems": [
    "Hmath.Props.C43_truncate_partial",
    "Hmath.Props.C43_floor_partial",
    "Hmath.Props.C43_ceil_partial",
    "Hmath.Props.C43_round_partial",
    "Hmath.Props.C43_frac_partial",
    "Hmath.Props.C43_frac_counterexample",
    "Hmath.Props.C43_is_integer_partial",
    "Hmath.Props.C43_truncate_counterexample",
    "Hmath.Props.C43_panic",
    "Hmath.Props.C43_wrong"
   ],
   "note": "proved for exponent fields below 2^63; from there to 2^63+2^48 all roundings panic (C43_panic), above, the numbers are taken for fractions (C43_wrong); frac of the negative number of least magnitude is zero (C43_frac_counterexample)"
  },
  {
   "property": "C44",
   "status": "partial",
   "theorems": [
    "Hmath.Props.C44_exp",
    "Hmath.Props.C44_exp_panics",
    "Hmath.Props.C44_sin",
    "Hmath.Props.C44_cos",
    "Hmath.Props.C44_trig_panics",
    "Hmath.Props.C44_atan_small",
    "Hmath.Props.C44_atan_large",
    "Hmath.Props.C44_asin_partial",
    "Hmath.Props.C44_asin_panics",
    "Hmath.Props.C44_asin_counterexample",
    "Hmath.Props.C44_acos",
    "Hmath.Props.C44_tan",
    "Hmath.Props.C44_tan_counterexample",
    "Hmath.Props.C44_ln",
    "Hmath.Props.C44_ln_panics"
   ],
   "note": "exact sums for exp, sin, cos, tan, acos, atan, ln and for asin up to 643 iterations. False for asin from 644 iterations (as i32 wraps, C44_asin_counterexample) and for tan where the cosine part is zero (denominator zero, C44_tan_counterexample). ln: at most 2^27 limbs."
  },
  {
   "property": "C45",
   "status": "partial",
   "theorems": [
    "Hmath.Props.C45_sqrt_returned",
    "Hmath.Props.C45_sqrt_partial",
    "Hmath.Props.C45_sqrt_counterexample",
    "Hmath.Props.C45_sqrt_sign_counterexample",
    "Hmath.Props.C45_sqrt_zero"
   ],
   "note": "relative error proved for every returned value; panics exactly when the two leading limbs of numerator or denominator form a number of at least 2^64-120283536^2 (C45_sqrt_partial, C45_sqrt_counterexample); negative arguments give a negative result, against the documentation (C45_sqrt_sign_counterexample)"
  },
  {
   "property": "C46",
   "status": "proved",
   "theorems": [
    "Hmath.Props.C46_log2_accurate",
    "Hmath.Props.C46_log2_accurate_unit",
    "Hmath.Props.C46_log2_accurate_zero",
    "Hmath.Props.C46_log2_accurate_bi"
   ],
   "note": "for numbers of at most 2^27 limbs (2^(2^32), beyond the documented bound); sharper upper bound 2^(r+1)(1+2^-109); zero and the signed form included"
  },
  {
   "property": "C47",
   "status": "proved",
   "theorems": [
    "Hmath.Props.C47_shrink",
    "Hmath.Props.C47_shrink_sign"
   ],
   "note": "no panic, valid result, relative error at most 2^-64, sign kept, Ok implies both lengths within the limit"
  },
  {
   "property": "C48",
   "status": "proved",
   "theorems": [
    "Hmath.Props.C48_to_scientific_notation_bi",
    "Hmath.Props.C48_to_scientific_notation",
    "Hmath.Props.C48_zero"
   ],
   "note": "leading digits, trailing zeros, exponent; k <= 11 or n < 2^64"
  },
  {
   "property": "C49",
   "status": "proved",
   "theorems": [
    "Hmath.Props.C49_newton_none",
    "Hmath.Props.C49_newton_some"
   ],
   "note": "Vectors of at most 2^31 coefficients when the derivative is computed inside."
  },
  {
   "property": "C50",
   "status": "proved",
   "theorems": [
    "Hmath.Props.C50_pi_sum",
    "Hmath.Props.C50_pi_panics",
    "Hmath.Props.C50_pi_error",
    "Hmath.Props.C50_pi_increasing",
    "Hmath.Props.C50_ln2_sum",
    "Hmath.Props.C50_ln2_panics",
    "Hmath.Props.C50_ln2_error"
   ],
   "note": "both tables checked entry by entry in the kernel; real error bounds"
  },
  {
   "property": "C51",
   "status": "proved",
   "theorems": [
    "Hmath.Props.C51_sin",
    "Hmath.Props.C51_cos"
   ],
   "note": ""
  },
  {
   "property": "C52",
   "status": "proved",
   "theorems": [
    "Hmath.Props.C52_exp"
   ],
   "note": ""
  },
  {
   "property": "C53",
   "status": "proved",
   "theorems": [
    "Hmath.Props.C53_ln"
   ],
   "note": "the 1/(k+1) term is what the reduction allows: the series argument can be as large as 1 + 2^-108"
  },
  {
   "property": "C54",
   "status": "proved",
   "theorems": [
    "Hmath.Props.C54_atan",
    "Hmath.Props.C54_asin",
    "Hmath.Props.C54_acos"
   ],
   "note": ""
  },
  {
   "property": "C55",
   "status": "partial",
   "theorems": [
    "Hmath.Props.C55_into",
    "Hmath.Props.C55_big",
    "Hmath.Props.C55_from",
    "Hmath.Props.C55_from_min_counterexample",
    "Hmath.Props.C55_from_big",
    "Hmath.Props.C55_pair"
   ],
   "note": "false at the minima: From<i32/i64/isize/i128> panics on MIN (C55_from_min_counterexample), i128::MIN rejected by try_from; all else proved"
  },
  {
   "property": "C56",
   "status": "partial",
   "theorems": [
    "Hmath.Props.C56_add",
    "Hmath.Props.C56_add_i32_partial",
    "Hmath.Props.C56_add_i32_counterexample",
    "Hmath.Props.C56_parts"
   ],
   "note": "complete except add_i32(i32::MIN), which panics (C56_add_i32_counterexample)"
  },
  {
   "property": "C57",
   "status": "proved",
   "theorems": [
    "Hmath.Props.C57_log",
    "Hmath.Props.C57_log_panics",
    "Hmath.Props.C57_pow_panics",
    "Hmath.Props.C57_log_base_one_counterexample",
    "Hmath.Props.C57_pow",
    "Hmath.Props.C57_pow_zero"
   ],
   "note": ""
  },
  {
   "property": "C58",
   "status": "proved",
   "theorems": [
    "Hmath.Props.C58_to_scientific_notation",
    "Hmath.Props.C58_zero"
   ],
   "note": ""
  },
  {
   "property": "C59",
   "status": "partial",
   "theorems": [
    "Hmath.Props.C59_sign_partial",
    "Hmath.Props.C59_sign_counterexample",
    "Hmath.Props.C59_shl",
    "Hmath.Props.C59_shr_partial",
    "Hmath.Props.C59_shr_underflow",
    "Hmath.Props.C59_shr",
    "Hmath.Props.C59_step"
   ],
   "note": "complete except for the negative number of least magnitude, which is negated to zero (C59_sign_counterexample)"
  },
  {
   "property": "C60",
   "status": "partial",
   "theorems": [
    "Hmath.Props.C60_ilog2_partial",
    "Hmath.Props.C60_ilog2_counterexample",
    "Hmath.Props.C60_from_pow2_partial",
    "Hmath.Props.C60_from_pow2_counterexample",
    "Hmath.Props.C60_ilog2_wrong",
    "Hmath.Props.C60_from_pow2_wrong"
   ],
   "note": "exact in the stated range; outside, ilog2 panics or is too small by 2^64 (C60_ilog2_wrong), from_pow2 panics or is too large by a factor of 2^(2^64) (C60_from_pow2_wrong), zero at 127-2^48 (C60_from_pow2_counterexample)"
  },
  {
   "property": "C61",
   "status": "partial",
   "theorems": [
    "Hmath.Props.C61_from_float",
    "Hmath.Props.C61_to_float_partial",
    "Hmath.Props.C61_to_float_zero",
    "Hmath.Props.C61_round_to_infinity",
    "Hmath.Props.C61_infinity_partial",
    "Hmath.Props.C61_infinity_counterexample",
    "Hmath.Props.C61_overflow_partial",
    "Hmath.Props.C61_overflow_counterexample",
    "Hmath.Props.C61_small_partial",
    "Hmath.Props.C61_small_counterexample",
    "Hmath.Props.C61_round_trip",
    "Hmath.Props.C61_to_float_high"
   ],
   "note": "from floats exact for all bit patterns; to floats within half a unit in the normal range, infinite from 2^(bias+2) on; between, a NaN may result (C61_overflow_counterexample); subnormal results are off by up to half the smallest normal number (C61_small_counterexample); the largest number becomes zero (C61_infinity_counterexample); exponent fields from 2^63 on: the first 2^48 panic, the rest becomes zero (C61_to_float_high)"
  },
  {
   "property": "C62",
   "status": "partial",
   "theorems": [
    "Hmath.Props.C62_div_all",
    "Hmath.Props.C62_div_partial",
    "Hmath.Props.C62_div_zero",
    "Hmath.Props.C62_div_one_counterexample",
    "Hmath.Props.C62_div_range_counterexample",
    "Hmath.Props.C62_div_residue",
    "Hmath.Props.C62_div_wrong",
    "Hmath.Props.C62_div_panic",
    "Hmath.Props.C62_div_log_panic",
    "Hmath.Props.C62_div_top_panic",
    "Hmath.Props.C62_div_sign"
   ],
   "note": "described for almost all exponents (C62_div_all): right when the residues modulo 2^40 have the difference of the exponents, at most 2^39-2 (C62_div_partial), wrong by a factor of 2^(2^40-1) when they have another difference (C62_div_wrong), a panic from a difference of 2^39+2 on (C62_div_panic), for exponent fields from 2^63 to 2^63+2^48-1 (C62_div_log_panic) and for divisors near the end of the range (C62_div_top_panic); left out: differences of 2^39-1 to 2^39+1 depend on the mantissas, exponent field 0, divisors within 2^40 of exponent field 2^64-2^48, and the error bound for divisors with exponent fields below 2^40"
  },
  {
   "property": "C63",
   "status": "partial",
   "theorems": [
    "Hmath.Props.C63_powi_partial",
    "Hmath.Props.C63_powi_overflow",
    "Hmath.Props.C63_powi_underflow",
    "Hmath.Props.C63_powi_neg_partial",
    "Hmath.Props.C63_powi_edge",
    "Hmath.Props.C63_powi_neg_counterexample",
    "Hmath.Props.C63_powi_neg_wide_partial",
    "Hmath.Props.C63_powi_neg_wrong",
    "Hmath.Props.C63_powi_neg_panic"
   ],
   "note": "for n >= 0 proved on almost the whole range of the exponent (PowBounds), with a panic above (C63_powi_overflow) and zero below (C63_powi_underflow); for negative n proved while the power is within 2^(2^39-3) and its inverse (C63_powi_neg_wide_partial); beyond 2^(2^39+2) it panics or is wrong by a factor of 2^(2^40-2) (C63_powi_neg_wrong), and it panics when the positive power overflows or is cut off to zero (C63_powi_neg_panic)"
  },
  {
   "property": "C64",
   "status": "partial",
   "theorems": [
    "Hmath.Props.C64_sqrt_partial",
    "Hmath.Props.C64_sqrt_neg",
    "Hmath.Props.C64_sqrt_wrong",
    "Hmath.Props.C64_sqrt_counterexample",
    "Hmath.Props.C64_sqrt_panic",
    "Hmath.Props.C64_sqrt_high",
    "Hmath.Props.C64_sqrt_wide_wrong",
    "Hmath.Props.C64_sqrt_exp_panic"
   ],
   "note": "proved for exponents up to 2^39 and digits up to 2^127-767498447193188861845248850; with larger digits the integer square root reaches 2^64, its top bit is shifted out and the result is always 2.5% too large (C64_sqrt_wrong, C64_sqrt_counterexample); exponents from 2^39 to about 2^40 panic (C64_sqrt_panic), beyond that the root panics or is about a quarter of the right one for large numbers and much too large for small ones (C64_sqrt_wide_wrong); exponent fields from 2^63 on: the first 2^48 panic (C64_sqrt_exp_panic), the rest panics or is wrong by a factor of at least 2^100 (C64_sqrt_high; two narrow ranges of exponents are left out)"
  },
  {
   "property": "C65",
   "status": "partial",
   "theorems": [
    "Hmath.Props.C65_code13_decode",
    "Hmath.Props.C65_code13_reject",
    "Hmath.Props.C65_code13_encode",
    "Hmath.Props.C65_code13_range_partial",
    "Hmath.Props.C65_code13_panic_counterexample",
    "Hmath.Props.C65_code13_counterexample",
    "Hmath.Props.C65_code13_high",
    "Hmath.Props.C65_code13_zero_counterexample"
   ],
   "note": "exponent fields from 2^63 on: the first 2^48 panic, the rest encodes as zero instead of an error (C65_code13_high, C65_code13_counterexample); near 10^(2^32) encoding panics while it makes the error text (C65_code13_panic_counterexample); one number above the lower bound shares the code of zero (C65_code13_zero_counterexample)"
  },
  {
   "property": "C66",
   "status": "partial",
   "theorems": [
    "Hmath.Props.C66_decimal_long",
    "Hmath.Props.C66_decimal_partial",
    "Hmath.Props.C66_decimal_28",
    "Hmath.Props.C66_underflow",
    "Hmath.Props.C66_overflow",
    "Hmath.Props.C66_below_counterexample",
    "Hmath.Props.C66_wrong_counterexample",
    "Hmath.Props.C66_tiny_counterexample",
    "Hmath.Props.C66_base",
    "Hmath.Props.C66_reject",
    "Hmath.Props.C66_base_sign_counterexample",
    "Hmath.Props.C66_decimal_counterexample",
    "Hmath.Props.C66_decimal_zero_counterexample",
    "Hmath.Props.C66_exponent_counterexample",
    "Hmath.Props.C66_lenient_counterexample"
   ],
   "note": "decimal texts of any length whose first 39 digits are below 2^128 (C66_decimal_long), exponents from -165492990270 to 5552853823701*10^6; below, the code panics or the result is too large by a factor of 2^(2^40-2) (C66_below_counterexample) down to -2^48, and zero from there on (C66_underflow); from 5552853823702*10^6 on the code panics (C66_overflow); left out are the 10^6 exponents in between; from 2^96 on the code may panic (C66_decimal_counterexample), leading zeros of the fraction use up digits (C66_decimal_zero_counterexample), the sign of a base is dropped (C66_base_sign_counterexample), exponents near -2^63 panic (C66_exponent_counterexample)"
  },
  {
   "property": "C67",
   "status": "proved",
   "theorems": [
    "Hmath.Props.C67_pi",
    "Hmath.Props.C67_e",
    "Hmath.Props.C67_ln",
    "Hmath.Props.C67_sqrt"
   ],
   "note": ""
  },
  {
   "property": "C68",
   "status": "partial",
   "theorems": [
    "Hmath.Props.C68_log2_partial",
    "Hmath.Props.C68_log2_panics",
    "Hmath.Props.C68_log2_counterexample",
    "Hmath.Props.C68_log2_range_counterexample",
    "Hmath.Props.C68_ln_partial",
    "Hmath.Props.C68_log2_high"
   ],
   "note": "exponent fields below 2^63, and for numbers below 2^-127 a logarithm at least 2^-80 away from every -2^k; next to -2^k the rounding of the sum carries and the result is half of it (C68_log2_counterexample); exponent fields from 2^63 on: the first 2^48 panic, the logarithm of the rest is negative (C68_log2_high)"
  },
  {
   "property": "C69",
   "status": "partial",
   "theorems": [
    "Hmath.Props.C69_high_panic",
    "Hmath.Props.C69_zero",
    "Hmath.Props.C69_text_partial",
    "Hmath.Props.C69_roundtrip_partial",
    "Hmath.Props.C69_text_counterexample",
    "Hmath.Props.C69_large_counterexample",
    "Hmath.Props.C69_small_counterexample",
    "Hmath.Props.C69_panic_counterexample"
   ],
   "note": "exponent fields within 2^33 of 2^48; numbers between 10^-8 and 10^-2 are cut after 20 decimals (C69_text_counterexample), the exponent wraps at 2^32 (C69_large_counterexample) and printing panics near 10^(2^32) (C69_panic_counterexample) and near 10^(-2^32) (C69_small_counterexample); exponent fields from 2^63 to 2^63+2^48 panic (C69_high_panic)"
  },
  {
   "property": "C70",
   "status": "partial",
   "theorems": [
    "Hmath.Props.C70_sin_partial",
    "Hmath.Props.C70_cos_partial",
    "Hmath.Props.C70_tan_partial",
    "Hmath.Props.C70_cos_counterexample",
    "Hmath.Props.C70_small_counterexample",
    "Hmath.Props.C70_large",
    "Hmath.Props.C70_high_panic"
   ],
   "note": "exponents below 2^31-2^12 in magnitude and a sine or cosine at least 2^-72 away from 2^61/20!; next to it the cosine is the negative half (C70_cos_counterexample), and below 2^(-2^31) the exponent of the square wraps (C70_small_counterexample); from 2^131 on the sine is zero and the cosine is one (C70_large); exponent fields from 2^63 on: the first 2^48 panic (C70_high_panic)"
  },
  {
   "property": "C71",
   "status": "partial",
   "theorems": [
    "Hmath.Props.C71_asin_partial",
    "Hmath.Props.C71_acos_partial",
    "Hmath.Props.C71_asin_panics",
    "Hmath.Props.C71_overflow_counterexample",
    "Hmath.Props.C71_inaccurate_counterexample",
    "Hmath.Props.C71_asin_tiny",
    "Hmath.Props.C71_acos_tiny"
   ],
   "note": "arguments in (-1, 1/sqrt 2] with exponents below 2^25 in magnitude, and a panic is not excluded: it happens near 0.699 (C71_overflow_counterexample); above 1/sqrt 2 the functions are not implemented (C71_asin_panics); at -1 the result is off by 0.13 (C71_inaccurate_counterexample); arguments of magnitude up to 2^-70, however tiny, are described by C71_asin_tiny and C71_acos_tiny: the sine panics or is right, the cosine sees the exponent modulo 2^32 (C72_tiny_counterexample)"
  },
  {
   "property": "C72",
   "status": "partial",
   "theorems": [
    "Hmath.Props.C72_atan_small_partial",
    "Hmath.Props.C72_atan_large_partial",
    "Hmath.Props.C72_atan_panics",
    "Hmath.Props.C72_atan_counterexample",
    "Hmath.Props.C72_tiny_counterexample"
   ],
   "note": "exponents below 2^25 in magnitude, magnitudes up to 1/sqrt 2 or above sqrt 2, and partial sums of the series not next to a power of two, where the result is wrong (C72_atan_counterexample); in between the function is not implemented (C72_atan_panics); for tiny arguments the exponents are seen modulo 2^32 (C72_tiny_counterexample)"
  },
  {
   "property": "C73",
   "status": "partial",
   "theorems": [
    "Hmath.Props.C73_pow2_partial",
    "Hmath.Props.C73_small_counterexample",
    "Hmath.Props.C73_wrap_counterexample",
    "Hmath.Props.C73_pow_partial",
    "Hmath.Props.C73_pow_panics",
    "Hmath.Props.C73_pow2_wraps",
    "Hmath.Props.C73_pow2_panics",
    "Hmath.Props.C73_pow2_below_zero"
   ],
   "note": "exponents in [-2^48+129, 2^63-2^48+125) with the exception of [-2^-129, 0), where the result is 0.35 (C73_pow2_below_zero, C73_small_counterexample); below, down to -2^63, the exponent field wraps and the result is huge (C73_pow2_wraps, C73_wrap_counterexample); above, and below -2^63, it panics (C73_pow2_panics); for pow the base at least 2^-115 away from one in its logarithm and a product of exponent and logarithm in [-2^48+256, 2^63-2^48]"
  },
  {
   "property": "C74",
   "status": "partial",
   "theorems": [
    "Hmath.Props.C74_fixed",
    "Hmath.Props.C74_large",
    "Hmath.Props.C74_small",
    "Hmath.Props.C74_small_text",
    "Hmath.Props.C74_huge",
    "Hmath.Props.C74_zero",
    "Hmath.Props.C74_returns",
    "Hmath.Props.C74_all",
    "Hmath.Props.C74_display",
    "Hmath.Props.C74_counterexample_negative_zero",
    "Hmath.Props.C74_counterexample_length",
    "Hmath.Props.C74_counterexample_one_digit",
    "Hmath.Props.C74_counterexample_trailing_zeros",
    "Hmath.Props.C74_counterexample_lost_digit",
    "Hmath.Props.C74_counterexample_huge"
   ],
   "note": "text, length and value proved for every number (next to the limits of the notations it may be one or the other, C74_all); the documented length is exceeded (C74_counterexample_length), small negative numbers are shown as -0 (C74_counterexample_negative_zero), numbers from 2^(2^31) on are shown 17 percent too small (C74_counterexample_huge)"
  },
  {
   "property": "C75",
   "status": "partial",
   "theorems": [
    "Hmath.Props.C75_error",
    "Hmath.Props.C75_whole",
    "Hmath.Props.C75_near_partial",
    "Hmath.Props.C75_inverse_partial",
    "Hmath.Props.C75_panics",
    "Hmath.Props.C75_counterexample_truncate",
    "Hmath.Props.C75_counterexample_inverse"
   ],
   "note": "error bounds, whole exponents and the inverse of log2_accurate (up to 2^30) proved; beyond it is false: the numbers just above a power of two from 2^34 on become that power (C75_counterexample_inverse); the documented truncation is false, the power is rounded (C75_counterexample_truncate); exponents from 2^64 on panic"
  },
  {
   "property": "C76",
   "status": "partial",
   "theorems": [
    "Hmath.Props.C76_error_partial",
    "Hmath.Props.C76_round",
    "Hmath.Props.C76_zero",
    "Hmath.Props.C76_counterexample_stuck"
   ],
   "note": "the error bound is proved; that the error tends to 0 is false: for 1 + 2^-256 the result is 1 for every iter, since the digits that are removed contain the whole correction (C76_counterexample_stuck)"
  },
  {
   "property": "C77",
   "status": "proved",
   "theorems": [
    "Hmath.Props.C77_ratio",
    "Hmath.Props.C77_approx",
    "Hmath.Props.C77_matrix"
   ],
   "note": ""
  },
  {
   "property": "C78",
   "status": "proved",
   "theorems": [
    "Hmath.Props.C78_sum",
    "Hmath.Props.C78_prime",
    "Hmath.Props.C78_fibonacci",
    "Hmath.Props.C78_to_vec",
    "Hmath.Props.C78_to_vec_panics",
    "Hmath.Props.C78_complex"
   ],
   "note": ""
  },
  {
   "property": "C79",
   "status": "partial",
   "theorems": [
    "Hmath.Props.C79_ubig",
    "Hmath.Props.C79_values",
    "Hmath.Props.C79_counterexample_range",
    "Hmath.Props.C79_big",
    "Hmath.Props.C79_big_zero",
    "Hmath.Props.C79_ratio",
    "Hmath.Props.C79_ratio_values",
    "Hmath.Props.C79_ratio_half",
    "Hmath.Props.C79_matrix"
   ],
   "note": "range, sign and normal form proved; that every number of the range may come is false: exactly the numbers without a zero word come (C79_values, C79_counterexample_range, C79_ratio_half)"
  },
  {
   "property": "C80",
   "status": "partial",
   "theorems": [
    "Hmath.Props.C80_unsigned",
    "Hmath.Props.C80_signed",
    "Hmath.Props.C80_negative",
    "Hmath.Props.C80_erase",
    "Hmath.Props.C80_ranges",
    "Hmath.Props.C80_range_counterexample",
    "Hmath.Props.C80_sign_counterexample"
   ],
   "note": "all texts are determined (C80_unsigned, C80_signed, C80_negative) and never panic; the claim fails for the lower bounds of i32 and i64 (C80_range_counterexample) and, for numbers beyond the unsigned type, in sign and range (C80_sign_counterexample)"
  },
  {
   "property": "C81",
   "status": "proved",
   "theorems": [
    "Hmath.Props.C81_extremes",
    "Hmath.Props.C81_values"
   ],
   "note": "all bit patterns"
  },
  {
   "property": "C82",
   "status": "proved",
   "theorems": [
    "Hmath.Props.C82_is_valid",
    "Hmath.Props.C82_raw",
    "Hmath.Props.C82_default"
   ],
   "note": "all vectors and numbers; the printing of is_valid is left out"
  },
  {
   "property": "C83",
   "status": "partial",
   "theorems": [
    "Hmath.Props.C83_log_table",
    "Hmath.Props.C83_pow_table",
    "Hmath.Props.C83_fast_log2_partial",
    "Hmath.Props.C83_fast_log2_counterexample",
    "Hmath.Props.C83_fast_log2_range_counterexample",
    "Hmath.Props.C83_fast_pow2",
    "Hmath.Props.C83_inverse"
   ],
   "note": "both tables and the error bounds of fast_log2, fast_pow2 and their composition proved; the documented truncate(log2(self) * 16777216) is false (C83_fast_log2_counterexample), and exponents are seen modulo 2^40, with a panic for the exponent fields 2^63 to 2^63+2^48-1 (C83_fast_log2_range_counterexample)"
  },
  {
   "property": "C84",
   "status": "partial",
   "theorems": [
    "Hmath.Props.C84_add_comm",
    "Hmath.Props.C84_mul_comm",
    "Hmath.Props.C84_sub_swap_partial",
    "Hmath.Props.C84_sub_counterexample",
    "Hmath.Props.C84_mul_neg",
    "Hmath.Props.C84_i32_neg",
    "Hmath.Props.C84_add_neg",
    "Hmath.Props.C84_div_neg",
    "Hmath.Props.C84_cos_even",
    "Hmath.Props.C84_sin_odd",
    "Hmath.Props.C84_atan_odd",
    "Hmath.Props.C84_asin_odd_partial",
    "Hmath.Props.C84_asin_counterexample"
   ],
   "note": "sums and products in either order, signs of products, i32 products and quotients, quotients, sums, sine, cosine and inverse tangent proved for all numbers, panics included (the sign rules leave open whether zero is met by the negative number of least magnitude); differences of numbers of the same sign may stay the same when exchanged (C84_sub_counterexample); the inverse sine is odd only up to the square root of 1/2 (C84_asin_counterexample)"
  },
  {
   "property": "C85",
   "status": "partial",
   "theorems": [
    "Hmath.Props.C85_mul_mono",
    "Hmath.Props.C85_mul_anti",
    "Hmath.Props.C85_add_mono_partial",
    "Hmath.Props.C85_add_mono_nonneg_partial",
    "Hmath.Props.C85_mul_i32_mono",
    "Hmath.Props.C85_div_i32_mono",
    "Hmath.Props.C85_add_counterexample",
    "Hmath.Props.C85_fast_log2_mono_partial",
    "Hmath.Props.C85_fast_pow2_mono"
   ],
   "note": "products with a constant factor of either sign for all numbers; products with an i32 and quotients by an i32 for all numbers; sums of numbers of the same sign or not negative; the approximate power, and the approximate logarithm for exponents from -2^39 to 2^39; for different signs sums are not monotone (C85_add_counterexample)"
  }
 ]
}