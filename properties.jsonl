{"id": "C01", "title": "UBigInt addition is exact and keeps numbers canonical", "statement": "For every pair of valid UBigInts, add, add_mut, add_u32 and add_u32_mut return without panicking a valid UBigInt (no leading zero limbs, nonempty) whose integer value is exactly the sum.", "quantifier": "all valid UBigInts of every length, all u32 words", "why_tests_cant": "Carry chains have unbounded length and depend on the whole limb pattern; random tests almost never produce the all-ones runs on which carry bugs live.", "anchors": ["src/ubigint/arith/add.rs: UBigInt::add, add_mut, add_u32, add_u32_mut", "src/utils.rs: v64_to_v32"]}
{"id": "C02", "title": "UBigInt subtraction never wraps", "statement": "sub, sub_mut, sub_u32 and sub_u32_mut return the exact canonical difference whenever the subtrahend is not larger than the minuend, and otherwise panic; no input yields a wrapped or non-canonical number. abs_diff and abs_diff_u32 never panic and return |a-b|.", "quantifier": "all pairs of valid UBigInts / u32 words", "why_tests_cant": "A silent wrap needs a specific borrow pattern across an arbitrary number of limbs; the panic direction quantifies over every pair with b > a.", "anchors": ["src/ubigint/arith/sub.rs: UBigInt::sub, sub_mut, sub_u32, sub_u32_mut, abs_diff, abs_diff_u32"]}
{"id": "C03", "title": "UBigInt multiplication is exact at every size", "statement": "mul, mul_mut, mul_u32 and mul_u32_mut return without overflow or panic the canonical product, both below and above the length at which the library switches to a divide-and-conquer algorithm.", "quantifier": "all pairs of valid UBigInts of any length, all u32 words", "why_tests_cant": "The switch happens only when both operands exceed 64 limbs and the split depends on both lengths; u64 column accumulators could overflow only for rare extreme limb patterns.", "anchors": ["src/ubigint/arith/mul.rs: UBigInt::mul, mul_mut, mul_u32, mul_u32_mut", "src/ubigint/funcs/shift.rs: shift_right, slice_right, shift_left"]}
{"id": "C04", "title": "UBigInt division and remainder satisfy the Euclidean law and terminate", "statement": "For every dividend a and nonzero divisor b, a.div(b) and a.rem(b) (and the _mut forms) terminate without panicking and return canonical q, r with a = q*b + r and r < b; with b = 0 the operations panic.", "quantifier": "all pairs of valid UBigInts", "why_tests_cant": "The algorithm recurses on floating-point-like approximations; an over- or under-estimate that breaks the result or fails to make progress may need a specific pattern in the top limbs of arbitrarily long operands.", "anchors": ["src/ubigint/arith/div.rs: UBigInt::div, div_mut, div_approx", "src/ubigint/arith/rem.rs: UBigInt::rem, rem_mut"]}
{"id": "C05", "title": "UBigInt division and remainder by a machine word are exact", "statement": "div_u32, div_u32_mut, rem_u32, rem_u32_mut return the exact canonical quotient / remainder for every nonzero u32 divisor and panic on a zero divisor, and the mutating and non-mutating forms agree.", "quantifier": "all valid UBigInts (fewer than 2^32 limbs), all u32 divisors", "why_tests_cant": "Intermediate products over- or underflow only for large divisors combined with particular limbs; samples with small divisors never see it.", "anchors": ["src/ubigint/arith/div.rs: div_u32, div_u32_mut", "src/ubigint/arith/rem.rs: rem_u32, rem_u32_mut"]}
{"id": "C06", "title": "UBigInt comparisons are the numeric order", "statement": "lt, gt, leq, geq, eq, neq, comp and their _u32 variants return exactly the truth of the corresponding relation between the represented integers (and so form a total order consistent with equality).", "quantifier": "all pairs of valid UBigInts, all u32 words", "why_tests_cant": "Comparison walks limbs from the top; agreement with numeric order must hold for pairs that first differ at any position in numbers of any length.", "anchors": ["src/ubigint/comp.rs: UBigInt::lt, gt, eq, neq, leq, geq, comp, lt_u32, gt_u32, eq_u32, neq_u32, leq_u32, geq_u32, comp_u32"]}
{"id": "C07", "title": "Integer powers are exact", "statement": "UBigInt::pow_u32(e) returns the canonical value of self^e (0^0 = 1) for every exponent e that fits in u32; pow2(e) and exp2(e) return 2^e.", "quantifier": "all valid UBigInts, all u32 exponents", "why_tests_cant": "Exponentiation uses a stack of squarings whose bookkeeping depends on every bit of the exponent; boundary exponents near 2^31 are too expensive to test with nontrivial bases.", "anchors": ["src/ubigint/arith/pow.rs: UBigInt::pow_u32, pow_u32_mut, pow2", "src/ubigint/funcs/exp.rs: UBigInt::exp2"]}
{"id": "C08", "title": "Power-of-two scaling and limb shifts are exact", "statement": "mul_pow2(k) multiplies by 2^k, rem_pow2(m) is the remainder modulo m for every power of two m in u32, shift_left(n)/shift_right(n) multiply / floor-divide by 2^(32n), slice_right(n) is the remainder modulo 2^(32n) (n at most the length); all results canonical.", "quantifier": "all valid UBigInts, all shift amounts", "why_tests_cant": "Carry between limbs and trimming of leading zeros depend on unbounded limb patterns.", "anchors": ["src/ubigint/arith/mul.rs: mul_pow2, mul_pow2_mut", "src/ubigint/arith/rem.rs: rem_pow2", "src/ubigint/funcs/shift.rs: shift_left, shift_left_mut, shift_right, shift_right_mut, slice_right, slice_right_mut"]}
{"id": "C09", "title": "UBigInt::log2 is the floor of the binary logarithm", "statement": "For every n >= 1, 2^log2(n) <= n < 2^(log2(n)+1).", "quantifier": "all valid nonzero UBigInts", "why_tests_cant": "Unbounded domain; the boundary cases are the powers of two at every limb boundary.", "anchors": ["src/ubigint/funcs/log.rs: UBigInt::log2, log2_u32"]}
{"id": "C10", "title": "UBigInt::sqrt is the integer square root", "statement": "n.sqrt() terminates without panicking and returns the canonical r with r^2 <= n < (r+1)^2.", "quantifier": "all valid UBigInts", "why_tests_cant": "The Newton iteration works from an estimate derived from the leading limbs and then corrects by a loop; failures and overflows sit at isolated leading-limb values.", "anchors": ["src/ubigint/funcs.rs: UBigInt::sqrt, sqrt_u64"]}
{"id": "C11", "title": "gcd is the greatest common divisor", "statement": "gcd_ubi(a,b) and gcd_bi(a,b) return the (non-negative) greatest common divisor for every pair, with gcd(0,0)=0 and gcd(a,0)=|a|.", "quantifier": "all pairs of valid UBigInts / BigInts", "why_tests_cant": "Every common divisor must divide the answer: a universally quantified statement about unboundedly many divisors.", "anchors": ["src/ubigint/funcs.rs: gcd_ubi", "src/bigint/funcs.rs: gcd_bi"]}
{"id": "C12", "title": "is_prime decides primality", "statement": "is_prime(n) returns true exactly when n is a prime number.", "quantifier": "all valid UBigInts", "why_tests_cant": "Trial division switches between three code paths at 2^32 and 2^64; primality quantifies over all potential divisors.", "anchors": ["src/ubigint/funcs.rs: UBigInt::is_prime", "src/bigint/funcs.rs: BigInt::is_prime"]}
{"id": "C13", "title": "prime_factorial returns the prime factorisation", "statement": "For n >= 2, prime_factorial(n) returns a non-decreasing list of primes whose product is n.", "quantifier": "all valid UBigInts n >= 2", "why_tests_cant": "Requires primality of every factor and exactness of the product on an unbounded domain; the code path for factors beyond 32 bits is declared untested by its author.", "anchors": ["src/ubigint/funcs.rs: UBigInt::prime_factorial"]}
{"id": "C14", "title": "factorial and fibonacci are exact", "statement": "factorial(n) = n! and fibonacci(n) = F(n) for every u32 n, including those that start from precomputed constants or batch several small factors into one machine-word multiplication.", "quantifier": "all u32 n", "why_tests_cant": "n ranges over 2^32 values with results of millions of digits; constants and batching boundaries are at isolated n.", "anchors": ["src/ubigint/funcs.rs: UBigInt::factorial, fibonacci"]}
{"id": "C15", "title": "Printing then parsing an integer gives the integer back", "statement": "For every UBigInt, from_string(to_string_dec(n)) = n, and the same for to_string_hex/oct/bin with prefix; likewise for BigInt including negative numbers.", "quantifier": "all valid UBigInts and BigInts of at most 2^32 limbs (16 GiB)", "why_tests_cant": "Printing splits into zero-padded chunks and parsing into buffered chunks, so a padding mistake only appears for numbers with zeros at chunk boundaries.", "anchors": ["src/ubigint/convert.rs: UBigInt::from_string, to_string_dec, to_string_hex, to_string_oct, to_string_bin", "src/bigint/convert.rs: BigInt::from_string, to_string_dec, to_string_hex, to_string_oct, to_string_bin"]}
{"id": "C16", "title": "Printed digits are the positional expansion", "statement": "to_string_dec / hex / oct / bin produce exactly the standard base-10/16/8/2 numeral of the value, with no leading zeros (and the documented prefix).", "quantifier": "all valid UBigInts and BigInts of at most 2^32 limbs (16 GiB)", "why_tests_cant": "An unbounded family of strings; chunk-padding errors need zeros at particular digit positions.", "anchors": ["src/ubigint/convert.rs: to_string_dec, to_string_hex, to_string_oct, to_string_bin"]}
{"id": "C17", "title": "The integer parser accepts numerals of any length with the right value", "statement": "Every non-empty digit string without a leading zero, in base 10 or with prefix 0x/0o/0b, with underscores allowed after the first character, parses to the value it denotes; strings with characters outside the base, the empty string, and decimal strings with a leading zero followed by digits are rejected with an error, and the parser never panics.", "quantifier": "all character strings", "why_tests_cant": "The language is infinite and the parser flushes a machine-word buffer at digit-count boundaries.", "anchors": ["src/ubigint/convert.rs: UBigInt::from_string"]}
{"id": "C18", "title": "Fixed-width integer conversions round-trip and reject exactly the out-of-range values", "statement": "from_u32/u64/u128 then to_u32/u64/u128 is the identity; to_uN succeeds exactly when the value fits; converting a usize to UBigInt and back succeeds; signed conversions of BigInt (i32, i64, i128) are the identity on every value of the machine type, including the minimum.", "quantifier": "all values of the machine types; all valid UBigInts and BigInts", "why_tests_cant": "2^128-sized domains; boundary values at type limits.", "anchors": ["src/ubigint/convert.rs: from_u32, to_u32, from_u64, to_u64, from_u128, to_u128", "src/ubigint/convert/into.rs: TryFrom<&UBigInt> for usize", "src/bigint/convert.rs: from_i32, to_i32, from_i64, to_i64, from_i128, to_i128"]}
{"id": "C19", "title": "BigInt add, sub, mul, neg, abs, pow are exact signed arithmetic with a single zero", "statement": "add, sub, mul, neg, abs, pow_u32 and their _mut forms return the canonical signed result; zero is never marked negative.", "quantifier": "all pairs of valid BigInts", "why_tests_cant": "Sign case analysis crossed with magnitude comparison over unbounded numbers; negative zero arises only when magnitudes coincide.", "anchors": ["src/bigint/arith/add.rs", "src/bigint/arith/sub.rs", "src/bigint/arith/mul.rs", "src/bigint/arith/pow.rs", "src/bigint/funcs.rs: neg, abs"]}
{"id": "C20", "title": "BigInt division truncates toward zero and remainder takes the dividend's sign", "statement": "For b != 0, a.div(b) is the quotient truncated toward zero and a.rem(b) = a - b*a.div(b), whose sign is that of a and whose magnitude is below |b|; mutating forms agree; b = 0 panics.", "quantifier": "all pairs of valid BigInts", "why_tests_cant": "Four sign combinations times exact/inexact quotients on an unbounded domain.", "anchors": ["src/bigint/arith/div.rs", "src/bigint/arith/rem.rs"]}
{"id": "C21", "title": "BigInt operations with an i32 operand are exact for every i32", "statement": "add_i32, sub_i32, mul_i32, div_i32, rem_i32 (and the _mut forms) give the exact result for every i32 operand, including the most negative one, and every BigInt.", "quantifier": "all valid BigInts, all i32", "why_tests_cant": "The i32 boundary value and large divisors interact with unbounded left operands.", "anchors": ["src/bigint/arith/add.rs: add_i32", "src/bigint/arith/sub.rs: sub_i32", "src/bigint/arith/mul.rs: mul_i32", "src/bigint/arith/div.rs: div_i32", "src/bigint/arith/rem.rs: rem_i32, rem_i32_mut"]}
{"id": "C22", "title": "BigInt comparisons are the order of the integers", "statement": "lt, gt, leq, geq, eq, neq, comp and the _i32 variants decide the corresponding relation between the represented integers and never panic.", "quantifier": "all pairs of valid BigInts; all valid BigInts with all i32", "why_tests_cant": "Unbounded domain; the panic occurs only when a large value shares the sign of the i32.", "anchors": ["src/bigint/comp.rs: BigInt::lt, gt, eq, neq, leq, geq, comp, lt_i32, gt_i32, eq_i32, neq_i32, leq_i32, geq_i32, comp_i32"]}
{"id": "C23", "title": "Ratio add, sub, mul, div are exact and results are in lowest terms", "statement": "add, sub, mul, div (nonzero divisor), neg, abs, reci (nonzero) and their _mut, _bi and _i32 forms return the exact rational result in lowest terms with positive denominator.", "quantifier": "all pairs of valid Ratios (and BigInt / i32 operands)", "why_tests_cant": "Exactness and coprimality of the result quantify over all numerators and denominators.", "anchors": ["src/ratio/arith/add.rs", "src/ratio/arith/sub.rs", "src/ratio/arith/mul.rs", "src/ratio/arith/div.rs", "src/ratio/funcs.rs: neg, abs, reci", "src/ratio.rs: fit"]}
{"id": "C24", "title": "Dividing a Ratio by zero panics instead of producing a value", "statement": "Every division of a Ratio by zero (div, div_mut, div_bi, div_i32, reci, from_denom_and_numer with a zero denominator) panics; no API call returns a Ratio with denominator zero.", "quantifier": "all valid Ratios", "why_tests_cant": "Each operation has its own normalisation path, and whether zero is caught depends on the numerator.", "anchors": ["src/ratio/arith/div.rs: div, div_mut, div_bi, div_i32", "src/ratio/funcs.rs: reci", "src/ratio/convert.rs: from_denom_and_numer, from_denom_and_numer_i32", "src/ratio.rs: fit"]}
{"id": "C25", "title": "Ratio comparisons are the order of the rationals", "statement": "lt, gt, leq, geq, eq, neq, comp, lt_one, gt_one and the _i32 variants decide the corresponding relation between the represented rationals.", "quantifier": "all pairs of valid Ratios", "why_tests_cant": "Cross-multiplied comparison over unbounded numerators and denominators of both signs.", "anchors": ["src/ratio/comp.rs: Ratio::lt, gt, eq, neq, leq, geq, comp, lt_one, gt_one, lt_i32, gt_i32, eq_i32, leq_i32, geq_i32, comp_i32"]}
{"id": "C26", "title": "Ratio truncate, frac, floor and round are the mathematical functions", "statement": "truncate rounds toward zero, frac = x - truncate(x), floor is the greatest integer not above x, round is the nearest integer with halves away from zero; truncate_and_frac returns both parts.", "quantifier": "all valid Ratios", "why_tests_cant": "Negative and half-way cases over unbounded values.", "anchors": ["src/ratio/funcs.rs: truncate, truncate_bi, frac, truncate_and_frac, floor, floor_bi, round, round_bi"]}
{"id": "C27", "title": "Ratio::pow_i32 is exact for every exponent", "statement": "pow_i32(n) equals x^n for n >= 0 and (1/x)^(-n) for n < 0 and x nonzero, in lowest terms.", "quantifier": "all valid Ratios, all i32 exponents", "why_tests_cant": "Powers of unboundedly large fractions; exponent boundary values.", "anchors": ["src/ratio/arith/pow.rs: pow_i32, pow_i32_mut"]}
{"id": "C28", "title": "Parsing a decimal literal into a Ratio is exact", "statement": "A literal with optional sign, integer part, fractional part and exponent parses to exactly the rational number it denotes, in lowest terms.", "quantifier": "all well-formed literals with an exponent in range", "why_tests_cant": "Infinite language; exactness for every number of fractional digits and exponent.", "anchors": ["src/ratio/convert.rs: Ratio::from_string"]}
{"id": "C29", "title": "Every finite f32 and f64 converts to exactly its value", "statement": "from_ieee754_f32/f64 maps each finite bit pattern (normal, subnormal, both zeros) to exactly the rational number it denotes, and rejects NaN and infinities.", "quantifier": "all 2^32 / 2^64 bit patterns", "why_tests_cant": "2^64 inputs cannot be enumerated; subnormals and exponent extremes have separate formulas.", "anchors": ["src/ratio/convert/ieee754.rs: from_ieee754_f32, from_ieee754_f64, inspect_ieee754_f32, inspect_ieee754_f64"]}
{"id": "C30", "title": "Converting a Ratio to f32/f64 yields the nearest float, never a different magnitude", "statement": "For every Ratio within the finite range, to_ieee754_f32/f64 returns a float whose value differs from the input by at most one unit in the last place; out-of-range values are reported as errors, never as NaN or infinity.", "quantifier": "all valid Ratios", "why_tests_cant": "Mantissa carry happens only when rounding up an all-ones mantissa; the range boundary is a single binade.", "anchors": ["src/ratio/convert/ieee754.rs: to_ieee754_f32, to_ieee754_f64"]}
{"id": "C31", "title": "Mutating operations agree with their non-mutating counterparts", "statement": "For every operation op provided both as op and op_mut on UBigInt, BigInt and Ratio, x.op_mut(y) leaves x equal to x.op(y) and panics exactly when op panics.", "quantifier": "all valid operands", "why_tests_cant": "The two forms are implemented by different code (in-place carries versus column sums), so equality is over every limb pattern.", "anchors": ["src/ubigint/arith", "src/bigint/arith", "src/ratio/arith"]}
{"id": "C32", "title": "e_iter returns partial sums of the factorial series", "statement": "e_iter(k) equals the sum of 1/i! for i from 0 to 19+k exactly; it is strictly increasing in k, below e, and within 2/(k+20)! of e. For k above 2^31-21 the i32 loop counter overflows.", "quantifier": "all k", "why_tests_cant": "A closed form over all k starting from a precomputed constant and using incremental integer updates.", "anchors": ["src/ratio/e.rs: e_iter"]}
{"id": "C33", "title": "The exported constants are what their documentation says", "statement": "e_const() equals e_iter(15), pi_const() equals pi_iter(7), ln2_const() equals ln2_iter(11), limb for limb, and they lie below pi, e and ln 2 by less than 10^-19, 10^-39 and 10^-25.", "quantifier": "closed statements about constants", "why_tests_cant": "Equality with a transcendental limit can only be bounded by proof; a test compares to another float.", "anchors": ["src/consts.rs: pi_const, e_const, ln2_const", "src/ratio/pi.rs: pi_iter", "src/ratio/ln2.rs: ln2_iter", "src/ratio/e.rs: e_iter"]}
{"id": "C34", "title": "Matrix determinant is the determinant", "statement": "determinant() of an n x n matrix with n >= 1 equals the Leibniz determinant; it reports an error for non-square and empty matrices.", "quantifier": "all square matrices of every size over the rationals", "why_tests_cant": "Sizes 2, 3, 4 use closed formulas and larger ones a recursive expansion; the statement ranges over all sizes.", "anchors": ["src/matrix/det.rs: determinant, determinant_2_by_2, determinant_3_by_3, determinant_4_by_4, minor"]}
{"id": "C35", "title": "Matrix inverse is the inverse", "statement": "For every square matrix, inverse() returns B with A*B = I when det A != 0 and reports an error otherwise.", "quantifier": "all square matrices of every size n >= 1 over the rationals", "why_tests_cant": "All sizes and all entries; the adjugate's base case is size dependent.", "anchors": ["src/matrix/inv.rs: inverse, adjugate", "src/matrix/det.rs"]}
{"id": "C36", "title": "Matrix algebra: product, sum, transpose, identity", "statement": "mul is the matrix product and is associative with identity(n) neutral, add is entrywise, transpose is an involution with (AB)^T = B^T A^T; dimension mismatches are reported as errors.", "quantifier": "all conformable matrices", "why_tests_cant": "Laws quantified over all sizes and entries.", "anchors": ["src/matrix.rs: from_vec, generate, identity, zeros, add, add_mut, mul, mul_k, mul_k_mut, transpose, transpose_mut"]}
{"id": "C37", "title": "Polynomial evaluation and differentiation are correct", "statement": "calc(x) evaluates the polynomial denoted by the coefficient list, mul_k scales it, differentiate returns the formal derivative; results carry no superfluous leading zeros.", "quantifier": "all polynomials over the rationals and all evaluation points", "why_tests_cant": "All degrees and coefficients.", "anchors": ["src/poly.rs: from_vec, from_vec_generic, mul_k, mul_k_mut, differentiate, differentiate_mut, calc"]}
{"id": "C38", "title": "Interpolation passes through its points", "statement": "from_points on points with pairwise distinct abscissae returns a polynomial whose value at each abscissa is the given ordinate, and reports an error otherwise; linear_2_points, quadratic_3_points and cubic_2_points satisfy their documented interpolation conditions (values and slopes) and never reach their unreachable branch.", "quantifier": "all finite point lists over the rationals", "why_tests_cant": "Nonsingularity of the interpolation system for every list of distinct points is an algebraic identity.", "anchors": ["src/poly/from_points.rs: from_points, linear_2_points, quadratic_3_points, cubic_2_points"]}
{"id": "C39", "title": "F192 comparison is the order of the represented numbers", "statement": "cmp on F192 returns exactly the order of the real values represented, and equality of representations coincides with equality of values.", "quantifier": "all F192 bit patterns", "why_tests_cant": "2^192 bit patterns; sign, exponent and mantissa interact.", "anchors": ["src/fp192/comp.rs: impl Ord for F192, PartialOrd", "src/fp192.rs: F192"]}
{"id": "C40", "title": "F192 integer conversions round-trip", "statement": "Every u128/i128/u64/i64/u32/i32 converted to F192 represents that integer (correctly rounded beyond 128 bits of mantissa), and truncating conversion back recovers it; fractional values truncate toward zero without panicking.", "quantifier": "all machine integers, all F192 values in range", "why_tests_cant": "2^128-sized domains; shift amounts equal to the word width occur only for values below one.", "anchors": ["src/fp192/convert.rs", "src/fp192/convert.rs"]}
{"id": "C41", "title": "F192 arithmetic has the right sign and a small relative error", "statement": "mul, add, sub, mul_i32 and div_i32 return a value with the correct sign whose relative error is at most 2^-120, without panicking when exponents stay in range.", "quantifier": "all F192 pairs in the middle exponent range", "why_tests_cant": "Errors of sign or magnitude occur when rounding carries out of the mantissa, which needs specific 128-bit patterns.", "anchors": ["src/fp192/arith/add.rs: add", "src/fp192/arith/sub.rs: sub", "src/fp192/arith/mul.rs: mul, mul_i32", "src/fp192/arith/div.rs: div_i32", "src/fp192/convert.rs: From<&Ratio> for F192"]}
{"id": "C42", "title": "F192 conversion from Ratio is faithful", "statement": "F192::from(ratio) has the sign of the ratio and differs from it by at most one unit in the last place.", "quantifier": "all Ratios with exponent in range", "why_tests_cant": "Carry out of the mantissa on rounding requires an all-ones 127-bit pattern.", "anchors": ["src/fp192/convert.rs: From<&Ratio> for F192"]}
{"id": "C43", "title": "F192 truncate, floor, ceil, round, frac are the mathematical functions", "statement": "truncate, floor, ceil, round return the integer defined by the usual rounding rule and frac = x - truncate(x).", "quantifier": "all F192 values", "why_tests_cant": "2^192 bit patterns; the mask shift depends on the exponent.", "anchors": ["src/fp192/funcs.rs: floor, ceil, round, truncate, frac", "src/fp192.rs: is_integer"]}
{"id": "C44", "title": "Series evaluators compute their documented partial sums", "statement": "exp_iter, sin_iter, cos_iter, tan_iter, atan_iter, asin_iter, acos_iter, ln_iter return exactly the documented truncated series after their argument reduction (rational arithmetic introduces no error), and panic exactly outside the documented domain.", "quantifier": "all rational arguments and all iteration counts", "why_tests_cant": "All arguments and counts; incremental coefficient updates must stay in step with the factorials.", "anchors": ["src/ratio/funcs/exp.rs: exp_iter", "src/ratio/funcs/trigo.rs: sin_iter, cos_iter, tan_iter", "src/ratio/funcs/ln.rs: ln_iter", "src/ratio/funcs/atrigo.rs: asin_iter, acos_iter, atan_iter"]}
{"id": "C45", "title": "sqrt_iter approximates the square root with relative error 2^-16(k+1)", "statement": "sqrt_iter(x, k) for x > 0 returns r with sqrt(x)(1 - 2^(-16(k+1))) <= r and r (1 - 2^(-16(k+1))) <= sqrt(x); sqrt_iter(0) is 0; for negative x it returns sqrt(abs(x)) as documented.", "quantifier": "all rationals x and all k", "why_tests_cant": "A convergence statement over all inputs and iteration counts, against an irrational number.", "anchors": ["src/ratio/funcs/root.rs: sqrt_iter"]}
{"id": "C46", "title": "log2_accurate is the scaled logarithm up to one unit", "statement": "r = log2_accurate(n) satisfies 2^r <= n^(2^32) and n^(2^32) < 2^(r+2), for every n >= 1 below 2^(2^31).", "quantifier": "all valid nonzero UBigInts below the documented bound", "why_tests_cant": "The quantity n^(2^32) is too large to compute, so no test can compare against it exactly.", "anchors": ["src/ubigint/funcs/log.rs: log2_accurate"]}
{"id": "C47", "title": "Ratio::shrink keeps the number within relative error 2^-64 and keeps its limit promise", "statement": "shrink(limit) never panics, leaves a reduced fraction with positive denominator, changes the value by at most a 2^-64 fraction of itself (so the sign is kept), and whenever it returns Ok both components have at most limit 32-bit words; a Ratio that already fits is unchanged and gives Ok(0) when limit >= 3.", "quantifier": "all valid Ratios, all limits", "why_tests_cant": "The source carries a TODO saying the function is untested; its accuracy depends on the lengths of numerator and denominator in four different branches, and lengths are unbounded.", "anchors": ["src/ratio.rs:Ratio::shrink"]}
{"id": "C48", "title": "Scientific notation shows the true leading digits and exponent", "statement": "to_scientific_notation(k) prints the leading decimal digits of the number, cut off after k digits without rounding and without trailing zeros, followed by e and exactly floor(log10 n); zero prints as 0e0.", "quantifier": "all valid nonzero UBigInts and 1 <= k <= 11, and every k for numbers below 2^64", "why_tests_cant": "Numbers are repeatedly divided by 10^64 and 10^9 before the digits are taken; a misplaced exponent or a digit lost at a chunk boundary appears only for particular lengths, and there are infinitely many numbers.", "anchors": ["src/ubigint/convert.rs:183-207", "src/ubigint/convert.rs:331-360"]}
{"id": "C49", "title": "newton_method computes x - f(x)/f'(x)", "statement": "For a polynomial f and a point x with f'(x) nonzero, newton_method returns exactly x - f(x)/f'(x), with f' either computed by differentiate or supplied by the caller.", "quantifier": "all polynomials over the rationals and all points where the derivative does not vanish", "why_tests_cant": "All degrees, coefficients and points.", "anchors": ["src/poly.rs: newton_method"]}
{"id": "C50", "title": "pi_iter and ln2_iter sum the documented series and approach pi and ln 2", "statement": "pi_iter(k) is exactly the sum of the first 2k+2 terms of the Bailey-Borwein-Plouffe series (every one of the 255 table entries is right), lies below pi by less than 256^-(k+1)/2 and increases with k; ln2_iter(k) is exactly the sum of the first 6k+12 terms of sum 1/(i 2^i) and lies below ln 2 by at most 1/((6k+13) 2^(6k+12)); beyond the tables (k > 255, k > 205) they panic.", "quantifier": "all k", "why_tests_cant": "The claim is about transcendental limits; a wrong entry deep in a table changes only digits far beyond any float.", "anchors": ["src/ratio/pi.rs: pi_iter, PI_TABLE", "src/ratio/ln2.rs: ln2_iter, LN2_TABLE"]}
{"id": "C51", "title": "sin_iter and cos_iter are within a stated distance of sine and cosine", "statement": "|sin_iter(x,k) - sin x| and |cos_iter(x,k) - cos x| are at most 1/(4k+4)! + (|x|/3 + 1/4)/(2*256^(k+1)).", "quantifier": "all rational x, all k <= 255", "why_tests_cant": "Argument reduction has eight branches and the error grows with |x|; only a proof bounds it for all rationals.", "anchors": ["src/ratio/funcs/trigo.rs: sin_iter, cos_iter"]}
{"id": "C52", "title": "exp_iter has a bounded relative error", "statement": "|exp_iter(x,k) - e^x| <= (6/(k+1)! + 14|x|/(k+20)!) e^x.", "quantifier": "all rational x with |x| < 2^31, all k <= 2^31 - 21", "why_tests_cant": "The integer part is a power of an approximate e, whose error is amplified by up to 2^31; a bound over all arguments needs a proof.", "anchors": ["src/ratio/funcs/exp.rs: exp_iter"]}
{"id": "C53", "title": "ln_iter is within a stated distance of the logarithm", "statement": "|ln_iter(x,k) - ln x| <= 1/(k+1) + (2|ln x| + 2)/((6k+13) 2^(6k+12)).", "quantifier": "all positive rationals with at most 2^27 limbs, all k <= 205", "why_tests_cant": "The reduction relies on an approximate binary logarithm and lets the series argument reach 1; whether it still converges there cannot be sampled.", "anchors": ["src/ratio/funcs/ln.rs: ln_iter"]}
{"id": "C54", "title": "asin_iter, acos_iter and atan_iter are within a stated distance of the inverse functions", "statement": "|atan_iter(x,k) - arctan x| <= min(|x|,1/|x|)^(4k+5)/(4k+5), plus 256^-(k+1)/4 when |x| > 1; |asin_iter(x,k) - arcsin x| <= |x|^(2k+5)/((2k+5)(1-x^2)) for |x| < 1, and acos_iter the same plus 256^-(k+1)/4.", "quantifier": "all rational x in the domain; k <= 255 (atan, acos), k <= 643 (asin)", "why_tests_cant": "Bounds against transcendental functions over all rationals.", "anchors": ["src/ratio/funcs/atrigo.rs: asin_iter, acos_iter, atan_iter"]}
{"id": "C55", "title": "Ratio converts to and from the integer types", "statement": "Ratio -> iN/uN/BigInt/UBigInt truncates towards zero and fails exactly when the truncated value is outside the target type; integers convert to the Ratio of the same value; a (denominator, numerator) pair converts to the quotient in lowest terms and back.", "quantifier": "all well-formed Ratios, all values of each machine type (the minima of i32/i64/isize/i128 panic, and i128::MIN is rejected on the way out)", "why_tests_cant": "The failures sit exactly at the ends of the ranges of twelve types.", "anchors": ["src/ratio/convert/from.rs", "src/ratio/convert/into.rs"]}
{"id": "C56", "title": "Complex addition is exact", "statement": "add, add_mut, add_i32, add_i32_mut return the sum, with both parts in lowest terms.", "quantifier": "all complex numbers with well-formed parts, all i32 except i32::MIN (which panics)", "why_tests_cant": "Unbounded rationals.", "anchors": ["src/complex/arith/add.rs", "src/complex.rs"]}
{"id": "C57", "title": "log_iter and pow_iter are within a stated distance of the real functions", "statement": "|log_iter(b,x,k) - log_b x| <= (e_x + |log_b x| e_b)/(|ln b| - e_b) with e the error of ln_iter; |pow_iter(a,b,k) - a^b| <= ((1+d) exp(|b| e) - 1) a^b with d the relative error of exp_iter; non-positive arguments panic; base 1 never gives a number.", "quantifier": "all positive rationals with at most 2^27 limbs, all k <= 205", "why_tests_cant": "Bounds against transcendental functions over all rationals.", "anchors": ["src/ratio/funcs/ln.rs: log_iter", "src/ratio/funcs/pow.rs: pow_iter"]}
{"id": "C58", "title": "Ratio scientific notation prints the right leading digits", "statement": "Ratio::to_scientific_notation prints the sign, leading digits (cut off) and decimal exponent of a number N*10^X with 16 to 19 digit N, which is within a relative error of 1/(4*10^15) of the input; when numerator or denominator has at most 4 limbs the digits are exactly those of the input. Never panics.", "quantifier": "all nonzero well-formed Ratios with at most 2^27 limbs in numerator and denominator, all digit counts >= 1", "why_tests_cant": "The digit count comes from a fixed-point logarithm multiplied by a rational approximation of log10(2); the error grows with the size of the number.", "anchors": ["src/ratio/convert.rs: to_scientific_notation"]}
{"id": "C59", "title": "F192 negation, absolute value, shifts and step_epsilon are exact", "statement": "neg and abs change only the sign; shl k and shr k multiply and divide by 2^k exactly while the exponent stays in range, shl panics and shr gives zero otherwise; step_epsilon moves to the next representable number of larger magnitude.", "quantifier": "all F192 bit patterns, all shift counts; neg and abs except the negative number of least magnitude", "why_tests_cant": "2^192 bit patterns; the exceptional patterns are single values.", "anchors": ["src/fp192.rs: abs, neg, is_neg, shl, shr, step_epsilon"]}
{"id": "C60", "title": "F192 ilog2 and from_pow2 are the exact binary exponent functions", "statement": "2^ilog2(x) <= x < 2^(ilog2(x)+1) for positive x, and from_pow2(n) represents 2^n.", "quantifier": "all positive F192 with exponent field below 2^63; all n with 127-2^48 < n < 2^63-2^48", "why_tests_cant": "The edges of the range are where the exponent arithmetic wraps.", "anchors": ["src/fp192/funcs/ln.rs: ilog2", "src/fp192/funcs/pow.rs: from_pow2"]}
{"id": "C61", "title": "F192 and IEEE floats convert exactly or to half a unit", "statement": "From<f32>/From<f64> represent every finite bit pattern exactly and reject infinities and NaN; the conversion back is off by at most half a unit in the range of normalised floats, gives a signed infinity above it, and returns every normalised float unchanged.", "quantifier": "all 32 and 64 bit patterns; all F192 bit patterns in the stated ranges", "why_tests_cant": "2^64 bit patterns and 2^192 numbers; the wrong results sit at the edges of the exponent range.", "anchors": ["src/fp192/convert.rs: TryFrom<f32>, TryFrom<f64>, From<F192> for f32, From<F192> for f64"]}
{"id": "C62", "title": "F192 division terminates with a quotient accurate to 2^-124", "statement": "The bisection in div starts from a bracket of the quotient, ends, and returns x/y*(1+d) with 0 <= d <= 2^-124; zero divided by anything is zero, division of anything else by zero panics.", "quantifier": "all pairs of F192 bit patterns whose exponents are at most 2^46 in magnitude (right, wrong or panic decided by the residues of the exponents modulo 2^40)", "why_tests_cant": "The loop has no iteration bound; that its bracket (from two 65-entry tables) contains the quotient, and that the midpoint never repeats, has to hold for 2^384 pairs.", "anchors": ["src/fp192/arith/div.rs: div", "src/fp192/funcs/ln.rs: fast_log2", "src/fp192/funcs/pow.rs: fast_pow2, fast_pow2_worker"]}
{"id": "C63", "title": "F192 integer powers are accurate to n*2^-124", "statement": "powi(x, n) is x^n*(1-d) with 0 <= d <= n*2^-124, and powi(x, -n) is x^-n*(1+d) with 0 <= d <= (n+2)*2^-124; zero and one exponents are exact, powers of zero are zero (a panic for negative exponents), and the smallest exponent panics.", "quantifier": "all F192 bit patterns and all exponents for which the result stays in the exponent range", "why_tests_cant": "The error grows with the number of products, which depends on the bits of the exponent; a sample shows neither the bound nor that the truncations never add up to more.", "anchors": ["src/fp192/funcs/pow.rs: powi, powi_abs"]}
{"id": "C64", "title": "F192 square roots are accurate to 2^-124", "statement": "The square of sqrt(x) is x up to a relative error of 2^-124 (2^-126 downwards); zero and negative numbers give zero.", "quantifier": "all positive F192 bit patterns with exponents up to 2^39 in magnitude", "why_tests_cant": "Two Newton steps from an integer square root; the tests look at 17 digits of eight numbers and at squares of small integers, while the failing mantissas are a 2^-39 part of all.", "anchors": ["src/fp192/funcs/sqrt.rs: sqrt, isqrt"]}
{"id": "C65", "title": "The 13 character code of F192", "statement": "Every string of 1 to 13 digits and letters without leading zeros decodes to a valid number that encodes to the same string; other strings are rejected. Numbers from 2^-1920 to 2^1923 encode to such a string and decode to a number at most |x|/(2*62^10*31) away; smaller numbers encode as zero and larger ones are errors.", "quantifier": "all strings; all F192 bit patterns", "why_tests_cant": "There are 62^13 codes and 2^192 numbers; the tests encode a few hundred random numbers and miss the one code that two numbers share as well as the exponents above 2^63.", "anchors": ["src/fp192/convert/string.rs: into_code13, from_code13"]}
{"id": "C66", "title": "F192 from strings", "statement": "A decimal text (sign, integer without leading zeros, fraction, exponent; underscores allowed) whose digits denote D with last digit of weight 10^y is read as a number within a relative error of (|y|+2)/2^124 of D*10^y, exactly if y = 0. A text in base 16, 8 or 2 with n digits is read within (n/15)/2^124, exactly up to 15 digits. Every other string is an error, never a panic.", "quantifier": "all strings", "why_tests_cant": "The tests parse a few dozen literals; the panic needs a mantissa within 2^-30 of a power of two, the dropped sign needs a negative hexadecimal literal and the loss of digits needs forty of them.", "anchors": ["src/fp192/convert/string.rs: from_str, pow10, pow10_worker"]}
{"id": "C67", "title": "The constants of F192 are correctly rounded", "statement": "PI, PI/2, PI/3, PI/4, PI/6, E, the square roots of 2, 3, 10 and 1/2 and the natural logarithms of 2, 3, 10 are F192 numbers, and no F192 number is nearer to the real number each is named after.", "quantifier": "all F192 numbers, as competitors of each constant", "why_tests_cant": "The test prints series expansions to a few dozen digits and compares with the literals; it cannot compare with a real number nor with every other number of the format.", "anchors": ["src/fp192/consts.rs"]}
{"id": "C68", "title": "Logarithms of F192", "statement": "log2 and ln of a positive number return a number within 2^-118 + |log x|/2^122 of the real logarithm; zero and negative numbers panic.", "quantifier": "all F192 bit patterns", "why_tests_cant": "The tests compare a dozen logarithms with constants of 20 digits. The wrong results need a number whose logarithm is within 2^-80 of the negative of a power of two.", "anchors": ["src/fp192/funcs/ln.rs: log2, log2_iter, ln"]}
{"id": "C69", "title": "F192 as decimal strings", "statement": "to_approx_string returns 0 for zero, and else a decimal number of at most 21 digits with the sign of x and a relative error of at most 2*10^-18. Reading the text back gives x up to that error.", "quantifier": "all F192 bit patterns", "why_tests_cant": "The tests print a few dozen constants and powers of two; the wrong texts need numbers beyond 10^(2^32) or an error check below the tenth digit for small numbers.", "anchors": ["src/fp192/convert/string.rs: to_approx_string, log10, pow10, pow10_worker"]}
{"id": "C70", "title": "Sine, cosine and tangent of F192", "statement": "sin and cos return a number within 2^-70 + |x|/2^122 of the real sine and cosine, the sine of a small number even within |x|/2^70 + |x|/2^122; tan is within (2^-67 + |x|/2^119)/cos(x)^2 of the real tangent.", "quantifier": "all F192 bit patterns", "why_tests_cant": "The tests compare about a hundred values with 15 digits. The wrong cosines are three neighbouring numbers among 2^192, or lie below 2^(-2^31).", "anchors": ["src/fp192/funcs/trigo.rs: sin, cos, tan, sin_iter, cos_iter, sin_near_pi_over_4"]}
{"id": "C71", "title": "Inverse sine and cosine of F192", "statement": "For |x| <= 1, asin and acos return a number whose distance from the real inverse sine or cosine is at most |x|^33/(33(1-x^2)) + |x|/2^116 (and 2^-123 more for acos); for |x| > 1 they panic.", "quantifier": "all F192 bit patterns", "why_tests_cant": "The test takes the sine of the result for multiples of 1/128 and compares with the precision of f64. The arguments where a multiplication overflows are a few among 2^128.", "anchors": ["src/fp192/funcs/atrigo.rs: asin, acos"]}
{"id": "C72", "title": "Inverse tangent of F192", "statement": "atan returns a number whose distance from the real inverse tangent is at most w^33/33 + w/2^115 + 2^-123 where w is the smaller one of |x| and 1/|x| (without the last summand for |x| <= 1).", "quantifier": "all F192 bit patterns", "why_tests_cant": "The test takes the tangent of the result for multiples of 1/16 and compares with the precision of f64. The wrong results are next to powers of two, such as 2^-99.", "anchors": ["src/fp192/funcs/atrigo.rs: atan, atan_near_one"]}
{"id": "C73", "title": "Powers of F192", "statement": "pow2 returns a number within a factor 1 \u00b1 2^-48 of the real power 2^x, and pow(x, y) returns a number within a relative distance of 2^-48 + |y|/2^116 + |y log2 x|/2^121 of the real power x^y, for x > 0; for x <= 0 pow panics.", "quantifier": "all F192 bit patterns whose result is representable", "why_tests_cant": "The tests take six powers of two and the powers of 1..7 to 1..7, and compare with the precision of f64. The wrong results are for exponents just below zero, and for results below the smallest representable number.", "anchors": ["src/fp192/funcs/pow.rs: pow2, pow"]}
{"id": "C74", "title": "Decimal text of Ratio", "statement": "to_approx_string(max_len) never panics and returns a text of at most max(max_len, 6) characters that from_string reads as the number rounded towards zero to the digits there is room for: in fixed notation for magnitudes between 10^-(K-2) and 10^(K-2), K = max(max_len, 6), else in scientific notation with up to nine digits, or with four digits beyond 10^9991 and 10^-9991. Display is to_approx_string(12).", "quantifier": "all Ratio values with numerator and denominator of up to 2^27 limbs, all max_len", "why_tests_cant": "The tests print about forty chosen numbers. The digits, the layout and the length depend on an estimate of the logarithm, on the sign and on the length of the exponent; the wrong texts are for negative numbers, for lengths next to the limit and for huge numbers.", "anchors": ["src/ratio/convert.rs: to_approx_string, exp10, impl Display"]}
{"id": "C75", "title": "exp2_accurate is the scaled power of two", "statement": "exp2_accurate(n) is the integer part of 2^(n/2^32), as documented, up to rounding: it lies between 2^(n/2^32)*(1-2^-59) - 1/2 - 2^-30 and 2^(n/2^32)*(1+2^-32) + 1/2, is exact at whole exponents, and undoes log2_accurate up to 2^30.", "quantifier": "all UBigInts below 2^96", "why_tests_cant": "The test only takes about twenty logarithms back. The result depends on 513 table entries, five halvings and a linear interpolation; an error in one table entry or in the comparison of the fraction shows for a few fractions only.", "anchors": ["src/ubigint/funcs/exp.rs: exp2_accurate, EXP_TABLE"]}
{"id": "C76", "title": "Cube roots of Ratio", "statement": "cbrt_iter(x, iter) returns a valid Ratio relatively within 1500^-(2^iter) + 2^-127 of the real cube root of x, for negative x as well, 0 for 0; the error tends to 0 as iter grows.", "quantifier": "all Ratio values with numerator and denominator of fewer than 2^27 limbs, all iter", "why_tests_cant": "The test compares the cubes of a few results with their arguments. The first approximation comes from log2_accurate and exp2_accurate, digits are removed in each round, and the number of digits kept depends on the lengths of the intermediate fractions.", "anchors": ["src/ratio/funcs/root.rs: cbrt_iter"]}
{"id": "C77", "title": "Text of polynomials and matrices", "statement": "Polynomial::to_ratio_string writes a text that, read as a signed sum of terms c * x^k, is the polynomial, with decreasing powers and no zero term unless the text is 0; to_approx_string writes the polynomial whose coefficients are cut off to the places there is room for; Matrix::to_ratio_string writes the rows between brackets with each entry in lowest terms.", "quantifier": "all polynomials and matrices with entries of at most 2^32 limbs (decimal text: 2^27 limbs and magnitudes in the range of fixed notation), all max_len", "why_tests_cant": "Signs, ones, zeros, the constant term and the first term are each treated by a branch of their own, so a wrong text shows only for certain combinations of coefficients; the tests print a few polynomials.", "anchors": ["src/poly.rs: to_ratio_string", "src/poly.rs: to_approx_string", "src/poly.rs: to_string", "src/matrix.rs: to_ratio_string"]}
{"id": "C78", "title": "Sums, products and functions that pass on to others", "statement": "sum() and product() over UBigInts are the sum and the product; BigInt::is_prime, prime_factorial and fibonacci agree with the mathematical notions for the absolute value; Polynomial::to_vec_f32/f64 give one float per coefficient within half a unit, and panic if one is out of range; Complex::try_from_real_and_imag takes both parts or returns the first error.", "quantifier": "all lists of UBigInts, all BigInts of at most 2^32 limbs, all polynomials in the range of C30, all texts", "why_tests_cant": "The functions are compositions; the tests evaluate one sum and one product.", "anchors": ["src/ubigint/arith.rs: sum", "src/ubigint/arith.rs: product", "src/bigint/funcs.rs: is_prime", "src/bigint/funcs.rs: prime_factorial", "src/bigint/funcs.rs: fibonacci", "src/poly.rs: to_vec_f32", "src/poly.rs: to_vec_f64", "src/complex/convert.rs: try_from_real_and_imag"]}
{"id": "C79", "title": "Random numbers are in the documented range", "statement": "Whatever the generator answers, UBigInt::random(scale) is in 1..2^(32 scale) (0 for scale 0), BigInt::random has that magnitude and the drawn sign, Ratio::random is in lowest terms and strictly between 0 and 1, Matrix::random has the given dimensions with such entries; and every number of the range may come.", "quantifier": "all sequences of answers of the generator, all scales and dimensions", "why_tests_cant": "A test sees a few draws; the zero word, on which range and normal form depend, is drawn once in four thousand million times, and what never comes cannot be seen by drawing.", "anchors": ["src/ubigint/funcs.rs: random", "src/bigint/funcs.rs: random", "src/ratio/funcs.rs: random", "src/matrix.rs: random"]}
{"id": "C80", "title": "Range errors name the range and the number", "statement": "A conversion of a UBigInt or BigInt to an integer type that fails with NotInRange reports a permitted range whose bounds are those of the type (to the digits shown) and the rejected number: its sign, its leading five digits and its exponent. Producing the texts never panics, and without them the conversions are those of C18.", "quantifier": "all valid UBigInts and BigInts", "why_tests_cant": "The tests only look at whether a conversion fails; the texts are written by hand for every type and the number is printed by a division loop that runs over numbers of any length.", "anchors": ["src/ubigint/convert.rs: to_u32, to_u64, to_u128", "src/bigint/convert.rs: to_i32, to_i64, to_i128, to_ubi", "src/bigint/convert/into.rs: TryFrom<&BigInt> for u128"]}
{"id": "C81", "title": "F192::MAX, MIN and MIN_POSITIVE are the extreme numbers", "statement": "Every F192 number lies between MIN and MAX, MIN is the negative of MAX, MIN_POSITIVE is positive and no positive F192 number is smaller; each has only one bit pattern. MAX is (2^128-1)*2^(2^64-1-2^48) and MIN_POSITIVE is (2^127+1)*2^(-2^48).", "quantifier": "all F192 bit patterns", "why_tests_cant": "No test uses these constants, and the claim compares them with all 2^192 bit patterns; that the pattern with digits 0 and exponent 0 is zero and not a power of two makes MIN_POSITIVE irregular.", "anchors": ["src/fp192/consts.rs: MAX, MIN, MIN_POSITIVE"]}
{"id": "C82", "title": "Raw parts, defaults and the validity check", "statement": "from_raw rebuilds every number from the parts given by into_raw; a vector in normal form with a sign only if nonzero makes a valid BigInt of that value; get_numer and get_denom are numerator and positive denominator in lowest terms; the default of every type is a valid zero; is_valid, the check of the library's own tests, accepts exactly the vectors in normal form (and no negative zero).", "quantifier": "all vectors of u32, all numbers", "why_tests_cant": "The tests rely on is_valid and never test it; vectors of any length must be covered.", "anchors": ["src/ubigint.rs: from_raw, into_raw, is_valid, default", "src/bigint.rs: from_raw, into_raw, is_valid, default", "src/ratio.rs: from_raw, into_raw, get_denom, get_numer, default", "src/fp192.rs: default"]}
{"id": "C83", "title": "fast_log2 and fast_pow2 of F192: tables and error bounds", "statement": "LOG_TABLE[i] is the floor of (log2(64+i)-6)*2^24 and POW_TABLE[i] the floor of 2^(24+i/64); fast_log2 returns the truncated base 2 logarithm scaled by 2^24, as documented; fast_pow2 returns the power of two of its scaled argument up to a relative error below 1/2953; fast_pow2 after fast_log2 gives back the number up to a relative error of 1/1211.", "quantifier": "all table entries, all positive F192 bit patterns, all i64 arguments", "why_tests_cant": "The claim compares with real logarithms and powers for all 2^191 positive numbers and all 2^64 arguments; the worst errors lie between the table points, and the behaviour for huge exponents is reached by no test.", "anchors": ["src/fp192/funcs/ln.rs: fast_log2, LOG_TABLE", "src/fp192/funcs/pow.rs: fast_pow2, fast_pow2_worker, POW_TABLE"]}
{"id": "C84", "title": "Symmetries of F192 arithmetic", "statement": "x+y and y+x, and x*y and y*x, are the same bit pattern or both panic; y-x is the negative of x-y; a product, a quotient and a product or quotient with an i32 change their sign with each operand of the type, and so does a sum with both; sine, inverse sine and inverse tangent are odd and cosine is even. All this includes panics, overflow and rounding.", "quantifier": "all F192 bit patterns", "why_tests_cant": "The claims range over all pairs of 2^192 bit patterns, including those for which the operations overflow, panic or lose accuracy; a test sees only samples.", "anchors": ["src/fp192/arith/add.rs: add", "src/fp192/arith/sub.rs: sub", "src/fp192/arith/mul.rs: mul, mul_i32", "src/fp192/arith/div.rs: div, div_i32", "src/fp192/funcs/trigo.rs: sin, cos", "src/fp192/funcs/atrigo.rs: asin, atan"]}
{"id": "C85", "title": "F192 products, integer quotients, sums and approximate logarithm and power keep the order", "statement": "If x <= y and the results exist, then x*z <= y*z for z >= 0 and y*z <= x*z for z <= 0, x*a <= y*a for an i32 a >= 0 and x/a <= y/a for an i32 a > 0, reversed for negative a, and x+z <= y+z; fast_log2 is monotone in the magnitude and fast_pow2 is monotone: neither the cutting off of digits nor the replacement of small products by zero exchanges two results.", "quantifier": "all F192 bit patterns", "why_tests_cant": "A product is put together from three truncated half products, so neighbouring operands can differ in the last digit in either direction; only a proof covers all triples of 2^192 bit patterns.", "anchors": ["src/fp192/arith/mul.rs: mul, mul_i32", "src/fp192/arith/div.rs: div_i32", "src/fp192/arith/add.rs: add", "src/fp192/funcs/ln.rs: fast_log2", "src/fp192/funcs/pow.rs: fast_pow2"]}
