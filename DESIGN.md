# Formal model of hmath in Lean 4 — design

## Approach

The Rust sources under `/repo/src` are transcribed function by function into
total Lean 4 definitions under `lean/Verif/Model/`.  Every definition cites the
file and lines it transcribes.  The properties of `properties.jsonl` are stated
against a small separate specification (`lean/Verif/Spec*.lean`) that talks
only about Mathlib's `Nat`, `Int`, `Rat`, `Matrix`, `Polynomial`, and proved in
`lean/Verif/Props/`.  Helper lemmas live in `lean/Verif/Proofs/`.

### Execution monad

`M α = ExceptT Panic Option α`:

* `pure a`           – the call returns `a`;
* `throw p`          – the call panics (`overflow`, `index`, `divZero`, `unwrap`, `explicit`, …);
* `none`             – the call does not terminate.

Recursion and loops whose termination is not syntactically evident are defined
with `partial_fixpoint`, which gives the least solution of the defining
equation: divergence is `none`, nothing else is invented.  So a theorem of the
form `f x = pure y` states termination, absence of panics and the value at once.
`Result<T, E>` in the Rust code is ordinary data (`Except`) inside the monad.

### Machine integers

`u32`, `u64`, `u128`, `i32` … values are `Nat`/`Int`.  Every `+ - *` of the Rust
code on machine integers is a checked operation (`u32Add`, `u64Mul`, …) that
panics on overflow, i.e. the model follows the debug profile
(`overflow-checks = on`).  `as u32` casts are `% 2^32`.  If a theorem shows that
the call returns, no check failed, so in the release profile the same value is
computed.  `usize` lengths/indices are unbounded (a `Vec` cannot exceed
`isize::MAX` bytes, so the additions of lengths in the code cannot overflow).
Memory allocation never fails.

### Data

* `UBigInt` – `List Nat` of limbs, least significant first.  `Valid` = nonempty,
  all limbs `< 2^32`, last limb nonzero unless it is the only one (this is the
  code's own `is_valid`).  Meaning: `val : List Nat → Nat`.
* `BigInt` – limbs and a sign; `Valid` adds "zero is not negative"; meaning in `ℤ`.
* `Ratio` – numerator and denominator BigInt; `Valid` = both valid, denominator
  positive, coprime; meaning in `ℚ`.
* `Matrix` – list of rows of Ratio; `Polynomial` – list of Ratio, highest degree first.
* `F192` – `digits : Nat` (u128), `exp : Nat` (u64); meaning in `ℚ`.

`&mut self` methods return the new value.  Index loops over limbs are structural
recursions over lists (stated in the comments of the definitions).

### Refinement

Each layer is proved to refine the mathematical object, and the next layer's
proof uses only these refinement equations:
`UBigInt ≅ ℕ`, `BigInt ≅ ℤ`, `Ratio ≅ ℚ`, `Matrix ≅ Matrix m n ℚ`,
`Polynomial ≅ ℚ[X]`.

## Properties

| id | how it is modelled and proved |
|----|-------------------------------|
| C01 | `add`, `add_mut`, `add_u32`, `add_u32_mut` transcribed; induction on limbs with carry; result valid and value = sum |
| C02 | same for `sub*`; iff between `b ≤ a` and returning; panic otherwise |
| C03 | schoolbook (column accumulator bound for ≤ 64 limbs) and Karatsuba recursion (`partial_fixpoint`, strong induction on length) |
| C04 | recursive approximate division (`partial_fixpoint`), strong induction on the dividend |
| C05 | word division/remainder; `rem_u32_mut` uses 32-bit products: counterexample + partial; whatever it returns is right, and `C05_rem_u32_mut_panic_iff` says when it overflows |
| C06 | limb comparison from the top; equality with order on ℕ |
| C07 | squaring stack; the doubling of the u32 counter overflows for exponents ≥ 2^31: counterexample + partial |
| C08 | shifts, masks |
| C09 | `log2` |
| C10 | Newton loop; `sqrt_u64` overflows for inputs above (2^32-1)^2: counterexample + partial |
| C11 | Euclid by `partial_fixpoint` |
| C12, C13 | trial division; exact panic conditions of both |
| C14 | product loop with u32 batching; iteration from constants |
| C15–C17 | string functions over `List Char` |
| C18 | conversions |
| C19–C22 | BigInt layer |
| C23–C27 | Ratio layer |
| C28 | literal parser against an independent description of literals (`Spec/RatioStr.lean`): accepted exactly, nothing else accepted, never panics except for exponent -2^31 |
| C29, C30 | bit patterns as naturals `< 2^32` / `< 2^64`, both formats as one model with parameters; value of a bit pattern in `Spec/Ieee.lean`; rounding as a function on ℚ |
| C58 | `Ratio::to_scientific_notation`: the digit estimate bounded with real logarithms, log10 2 enclosed by two fractions checked in the kernel |
| C31 | equality of both forms, from the refinement equations |
| C32, C33, C44, C45, C50 | rational iterations via the Ratio refinement; loop invariants over `List.range`; the tables of pi and ln 2 checked entry by entry in the kernel |
| C51–C54 | Taylor remainders proved by comparing derivatives (`Proofs/SeriesReal.lean`, `Proofs/AsinReal.lean`) and combined with the exact sums (`Proofs/SeriesErr.lean`) |
| C34–C36 | matrices via Mathlib determinants |
| C37, C38, C49 | polynomials over `Mathlib`'s `Polynomial ℚ` |
| C47 | `shrink`: interval arithmetic on the cut numerator and denominator |
| C48 | scientific notation via the digit expansion |
| C39–C43, C59–C66 | F192: every bit pattern other than zero is `mk' sign mantissa exponent` with value `± m·2^(e-2^48)` in ℚ; rounding stated as nearest, cut off, or relative error |
| C67 | the F192 constants, compared with π, e, logarithms and roots in ℝ through partial sums evaluated in the kernel; nearest among all numbers of the format |
| C68 | F192 logarithms: 16 rounds of eight squarings, each divides the error of the rest by 256; compared with `Real.logb` |
| C69 | `F192::to_approx_string`: the estimate of the decimal exponent, the scaling, the digits and the layout of the text, compared with the grammar of C66 |
| C70 | `F192::sin`, `cos`, `tan`: the reduction modulo two pi, the choice of the quarter, the three series with their rounding errors, against the real functions |
| C71 | `F192::asin`, `acos`: the series of 16 terms with its rounding errors, against the real functions |
| C72 | `F192::atan`: the series of 16 terms, directly or of the reciprocal, against the real function |
| C73 | `F192::pow2`, `pow`: the series of 15 terms for the fraction, the scaling by the floor, against the real powers |
| C74 | `Ratio::to_approx_string` and `Display`: the choice of the notation by the estimate of the logarithm, the digits, the layout, the length, and the value of the text by the parser of C28 |
| C75 | `UBigInt::exp2_accurate`: every table entry, the halvings by square roots, the chord, the rounding, against the real power |
| C76 | `cbrt_iter`: the first approximation by C46 and C75, the squaring of the error in each round, the removal of digits, against the real cube root |
| C77 | `Polynomial::to_ratio_string` and `to_approx_string` read back by a small reader of sums of terms (`readPoly`), `Matrix::to_ratio_string` |
| C78 | `Sum` and `Product` of `UBigInt`, `BigInt::is_prime`, `prime_factorial`, `fibonacci`, `Polynomial::to_vec_f32`/`to_vec_f64`, `Complex::try_from_real_and_imag` |
| C79 | the `random` functions for every sequence of answers of the generator: range, sign, normal form, and which values come |
| C80 | the texts of `ConversionError::NotInRange` in conversions to integers |
| C81 | `F192::MAX`, `MIN`, `MIN_POSITIVE` are the extreme numbers |
| C82 | raw parts, default values and `is_valid` |
| C83 | `fast_log2` and `fast_pow2` of `F192`: every entry of both tables, and error bounds against the real logarithm and power |
| C84 | symmetries of `F192` operations, panics included: order of the operands, signs, odd and even functions |
| C85 | products with a constant factor, products and quotients with an `i32`, sums, and the approximate logarithm and power keep the order of the numbers; the half products of `mul` as one monotone function |
| C46 | powers of naturals |
| C55 | the `From`/`TryFrom` impls of `Ratio` (also the remaining ones of C18 for `UBigInt` and `BigInt`), `ConvertsTo` = value in range or error |
| C56 | `Complex` addition |
| C57 | `log_iter`, `pow_iter`: error propagation through the quotient and the exponential |

## Findings

Places where the code does not do what its documentation or the obvious reading of its
name promises.  Each is a theorem (`…_counterexample`) unless marked (read only).

* `UBigInt::pow_u32` panics for every exponent ≥ 2^31 (C07).
* `rem_u32_mut` multiplies 32-bit values without widening and overflows where `rem_u32`
  returns (C05, C31).
* `sqrt_u64` / `UBigInt::sqrt` panic exactly when the two leading limbs form a number of
  2^64 - 120283536² (about 2^64 - 2^53.7) or more, since the Newton step overshoots 2^32; `is_prime`
  and `sqrt_iter` inherit it: `sqrt_iter(4294967295, k)` panics for every `k`
  (C10, C12, C45).
* `prime_factorial` panics exactly on the numbers with a divisor of at least (2^32-1)² that has no prime
  factor below 2^32: the `u32` divisor overflows before the second loop, which is dead code (C13).
* `i32::MIN`, `i64::MIN`, `i128::MIN` arguments panic in the `abs()` of the `*_i32` methods and
  of `from_i32` … (C18–C25).
* `usize::try_from(&UBigInt)` goes through `to_u32` and rejects 2^32 … 2^64-1 (C18).
* Dividing a nonzero `Ratio` by zero with `div`, `div_i32`, or building one with denominator
  zero, returns a `Ratio` with denominator zero instead of panicking (C24); `newton_method` at a
  critical point and `tan_iter` at half of `pi_iter(k)` therefore return such a value (C44).
* `Ratio::pow_i32(i32::MIN)` panics (C27).
* The inverse of the 1×1 matrix `[[a]]` is given as `[[1]]` (C35).
* `Polynomial::from_vec_generic` keeps leading zero coefficients (C37).
* `asin_iter` computes its coefficients in `usize` and casts them with `as i32`; from 644
  iterations on they wrap and the added term has the wrong sign, so the result gets worse (C44).
* `sqrt_iter` is documented as `sqrt(abs(x))` but returns `-sqrt(abs(x))` for negative `x` (C45).
* `pi_iter(k)` panics for `k > 255` and `ln2_iter(k)` for `k > 205` (documented: 255 and 200);
  `sin_iter`, `cos_iter`, `ln_iter`, … inherit it (C50, C44).
* `exp_iter` panics when the integer part does not fit in `i32` or is `i32::MIN` (C44).
* `ln_iter` reduces its argument with the truncated logarithm, so the series argument can be as
  large as 1 and the error decreases only like 1/k (C53).
* The integer parser accepts `0_x1f` and rejects `0x_` (C17 states the exact grammar).
* `to_scientific_notation` cuts off digits instead of rounding (C48).

- `log_iter(1, x, k)` divides by zero without noticing and returns a `Ratio` with denominator 0
  (or panics when `ln_iter(x)` is 0 too): `C57_log_base_one_counterexample`.
- `pow_iter(0, b, k)` is 0 also for negative `b`: `C57_pow_zero`.
- `Ratio::from(MIN)` panics for `i32`, `i64`, `isize`, `i128`: `C55_from_min_counterexample`.

- `Ratio::from_string` panics when the exponent is -2^31: `C28_min_exponent_counterexample`.
- `Ratio::from_string` rejects an underscore before the first nonzero digit (`0.0_5`) though it
  accepts `1.0_5`: `C28_underscore_counterexample`; it rejects `0_x1e`, which `BigInt` accepts:
  `C28_integer_counterexample`.

- `to_ieee754_f32/f64` combine exponent and rounded mantissa with `|`, so a mantissa that rounds up
  to 2^m is lost when the exponent field is odd: `2 - 2^-25` becomes `1.0f32`
  (`C30_carry_wrong`, `C30_carry_counterexample`).
- Numbers between 2^128 and 2^129 (f64: 2^1024 and 2^1025) are mostly not rejected but become an
  infinity or a NaN (`C30_overflow_counterexample`), and numbers that round up to 2^128 become an
  infinity (`C30_round_to_infinity`).  The range check after the exponent is biased is never true
  when it is reached.
- Halves are rounded down in the normal range and up below it, where the mantissa is rounded twice
  (error up to 3/4 unit, `C30_subnormal`).  The result then need not be the nearest float:
  67108869 · 2^-153, which is 4194304.3125 times the smallest `f32`, becomes 4194305 times it
  (`C30_subnormal_counterexample`).
- `F192::from(&Ratio)` and subtraction of numbers of equal sign: when rounding carries out of the mantissa the
  carry lands in the sign bit and the exponent is not increased: `1 - 2^-130` is `-0.5`
  (`C42_from_ratio_carry`, `C41_sub_counterexample`). The subtraction goes through `to_ratio` (below) and loses a multiple of `2^32` from both
  exponents: numbers with the same digits whose exponents differ by `2^32` have the difference zero (`C41_sub_range_counterexample`;
  `C41_sub_all` and `C41_add_all` cover every pair of exponents).
- F192 multiplication loses the last bit even when multiplying by one (`C41_mul_one_counterexample`);
  `mul_i32` panics on some mantissas, e.g. the number above 4/3 times 3 (`C41_mul_i32_counterexample`).
- `F192::to_ratio` cuts the exponent to 32 bits: `2^(127+2^32)` becomes `2^127` (`C42_to_ratio_counterexample`).
  `C42_to_ratio_all` says what happens to every number; the result is right exactly below `2^32` (`C42_to_ratio_iff`).
- `F192::MAX.truncate()` is zero; exponents from 2^63 to 2^63+2^48 panic (`C43_truncate_counterexample`).
  So do all roundings (`C43_panic`); above, they take the numbers for fractions (`C43_wrong`).
- The F192 bit pattern of `-2^(127-2^48)` is negated to zero (`C59_sign_counterexample`).
- `F192::try_into` for integers panics on every number strictly between 0 and 1
  (`C40_to_uint_panics`); `From<i128>` panics for `i128::MIN` (`C40_from_int_counterexample`).
- `from_pow2` wraps around below `2^(127-2^48)` (`C60_from_pow2_counterexample`, `C60_from_pow2_wrong`); `ilog2` panics
  or returns a negative number from an exponent field of `2^63` on (`C60_ilog2_wrong`).
- F192 to float: numbers from `2^128` to `2^129` (`2^1024` to `2^1025` in double precision) become a NaN unless
  the kept fraction is zero (`C61_overflow_counterexample`); subnormal results are wrong, `2^-127` becomes zero
  (`C61_small_counterexample`); `F192::MAX` becomes zero and exponents near `2^63` panic
  (`C61_infinity_counterexample`). From exponent field `2^63` on every number panics or becomes zero (`C61_to_float_high`).
- F192 division never returns too small a quotient, so `(1 + 2^-127) / 1` is more than the dividend
  (`C62_div_one_counterexample`); the estimate that starts the search knows the exponents only modulo
  `2^40`: `2^(2^40) / 1` is less than 2 (`C62_div_range_counterexample`). The quotient is
  right if the residues have the difference of the exponents and it is at most `2^39 - 2` (`C62_div_partial`), wrong by
  a factor of at least `2^(2^40-1)` if they have another such difference (`C62_div_wrong`), and a difference of
  `2^39 + 2` or more panics (`C62_div_panic`). So do exponent fields from `2^63` to `2^63 + 2^48 - 1` (`C62_div_log_panic`) and
  divisors near the end of the range (`C62_div_top_panic`). `C62_div_all` has all cases together; every quotient has
  the right sign and is within `2^±(2^39+4)` (`C62_div_sign`).
- **F192 square root.** For mantissas within a relative distance of about `2^-39` of their upper bound the integer
  square root reaches `2^64`; shifting it left by 64 drops the top bit, Newton starts at half the root, and two
  steps leave 2.5 %: the root of `1 - 2^-128` is above 1.024 (`C64_sqrt_counterexample`). This happens exactly for the
  digits above `2^127 - 767498447193188861845248850` (`C64_sqrt_partial`, `C64_sqrt_wrong`); for exponents from `2^39` to
  about `2^40` in magnitude the root panics (`C64_sqrt_panic`). Beyond that it panics or is wrong: the root of `2^(2^41)` is about
  `2^(2^40-2)` and the root of `2^(-2^41)` is between 1 and 2 (`C64_sqrt_wide_wrong`). Exponent fields from `2^63` on are read as negative
  numbers: the first `2^48` panic (`C64_sqrt_exp_panic`), the rest panics or is wrong by a factor of at least `2^100` (`C64_sqrt_high`).
- **F192 powi.** `powi(x, i64::MIN)` panics for every base (`C63_powi_edge`); `2^(-2^40)` comes out as at
  least 1/2, since the division starts from a wrong estimate (`C63_powi_neg_counterexample`). Powers too large for the
  exponent panic (`C63_powi_overflow`), powers too small are zero (`C63_powi_underflow`). With a negative exponent, the result is right while
  the power is within `2^±(2^39-3)` (`C63_powi_neg_wide_partial`); beyond `2^±(2^39+2)` it is a panic or wrong by a factor of at least
  `2^(2^40-2)` (`C63_powi_neg_wrong`).
- **F192 code13.** `62^10·31·2^-1985` has the code of zero, `zy00000000000`, and decodes to zero
  (`C65_code13_zero_counterexample`); numbers with an exponent field from about `2^63` on also encode as zero instead
  of being out of range (`C65_code13_counterexample`): the first `2^48` fields from `2^63` on panic and all above have the code of zero
  (`C65_code13_high`). The error value holds the number as text, and near `10^(2^32)`
  making that text panics (`C65_code13_panic_counterexample`).
- **F192 logarithms.** `log2((1 + 2^-100) / 2^(2^40))` is `-2^39` instead of `-2^40` (`C68_log2_counterexample`): the sum `E + log D`
  rounds up to a power of two and loses its carry, the same defect as in `C41_sub_counterexample`. Exponent fields from 2^63 on panic
  or wrap (`C68_log2_range_counterexample`, for all of them `C68_log2_high`).
- **Printing of F192.** Numbers between about `10^-8` and `10^-2` are cut after 20 decimals, so that the text of `2^-26` has a relative
  error above `10^-13` while all others have `2 * 10^-18` (`C69_text_counterexample`). The exponent is cut to 32 bits: some numbers above
  `10^(2^32)` are printed as numbers below `10^60` (`C69_large_counterexample`), and near `10^(2^32)` and `10^(-2^32)` printing panics
  (`C69_panic_counterexample`, `C69_small_counterexample`), as it does for the first `2^48` exponent fields from `2^63` on
  (`C69_high_panic`).
* F192 cosine: the series is summed as `20! - ...`. Where the exact sum rounds up to `2^61`, the subtraction returns the negative half
  (see C41): the cosine of a number near 0.3246 is -0.474 instead of 0.948 (`C70_cos_counterexample`). Below `2^(-2^31)` the square of the
  argument has an exponent that is cut to 32 bits: the cosine of `2^(-2^31)` is 0.54 and its sine 0.84 times the number
  (`C70_small_counterexample`). From `2^131` on the sine is always 0 and the cosine always 1 (`C70_large`); the first exponent fields
  from `2^63` on panic (`C70_high_panic`).
- C71, C72: `asin` and `acos` panic for every argument above `1/√2`, `atan` for every argument whose magnitude is between `1/√2` and `√2`:
  these cases are `todo!` (`C71_asin_panics`, `C72_atan_panics`). `asin` also panics near 0.699, where `mul_i32` overflows
  (`C71_overflow_counterexample`). The series is used down to -1, where it is poor: `asin(-1)` is -1.43 and `acos(-1)` is 3.0
  (`C71_inaccurate_counterexample`). `atan(2^-99)` is `-2^-107`, again by the carry of C41 (`C72_atan_counterexample`).
  `atan(2^(-2^46))` is about 2/3 and `acos` of the same number about `π/2 - 1`: differences see exponents modulo `2^32`
  (`C72_tiny_counterexample`). `asin` of numbers up to `2^-70` panics or is right (`C71_asin_tiny`).
- C73: `pow2(-2^-129)` is 0.35 instead of about 1, since the difference of the number and its floor rounds with the carry of C41
  (`C73_small_counterexample`). `2^(-2^49)` comes out as a huge number, since the exponent field wraps below zero
  (`C73_wrap_counterexample`). `pow` panics for every base that is not positive, also for `0^1` and `(-2)^2` (`C73_pow_panics`).
  `pow2` is wrong for every number from `-2^-129` to below zero (`C73_pow2_below_zero`), wraps for every number below the range of exponents
  (`C73_pow2_wraps`) and panics above it (`C73_pow2_panics`).
- C74: the text of a `Ratio` can be longer than documented: `1.23e100` with 6 gives `1.2e100`, 7 characters
  (`C74_counterexample_length`). `-5/10^10` is displayed as `-0` (`C74_counterexample_negative_zero`). Negative numbers can be shown with
  one digit although a comment promises two: `-1.9e100` with 6 gives `-1e100` (`C74_counterexample_one_digit`). Zeros are removed before
  digits are cut off, so that `1.0001e20` with 8 gives `1.000e20` (`C74_counterexample_trailing_zeros`). `1.299e-7` with 8 gives `1.29e-7`
  although the last digit fits (`C74_counterexample_lost_digit`). Numbers from `2^(2^31)` on are shown more than 17 percent too small, with
  four digits, since the constant 21306/70777 for the logarithm of two is too coarse (`C74_counterexample_huge`).
- C75: `exp2_accurate` is documented to return `truncate(2^(n/4294967296))` but rounds: the exponent 1.5 gives 3, the power is 2.83
  (`C75_counterexample_truncate`). It is also documented as the inverse of `log2_accurate`: that holds up to `2^30`, but `2^40 + 1` becomes `2^40`,
  like all numbers just above a power of two from `2^34` on (`C75_counterexample_inverse`).
- C83: `fast_log2` is documented to return `truncate(log2(self) * 16777216)`, but it goes linearly between the 64 points of the table and can be too small, by
  at most 12456 units: `1 + 2^-12` gives 0, the scaled logarithm is above 4096 (`C83_fast_log2_counterexample`). Exponents
  are seen modulo `2^40`, so `2^(2^40)` gives 0, and the exponent fields `2^63` to `2^63 + 2^48 - 1` panic (`C83_fast_log2_range_counterexample`).
- C84: `x - y` and `y - x` may be the same number: `1 - 2^-130` and `2^-130 - 1` are both `-1/2`, since the carry of C41 sets the sign bit in either case
  (`C84_sub_counterexample`). The inverse sine compares the number and not its magnitude with the square root of 1/2, so it panics at 1 and not
  at -1 (`C84_asin_counterexample`).
- C85: `x + 1` is not monotone: `-1/4 + 1` is `3/4`, but `-2^-130 + 1` is `-1/2`, by the carry of C41 (`C85_add_counterexample`).
- C76: `cbrt_iter` removes digits after each round ("it doesn't hurt accuracy at all!"). For `1 + 2^-256` it removes the whole correction, so
  that the result is 1 for every number of iterations, although it is documented to get more accurate (`C76_counterexample_stuck`).
- C79: the `random` functions replace every zero word by 1, not only the leading one, so that no number below `2^(32 (scale - 1))`
  ever comes, although the documented range begins at 1 (`C79_values`, `C79_counterexample_range`).
  `Ratio::random()` never gives 1/2 (`C79_ratio_half`).
- C80: the range error of `to_i32` says that `-2.14e-9~2.14e9` is permitted, the one of `to_i64` says `9.22e-18~9.22e18`
  (`C80_range_counterexample`). `-2^32` as an `i32` is reported as `4.2949e9`, out of the range `0~4.29e9` (`C80_sign_counterexample`).
- **F192 from strings.** Parsing `1298074214633706907132624082305030` panics (`C66_decimal_counterexample`, through the overflow of
  `mul_i32`, C41). Only 39 digits are used, and leading zeros of the fraction count, so that 10^-40 in positional notation is
  read as zero (`C66_decimal_zero_counterexample`). `-0x10` is read as 16 (`C66_base_sign_counterexample`). An exponent close to
  `-2^63` panics (`C66_exponent_counterexample`); `1e` and `0x` are accepted (`C66_lenient_counterexample`).
  `1e-300000000000` is read as a number above `2^(10^9)`, and so is every number with an exponent from `-330·10^9` to `-165492990272`
  (`C66_tiny_counterexample`); from `-165492990271` down to `-2^48` the code panics or the result is far too large
  (`C66_below_counterexample`); below that the result is zero (`C66_underflow`), from `5552853823702·10^6` on the code panics, even for
  `0.0e7000000000000000000` (`C66_overflow`).
- `Ratio::to_scientific_notation` prints zero as `0e-17` (`C58_zero`).

## Trusted base

* Lean 4.33.0 kernel and Mathlib; every property theorem depends only on
  `propext`, `Classical.choice`, `Quot.sound` (checked with `#print axioms`).
* The transcription from Rust to Lean, by hand, with citations.
* Not modelled: `Display` (but for the texts of C74 and C77) and `Debug` impls and operator traits
  that only forward to the methods, `#[cfg(test)]` code, memory limits.
