{
 "claims": [
  {
   "property": "C01",
   "status": "proved",
   "theorems": [
    "Oasis.Props.C01_equals_refl",
    "Oasis.Props.C01_sharp"
   ],
   "note": ""
  },
  {
   "property": "C02",
   "status": "partial",
   "theorems": [
    "Oasis.Props.C02_equals_symm_partial",
    "Oasis.Props.C02_not_symmetric",
    "Oasis.Props.C02_equals_trans"
   ],
   "note": "False in general (counterexample proved). Symmetric without associative nodes; transitive on complete pi-free trees."
  },
  {
   "property": "C03",
   "status": "proved",
   "theorems": [
    "Oasis.Props.C03_equals_of_rearrangement",
    "Oasis.Props.C03_equals_of_perm",
    "Oasis.Props.C03_pi_throws"
   ],
   "note": "Pi excluded: Equals throws on it (C03_pi_throws)."
  },
  {
   "property": "C04",
   "status": "partial",
   "theorems": [
    "Oasis.Props.C04_equals_iff_same_partial",
    "Oasis.Props.C04_not_value_equal",
    "Oasis.Props.C04_equals_vars"
   ],
   "note": "False for sums, products, integrals (counterexamples proved); C100 gives the exact relation and a case in which both directions imply it."
  },
  {
   "property": "C05",
   "status": "partial",
   "theorems": [
    "Oasis.Props.C05_equals_ok_partial",
    "Oasis.Props.C05_pi_throws"
   ],
   "note": "Fails exactly through Pi on the left."
  },
  {
   "property": "C06",
   "status": "proved",
   "theorems": [
    "Oasis.Props.C06_structurally_equivalent",
    "Oasis.Props.C06_sharp"
   ],
   "note": ""
  },
  {
   "property": "C07",
   "status": "proved",
   "theorems": [
    "Oasis.Props.C07_build"
   ],
   "note": ""
  },
  {
   "property": "C08",
   "status": "proved",
   "theorems": [
    "Oasis.Props.C08_build_balanced"
   ],
   "note": ""
  },
  {
   "property": "C09",
   "status": "proved",
   "theorems": [
    "Oasis.Props.C09_flatten"
   ],
   "note": ""
  },
  {
   "property": "C10",
   "status": "proved",
   "theorems": [
    "Oasis.Props.C10_cast"
   ],
   "note": ""
  },
  {
   "property": "C11",
   "status": "partial",
   "theorems": [
    "Oasis.Props.C11_order_kept_partial",
    "Oasis.Props.C11_integral_swapped"
   ],
   "note": "False for Integral (counterexample proved)."
  },
  {
   "property": "C12",
   "status": "partial",
   "theorems": [
    "Oasis.Props.C12_decisions_partial",
    "Oasis.Props.C12_certified_partial",
    "Oasis.Props.C12_allCertified",
    "Oasis.Props.C12_real_partial",
    "Oasis.Props.C12_changes_value"
   ],
   "note": "False in general (five counterexamples proved, in exact arithmetic). Proved for every run whose logged decisions are right; over the rationals that is a decidable check of the log, and then the value is preserved for all complex assignments, and for all real assignments of expressions with derivatives."
  },
  {
   "property": "C13",
   "status": "proved",
   "theorems": [
    "Oasis.Props.C13_closed_arithmetic",
    "Oasis.Props.C13_rational_value",
    "Oasis.Props.C13_negligible_factor"
   ],
   "note": "For every number type; exact value over the rationals. The hypothesis on negligible left factors is needed (C13_negligible_factor)."
  },
  {
   "property": "C14",
   "status": "proved",
   "theorems": [
    "Oasis.Props.C14_no_new_variables",
    "Oasis.Props.C14_integrals_add_only_C",
    "Oasis.Props.C14_differentiate",
    "Oasis.Props.C14_arithmetic_closed",
    "Oasis.Props.C14_integral_constant",
    "Oasis.Props.C14_imaginary_appears"
   ],
   "note": ""
  },
  {
   "property": "C15",
   "status": "proved",
   "theorems": [
    "Oasis.Props.C15_leaves",
    "Oasis.Props.C15_not_idempotent"
   ],
   "note": ""
  },
  {
   "property": "C16",
   "status": "proved",
   "theorems": [
    "Oasis.Props.C16_budget",
    "Oasis.Props.C16_outcome_unique",
    "Oasis.Props.C16_entry_points"
   ],
   "note": ""
  },
  {
   "property": "C17",
   "status": "partial",
   "theorems": [
    "Oasis.Props.C17_outcomes_partial",
    "Oasis.Props.C17_all_outcomes_partial",
    "Oasis.Props.C17_throws_on_power_of_i",
    "Oasis.Props.C17_throws_on_pi",
    "Oasis.Props.C17_contract_violation",
    "Oasis.Props.C17_matrix_difference",
    "Oasis.Props.C17_null_dereference"
   ],
   "note": "False in general (counterexamples proved); the possible failures are proved to be limited to a short list."
  },
  {
   "property": "C18",
   "status": "proved",
   "theorems": [
    "Oasis.Props.C18_power_of_i",
    "Oasis.Props.C18_fractional_exponent"
   ],
   "note": "Over exact arithmetic (fmod exact)."
  },
  {
   "property": "C19",
   "status": "proved",
   "theorems": [
    "Oasis.Props.C19_bad_base",
    "Oasis.Props.C19_bad_argument"
   ],
   "note": ""
  },
  {
   "property": "C20",
   "status": "proved",
   "theorems": [
    "Oasis.Props.C20_operator_simplifies",
    "Oasis.Props.C20_operator_keeps",
    "Oasis.Props.C20_operator_result",
    "Oasis.Props.C20_operator_throws"
   ],
   "note": ""
  },
  {
   "property": "C21",
   "status": "partial",
   "theorems": [
    "Oasis.Props.C21_sine_lost",
    "Oasis.Props.C21_changes_value",
    "Oasis.Props.C21_zero_partial"
   ],
   "note": "False: the sine is dropped in every run (proved)."
  },
  {
   "property": "C22",
   "status": "proved",
   "theorems": [
    "Oasis.Props.C22_constants",
    "Oasis.Props.C22_variables"
   ],
   "note": ""
  },
  {
   "property": "C23",
   "status": "partial",
   "theorems": [
    "Oasis.Props.C23_decisions_partial",
    "Oasis.Props.C23_certified_partial",
    "Oasis.Props.C23_allCertified",
    "Oasis.Props.C23_violated"
   ],
   "note": "False in general (counterexamples proved). Proved for every run whose logged decisions are right; over the rationals that is a decidable check of the log, and then the result is the derivative (HasDerivAt) at all real points where the operand has a value."
  },
  {
   "property": "C24",
   "status": "partial",
   "theorems": [
    "Oasis.Props.C24_unsupported",
    "Oasis.Props.C24_blocked_partial",
    "Oasis.Props.C24_right_summand_throws",
    "Oasis.Props.C24_negation"
   ],
   "note": "False for right summands (general counterexample proved)."
  },
  {
   "property": "C25",
   "status": "partial",
   "theorems": [
    "Oasis.Props.C25_unevaluated_partial",
    "Oasis.Props.C25_inner_ignored",
    "Oasis.Props.C25_cubic"
   ],
   "note": "False whenever the inner expression can be differentiated (proved)."
  },
  {
   "property": "C26",
   "status": "partial",
   "theorems": [
    "Oasis.Props.C26_replaces_all",
    "Oasis.Props.C26_with_integrals",
    "Oasis.Props.C26_no_occurrence",
    "Oasis.Props.C26_restrictions",
    "Oasis.Props.C26_keeps_value_partial"
   ],
   "note": "Occurrences: proved for all expressions; with integrals the constant C can appear. Value: given that the logged simplifier decisions are right."
  },
  {
   "property": "C27",
   "status": "partial",
   "theorems": [
    "Oasis.Props.C27_value_partial",
    "Oasis.Props.C27_certified_partial",
    "Oasis.Props.C27_changes_value"
   ],
   "note": "False in general through Simplify (counterexample proved); proved for runs whose logged decisions are right."
  },
  {
   "property": "C28",
   "status": "partial",
   "theorems": [
    "Oasis.Props.C28_never_returns",
    "Oasis.Props.C28_no_variable",
    "Oasis.Props.C28_invalid_argument_needs_variable",
    "Oasis.Props.C28_throws_partial",
    "Oasis.Props.C28_other_failure_first"
   ],
   "note": "The if direction fails when simplification of a closed subexpression fails first."
  },
  {
   "property": "C29",
   "status": "proved",
   "theorems": [
    "Oasis.Props.C29_grammar",
    "Oasis.Props.C29_unambiguous"
   ],
   "note": ""
  },
  {
   "property": "C30",
   "status": "proved",
   "theorems": [
    "Oasis.Props.C30_total",
    "Oasis.Props.C30_outcomes"
   ],
   "note": ""
  },
  {
   "property": "C31",
   "status": "proved",
   "theorems": [
    "Oasis.Props.C31_balanced"
   ],
   "note": ""
  },
  {
   "property": "C32",
   "status": "partial",
   "theorems": [
    "Oasis.Props.C32_operands_partial",
    "Oasis.Props.C32_all_used_partial",
    "Oasis.Props.C32_alternating_partial",
    "Oasis.Props.C32_malformed_accepted",
    "Oasis.Props.C32_not_derivable"
   ],
   "note": "False: postfix-like texts are accepted (counterexamples proved)."
  },
  {
   "property": "C33",
   "status": "partial",
   "theorems": [
    "Oasis.Props.C33_roundtrip_partial",
    "Oasis.Props.C33_spaced_partial",
    "Oasis.Props.C33_nested_rejected",
    "Oasis.Props.C33_unsupported"
   ],
   "note": "False for nested serialized texts without blanks (counterexamples proved)."
  },
  {
   "property": "C34",
   "status": "proved",
   "theorems": [
    "Oasis.Props.C34_inserts",
    "Oasis.Props.C34_joins_words"
   ],
   "note": ""
  },
  {
   "property": "C35",
   "status": "proved",
   "theorems": [
    "Oasis.Props.C35_grammar",
    "Oasis.Props.C35_unambiguous"
   ],
   "note": ""
  },
  {
   "property": "C36",
   "status": "proved",
   "theorems": [
    "Oasis.Props.C36_total",
    "Oasis.Props.C36_outcomes"
   ],
   "note": "Termination is stated with a step budget that is provably not exhausted; the depth of the C++ stack is not modelled."
  },
  {
   "property": "C37",
   "status": "partial",
   "theorems": [
    "Oasis.Props.C37_loose_partial",
    "Oasis.Props.C37_sublist_partial",
    "Oasis.Props.C37_violated"
   ],
   "note": "The property is false: words beginning with an opening parenthesis after the last operand are dropped silently; the theorems give exactly what is accepted."
  },
  {
   "property": "C38",
   "status": "partial",
   "theorems": [
    "Oasis.Props.C38_layout_partial",
    "Oasis.Props.C38_leading_partial",
    "Oasis.Props.C38_trailing",
    "Oasis.Props.C38_violated"
   ],
   "note": "The property is false for blanks at the end, where FromPALM always fails; proved for all other blanks."
  },
  {
   "property": "C39",
   "status": "proved",
   "theorems": [
    "Oasis.Props.C39_text",
    "Oasis.Props.C39_matrix"
   ],
   "note": ""
  },
  {
   "property": "C40",
   "status": "proved",
   "theorems": [
    "Oasis.Props.C40_unambiguous",
    "Oasis.Props.C40_collisions"
   ],
   "note": "For ordinary names and distinguishable number texts, as the statement says; collisions outside that class are proved."
  },
  {
   "property": "C41",
   "status": "proved",
   "theorems": [
    "Oasis.Props.C41_balanced",
    "Oasis.Props.C41_sharp"
   ],
   "note": ""
  },
  {
   "property": "C42",
   "status": "partial",
   "theorems": [
    "Oasis.Props.C42_swapped",
    "Oasis.Props.C42_violated",
    "Oasis.Props.C42_same_partial"
   ],
   "note": "False: operand and variable are swapped for every f and x (proved)."
  },
  {
   "property": "C43",
   "status": "partial",
   "theorems": [
    "Oasis.Props.C43_never_fails",
    "Oasis.Props.C43_labels_partial",
    "Oasis.Props.C43_without_sines",
    "Oasis.Props.C43_sine_empty",
    "Oasis.Props.C43_violated"
   ],
   "note": "False for Sine, whose operand is dropped (proved); otherwise the labels are exactly the leaves."
  },
  {
   "property": "C44",
   "status": "proved",
   "theorems": [
    "Oasis.Props.C44_gcf_gcd",
    "Oasis.Props.C44_gcf_undefined"
   ],
   "note": ""
  },
  {
   "property": "C45",
   "status": "partial",
   "theorems": [
    "Oasis.Props.C45_factors_partial",
    "Oasis.Props.C45_factor_missing",
    "Oasis.Props.C45_negative",
    "Oasis.Props.C45_negatives",
    "Oasis.Props.C45_large"
   ],
   "note": "False for divisors above the square root and from 3037000499\u00b2 on, where the routine overflows (proved for all of these); the exact contents of the list are proved, for negative numbers too."
  },
  {
   "property": "C46",
   "status": "proved",
   "theorems": [
    "Oasis.Props.C46_only_zeros",
    "Oasis.Props.C46_degenerate",
    "Oasis.Props.C46_several_variables"
   ],
   "note": "For sums that have a degree; when the coefficients of the highest power written cancel the returned quotients have divisor 0 (proved)."
  },
  {
   "property": "C47",
   "status": "partial",
   "theorems": [
    "Oasis.Props.C47_all_zeros_partial",
    "Oasis.Props.C47_remaining_partial",
    "Oasis.Props.C47_listed_partial",
    "Oasis.Props.C47_zero_missed",
    "Oasis.Props.C47_negative_lead"
   ],
   "note": "False from degree 3 on (counterexamples proved); degrees 1 and 2 are complete; a rational zero within the searched divisors is always listed."
  },
  {
   "property": "C48",
   "status": "partial",
   "theorems": [
    "Oasis.Props.C48_returns_partial",
    "Oasis.Props.C48_bound_partial",
    "Oasis.Props.C48_zero_constant",
    "Oasis.Props.C48_zero_constants",
    "Oasis.Props.C48_negative_exponent",
    "Oasis.Props.C48_overflow"
   ],
   "note": "False for negative exponents and for every polynomial with a zero constant term and a leading coefficient other than -1 (proved). Otherwise a list is returned whenever M\u00b7\u03a3|c_i|M^i < 2^63 with M = max(|c_0|, d+1); without the bound, overflow is the only other outcome and it occurs."
  },
  {
   "property": "C49",
   "status": "proved",
   "theorems": [
    "Oasis.Props.C49_equivalent",
    "Oasis.Props.C49_other_terms"
   ],
   "note": "Exact arithmetic; terms outside the stated class are ignored or overwritten (proved)."
  },
  {
   "property": "C50",
   "status": "partial",
   "theorems": [
    "Oasis.Props.C50_invertible",
    "Oasis.Props.C50_unique_solution",
    "Oasis.Props.C50_matrix",
    "Oasis.Props.C50_linear",
    "Oasis.Props.C50_exactly",
    "Oasis.Props.C50_system_partial"
   ],
   "note": "Proved for systems in simplified form, and, through the simplifier, for linear polynomials with coefficients that are multiples of 1/m, m < 2^23 (the simplifier compares numbers up to an epsilon); for other equations only for runs whose logged decisions are certified. Eigen's inverse is modelled by the cofactor formula, in exact arithmetic."
  },
  {
   "property": "C51",
   "status": "partial",
   "theorems": [
    "Oasis.Props.C51_returns_partial",
    "Oasis.Props.C51_linear_partial",
    "Oasis.Props.C51_linear_violated",
    "Oasis.Props.C51_not_a_sum",
    "Oasis.Props.C51_too_many_variables",
    "Oasis.Props.C51_violated"
   ],
   "note": "False (counterexamples proved): equations that simplify to something other than a sum, and systems with more variables than equations."
  },
  {
   "property": "C52",
   "status": "proved",
   "theorems": [
    "Oasis.Props.C52_construction",
    "Oasis.Props.C52_identity",
    "Oasis.Props.C52_transpose",
    "Oasis.Props.C52_transpose_involution"
   ],
   "note": ""
  },
  {
   "property": "C53",
   "status": "partial",
   "theorems": [
    "Oasis.Props.C53_sum",
    "Oasis.Props.C53_sum_mismatch",
    "Oasis.Props.C53_difference_partial",
    "Oasis.Props.C53_difference_of_equal",
    "Oasis.Props.C53_difference_mismatch",
    "Oasis.Props.C53_product_partial",
    "Oasis.Props.C53_product_mismatch",
    "Oasis.Props.C53_product_of_equal",
    "Oasis.Props.C53_scalar_partial",
    "Oasis.Props.C53_scalar_zero"
   ],
   "note": "False for equal matrices, for differences with mismatched columns, and for the multiple with 0 (proved)."
  },
  {
   "property": "C54",
   "status": "partial",
   "theorems": [
    "Oasis.Props.C54_equal_bounds",
    "Oasis.Props.C54_zero_integrand",
    "Oasis.Props.C54_pi_bound"
   ],
   "note": "Bounds that contain Undefined/NaN (equal bounds) or Pi (zero integrand) are excluded; Pi throws (proved)."
  },
  {
   "property": "C55",
   "status": "partial",
   "theorems": [
    "Oasis.Props.C55_non_null_partial",
    "Oasis.Props.C55_infinite_recursion",
    "Oasis.Props.C55_sine_null",
    "Oasis.Props.C55_parts_null"
   ],
   "note": "False in general (counterexamples proved)."
  },
  {
   "property": "C56",
   "status": "partial",
   "theorems": [
    "Oasis.Props.C56_decisions_partial",
    "Oasis.Props.C56_certified_partial",
    "Oasis.Props.C56_allCertified",
    "Oasis.Props.C56_violated",
    "Oasis.Props.C56_seven_terms"
   ],
   "note": "False in general (seven counterexamples proved). Proved for every integrand and every run whose logged decisions are right; over the rationals that is a decidable check of the log."
  },
  {
   "property": "C57",
   "status": "partial",
   "theorems": [
    "Oasis.Props.C57_decisions_partial",
    "Oasis.Props.C57_certified_partial",
    "Oasis.Props.C57_allCertified",
    "Oasis.Props.C57_variables",
    "Oasis.Props.C57_sine",
    "Oasis.Props.C57_violated"
   ],
   "note": "False in general (two counterexamples proved). Proved for every run whose logged decisions are right; over the rationals that is a decidable check of the log."
  },
  {
   "property": "C58",
   "status": "proved",
   "theorems": [
    "Oasis.Props.C58_polynomials",
    "Oasis.Props.C58_conditions_needed"
   ],
   "note": "Over exact rational numbers; nothing is assumed about the run; the conditions on the input are needed (C58_conditions_needed, C12_changes_value)."
  },
  {
   "property": "C59",
   "status": "partial",
   "theorems": [
    "Oasis.Props.C59_collected_partial",
    "Oasis.Props.C59_violated",
    "Oasis.Props.C59_cancelled"
   ],
   "note": "False when fewer than two terms remain; proved otherwise. C59_cancelled: it is false whenever a monomial cancels a term of a sum and fewer than two remain."
  },
  {
   "property": "C60",
   "status": "partial",
   "theorems": [
    "Oasis.Props.C60_decides_partial",
    "Oasis.Props.C60_one_direction"
   ],
   "note": "Proved for polynomials with at least two terms and Equals in both directions; one direction does not suffice (counterexample proved)."
  },
  {
   "property": "C61",
   "status": "proved",
   "theorems": [
    "Oasis.Props.C61_questions",
    "Oasis.Props.C61_session",
    "Oasis.Props.C61_outcomes",
    "Oasis.Props.C61_ends_early"
   ],
   "note": "Each of the ways to end early occurs (C61_ends_early)."
  },
  {
   "property": "C62",
   "status": "proved",
   "theorems": [
    "Oasis.Props.C62_polynomials",
    "Oasis.Props.C62_session",
    "Oasis.Props.C62_five_digits",
    "Oasis.Props.C62_trailing_point"
   ],
   "note": "Over exact rational numbers, with coefficients that are multiples of 1/m, m < 2^23 (the simplifier compares numbers up to an epsilon). The text of the answer shows five digits of each number (proved)."
  },
  {
   "property": "C63",
   "status": "partial",
   "theorems": [
    "Oasis.Props.C63_page_partial",
    "Oasis.Props.C63_polynomials",
    "Oasis.Props.C63_null",
    "Oasis.Props.C63_violated"
   ],
   "note": "False: a text that cannot be parsed leads to a null pointer dereference (proved); MathML otherwise, if Simplify returns an expression."
  },
  {
   "property": "C64",
   "status": "proved",
   "theorems": [
    "Oasis.Props.C64_polynomials",
    "Oasis.Props.C64_integer_polynomials"
   ],
   "note": "Over exact rational numbers; nothing is assumed about the run. Coefficients, exponents and their products are multiples of 1/m with m < 2^23 (smaller coefficients are dropped, C23_violated)."
  },
  {
   "property": "C65",
   "status": "partial",
   "theorems": [
    "Oasis.Props.C65_sums_partial",
    "Oasis.Props.C65_integer_polynomials_partial",
    "Oasis.Props.C65_monomials",
    "Oasis.Props.C56_seven_terms"
   ],
   "note": "Proved for monomials, and for sums and differences whose number of collected terms has at most two ones in binary; nothing is assumed about the run. Violated for seven terms (C56_seven_terms): the constants of the partial integrals are not the second operand, and a term is dropped. Coefficients as in C64."
  },
  {
   "property": "C66",
   "status": "proved",
   "theorems": [
    "Oasis.Props.C66_evaluates",
    "Oasis.Props.C66_restrictions"
   ],
   "note": "Exact rational numbers. The value (evalAt) is not defined where a divisor or the base of a negative power is zero, for exponents that are not integers, and for products whose left factor is not zero but at most 2^-23 (C66_restrictions: such a factor counts as zero)."
  },
  {
   "property": "C67",
   "status": "partial",
   "theorems": [
    "Oasis.Props.C67_sums_partial",
    "Oasis.Props.C67_monomials",
    "Oasis.Props.C67_integer_polynomials_partial",
    "Oasis.Props.C57_violated"
   ],
   "note": "Proved for monomials, and for sums and differences that have 2^k terms after collecting like terms; nothing is assumed about the run. Violated for three terms (C57_violated): the constant of the antiderivative is not its second operand, and a term is dropped. Coefficients as in C65."
  },
  {
   "property": "C68",
   "status": "proved",
   "theorems": [
    "Oasis.Props.C68_derivatives",
    "Oasis.Props.C68_typed"
   ],
   "note": "Exact rational numbers; nothing is assumed about the run. Coefficients are multiples of 1/a and exponents of 1/b with a*b < 2^23 (the simplifier compares numbers up to an epsilon)."
  },
  {
   "property": "C69",
   "status": "partial",
   "theorems": [
    "Oasis.Props.C69_integrals_partial",
    "Oasis.Props.C69_typed_partial",
    "Oasis.Props.C69_typed_term",
    "Oasis.Props.C69_specification",
    "Oasis.Props.C69_seven_terms"
   ],
   "note": "Proved for one term, and for sums whose number of terms has at most two ones in binary; nothing is assumed about the run. Violated for seven terms (C69_seven_terms): a term is lost. Coefficients as in C65."
  },
  {
   "property": "C70",
   "status": "partial",
   "theorems": [
    "Oasis.Props.C70_products_partial",
    "Oasis.Props.C70_typed_partial",
    "Oasis.Props.C70_violated"
   ],
   "note": "Proved for a number in front (or none) followed by powers with exponents of at least 1, none of them (other than 1) equal to the sum of the exponents of the same variable before it; nothing is assumed about the run. Violated otherwise (C70_violated): x^2*x^2 becomes (x^2)^2, x*3*3 becomes x*3^2. Numbers are multiples of 1/m, m < 2^23."
  },
  {
   "property": "C71",
   "status": "partial",
   "theorems": [
    "Oasis.Props.C71_decides_partial",
    "Oasis.Props.C71_one_direction"
   ],
   "note": "Proved for the products of C70 and Equals in both directions; one direction does not suffice (counterexample proved)."
  },
  {
   "property": "C72",
   "status": "partial",
   "theorems": [
    "Oasis.Props.C72_quotients_partial",
    "Oasis.Props.C72_typed_partial",
    "Oasis.Props.C72_violated"
   ],
   "note": "Proved for products as in C70, divisors other than 0, and divisors without powers other than the first of which the dividend has the first or the same power; there the program leaves x^0 and x/(x^2) (proved)."
  },
  {
   "property": "C73",
   "status": "proved",
   "theorems": [
    "Oasis.Props.C73_unambiguous",
    "Oasis.Props.C73_cells",
    "Oasis.Props.C73_collisions"
   ],
   "note": "For ordinary names and distinguishable number texts, as the statement says; collisions outside that class are proved."
  },
  {
   "property": "C74",
   "status": "proved",
   "theorems": [
    "Oasis.Props.C74_same_element",
    "Oasis.Props.C74_cells",
    "Oasis.Props.C74_not_more",
    "Oasis.Props.C74_shown_violated"
   ],
   "note": "An exact characterization. The characters shown tell less than the elements: x*(-2) and x-2 look alike (proved)."
  },
  {
   "property": "C75",
   "status": "proved",
   "theorems": [
    "Oasis.Props.C75_rounded",
    "Oasis.Props.C75_exact",
    "Oasis.Props.C75_infix",
    "Oasis.Props.C75_tex",
    "Oasis.Props.C75_roundtrip",
    "Oasis.Props.C75_limits"
   ],
   "note": "Over exact rational numbers: std::format is modelled as correctly rounding and literals as exact. Negative numbers and exponents are not read back (C75_limits)."
  },
  {
   "property": "C76",
   "status": "partial",
   "theorems": [
    "Oasis.Props.C76_sums_partial",
    "Oasis.Props.C76_value",
    "Oasis.Props.C76_copies",
    "Oasis.Props.C76_differences_partial",
    "Oasis.Props.C76_violated",
    "Oasis.Props.C76_lost"
   ],
   "note": "For every number type. Missing: common parts that are products or quotients, for which the property is violated in general (C76_violated, C76_lost)."
  },
  {
   "property": "C77",
   "status": "partial",
   "theorems": [
    "Oasis.Props.C77_quotients_partial",
    "Oasis.Props.C77_value",
    "Oasis.Props.C77_violated"
   ],
   "note": "For every number type. Missing: powers, products, quotients, and logarithms divided by themselves, for which it is violated."
  },
  {
   "property": "C78",
   "status": "proved",
   "theorems": [
    "Oasis.Props.C78_integrals",
    "Oasis.Props.C78_terms",
    "Oasis.Props.C78_definite",
    "Oasis.Props.C78_too_small",
    "Oasis.Props.C78_typed"
   ],
   "note": "Exact: the terms that C65, C67 and C69 do not cover are shown to be integrated wrongly."
  },
  {
   "property": "C79",
   "status": "proved",
   "theorems": [
    "Oasis.Props.C79_sums",
    "Oasis.Props.C79_value",
    "Oasis.Props.C79_quotient",
    "Oasis.Props.C79_quotient_value",
    "Oasis.Props.C79_power",
    "Oasis.Props.C79_factor",
    "Oasis.Props.C79_power_value",
    "Oasis.Props.C79_inverse",
    "Oasis.Props.C79_numbers",
    "Oasis.Props.C79_inverse_value"
   ],
   "note": "For every number type; the statements about values for exact numbers."
  },
  {
   "property": "C80",
   "status": "partial",
   "theorems": [
    "Oasis.Props.C80_products_partial",
    "Oasis.Props.C80_value",
    "Oasis.Props.C80_symbolic",
    "Oasis.Props.C80_quotients_partial",
    "Oasis.Props.C80_quotient_value",
    "Oasis.Props.C80_powers",
    "Oasis.Props.C80_violated",
    "Oasis.Props.C80_missed"
   ],
   "note": "For every number type. Missing: products of equal powers, for which it is violated (`(u^c)^2`)."
  },
  {
   "property": "C81",
   "status": "partial",
   "theorems": [
    "Oasis.Props.C81_understood_partial",
    "Oasis.Props.C81_everyday_partial",
    "Oasis.Props.C81_touching",
    "Oasis.Props.C81_complete",
    "Oasis.Props.C81_violated",
    "Oasis.Props.C81_joined"
   ],
   "note": "For every number type. Missing: lines with touching parentheses, which are always rejected (C81_touching), and words of several factors behind a `)`, which are read wrongly (C81_violated)."
  },
  {
   "property": "C82",
   "status": "proved",
   "theorems": [
    "Oasis.Props.C82_calculator",
    "Oasis.Props.C82_touching",
    "Oasis.Props.C82_limits"
   ],
   "note": "Over exact rational numbers. Nothing is assumed about the run."
  },
  {
   "property": "C83",
   "status": "partial",
   "theorems": [
    "Oasis.Props.C83_products_partial",
    "Oasis.Props.C83_value",
    "Oasis.Props.C83_repeated",
    "Oasis.Props.C83_equal",
    "Oasis.Props.C83_lost",
    "Oasis.Props.C83_swapped",
    "Oasis.Props.C83_wrong",
    "Oasis.Props.C83_answers"
   ],
   "note": "Over exact rational numbers. Missing: products in which a number meets the same number or a power an equal power (the result is then another power, C83_repeated, C83_equal), and numbers and exponents that count as 0. With other factors in between the value can be wrong (C83_lost, C83_swapped, C83_wrong)."
  },
  {
   "property": "C84",
   "status": "partial",
   "theorems": [
    "Oasis.Props.C84_sums_partial",
    "Oasis.Props.C84_value",
    "Oasis.Props.C84_magnitude",
    "Oasis.Props.C84_magnitude_value",
    "Oasis.Props.C84_cancelled",
    "Oasis.Props.C84_products"
   ],
   "note": "Over exact rational numbers. Missing: sums in which a part cancels (left separate, C84_cancelled), and sums of equal complex numbers (C76). Products of complex numbers are not computed (C84_products)."
  },
  {
   "property": "C85",
   "status": "partial",
   "theorems": [
    "Oasis.Props.C85_unambiguous",
    "Oasis.Props.C85_read_partial",
    "Oasis.Props.C85_same_look",
    "Oasis.Props.C85_value",
    "Oasis.Props.C85_numbers",
    "Oasis.Props.C85_cells",
    "Oasis.Props.C85_minus_factor",
    "Oasis.Props.C85_minus_base",
    "Oasis.Props.C85_digits",
    "Oasis.Props.C85_integral_sum"
   ],
   "note": "Violated for the arrangements that are displayed misleadingly (C85_minus_factor, C85_minus_base, C85_digits, C85_integral_sum); sines are not displayed at all (C43)."
  },
  {
   "property": "C86",
   "status": "partial",
   "theorems": [
    "Oasis.Props.C86_unambiguous",
    "Oasis.Props.C86_text",
    "Oasis.Props.C86_injective",
    "Oasis.Props.C86_read",
    "Oasis.Props.C86_page",
    "Oasis.Props.C86_pi",
    "Oasis.Props.C86_integral"
   ],
   "note": "The printer of tinyxml2 is modelled by its documented behaviour. Violated for pi and integrals, whose signs are escaped (C86_pi, C86_integral)."
  },
  {
   "property": "C87",
   "status": "partial",
   "theorems": [
    "Oasis.Props.C87_calls",
    "Oasis.Props.C87_methods",
    "Oasis.Props.C87_equals",
    "Oasis.Props.C87_systems",
    "Oasis.Props.C87_zeros",
    "Oasis.Props.C87_simplifies",
    "Oasis.Props.C87_names",
    "Oasis.Props.C87_constant",
    "Oasis.Props.C87_empty_name"
   ],
   "note": "For every number type, all calls and renamings that keep C (and, for FindZeros, the empty name). These two names do matter (proved): a variable C is taken for the integration constant, the empty name in FindZeros for any other."
  },
  {
   "property": "C88",
   "status": "partial",
   "theorems": [
    "Oasis.Props.C88_unevaluated",
    "Oasis.Props.C88_not_a_variable",
    "Oasis.Props.C88_names",
    "Oasis.Props.C88_matrices",
    "Oasis.Props.C88_magnitudes",
    "Oasis.Props.C88_typed",
    "Oasis.Props.C88_substitute"
   ],
   "note": "Violated, for every depth of the recursion: a derivative that Differentiate returns unevaluated is simplified for ever. C88_not_a_variable says exactly which derivatives with respect to something that is not a variable end."
  },
  {
   "property": "C89",
   "status": "proved",
   "theorems": [
    "Oasis.Props.C89_derivatives",
    "Oasis.Props.C89_integrals"
   ],
   "note": "For all names (integrals: other than C, see C87) and all real values. The rows are those of Spec/Table.lean."
  },
  {
   "property": "C90",
   "status": "proved",
   "theorems": [
    "Oasis.Props.C90_rounding",
    "Oasis.Props.C90_nearest",
    "Oasis.Props.C90_exact",
    "Oasis.Props.C90_whole",
    "Oasis.Props.C90_error",
    "Oasis.Props.C90_special",
    "Oasis.Props.C90_order",
    "Oasis.Props.C90_magnitude",
    "Oasis.Props.C90_factor",
    "Oasis.Props.C90_logarithm",
    "Oasis.Props.C90_infinite_power",
    "Oasis.Props.C90_lost"
   ],
   "note": "IEEE binary64 with rounding to nearest, for every implementation of pow and log2. A left factor of at most 2^-23 counts as zero, so products assume that it is larger (or zero). Beyond 2^53 whole numbers are rounded (C90_lost)."
  },
  {
   "property": "C91",
   "status": "proved",
   "theorems": [
    "Oasis.Props.C91_answer",
    "Oasis.Props.C91_positive",
    "Oasis.Props.C91_digits",
    "Oasis.Props.C91_whole",
    "Oasis.Props.C91_violated"
   ],
   "note": "IEEE doubles; decimal literals are rounded to single precision as std::stof does, std::format is modelled as correctly rounding. Nothing is assumed about the run. Differences of decimal numbers are not covered by the error bound (C91_violated: cancellation)."
  },
  {
   "property": "C92",
   "status": "proved",
   "theorems": [
    "Oasis.Props.C92_distinct",
    "Oasis.Props.C92_recovered",
    "Oasis.Props.C92_matrix",
    "Oasis.Props.C92_stable",
    "Oasis.Props.C92_answer",
    "Oasis.Props.C92_infix",
    "Oasis.Props.C92_sharp",
    "Oasis.Props.C92_violated"
   ],
   "note": "IEEE doubles; std::format and stof/stod are modelled as correctly rounding. Recovery is for zero and 2^-1021 to 2^1022 (C92_violated: subnormals raise a range error); typed-back answers are for zero and 0.0001 to 99999, positive."
  },
  {
   "property": "C93",
   "status": "proved",
   "theorems": [
    "Oasis.Props.C93_collected",
    "Oasis.Props.C93_settled",
    "Oasis.Props.C93_canonical",
    "Oasis.Props.C93_whole",
    "Oasis.Props.C93_names",
    "Oasis.Props.C93_violated",
    "Oasis.Props.C93_negative"
   ],
   "note": "C93_collected, C93_settled and C93_canonical for every number type; C93_whole and C93_names for IEEE doubles. The cases left out are in the statement; C93_violated and C93_negative show that they are not collected."
  },
  {
   "property": "C94",
   "status": "proved",
   "theorems": [
    "Oasis.Props.C94_computed",
    "Oasis.Props.C94_stored",
    "Oasis.Props.C94_canonical",
    "Oasis.Props.C94_magnitude",
    "Oasis.Props.C94_magnitude_value"
   ],
   "note": "Over the rationals, against Mathlib matrices; C94_stored says that every matrix of the program is meant. pow is exact only where C94_magnitude_value assumes it."
  },
  {
   "property": "C95",
   "status": "proved",
   "theorems": [
    "Oasis.Props.C95_derivative_of_integral",
    "Oasis.Props.C95_integral_of_derivative",
    "Oasis.Props.C95_integer_polynomials",
    "Oasis.Props.C95_typed",
    "Oasis.Props.C95_typed_integral"
   ],
   "note": "Exact, over the rationals: which polynomials come back is characterized. Polynomials with one term after collecting are not covered."
  },
  {
   "property": "C96",
   "status": "proved",
   "theorems": [
    "Oasis.Props.C96_derivatives",
    "Oasis.Props.C96_polynomials",
    "Oasis.Props.C96_integer_polynomials",
    "Oasis.Props.C96_typed"
   ],
   "note": "Over the rationals. Nothing is assumed about the run; the hypotheses are about what is typed."
  },
  {
   "property": "C97",
   "status": "proved",
   "theorems": [
    "Oasis.Props.C97_polynomials",
    "Oasis.Props.C97_typed",
    "Oasis.Props.C97_limits"
   ],
   "note": "IEEE doubles, for every implementation of pow and log2. Nothing is assumed about the run. Beyond 2^24 typed numbers are read as others (C97_limits)."
  },
  {
   "property": "C98",
   "status": "partial",
   "theorems": [
    "Oasis.Props.C98_occurrences_partial",
    "Oasis.Props.C98_weights_partial",
    "Oasis.Props.C98_linear_partial",
    "Oasis.Props.C98_grows"
   ],
   "note": "Partial: no derivatives or integrals, and runs in which the rule of line 676 is used only with equal bases (or with a base kept that has no more of the parts than the base dropped). C98_grows: with other bases it is violated."
  },
  {
   "property": "C99",
   "status": "partial",
   "theorems": [
    "Oasis.Props.C99_ring_partial",
    "Oasis.Props.C99_whole_partial",
    "Oasis.Props.C99_decimal_partial",
    "Oasis.Props.C99_double_partial",
    "Oasis.Props.C99_exponent"
   ],
   "note": "Partial: runs in which the rule of line 693 is not used, and no quotients, logarithms, magnitudes, derivatives or integrals; C99_double_partial assumes that the library's pow has whole values at whole bases and natural exponents. C99_exponent: with that rule it is violated."
  },
  {
   "property": "C100",
   "status": "proved",
   "theorems": [
    "Oasis.Props.C100_decides",
    "Oasis.Props.C100_rearranged",
    "Oasis.Props.C100_same_value",
    "Oasis.Props.C100_both_ways_differ"
   ],
   "note": ""
  },
  {
   "property": "C101",
   "status": "partial",
   "theorems": [
    "Oasis.Props.C101_dies",
    "Oasis.Props.C101_null",
    "Oasis.Props.C101_method",
    "Oasis.Props.C101_substitute"
   ],
   "note": "The property is false for every expression with a missing operand (proved in general): the branches that report it are never reached, since the operand is dereferenced before."
  },
  {
   "property": "C102",
   "status": "partial",
   "theorems": [
    "Oasis.Props.C102_rational",
    "Oasis.Props.C102_double",
    "Oasis.Props.C102_names",
    "Oasis.Props.C102_ignored",
    "Oasis.Props.C102_ignored_rational",
    "Oasis.Props.C102_names_violated",
    "Oasis.Props.C102_rejected_violated"
   ],
   "note": "Which beginning of a word counts is proved in general against the grammar of the C standard. That names are variables, and that a line that is not an expression is rejected, is false: `info` is infinity, and `5%2` is 5."
  },
  {
   "property": "C103",
   "status": "proved",
   "theorems": [
    "Oasis.Props.C103_zeros",
    "Oasis.Props.C103_returns",
    "Oasis.Props.C103_zero_constants",
    "Oasis.Props.C103_cancelling"
   ],
   "note": "For coefficients up to 2^53, in any IEEE arithmetic and with any mathematical library. C103_cancelling shows that the bound is needed."
  },
  {
   "property": "C104",
   "status": "proved",
   "theorems": [
    "Oasis.Props.C104_linear",
    "Oasis.Props.C104_quadratic",
    "Oasis.Props.C104_negligible",
    "Oasis.Props.C104_high",
    "Oasis.Props.C104_doubles",
    "Oasis.Props.C104_missed"
   ],
   "note": "With exact numbers; for degree 1 also with doubles. C104_negligible and C104_missed show where the code does not return the zeros; C104_quadratic and C104_negligible together cover every polynomial of degree 2 with a coefficient that is not a whole number."
  },
  {
   "property": "C105",
   "status": "partial",
   "theorems": [
    "Oasis.Props.C105_polynomials_partial",
    "Oasis.Props.C105_products_partial",
    "Oasis.Props.C105_quotients_partial",
    "Oasis.Props.C105_integrals_partial",
    "Oasis.Props.C105_derivatives_partial",
    "Oasis.Props.C105_violated",
    "Oasis.Props.C105_never_enough",
    "Oasis.Props.C105_comes_to_rest_partial"
   ],
   "note": "Over exact rational numbers; nothing is assumed about the run. Missing: polynomials in which fewer than two terms remain and products of equal powers, for which it is violated, quotients with exponents that differ by less than 1, and other expressions. C105_never_enough: no fixed number of calls is enough; C105_comes_to_rest_partial: for every polynomial some number of calls is, at most twice the number of summands of the first result. For doubles, see C93_settled and C97_polynomials."
  },
  {
   "property": "C106",
   "status": "partial",
   "theorems": [
    "Oasis.Props.C106_polynomials_partial",
    "Oasis.Props.C106_products_partial",
    "Oasis.Props.C106_violated"
   ],
   "note": "Over exact rational numbers. In general violated: most answers cannot be typed in again. C106_polynomials_partial and C106_products_partial say exactly which answers to polynomials (with two terms or more) and products can, for numbers and exponents printed in full without sign or power of ten. Single numbers as doubles: C92_answer."
  },
  {
   "property": "C107",
   "status": "partial",
   "theorems": [
    "Oasis.Props.C107_closed",
    "Oasis.Props.C107_running",
    "Oasis.Props.C107_summands_partial",
    "Oasis.Props.C107_violated"
   ],
   "note": "Over exact rational numbers; nothing is assumed about the runs. Missing: equal summands if fewer than two terms remain, which is violated, and the order of the summands."
  },
  {
   "property": "C108",
   "status": "partial",
   "theorems": [
    "Oasis.Props.C108_value",
    "Oasis.Props.C108_summands_partial",
    "Oasis.Props.C107_violated"
   ],
   "note": "Over exact rational numbers; nothing is assumed about the runs. Missing: equal summands if fewer than two terms remain, which is violated (C107_violated: x - x + y, with x - x simplified first and not), and the order of the summands."
  },
  {
   "property": "C109",
   "status": "partial",
   "theorems": [
    "Oasis.Props.C109_exchange_partial",
    "Oasis.Props.C109_operands_partial",
    "Oasis.Props.C109_polynomials",
    "Oasis.Props.C109_magnitude_partial",
    "Oasis.Props.C109_violated"
   ],
   "note": "For every kind of numbers and all expressions; nothing is assumed about the runs. Missing: parts inside of magnitudes, for which it is violated; C109_magnitude_partial says how: only if the magnitude is returned as it was."
  },
  {
   "property": "C110",
   "status": "proved",
   "theorems": [
    "Oasis.Props.C110_parts",
    "Oasis.Props.C110_failure",
    "Oasis.Props.C110_failure_one"
   ],
   "note": "For every kind of numbers and all expressions; nothing is assumed about the runs. If both operands fail, the left error text is returned, see M.both in Model/Outcome.lean."
  }
 ]
}