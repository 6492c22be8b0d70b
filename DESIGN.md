# Formal model of open-algebra/Oasis in Lean 4

* `properties.jsonl`: the properties C01, C02, ...
* `MANIFEST.json`: for each property its status and the exact names of its theorems.
* `lean/Verif/Model/`: the model of the C++ code. Every definition cites the file and lines it follows.
* `lean/Verif/Spec/`: the definitions that the theorem statements use and that are not part of the code
  (values of expressions, grammars, rearrangement of operands, polynomials, checks of logs).
* `lean/Verif/Proofs/`: lemmas.
* `lean/Verif/Props/`: the property theorems, each followed by a concrete case that meets its hypotheses.
* `seeded/LOG.jsonl`: wrong variants of the model and the theorems that failed on them.

Build with `lake build` in `lean/`.

## How the code is modelled

* **Expressions** (`Model/Basic.lean`) are an inductive type `Expr K`. The static template arguments
  (`Add<Real>` against `Add<Expression>`) are erased: `Generalize` becomes the identity, and `RecursiveCast<T>`
  becomes matching against a pattern (`Model/Tree.lean`). A null operand pointer is the tree `absent`.
* **Numbers**: `double` is a type `K` with the operations the code uses (class `Num`), without laws. A theorem stated
  for every `[Num K]` holds for IEEE doubles, NaN included. Theorems about values assume `Exact`
  (`Spec/Refine.lean`: arithmetic is that of a subfield of the reals; instance: the rationals), or are stated for `ℚ`.
  So they say what the algorithm does apart from rounding. Doubles with rounding do not satisfy `Exact`.
  `Model/Double.lean` is IEEE binary64 with rounding, infinities, NaN and signed zeros; C90 to C93 and C97 are about it.  `TestsDouble.lean` runs the model over it on the 27 examples of the documentation comments in the headers and compares the printed texts (tests, checked by the kernel).
* **Outcomes** (`Model/Outcome.lean`): a call returns a value, returns an error value (`std::unexpected`), throws one of the
  exceptions that occur, or has undefined behaviour / violates a contract (null dereference, `not_null` contract, division
  by zero, index out of bounds, Eigen dimension mismatch, signed overflow, dereferenced `std::expected` error).
* **Recursion**: the visitors `Simplify`, `Differentiate` and `Integrate` call each other. Each is written once with open
  recursion, and `run n` (`Model/Run.lean`) allows `n` nested calls. `none` means that the budget was too small. C16 proves that an
  outcome does not change with a larger budget. A C++ call that never returns is one that is `none` for every budget.
* **Log**: the model of the visitors records the decisions that are mathematically conditional (type `Ev`): each positive
  `Equals` verdict that is acted on, each number treated as zero, each conditional rewrite. Nothing reads the log, so it has no effect on
  results. `Sound` (`Spec/Refine.lean`) says what each entry claims about values. `certified` and `certifiedR` (`Spec/Certified*.lean`)
  are decidable checks that imply the claims over `ℚ`.
* **Values** (`Spec/Value.lean`, `Spec/Real.lean`): a relation between an expression, an assignment and a number, complex
  (`CVal`) or real (`RVal`). An expression has no value where it is not defined: division by zero, logarithms outside their domain, `0`
  to a negative power, a derivative at a point without one. `Derivative` has a value only in the real reading.

## Trusted base

* Lean's kernel (4.33.0). Every theorem in `MANIFEST.json` depends on no axioms other than `propext`, `Classical.choice` and
  `Quot.sound`. There is no `sorry`, no `native_decide`, no `bv_decide` and no further axiom.
* Mathlib, as compiled in the installation (its theorems are also checked by the kernel).
* That the model follows the C++ code. This is not proved. It rests on reading the code line by line and on the replayed unit tests of the
  project: `lean/Verif/Tests.lean` has the assertions of the test files that make sense over rational numbers, evaluated by the kernel; `tests/FloatReplay.txt`
  (not part of the build) evaluates them over IEEE doubles with Lean's interpreter, `lake env lean ../tests/FloatReplay.txt`. All hold.
* That the definitions in `Spec/` express what the theorem statements say in words.

## What is modelled

| code | model | remarks |
|------|-------|---------|
| `include/Oasis/{Expression,BinaryExpression,UnaryExpression,LeafExpression}.hpp`, `src/{Add,Multiply,...}.cpp` (`Equals`, `StructurallyEquivalent`, `Flatten`, `BuildFromVector`, `Substitute`) | `Basic`, `Tree`, `Run` | |
| `RecursiveCast.hpp`, `MatchCast.hpp` | `Tree`, `Simplify` | the cast pattern is a value instead of a type; the cases of a `MatchCast` are tried in order |
| `src/SimplifyVisitor.cpp` (all of it) | `Simplify` | one definition per `if` block, in source order |
| `src/DifferentiateVisitor.cpp` (all of it) | `Diff` | |
| `Integrate` in `src/*.cpp` and the headers | `Integrate` | |
| `Integral::IntegrateWithBounds` (`src/Integral.cpp`) | `Integrate` | |
| `src/Expression.cpp` (`FindZeros`, `gcf`, `getAllFactors`, operators) | `Poly`, `Run` | `long long` with checked overflow |
| `src/Linear.cpp` | `Linear` | `std::map` is an association list; Eigen's inverse is the cofactor formula, in exact arithmetic |
| `src/Matrix.cpp` | `Matrix` | entries in row-major order |
| `io/src/FromString.cpp` | `Text`, `InFix` | |
| `io/src/FromPALM.cpp` | `Text`, `Palm` | with the position and the flags of the stream |
| `io/src/{InFix,TeX,MathML}Serializer.cpp` | `Serialize` | MathML as an element tree |
| `bindings/js/src/bindings.cpp` (`ToMathMLString`) | `Markup` | the text of the element tree, as tinyxml2 prints it |
| `cli/main.cpp`, `bindings/js/src/bindings.cpp` | `Cli` | the line editor is a list of lines; colours are left out |

## What is not modelled

* Rounding in theorems about values other than C90 to C93 and C97 (see Numbers above); there, `pow` and `log2` are arbitrary functions (class `Libm`),
  because neither IEEE-754 nor C++ says how they round. `std::fmod` followed by a cast to `int` is one operation `fmod4`; the cast
  of NaN (the remainder of an infinity) is undefined behaviour and an outcome of its own. What `lround` gives outside the range of `long` is arbitrary over doubles (class `Libm`).
* Numbers as text: what number a literal denotes (`std::stof`, `std::stod`) and how a number is printed (`std::format`) are
  parameters (`NumText`). The syntax of literals is modelled. Theorems about `ℚ` use the exact instance: a literal denotes its exact value, and `%.5g` is
  computed from the exact value. The instance for doubles rounds literals to `float` (`stof`) or `double` (`stod`).
* Bytes above 127. `isdigit` and `isalpha` of negative `char`s are undefined behaviour in C++. The sign `×` of `MathMLSerializer` counts as one
  character.
* Memory: allocation failure, ownership, and the vector that `FindZeros` allocates for an enormous exponent.
* The depth of the C++ stack. Non-termination of the recursion is modelled, overflow at a finite depth is not.
* tinyxml2 itself (not part of the repository). Its printer is modelled by its documented behaviour with default settings (`Model/Markup.lean`):
  indentation, `/>`, and `&`, `<`, `>` escaped in texts. A character 0 in a name, where C strings end, is not treated separately.
* Eigen's algorithms: its sums, products and inverse are given by their mathematical definition. A dimension mismatch is an outcome.
* `BoundedExpression`, `BoundedUnaryExpression`, `BoundedBinaryExpression`, `Summation` and `DefiniteIntegral`: templates that nothing instantiates, and that could not be
  (they include `Bounds.hpp` or name `tf::Subflow`, neither of which is part of the repository),
  the option `angleUnits` (never read),
  the tests. `delete[] line` in `cli/main.cpp` on memory that isocline allocated with `malloc` (undefined behaviour, whatever is typed).

## What the proofs found

Deviations of the code from what its names and documentation promise. Each is a theorem with a concrete witness.

**Equality.** `Equals` on sums and products checks that each operand on the left occurs on the right: `x+x` "equals" `x+y` but not the other way round (C02), and `x+y`
"equals" `(x+y)+z` (C04, C60, C71). Comparing in both directions does not help in general: `(p+q)*((p+q)+z)` and `((p+q)+z)*((p+q)+z)` "equal" each other (C100). `Integral` compares as if its operands could be exchanged (C04), and `RecursiveCast` exchanges them (C11). Every comparison with `Pi` on the left
throws `bad_cast` unless the right side is `Pi` (C05).

**Missing operands.** The visitors of the simplifier return an error for a missing operand, but only after dereferencing it: every expression with a missing operand anywhere
ends in an exception or undefined behaviour (C101).

**Simplify.** `(x+y) - ((x+y)+z)` becomes 0, and `(x+y) + ((x+y)+z)` becomes `2(x+y)` (C12, C58). Coefficients and left factors of magnitude at most 2^-23 are
dropped, so that `10^-7 * 10^7` is 0 (C13). `1/e^(2y)` becomes `1/e^y` (C12). `sin x` becomes `x` (C21). `i^2.5` becomes -1 (C18), and `i^(-1)` throws
(C17). `i^(1/0)` converts NaN to `int`, undefined behaviour (C90). `pi*x` throws (C17). `(x+y)^2 * ((x+y)+z)` violates a `not_null` contract (C17). The difference of matrices with different columns reaches Eigen (C17, C53), the difference of
equal matrices is the number 0, as is 0 times a matrix, and the square of a matrix becomes a power even if the matrix is not square (C53). `(x+2) - x` is left as
`(x+2) + -1*x`, because the collected terms are used only if there are at least two (C59). `x + -1*x` becomes `0*x`, which a second call turns into 0 (C15, C105); of `x + -1*x + y + -1*y + x + ...` each call removes one pair only, so that no fixed number of calls is enough, though for every polynomial some number is (C105). Of `x - x + y` the result therefore depends on whether the sum is simplified after each term (C107, C108). The operand of a magnitude is returned unsimplified: `|x+x|` stays, though `x+x` becomes `2*x` (C109). `x*y + x*y*z`
becomes `2*x*y`, `x^2 * x^2` becomes `(x^2)^2` (and `x^4` when simplified again, C105) and `x*3*3` becomes `x*3^2` (C70). `x^2/x^2` becomes
`x^0`, and `x/x^2` is left as it is (C72). `x*y + c*x*y` becomes `2*x*y` for every number `c` (C76), and `(u*2)/(u*4)` becomes `0.25*2` (C77). `u^c*u^c` becomes `(u^c)^2`, for every `u` and number `c`, and is not recognised as `u^(2*c)` (C80). `(2*x^3)*(z^2*x)` becomes `(2*x)*x^4`, since the rule at line 676 multiplies by the wrong operand,
and `2*x^3*y^x` becomes `2*x^(y+3)`, since the rule at line 693 compares and adds the wrong operands; both hold for arbitrary expressions in place of the names (C83). So `x*3*3*y^3` becomes `x*3^(y+2)` (C99), and the first rule copies parts: in the result of `2*(p+q)^3*(w^2*((p+q)+z))` the name `z` occurs twice (C98). `(2*x+2*y)-(-2*x-2*y)` becomes `2*(2*x+2*y)` (C93). `(2+3*i)-(2+5*i)` is left as
`(2+3*i)+(-2-5*i)`, and complex numbers are not multiplied: `(2+3*i)*(4+5*i)` is left as it is (C84).

**Differentiate.** A sum whose right operand cannot be differentiated throws, because the left result is tested twice (C24). Differentiating `Derivative(a, x)` returns
the first derivative of `a` (C25). The derivative of `1/e^(2x)` comes out as `-1/e^x`, that of `10^-8 * x` as 0 (C23). A derivative that cannot be
evaluated is simplified for ever: `dd(x,2)` typed at the prompt is never answered, nor is the derivative of a magnitude or of a matrix, nor `d/dx(x*y)` once 2 is
substituted for `x` (C88).

**Integrate.** Integrating `i`, `pi`, `Undefined`, derivatives and integrals never ends (C55). A sine gives a null pointer, which several callers dereference (C17, C55). The
results for `x^(-1)`, `e^y` (with respect to `x`), sums with a summand that cannot be integrated and others are wrong, and the integral of `1+x+...+x^6` lacks `x^5/5` (C56); of `n` terms only as many are integrated as the two highest binary ones of `n` make (C78). `2*x^0` dereferences a null pointer (C55). From 0 to 1, `(1+x)+x^2` gives 5/6 instead of 11/6, because the second operand of
the antiderivative is taken for the constant (C57).

**FindZeros.** The factor list lacks the divisors above the square root, and from 3037000499² on the routine overflows (C45), so rational zeros are missed from degree 3 on (C47). A zero constant term divides by zero, a
negative exponent writes out of bounds, and the synthetic division can overflow; `C48_bound_partial` gives a bound on the coefficients that excludes it (C48). When the leading coefficients cancel the results have divisor 0 (C46).
With doubles the same holds as long as the coefficients stay within `2^53`; beyond that a leading coefficient can be rounded to 0 (C103).
Coefficients that are not all whole numbers take the other branch: degrees 1 and 2 are solved, higher degrees give nothing, and a coefficient of at most `2^-23` makes a product in the discriminant disappear, so that neither result is a zero (C104).

**Linear systems.** An equation that simplifies to something other than a sum dereferences null, and more variables than equations write outside the matrix (C51). Nonlinear terms are
ignored, repeated variables overwrite each other (C49).

**Parsers.** `FromInFix` accepts postfix notation, superfluous operands and misplaced commas (C32). A word that begins with a number is that number, whatever follows: `5%2` is 5, `7!` is 7 and `1=2` is 1; names that begin with `inf` or `nan` are infinity or NaN (C102). `PreProcessInFix` makes nested parentheses unreadable: `((x+y)+z)` becomes `(*(x+y)+z)` (C33), and
it joins `2 3` to `23` (C34). Every line in which `((`, `))` or `,(` occurs is rejected, `2*(3+(4+5))` for example, and a word of several factors behind a `)` is not cut: `(1+2)3x` is 9 (C81). `FromPALM` rejects every text that ends with a blank (C38) and drops a malformed last operand without an error (C37).

**Serializers.** TeX writes `Derivative(f, x)` as the derivative of `x` with respect to `f` (C42). MathML writes an empty row for a sine (C43). `InFix` maps different numbers to the same text (C40). In MathML `x*(-2)` shows the same characters as `x-2` (C74) and is read as such, `(-2)^2` is read as
`-(2^2)`, and in `2*3^4` the digits run together to `23^4` (C85). An integral over `n+m` is displayed as the integral over `n`, plus `m` (C85). The text for the page escapes `&pi;` and `&int;`, so that pi and integrals are not shown as `π` and `∫` but as these
characters (C86).

**Names.** A variable called `C` is taken for the integration constant: the integral of 1 with respect to `C` is `2*C`. `FindZeros` takes a variable with the empty name for any other one. All
other names are alike to the program (C87).

**Programs.** `i^(0-1)`, `(x+y)^2*(x+y+z)` and `in(x^x*y^x,x)` end a session of the command line program, `in(i,x)` is never answered (C61). `2.x+1` is answered with 3, `-x+1` with an error, and
answers show five digits only (C62). Typed numbers are read in single precision (`std::stof`), although numbers are doubles:
`16777217-16777216` is answered `0`, and `0.1*3-0.3` is answered `-7.4506e-09` (C91). The answer `1e+06` typed in again is answered `(e+6)`, and `-504` is rejected (C92). The answer `((2*x)+3)` to `2x+3` is rejected when typed in again, as is that to every polynomial with three or more terms and numbers that are printed in full (C106). In the JavaScript bindings a typing error makes `ToMathMLString` dereference a null pointer (C63).

## Properties

Status `partial` means that the property as stated is false of the code (then its negation is proved with a witness, and the theorems with suffix `_partial` prove what holds), or that
the theorem has a hypothesis that the property does not have; the comment on the theorem says what is missing.
| id | property | status | remarks |
|----|----------|--------|---------|
| C01 | Equals is reflexive | proved |  |
| C02 | Equals is symmetric | partial | False in general (counterexample proved). Symmetric without associative nodes; transitive on complete pi-free trees. |
| C03 | Equals ignores order and grouping of + and * | proved | Pi excluded: Equals throws on it (C03_pi_throws). |
| C04 | Equals implies equal value | partial | False for sums, products, integrals (counterexamples proved); C100 gives the exact relation and a case in which both directions imply it. |
| C05 | Equals returns normally | partial | Fails exactly through Pi on the left. |
| C06 | StructurallyEquivalent is an equivalence relation | proved |  |
| C07 | BuildFromVector keeps every operand in order and is null only for short lists | proved |  |
| C08 | BuildFromVector is balanced | proved |  |
| C09 | Flatten yields the maximal operand list | proved |  |
| C10 | RecursiveCast is sound and complete up to commuting operands | proved |  |
| C11 | Casting an Integral never exchanges integrand and variable | partial | False for Integral (counterexample proved). |
| C12 | Simplify preserves value | partial | False in general (five counterexamples proved, in exact arithmetic). Proved for every run whose logged decisions are right; over the rationals that is a decidable check of the log, and then the value is preserved for all complex assignments, and for all real assignments of expressions with derivatives. |
| C13 | Simplify folds closed arithmetic | proved | For every number type; exact value over the rationals. The hypothesis on negligible left factors is needed (C13_negligible_factor). |
| C14 | Simplify introduces no new variables | proved |  |
| C15 | Leaves are fixed points of Simplify | proved |  |
| C16 | Simplify's outcome does not depend on recursion budget | proved |  |
| C17 | Simplify returns normally | partial | False in general (counterexamples proved); the possible failures are proved to be limited to a short list. |
| C18 | Powers of i | proved | Over exact arithmetic (fmod exact). |
| C19 | Logarithms outside the real domain become Undefined | proved |  |
| C20 | Arithmetic operators agree with Simplify | proved |  |
| C21 | Simplify keeps the sine | partial | False: the sine is dropped in every run (proved). |
| C22 | Differentiating constants gives zero | proved |  |
| C23 | Differentiate computes the derivative | partial | False in general (counterexamples proved). Proved for every run whose logged decisions are right; over the rationals that is a decidable check of the log, and then the result is the derivative (HasDerivAt) at all real points where the operand has a value. |
| C24 | Unsupported derivatives come back unevaluated | partial | False for right summands (general counterexample proved). |
| C25 | Differentiating a Derivative differentiates again | partial | False whenever the inner expression can be differentiated (proved). |
| C26 | Substitution replaces every occurrence | partial | Occurrences: proved for all expressions; with integrals the constant C can appear. Value: given that the logged simplifier decisions are right. |
| C27 | Substitution has the expected value | partial | False in general through Simplify (counterexample proved); proved for runs whose logged decisions are right. |
| C28 | Substituting for a non-variable throws exactly when a variable is reached | partial | The if direction fails when simplification of a closed subexpression fails first. |
| C29 | FromInFix implements the precedence grammar | proved |  |
| C30 | FromInFix is total and memory safe | proved |  |
| C31 | FromInFix accepts only balanced parentheses | proved |  |
| C32 | FromInFix rejects malformed input | partial | False: postfix-like texts are accepted (counterexamples proved). |
| C33 | InFix round trip | partial | False for nested serialized texts without blanks (counterexamples proved). |
| C34 | PreProcessInFix only inserts spaces and multiplication signs | proved |  |
| C35 | FromPALM parses the PALM grammar | proved |  |
| C36 | FromPALM is total | proved | Termination is stated with a step budget that is provably not exhausted; the depth of the C++ stack is not modelled. |
| C37 | FromPALM rejects malformed operands | partial | The property is false: words beginning with an opening parenthesis after the last operand are dropped silently; the theorems give exactly what is accepted. |
| C38 | FromPALM ignores surrounding blanks | partial | The property is false for blanks at the end, where FromPALM always fails; proved for all other blanks. |
| C39 | InFixSerializer fails exactly on matrices | proved |  |
| C40 | InFix text is unambiguous | proved | For ordinary names and distinguishable number texts, as the statement says; collisions outside that class are proved. |
| C41 | TeX output is brace balanced | proved |  |
| C42 | TeX derivative shows the variable below | partial | False: operand and variable are swapped for every f and x (proved). |
| C43 | MathML mentions every leaf | partial | False for Sine, whose operand is dropped (proved); otherwise the labels are exactly the leaves. |
| C44 | Greatest common factor | proved |  |
| C45 | Factor listing | partial | False for divisors above the square root and from 3037000499² on, where the routine overflows (proved for all of these); the exact contents of the list are proved, for negative numbers too. |
| C46 | FindZeros returns only zeros | proved | For sums that have a degree; when the coefficients of the highest power written cancel the returned quotients have divisor 0 (proved). |
| C47 | FindZeros finds all rational zeros | partial | False from degree 3 on (counterexamples proved); degrees 1 and 2 are complete; a rational zero within the searched divisors is always listed. |
| C48 | FindZeros returns normally | partial | False for negative exponents and for every polynomial with a zero constant term and a leading coefficient other than -1 (proved). Otherwise a list is returned whenever M·Σ/c_i/M^i < 2^63 with M = max(/c_0/, d+1); without the bound, overflow is the only other outcome and it occurs. |
| C49 | Linear system construction | proved | Exact arithmetic; terms outside the stated class are ignored or overwritten (proved). |
| C50 | Linear system solving | partial | Proved for systems in simplified form, and, through the simplifier, for linear polynomials with coefficients that are multiples of 1/m, m < 2^23 (the simplifier compares numbers up to an epsilon); for other equations only for runs whose logged decisions are certified. Eigen's inverse is modelled by the cofactor formula, in exact arithmetic. |
| C51 | Linear system construction returns normally | partial | False (counterexamples proved): equations that simplify to something other than a sum, and systems with more variables than equations. |
| C52 | Matrix construction | proved |  |
| C53 | Matrix arithmetic in Simplify | partial | False for equal matrices, for differences with mismatched columns, and for the multiple with 0 (proved). |
| C54 | Definite integral with equal bounds is zero | partial | Bounds that contain Undefined/NaN (equal bounds) or Pi (zero integrand) are excluded; Pi throws (proved). |
| C55 | Integrate returns normally | partial | False in general (counterexamples proved). |
| C56 | Integrate returns an antiderivative | partial | False in general (seven counterexamples proved). Proved for every integrand and every run whose logged decisions are right; over the rationals that is a decidable check of the log. |
| C57 | IntegrateWithBounds computes the definite integral | partial | False in general (two counterexamples proved). Proved for every run whose logged decisions are right; over the rationals that is a decidable check of the log. |
| C58 | Simplify is correct on polynomials | proved | Over exact rational numbers; nothing is assumed about the run; the conditions on the input are needed (C58_conditions_needed, C12_changes_value). |
| C59 | Simplify collects like terms | partial | False when fewer than two terms remain; proved otherwise. C59_cancelled: it is false whenever a monomial cancels a term of a sum and fewer than two remain. |
| C60 | Simplify and Equals decide equality of polynomials | partial | Proved for polynomials with at least two terms and Equals in both directions; one direction does not suffice (counterexample proved). |
| C61 | A command line session answers the questions in order | proved | Each of the ways to end early occurs (C61_ends_early). |
| C62 | A typed polynomial is answered with its simplification | proved | Over exact rational numbers, with coefficients that are multiples of 1/m, m < 2^23 (the simplifier compares numbers up to an epsilon). The text of the answer shows five digits of each number (proved). |
| C63 | The JavaScript bindings give MathML or null | partial | False: a text that cannot be parsed leads to a null pointer dereference (proved); MathML otherwise, if Simplify returns an expression. |
| C64 | The derivative of a sum of monomials is computed | proved | Over exact rational numbers; nothing is assumed about the run. Coefficients, exponents and their products are multiples of 1/m with m < 2^23 (smaller coefficients are dropped, C23_violated). |
| C65 | The integral of a polynomial is computed | partial | Proved for monomials, and for sums and differences whose number of collected terms has at most two ones in binary; nothing is assumed about the run. Violated for seven terms (C56_seven_terms): the constants of the partial integrals are not the second operand, and a term is dropped. Coefficients as in C64. |
| C66 | Substituting a number evaluates | proved | Exact rational numbers. The value (evalAt) is not defined where a divisor or the base of a negative power is zero, for exponents that are not integers, and for products whose left factor is not zero but at most 2^-23 (C66_restrictions: such a factor counts as zero). |
| C67 | The definite integral of a polynomial is computed | partial | Proved for monomials, and for sums and differences that have 2^k terms after collecting like terms; nothing is assumed about the run. Violated for three terms (C57_violated): the constant of the antiderivative is not its second operand, and a term is dropped. Coefficients as in C65. |
| C68 | Derivatives typed into the command line program are computed | proved | Exact rational numbers; nothing is assumed about the run. Coefficients are multiples of 1/a and exponents of 1/b with a*b < 2^23 (the simplifier compares numbers up to an epsilon). |
| C69 | Integrals typed into the command line program are computed | partial | Proved for one term, and for sums whose number of terms has at most two ones in binary; nothing is assumed about the run. Violated for seven terms (C69_seven_terms): a term is lost. Coefficients as in C65. |
| C70 | Products of powers are collected | partial | Proved for a number in front (or none) followed by powers with exponents of at least 1, none of them (other than 1) equal to the sum of the exponents of the same variable before it; nothing is assumed about the run. Violated otherwise (C70_violated): x^2*x^2 becomes (x^2)^2, x*3*3 becomes x*3^2. Numbers are multiples of 1/m, m < 2^23. |
| C71 | Simplify and Equals decide equality of products | partial | Proved for the products of C70 and Equals in both directions; one direction does not suffice (counterexample proved). |
| C72 | Common factors of quotients are cancelled | partial | Proved for products as in C70, divisors other than 0, and divisors without powers other than the first of which the dividend has the first or the same power; there the program leaves x^0 and x/(x^2) (proved). |
| C73 | TeX text is unambiguous | proved | For ordinary names and distinguishable number texts, as the statement says; collisions outside that class are proved. |
| C74 | What MathML output tells apart | proved | An exact characterization. The characters shown tell less than the elements: x*(-2) and x-2 look alike (proved). |
| C75 | Numbers are printed to the chosen digits, and shorter numbers survive | proved | Over exact rational numbers: std::format is modelled as correctly rounding and literals as exact. Negative numbers and exponents are not read back (C75_limits). |
| C76 | Multiples of any expression are added and subtracted | partial | For every number type. Missing: common parts that are products or quotients, for which the property is violated in general (C76_violated, C76_lost). |
| C77 | A common factor of any form cancels | partial | For every number type. Missing: powers, products, quotients, and logarithms divided by themselves, for which it is violated. |
| C78 | Which polynomials are integrated correctly | proved | Exact: the terms that C65, C67 and C69 do not cover are shown to be integrated wrongly. |
| C79 | The laws of logarithms are applied | proved | For every number type; the statements about values for exact numbers. |
| C80 | The laws of powers are applied | partial | For every number type. Missing: products of equal powers, for which it is violated (`(u^c)^2`). |
| C81 | Multiplication signs may be left out | partial | For every number type. Missing: lines with touching parentheses, which are always rejected (C81_touching), and words of several factors behind a `)`, which are read wrongly (C81_violated). |
| C82 | The command line program is a calculator | proved | Over exact rational numbers. Nothing is assumed about the run. |
| C83 | Products of numbers and powers are multiplied | partial | Over exact rational numbers. Missing: products in which a number meets the same number or a power an equal power (the result is then another power, C83_repeated, C83_equal), and numbers and exponents that count as 0. With other factors in between the value can be wrong (C83_lost, C83_swapped, C83_wrong). |
| C84 | Complex numbers are added up and their magnitudes are computed | partial | Over exact rational numbers. Missing: sums in which a part cancels (left separate, C84_cancelled), and sums of equal complex numbers (C76). Products of complex numbers are not computed (C84_products). |
| C85 | Displayed formulas are read as the expression | partial | Violated for the arrangements that are displayed misleadingly (C85_minus_factor, C85_minus_base, C85_digits, C85_integral_sum); sines are not displayed at all (C43). |
| C86 | The text for the page says what the element tree says | partial | The printer of tinyxml2 is modelled by its documented behaviour. Violated for pi and integrals, whose signs are escaped (C86_pi, C86_integral). |
| C87 | The names of variables do not matter | partial | For every number type, all calls and renamings that keep C (and, for FindZeros, the empty name). These two names do matter (proved): a variable C is taken for the integration constant, the empty name in FindZeros for any other. |
| C88 | Simplifying a derivative ends | partial | Violated, for every depth of the recursion: a derivative that Differentiate returns unevaluated is simplified for ever. C88_not_a_variable says exactly which derivatives with respect to something that is not a variable end. |
| C89 | The table of derivatives and antiderivatives is right | proved | For all names (integrals: other than C, see C87) and all real values. The rows are those of Spec/Table.lean. |
| C90 | Arithmetic is that of IEEE doubles, with bounded errors | proved | IEEE binary64 with rounding to nearest, for every implementation of pow and log2. A left factor of at most 2^-23 counts as zero, so products assume that it is larger (or zero). Beyond 2^53 whole numbers are rounded (C90_lost). |
| C91 | Typed calculations are answered to four digits | proved | IEEE doubles; decimal literals are rounded to single precision as std::stof does, std::format is modelled as correctly rounding. Nothing is assumed about the run. Differences of decimal numbers are not covered by the error bound (C91_violated: cancellation). |
| C92 | Numbers survive being written and read | proved | IEEE doubles; std::format and stof/stod are modelled as correctly rounding. Recovery is for zero and 2^-1021 to 2^1022 (C92_violated: subnormals raise a range error); typed-back answers are for zero and 0.0001 to 99999, positive. |
| C93 | Sums of multiples are collected exactly | proved | C93_collected, C93_settled and C93_canonical for every number type; C93_whole and C93_names for IEEE doubles. The cases left out are in the statement; C93_violated and C93_negative show that they are not collected. |
| C94 | Expressions of matrices are computed, and their magnitudes | proved | Over the rationals, against Mathlib matrices; C94_stored says that every matrix of the program is meant. pow is exact only where C94_magnitude_value assumes it. |
| C95 | Differentiation and integration undo each other, up to the terms that integration loses | proved | Exact, over the rationals: which polynomials come back is characterized. Polynomials with one term after collecting are not covered. |
| C96 | Derivatives of derivatives | proved | Over the rationals. Nothing is assumed about the run; the hypotheses are about what is typed. |
| C97 | Polynomials with whole coefficients are collected exactly in doubles | proved | IEEE doubles, for every implementation of pow and log2. Nothing is assumed about the run. Beyond 2^24 typed numbers are read as others (C97_limits). |
| C98 | Simplifying does not multiply the parts of an expression | partial | Partial: no derivatives or integrals, and runs in which the rule of line 676 is used only with equal bases (or with a base kept that has no more of the parts than the base dropped). C98_grows: with other bases it is violated. |
| C99 | Simplifying does not leave the ring of the numbers in an expression | partial | Partial: runs in which the rule of line 693 is not used, and no quotients, logarithms, magnitudes, derivatives or integrals; C99_double_partial assumes that the library's pow has whole values at whole bases and natural exponents. C99_exponent: with that rule it is violated. |
| C100 | What Equals decides | proved |  |
| C101 | Missing operands are reported by Simplify | partial | The property is false for every expression with a missing operand (proved in general): the branches that report it are never reached, since the operand is dereferenced before. |
| C102 | Which words are numbers | partial | Which beginning of a word counts is proved in general against the grammar of the C standard. That names are variables, and that a line that is not an expression is rejected, is false: `info` is infinity, and `5%2` is 5. |
| C103 | FindZeros with doubles | proved | For coefficients up to 2^53, in any IEEE arithmetic and with any mathematical library. C103_cancelling shows that the bound is needed. |
| C104 | FindZeros with coefficients that are not whole numbers | proved | With exact numbers; for degree 1 also with doubles. C104_negligible and C104_missed show where the code does not return the zeros; C104_quadratic and C104_negligible together cover every polynomial of degree 2 with a coefficient that is not a whole number. |
| C105 | Simplifying a second time changes nothing | partial | Over exact rational numbers; nothing is assumed about the run. Missing: polynomials in which fewer than two terms remain and products of equal powers, for which it is violated, quotients with exponents that differ by less than 1, and other expressions. C105_never_enough: no fixed number of calls is enough; C105_comes_to_rest_partial: for every polynomial some number of calls is, at most twice the number of summands of the first result. For doubles, see C93_settled and C97_polynomials. |
| C106 | Which answers can be typed in again | partial | Over exact rational numbers. In general violated: most answers cannot be typed in again. C106_polynomials_partial and C106_products_partial say exactly which answers to polynomials (with two terms or more) and products can, for numbers and exponents printed in full without sign or power of ten. Single numbers as doubles: C92_answer. |
| C107 | Simplifying after each term gives the terms of the whole sum | partial | Over exact rational numbers; nothing is assumed about the runs. Missing: equal summands if fewer than two terms remain, which is violated, and the order of the summands. |
| C108 | It makes no difference which parts are simplified first | partial | Over exact rational numbers; nothing is assumed about the runs. Missing: equal summands if fewer than two terms remain, which is violated (C107_violated: x - x + y, with x - x simplified first and not), and the order of the summands. |
| C109 | Simplify uses operands only through what it returns for them | partial | For every kind of numbers and all expressions; nothing is assumed about the runs. Missing: parts inside of magnitudes, for which it is violated; C109_magnitude_partial says how: only if the magnitude is returned as it was. |
| C110 | Simplify has a result only if it has one for every part | proved | For every kind of numbers and all expressions; nothing is assumed about the runs. If both operands fail, the left error text is returned, see M.both in Model/Outcome.lean. |

## How the proofs go

* C01–C11: induction on trees; `BuildFromVector` by induction on its pairing passes.
* C12, C23, C26, C27, C56, C57: one lemma per rewrite rule ("if the claims logged by this rule hold, the value is preserved"), combined by
  induction on the budget with a partial-correctness logic (`Proofs/Sat.lean`). Differentiation and integration use Mathlib's `HasDerivAt` and the
  fundamental theorem of calculus.
* C14, C17, C55: a heredity invariant (`Proofs/Hered.lean`) that every rule preserves, by the same induction.
* C58–C60: a total-correctness logic (`Proofs/Collect.lean`): the collecting loop of `Add` and `Subtract` is shown to maintain one entry per power of a variable,
  with the coefficients added, and no event other than trivially true ones is logged.
* C29–C34: invariant of the two stacks of the shunting yard against the grammar; token lists of serialized texts by induction on trees.
* C73 (`Proofs/TexUnique.lean`): the first characters of a text give the kind of node (`kindOf_txt`), and texts followed by a character that ends them are compared by induction; a fraction cannot begin like a derivative (`no_frac`). Matrices are compared row by row (`Proofs/MatText.lean`, `mat_prefix`).
* C74 (`Proofs/MathML.lean`): one direction by induction on `SameLook`; for the other the kind of node is read off the element (`kind_xml`), and the rows of sums and products determine their flattened operands.
* C75 (`Proofs/NumberText.lean`): the rounded mantissa has between `p` and `p + 1` digits and is within one half of the scaled number (`roundEven_near`, `exponent_spec`); the layouts with and without exponent are decimal texts of that value (`layout_written`).
* C76, C77 (`Proofs/Like.lean`, `Proofs/LikeDiv.lean`): for an arbitrary number type and an expression `u` about which only its outermost node and that it simplifies to itself are known, each rule of the visitors before the one that applies is shown to fail, by comparing node types.
* C35–C38: induction on terms and on the length of the remaining text.
* C44–C48: Horner evaluation and synthetic division as polynomial identities; termination measure for the search.
* C64 (`Proofs/PolyDiff.lean`): the same logic for the differentiator; the products made by the product and power rules simplify to monomials again, so the sums fall under C58. That the result is the derivative then follows from C23, the logged decisions being right.
* C65 (`Proofs/PolyTree.lean`, `Proofs/PolyInteg.lean`): `Add::Integrate` takes the first operand of each partial integral. For a balanced tree of `2^k` terms that is the whole antiderivative without its constant, and with at most two ones in the binary length both halves are of this form; the sum is rebuilt to the tree of all antiderivatives (C58).
* C66, C67 (`Proofs/Evaluate.lean`): `Substitute` rebuilds each node and simplifies it, so with numbers below, each node takes the numeric rule (`simpD_*`). With `2^k` terms the antiderivative is `g + C` and `IntegrateWithBounds` takes `g`, the balanced sum of the terms, which is evaluated at both bounds.
* C61–C63: the texts are parsed to the expressions of C58 (`Proofs/CliText.lean`), the loop of the program is a fold over the lines.
* C68, C69 (`Proofs/PolyDeriv.lean`): the parsed line is a left-nested sum, which `Simplify` turns into one of a few shapes (`Loose`); each is differentiated to a sum of monomials with the coefficients of the derivative (`derived_loose`), which is simplified again. For C69 the tree of C65 is the integrand.
* C70, C71 (`Proofs/Product.lean`): the collecting loop of `Multiply` maintains one entry per variable; a simplified product times one more power runs through the rules in order, each of which is shown either not to apply or to add the exponent (`simp_grow`). Induction over the length of the product.
* C72 (`Proofs/Quotient.lean`): the entries of the cancelling loop of `Divide` have five forms (`Form`), depending on which variables of the divisor have been processed; `Rep` says what they stand for. The loop keeps both (`div_fold`), and the loop at lines 1076-1100 sorts the entries by the sign of the exponent (`classify_all`).
* C105, quotients (`Proofs/SettledQuotient.lean`): the first run rebuilds the result from a list of entries (`FracOf`); in the second run the divisor has no variable in common with the dividend, so that its entries are appended (`div_fold_foreign`) and sorted apart again (`divide_foreign`).
* C105, repeated calls (`Proofs/Rest.lean`): a sum is at rest at most two calls after its operands are (`rests_add`), so a polynomial is after twice as many calls as it has summands.
* C106 (`Proofs/Retyped.lean`): the summands of the simplified polynomial read back (`fin_supported`), and the sum has no nested parentheses exactly if it has two summands that are leaves (`flat_terms`); likewise for products (`flat_pt`, `brief_iff`); the rest is C33 and C105.
* C107 (`Proofs/Running.lean`): the results are again polynomials (`og_poly`), and normal forms with the same coefficients have the same summands (`nf_perm`).
* C108 (`Proofs/Parts.lean`): replacing operands keeps the coefficients and adds no powers, so what is apart stays apart (`apart_parts`) and the expression stays a polynomial (`parts`).
* C109 (`Proofs/Exchange.lean`): the outcome of a sequence is a function of the outcome of its beginning (`out_thenOut`), and every visitor with two operands begins with simplifying them and does not use them otherwise (`bin_body`).
* C110 (`Proofs/Strict.lean`): induction over the path to the part, with the visitors split as in C109.
* C49–C51: fold invariant of `ConstructMatrices`; Mathlib's matrices for the inverse. `C50_linear` and `C51_linear_partial` are about the public function on linear polynomials as they are entered: by C58 they are simplified to sums with one summand for each coefficient, which are the equations of C49.

## Testing the theorems against wrong programs

`seeded/LOG.jsonl` has one line per attempt: a definition of the model was changed the way a realistic bug would change the code, the whole project was rebuilt, and the failing
declarations were recorded. Where a changed model still satisfied all theorems although a claim was false, a theorem was added or tightened and is named in the line.
Variants that repair a bug of the code, or that change nothing observable, are labelled as such.
