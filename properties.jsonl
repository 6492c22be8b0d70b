{"id": "C01", "title": "Equals is reflexive", "statement": "a.Equals(a) returns true for every completely built expression that contains no Undefined node and no NaN number.", "quantifier": "every expression tree of any shape, with every operand present, whose Real and Matrix values compare equal to themselves and which has no Undefined leaf; every number type", "why_tests_cant": "Expression trees are unbounded in depth and width; a test fixes one tree.", "anchors": ["include/Oasis/BinaryExpression.hpp:BinaryExpression::Equals", "include/Oasis/UnaryExpression.hpp:Equals", "src/Pi.cpp:Pi::Equals", "include/Oasis/Undefined.hpp:Equals"]}
{"id": "C02", "title": "Equals is symmetric", "statement": "If a.Equals(b) returns true then b.Equals(a) returns true.", "quantifier": "all pairs of completely built expressions", "why_tests_cant": "The claim ranges over all pairs of trees; the failing pairs need sums of different lengths that no test compares both ways.", "anchors": ["include/Oasis/BinaryExpression.hpp:BinaryExpression::Equals"]}
{"id": "C03", "title": "Equals ignores order and grouping of + and *", "statement": "Two sums (or two products) whose flattened operand lists are permutations of each other compare equal, whatever the order and bracketing of the operands.", "quantifier": "all operand lists, all permutations of them, and all bracketings of both sides, at any length", "why_tests_cant": "Number of orderings and bracketings grows factorially; tests try one or two.", "anchors": ["include/Oasis/BinaryExpression.hpp:Equals", "include/Oasis/BinaryExpression.hpp:Flatten"]}
{"id": "C04", "title": "Equals implies equal value", "statement": "If a.Equals(b) returns true then a and b evaluate to the same number under every assignment of the variables.", "quantifier": "all pairs of expressions and all variable assignments", "why_tests_cant": "Semantic equality ranges over all assignments and all trees.", "anchors": ["include/Oasis/BinaryExpression.hpp:Equals", "src/Real.cpp:Real::Equals", "src/Variable.cpp:Variable::Equals"]}
{"id": "C05", "title": "Equals returns normally", "statement": "a.Equals(b) returns a bool: it never throws and never dereferences a missing operand.", "quantifier": "all pairs of completely built expressions", "why_tests_cant": "Needs every pair of node types at every position.", "anchors": ["src/Pi.cpp:Pi::Equals", "include/Oasis/UnaryExpression.hpp:Equals", "include/Oasis/BinaryExpression.hpp:Equals"]}
{"id": "C06", "title": "StructurallyEquivalent is an equivalence relation", "statement": "StructurallyEquivalent is reflexive, symmetric and transitive on completely built expressions, and does not depend on leaf values.", "quantifier": "all triples of completely built expressions", "why_tests_cant": "Expression trees are unbounded in depth and width; a test fixes one tree.", "anchors": ["include/Oasis/BinaryExpression.hpp:StructurallyEquivalent", "include/Oasis/UnaryExpression.hpp:StructurallyEquivalent", "include/Oasis/LeafExpression.hpp:StructurallyEquivalent"]}
{"id": "C07", "title": "BuildFromVector keeps every operand in order and is null only for short lists", "statement": "BuildFromVector<T>(ops) is null exactly when ops has fewer than two elements; otherwise the result is a T node whose flattened operands are exactly the (flattened) inputs in order, and its value is the sum/product of the operands' values.", "quantifier": "all operand vectors of every length, for each associative-commutative node type", "why_tests_cant": "Vector length is unbounded and the tree shape depends on it.", "anchors": ["include/Oasis/BinaryExpression.hpp:BuildFromVector", "include/Oasis/BinaryExpression.hpp:Flatten"]}
{"id": "C08", "title": "BuildFromVector is balanced", "statement": "The tree built from n >= 2 operands has at most ceil(log2 n) levels of the operator above the operands.", "quantifier": "every n and every operand vector", "why_tests_cant": "Depth bound is asymptotic in n.", "anchors": ["include/Oasis/BinaryExpression.hpp:BuildFromVector"]}
{"id": "C09", "title": "Flatten yields the maximal operand list", "statement": "Flatten returns, left to right, the operands of the maximal same-operator subtree at the root: no element is itself that operator, the combined value is unchanged, and there are at least two elements when both operands are present.", "quantifier": "every expression tree", "why_tests_cant": "Expression trees are unbounded in depth and width; a test fixes one tree.", "anchors": ["include/Oasis/BinaryExpression.hpp:Flatten"]}
{"id": "C10", "title": "RecursiveCast is sound and complete up to commuting operands", "statement": "RecursiveCast<T>(e) succeeds exactly when some reordering of the operands of commutative nodes of e has shape T; the result has shape T, is such a reordering of e and has the same value as e; the cast to Expression always succeeds and returns e unchanged.", "quantifier": "every target shape (any nesting of node types) and every expression", "why_tests_cant": "Both the pattern and the expression are arbitrary trees.", "anchors": ["include/Oasis/RecursiveCast.hpp:RecursiveCast", "include/Oasis/BinaryExpression.hpp:SwapOperands"]}
{"id": "C11", "title": "Casting an Integral never exchanges integrand and variable", "statement": "RecursiveCast to an Integral shape keeps the integrand as first operand and the integration variable as second.", "quantifier": "every Integral node and every Integral shape", "why_tests_cant": "The swap only shows for shapes whose direct match fails.", "anchors": ["include/Oasis/RecursiveCast.hpp:RecursiveCast", "include/Oasis/Integral.hpp:EXPRESSION_CATEGORY"]}
{"id": "C12", "title": "Simplify preserves value", "statement": "If Simplify returns an expression then it evaluates to the same number as the input under every assignment for which the input is defined.", "quantifier": "all expressions, all variable assignments, both distribution policies", "why_tests_cant": "Correctness is about all assignments and all trees; sampled points cannot show an identity.", "anchors": ["src/SimplifyVisitor.cpp:SimplifyVisitor::TypedVisit"]}
{"id": "C13", "title": "Simplify folds closed arithmetic", "statement": "An expression built only from Real literals with + - * / and negation, in which no divisor is zero and no product has a factor treated as negligible, simplifies to a single Real holding the folded value; Simplify terminates on it and raises no error.", "quantifier": "all closed arithmetic trees of any depth", "why_tests_cant": "Depth is unbounded; needs induction.", "anchors": ["src/SimplifyVisitor.cpp:TypedVisit(Add/Subtract/Multiply/Divide/Negate)"]}
{"id": "C14", "title": "Simplify introduces no new variables", "statement": "Every variable occurring in the result of Simplify occurs in the input, for inputs without Integral nodes.", "quantifier": "all Integral-free expressions and all runs", "why_tests_cant": "Holds per rewrite rule across arbitrary recursion.", "anchors": ["src/SimplifyVisitor.cpp:SimplifyVisitor::TypedVisit", "src/DifferentiateVisitor.cpp:DifferentiateVisitor::TypedVisit"]}
{"id": "C15", "title": "Leaves are fixed points of Simplify", "statement": "Simplify returns every Real, Imaginary, Variable, Undefined, EulerNumber, Pi and Matrix unchanged.", "quantifier": "all leaves with any payload", "why_tests_cant": "Payload domain is infinite.", "anchors": ["src/SimplifyVisitor.cpp:TypedVisit(Real)", "src/SimplifyVisitor.cpp:TypedVisit(Matrix)"]}
{"id": "C16", "title": "Simplify's outcome does not depend on recursion budget", "statement": "Once Simplify/Differentiate/Integrate return, error or throw with some recursion budget, every larger budget gives the identical outcome, so the outcome of each call is unique.", "quantifier": "all expressions, all budgets", "why_tests_cant": "Quantifies over all executions.", "anchors": ["src/SimplifyVisitor.cpp", "src/DifferentiateVisitor.cpp", "src/Multiply.cpp:Integrate"]}
{"id": "C17", "title": "Simplify returns normally", "statement": "Simplify on a completely built expression returns an expression or an error value: it never throws, dereferences null or violates a contract.", "quantifier": "all completely built expressions", "why_tests_cant": "Exceptions arise only for particular node pairs deep in a tree.", "anchors": ["src/SimplifyVisitor.cpp:TypedVisit(Exponent)", "src/Pi.cpp:Pi::Equals", "src/SimplifyVisitor.cpp:TypedVisit(Multiply<>)"]}
{"id": "C18", "title": "Powers of i", "statement": "Simplify of i^n for a whole number n >= 0 returns the exact value of i^n (1, i, -1 or -1*i).", "quantifier": "all natural numbers n", "why_tests_cant": "Infinite family; tests try a handful.", "anchors": ["src/SimplifyVisitor.cpp:TypedVisit(Exponent)"]}
{"id": "C19", "title": "Logarithms outside the real domain become Undefined", "statement": "Simplify of log with a Real base <= 0 or = 1, or a Real argument <= 0, is Undefined.", "quantifier": "all real bases and arguments, all other operands", "why_tests_cant": "Infinite domain with boundary values.", "anchors": ["src/SimplifyVisitor.cpp:TypedVisit(Log)"]}
{"id": "C20", "title": "Arithmetic operators agree with Simplify", "statement": "operator + - * / on expression pointers return the simplified node, or the unsimplified node when simplification reports an error; they never return null.", "quantifier": "all pairs of expressions", "why_tests_cant": "Expression trees are unbounded in depth and width; a test fixes one tree.", "anchors": ["src/Expression.cpp:operator+", "src/Expression.cpp:operator-", "src/Expression.cpp:operator*", "src/Expression.cpp:operator/"]}
{"id": "C21", "title": "Simplify keeps the sine", "statement": "Simplify of Sine(e) evaluates to sin of e's value.", "quantifier": "all operands and assignments", "why_tests_cant": "Semantic identity over all assignments.", "anchors": ["src/SimplifyVisitor.cpp:TypedVisit(Sine)"]}
{"id": "C22", "title": "Differentiating constants gives zero", "statement": "Differentiate of any Real, Imaginary, e, pi, or a variable other than the differentiation variable is Real 0; of the variable itself Real 1.", "quantifier": "all leaves and all variables", "why_tests_cant": "Infinite payload domain.", "anchors": ["src/DifferentiateVisitor.cpp:TypedVisit(Real)", "src/DifferentiateVisitor.cpp:TypedVisit(Variable)"]}
{"id": "C23", "title": "Differentiate computes the derivative", "statement": "If Differentiate of e with respect to x returns a node other than an unevaluated Derivative, its value is the derivative of e's value in x, wherever both are defined.", "quantifier": "all expressions, variables and points", "why_tests_cant": "Derivative is a limit statement over all points.", "anchors": ["src/DifferentiateVisitor.cpp:DifferentiateVisitor::TypedVisit"]}
{"id": "C24", "title": "Unsupported derivatives come back unevaluated", "statement": "Differentiate of an expression containing an unsupported function returns an unevaluated Derivative node instead of throwing.", "quantifier": "all expressions containing Sine, Magnitude or Matrix at any position", "why_tests_cant": "Position in the tree is arbitrary.", "anchors": ["src/DifferentiateVisitor.cpp:TypedVisit(Add)", "src/DifferentiateVisitor.cpp:TypedVisit(Subtract)", "src/Expression.cpp:Expression::Differentiate"]}
{"id": "C25", "title": "Differentiating a Derivative differentiates again", "statement": "Differentiate of Derivative(f, x) with respect to x is the second derivative of f.", "quantifier": "all inner expressions f", "why_tests_cant": "Semantic, over all f.", "anchors": ["src/DifferentiateVisitor.cpp:TypedVisit(Derivative)"]}
{"id": "C26", "title": "Substitution replaces every occurrence", "statement": "After e.Substitute(x, v) with v not mentioning x, the result does not mention x; an expression without x keeps its value.", "quantifier": "all Integral-free expressions e, variables x and replacements v", "why_tests_cant": "Expression trees are unbounded in depth and width; a test fixes one tree.", "anchors": ["include/Oasis/BinaryExpression.hpp:Substitute", "include/Oasis/UnaryExpression.hpp:Substitute", "src/Variable.cpp:Variable::Substitute"]}
{"id": "C27", "title": "Substitution has the expected value", "statement": "The value of e.Substitute(x, v) under an assignment equals the value of e under the assignment updated with x := value of v.", "quantifier": "all e, x, v and assignments", "why_tests_cant": "Semantic, over all assignments.", "anchors": ["include/Oasis/BinaryExpression.hpp:Substitute", "src/Variable.cpp:Variable::Substitute"]}
{"id": "C28", "title": "Substituting for a non-variable throws exactly when a variable is reached", "statement": "Substitute with a first argument that is not a Variable throws invalid_argument if and only if the expression contains a variable; otherwise it behaves as without substitution.", "quantifier": "all expressions", "why_tests_cant": "Expression trees are unbounded in depth and width; a test fixes one tree.", "anchors": ["src/Variable.cpp:Variable::Substitute"]}
{"id": "C29", "title": "FromInFix implements the precedence grammar", "statement": "Every token sequence derivable from the grammar with ^ over * / over + -, all left associative, with parentheses, log/dd/in calls, numbers and names, parses to exactly the tree of its derivation.", "quantifier": "all derivations of any length and nesting", "why_tests_cant": "Grammar generates infinitely many inputs.", "anchors": ["io/src/FromString.cpp:FromInFix", "io/src/FromString.cpp:processOp", "io/src/FromString.cpp:processFunction", "io/src/FromString.cpp:prec"]}
{"id": "C30", "title": "FromInFix is total and memory safe", "statement": "On every input string FromInFix returns an expression or an error; it never reads an empty stack.", "quantifier": "all strings", "why_tests_cant": "All byte strings.", "anchors": ["io/src/FromString.cpp:FromInFix"]}
{"id": "C31", "title": "FromInFix accepts only balanced parentheses", "statement": "If FromInFix succeeds, the '(' and ')' tokens of the input are balanced.", "quantifier": "all strings", "why_tests_cant": "All byte strings.", "anchors": ["io/src/FromString.cpp:FromInFix"]}
{"id": "C32", "title": "FromInFix rejects malformed input", "statement": "If FromInFix succeeds then the input is derivable from the infix grammar.", "quantifier": "all strings", "why_tests_cant": "All byte strings; malformed inputs are not enumerable.", "anchors": ["io/src/FromString.cpp:FromInFix"]}
{"id": "C33", "title": "InFix round trip", "statement": "Parsing (with PreProcessInFix) the InFixSerializer output of an expression built from the supported nodes gives back that expression.", "quantifier": "all supported expressions", "why_tests_cant": "Tree depth and nesting unbounded; failures need two levels of nesting.", "anchors": ["io/src/InFixSerializer.cpp", "io/src/FromString.cpp:PreProcessInFix", "io/src/FromString.cpp:ImplicitMultiplication"]}
{"id": "C34", "title": "PreProcessInFix only inserts spaces and multiplication signs", "statement": "PreProcessInFix(s) contains the non-blank characters of s in order, with only blanks and '*' added; every operator, parenthesis and comma is surrounded by blanks.", "quantifier": "all strings", "why_tests_cant": "All byte strings.", "anchors": ["io/src/FromString.cpp:PreProcessInFix", "io/src/FromString.cpp:SpaceAroundOperators", "io/src/FromString.cpp:ImplicitMultiplication"]}
{"id": "C35", "title": "FromPALM parses the PALM grammar", "statement": "Every well-formed PALM text (any blanks between tokens, none after the last parenthesis) parses to the specified tree: n-ary + * int balanced, n-ary - / ^ log d right nested.", "quantifier": "all PALM terms, all operand counts, all whitespace layouts", "why_tests_cant": "Infinitely many terms and layouts.", "anchors": ["io/src/FromPALM.cpp:FromPALM", "io/src/FromPALM.cpp:TokenStream", "docs/PALM.bnf"]}
{"id": "C36", "title": "FromPALM is total", "statement": "On every input string FromPALM returns an expression or one of its error codes and terminates.", "quantifier": "all strings", "why_tests_cant": "All byte strings.", "anchors": ["io/src/FromPALM.cpp:FromPALM", "io/src/FromPALM.cpp:ParseExpression"]}
{"id": "C37", "title": "FromPALM rejects malformed operands", "statement": "If FromPALM succeeds, the whole input is one well-formed PALM term.", "quantifier": "all strings", "why_tests_cant": "Malformed inputs are not enumerable.", "anchors": ["io/src/FromPALM.cpp:ParseNullaryOperationElements", "io/src/FromPALM.cpp:ParseVariable"]}
{"id": "C38", "title": "FromPALM ignores surrounding blanks", "statement": "Adding blanks before or after a PALM text does not change the result.", "quantifier": "all PALM texts and blank strings", "why_tests_cant": "Infinitely many.", "anchors": ["io/src/FromPALM.cpp:FromPALM", "io/src/FromPALM.cpp:TokenStream::pop"]}
{"id": "C39", "title": "InFixSerializer fails exactly on matrices", "statement": "InFixSerializer returns text for every completely built expression without Matrix and an error for every expression containing a Matrix.", "quantifier": "all completely built expressions", "why_tests_cant": "Expression trees are unbounded in depth and width; a test fixes one tree.", "anchors": ["io/src/InFixSerializer.cpp"]}
{"id": "C40", "title": "InFix text is unambiguous", "statement": "Two matrix-free expressions (over plain variable names and distinguishable numbers) with the same InFixSerializer text are identical.", "quantifier": "all pairs of expressions", "why_tests_cant": "All pairs of trees.", "anchors": ["io/src/InFixSerializer.cpp"]}
{"id": "C41", "title": "TeX output is brace balanced", "statement": "The TeXSerializer output has balanced braces and matched left/right delimiters, for every option set, when variable names are balanced.", "quantifier": "all expressions and option values", "why_tests_cant": "Expression trees are unbounded in depth and width; a test fixes one tree.", "anchors": ["io/src/TeXSerializer.cpp"]}
{"id": "C42", "title": "TeX derivative shows the variable below", "statement": "TeXSerializer writes Derivative(f, x) as d/dx applied to f.", "quantifier": "all f and x", "why_tests_cant": "Only differs when f is not x.", "anchors": ["io/src/TeXSerializer.cpp:TypedVisit(Derivative)"]}
{"id": "C43", "title": "MathML mentions every leaf", "statement": "MathMLSerializer never fails, and its element tree contains the text of every leaf of the expression.", "quantifier": "all expressions", "why_tests_cant": "Expression trees are unbounded in depth and width; a test fixes one tree.", "anchors": ["io/src/MathMLSerializer.cpp"]}
{"id": "C44", "title": "Greatest common factor", "statement": "The common-factor routine used by FindZeros returns the greatest common divisor of two positive integers and is undefined (division by zero) exactly when one is zero.", "quantifier": "all pairs of non-negative integers", "why_tests_cant": "Infinite domain, termination.", "anchors": ["src/Expression.cpp:gcf"]}
{"id": "C45", "title": "Factor listing", "statement": "The factor routine used by FindZeros lists every positive divisor of a positive integer.", "quantifier": "all positive integers", "why_tests_cant": "Infinite domain.", "anchors": ["src/Expression.cpp:getAllFactors"]}
{"id": "C46", "title": "FindZeros returns only zeros", "statement": "Every expression returned by FindZeros for an integer-coefficient polynomial in one variable evaluates to a zero of that polynomial. For a sum of terms in which two different variables occur nothing is returned.", "quantifier": "all degrees and integer coefficients", "why_tests_cant": "Unbounded degree.", "anchors": ["src/Expression.cpp:FindZeros"]}
{"id": "C47", "title": "FindZeros finds all rational zeros", "statement": "FindZeros returns every rational zero of an integer-coefficient polynomial.", "quantifier": "all degrees and integer coefficients", "why_tests_cant": "Unbounded degree.", "anchors": ["src/Expression.cpp:FindZeros", "include/Oasis/Expression.hpp:FindZeros"]}
{"id": "C48", "title": "FindZeros returns normally", "statement": "FindZeros never divides by zero or indexes out of bounds.", "quantifier": "all expressions of the documented form a+bx+cx^2+...", "why_tests_cant": "Crash needs particular coefficient patterns.", "anchors": ["src/Expression.cpp:FindZeros", "src/Expression.cpp:gcf"]}
{"id": "C49", "title": "Linear system construction", "statement": "For equations that are sums of a constant and real multiples of distinct variables, the constructed matrices A, b satisfy: an assignment solves all equations iff A*x = b.", "quantifier": "all numbers of equations and variables (not more variables than equations), all coefficients", "why_tests_cant": "Unbounded system size.", "anchors": ["src/Linear.cpp:ConstructMatrices"]}
{"id": "C50", "title": "Linear system solving", "statement": "When the coefficient matrix is invertible SolveLinearSystems maps each variable to the unique solution.", "quantifier": "all system sizes and coefficients", "why_tests_cant": "Unbounded system size.", "anchors": ["src/Linear.cpp:SolveLinearSystems"]}
{"id": "C51", "title": "Linear system construction returns normally", "statement": "SolveLinearSystems on any list of equations returns normally.", "quantifier": "all lists of expressions", "why_tests_cant": "Crash depends on equation shape and variable count.", "anchors": ["src/Linear.cpp:ConstructMatrices"]}
{"id": "C52", "title": "Matrix construction", "statement": "Matrix built from a value list of any length holds the i*cols+j-th value at (i,j) and 0 where the list is too short; Identity and Transpose have their defining entries and Transpose is an involution.", "quantifier": "all dimensions and value lists", "why_tests_cant": "Unbounded dimensions.", "anchors": ["src/Matrix.cpp"]}
{"id": "C53", "title": "Matrix arithmetic in Simplify", "statement": "Sum and difference of matrices of equal dimensions simplify to the entrywise result, product to the matrix product, the product with a number to the entrywise multiple; mismatched dimensions are rejected without touching memory out of bounds.", "quantifier": "all dimensions and entries", "why_tests_cant": "Unbounded dimensions.", "anchors": ["src/SimplifyVisitor.cpp:TypedVisit(Add<>)", "src/SimplifyVisitor.cpp:TypedVisit(Subtract)", "src/SimplifyVisitor.cpp:TypedVisit(Multiply<>)"]}
{"id": "C54", "title": "Definite integral with equal bounds is zero", "statement": "IntegrateWithBounds(x, a, a) is Real 0 for every integrand; so is the integral of Real 0 between any bounds.", "quantifier": "all integrands, variables and bounds", "why_tests_cant": "Expression trees are unbounded in depth and width; a test fixes one tree.", "anchors": ["src/Integral.cpp:IntegrateWithBounds"]}
{"id": "C55", "title": "Integrate returns normally", "statement": "Integrate on any completely built expression terminates and returns a non-null expression.", "quantifier": "all expressions", "why_tests_cant": "Non-termination is not observable by a terminating test.", "anchors": ["include/Oasis/LeafExpression.hpp:Integrate", "include/Oasis/BinaryExpression.hpp:Integrate", "src/Sine.cpp:Integrate"]}
{"id": "C56", "title": "Integrate returns an antiderivative", "statement": "Differentiating the value of Integrate(e, x) in x gives the value of e, for constants, variables and powers of the variable.", "quantifier": "all constants, variables, real exponents and points", "why_tests_cant": "Limit statement over all points.", "anchors": ["src/Real.cpp:Integrate", "src/Variable.cpp:Integrate", "src/Exponent.cpp:Integrate"]}
{"id": "C57", "title": "IntegrateWithBounds computes the definite integral", "statement": "Where the bounds have the values a and b and the integrand has a value everywhere between them, a non-null result of IntegrateWithBounds has the value of the integral from a to b.", "quantifier": "all integrands, bounds and assignments", "why_tests_cant": "The claim is about a limit over all points between the bounds, for every integrand and every pair of bounds.", "anchors": ["src/Integral.cpp:IntegrateWithBounds", "include/Oasis/BinaryExpression.hpp:Substitute"]}
{"id": "C58", "title": "Simplify is correct on polynomials", "statement": "On a polynomial (sums, differences and negations of numerical multiples of powers of variables, whose coefficients are multiples of 1/m for some m below 2^23, and where two sums that are added or subtracted cannot be taken for equal), Simplify returns; the result has the same coefficients and the same value under every assignment.", "quantifier": "all polynomials of any size, depth and number of variables, all options, all assignments", "why_tests_cant": "Unbounded sizes and nestings; correctness depends on the interplay of all rules for sums, differences and products and on the collecting loop.", "anchors": ["src/SimplifyVisitor.cpp:TypedVisit(const Add<Expression>&)", "src/SimplifyVisitor.cpp:TypedVisit(const Subtract<Expression>&)", "src/SimplifyVisitor.cpp:TypedVisit(const Multiply<Expression>&)"]}
{"id": "C59", "title": "Simplify collects like terms", "statement": "The simplified form of a polynomial has exactly one summand for each power of a variable with a coefficient other than zero.", "quantifier": "all polynomials of the class of C58", "why_tests_cant": "Tests fix the number and order of terms; the collecting loop and the rebuilding of the tree work on lists of any length.", "anchors": ["src/SimplifyVisitor.cpp:TypedVisit(const Add<Expression>&)", "src/SimplifyVisitor.cpp:TypedVisit(const Subtract<Expression>&)", "src/SimplifyVisitor.cpp:TypedVisit(const Multiply<Expression>&)"]}
{"id": "C60", "title": "Simplify and Equals decide equality of polynomials", "statement": "Two polynomials are equal exactly if Equals holds between their simplified forms.", "quantifier": "all pairs of polynomials of the class of C58", "why_tests_cant": "Ranges over all pairs of rearrangements of a polynomial.", "anchors": ["src/SimplifyVisitor.cpp:TypedVisit(const Add<Expression>&)", "src/SimplifyVisitor.cpp:TypedVisit(const Subtract<Expression>&)", "src/SimplifyVisitor.cpp:TypedVisit(const Multiply<Expression>&)", "include/Oasis/BinaryExpression.hpp:Equals"]}
{"id": "C61", "title": "A command line session answers the questions in order", "statement": "The command line program prints exactly one answer for each line that is not blank, in order, up to the line `exit`, and the answer depends on that line only. A text that cannot be parsed is answered with an error text. The session ends early only if the simplifier recurses without end, throws bad_expected_access, violates a not-null contract or dereferences a null pointer.", "quantifier": "all sequences of input lines of any length and content, all number types", "why_tests_cant": "The program has no tests; sessions and lines are of any length, and the possible failures depend on every rewriting rule a line can reach.", "anchors": ["cli/main.cpp:main", "cli/main.cpp:trim_whitespace", "io/src/FromString.cpp:PreProcessInFix", "io/src/FromString.cpp:FromInFix", "src/SimplifyVisitor.cpp", "io/src/InFixSerializer.cpp"]}
{"id": "C62", "title": "A typed polynomial is answered with its simplification", "statement": "A line with terms such as 3, x, 2.5x, 2*x^3 joined with + and -, with any blanks, is answered with the text of an expression that has exactly the coefficients typed, and exactly one summand per power if at least two remain.", "quantifier": "all lines of that form: any number of terms, variables, digits and blanks", "why_tests_cant": "Ranges over all texts of the grammar; it composes the tokenizer, implicit multiplication, the parser, the collecting loop of the simplifier and the serializer.", "anchors": ["cli/main.cpp:main", "io/src/FromString.cpp:PreProcessInFix", "io/src/FromString.cpp:FromInFix", "src/SimplifyVisitor.cpp:TypedVisit(const Add<Expression>&)", "src/SimplifyVisitor.cpp:TypedVisit(const Subtract<Expression>&)", "io/src/InFixSerializer.cpp"]}
{"id": "C63", "title": "The JavaScript bindings give MathML or null", "statement": "For every text typed into a page, PreProcessInFix, FromInFix, Simplify and ToMathMLString yield MathML or a null pointer that the page can test, never undefined behaviour.", "quantifier": "all texts", "why_tests_cant": "The bindings have no tests; texts are of any length and nesting.", "anchors": ["bindings/js/src/bindings.cpp:Simplify", "bindings/js/src/bindings.cpp:FromInFixTrivial", "bindings/js/src/bindings.cpp:ToMathMLString", "io/src/MathMLSerializer.cpp"]}
{"id": "C64", "title": "The derivative of a sum of monomials is computed", "statement": "Differentiate returns an expression for every sum of monomials, and at every real point its value is the derivative. For roots and negative exponents, at the points where their variable is positive.", "quantifier": "all sums of numerical multiples of powers of variables, of any length, in any number of variables, one operand of each sum being a monomial; all variables and points", "why_tests_cant": "Sums of any length with any coefficients and exponents, and a limit statement at every point; the run passes through the differentiator and the collecting loops of the simplifier.", "anchors": ["src/DifferentiateVisitor.cpp:DifferentiateVisitor::TypedVisit", "src/SimplifyVisitor.cpp:TypedVisit(const Add<Expression>&)", "src/SimplifyVisitor.cpp:TypedVisit(const Multiply<Expression>&)"]}
{"id": "C65", "title": "The integral of a polynomial is computed", "statement": "Integrate returns an expression for every polynomial in the integration variable, and the derivative of that expression has the value of the integrand.", "quantifier": "all monomials and all sums and differences of monomials in the integration variable with exponents above -1, of any length; all points", "why_tests_cant": "The results depend on the number of terms: the tests use sums of a few terms, which are integrated correctly; a sum of seven terms is not.", "anchors": ["src/Add.cpp:Add<Expression>::Integrate", "src/Subtract.cpp:Subtract<Expression>::Integrate", "src/Multiply.cpp:Multiply<Expression>::Integrate", "src/Exponent.cpp:Exponent<Expression>::Integrate", "src/Real.cpp:Real::Integrate", "src/Variable.cpp:Variable::Integrate"]}
{"id": "C66", "title": "Substituting a number evaluates", "statement": "Substituting a number for the only variable of an arithmetic expression gives the value of the expression at that number: Substitute returns that number, or, for a negation, an expression that Simplify turns into it.", "quantifier": "all expressions of numbers, one variable and + - * / ^ (integer exponents) of any depth, and all rational numbers at which the expression has a value", "why_tests_cant": "Expressions have unbounded depth and every node simplifies again what the nodes below returned; the tests substitute into four small expressions.", "anchors": ["src/Variable.cpp:Variable::Substitute", "include/Oasis/LeafExpression.hpp:Substitute", "include/Oasis/BinaryExpression.hpp:Substitute", "include/Oasis/UnaryExpression.hpp:Substitute"]}
{"id": "C67", "title": "The definite integral of a polynomial is computed", "statement": "IntegrateWithBounds of a polynomial in the integration variable between two numbers returns the number that is the integral.", "quantifier": "all monomials, all sums and differences of monomials with natural exponents in the integration variable of any length, all rational bounds", "why_tests_cant": "The result depends on the number of terms of the antiderivative, and on what Substitute and Simplify make of it; the tests cover a few integrands with two terms.", "anchors": ["src/Integral.cpp:Integral<Expression, Expression>::IntegrateWithBounds", "src/Add.cpp:Add<Expression>::Integrate", "include/Oasis/BinaryExpression.hpp:Substitute"]}
{"id": "C68", "title": "Derivatives typed into the command line program are computed", "statement": "A line dd(p, x), where p is a polynomial typed as terms joined with + and -, is answered with the text of the derivative of p with respect to x: the coefficients of the answer are those of the formal derivative, also when terms of p cancel. The same for simplifying a Derivative expression of a polynomial with at least two terms.", "quantifier": "all typed polynomials of any length in any number of variables with decimal coefficients and exponents, all layouts of blanks, all variables of differentiation, and all recursion limits above some limit", "why_tests_cant": "The answer goes through the preprocessor, the parser, the collecting of like terms, the differentiation rules and a second simplification; the tests differentiate fixed small trees and never typed lines.", "anchors": ["cli/main.cpp:main", "io/src/FromString.cpp:FromInFix", "src/SimplifyVisitor.cpp:SimplifyVisitor::TypedVisit(const Derivative<>&)", "src/DifferentiateVisitor.cpp:DifferentiateVisitor::TypedVisit"]}
{"id": "C69", "title": "Integrals typed into the command line program are computed", "statement": "A line in(p, x), where p is a polynomial in x typed as terms joined with + and -, is answered with the text of its antiderivative plus the variable C, one summand for each term.", "quantifier": "all typed polynomials in x of any length with decimal coefficients and exponents above -1, all layouts of blanks, and all recursion limits above some limit", "why_tests_cant": "Whether a term is lost depends on the number of terms (seven terms lose one); the tests integrate sums of two terms and never typed lines.", "anchors": ["cli/main.cpp:main", "io/src/FromString.cpp:FromInFix", "src/SimplifyVisitor.cpp:SimplifyVisitor::TypedVisit(const Integral<>&)", "src/Add.cpp:Add<Expression>::Integrate"]}
{"id": "C70", "title": "Products of powers are collected", "statement": "Simplifying a product of numbers and powers of variables gives a product with one factor for each variable, whose exponent is the sum of the exponents in the input, and the number in front; the value is kept. A typed product is answered with the text of that product.", "quantifier": "all products of any length in any number of variables, with any number and exponents, all layouts of blanks when typed, and all recursion limits above some limit", "why_tests_cant": "Whether powers are collected depends on which factors were multiplied before (x^2*x^2 becomes (x^2)^2, x^2*x^3 becomes x^5); the tests multiply fixed pairs of factors.", "anchors": ["src/SimplifyVisitor.cpp:SimplifyVisitor::TypedVisit(const Multiply<>&)", "cli/main.cpp:main", "io/src/FromString.cpp:FromInFix"]}
{"id": "C71", "title": "Simplify and Equals decide equality of products", "statement": "Two products of numbers and powers of variables have the same number and the same exponents exactly if their simplified forms are equal according to Equals.", "quantifier": "all pairs of products of any length in any number of variables, with any exponents", "why_tests_cant": "Equals compares flattened operands in one direction only; that this decides equality needs an argument over all simplified forms.", "anchors": ["src/SimplifyVisitor.cpp:SimplifyVisitor::TypedVisit(const Multiply<>&)", "include/Oasis/BinaryExpression.hpp:BinaryExpression::Equals"]}
{"id": "C72", "title": "Common factors of quotients are cancelled", "statement": "Simplifying the quotient of two products of numbers and powers of variables returns the reduced fraction: the numbers are divided, and each variable occurs in at most one of numerator and denominator, with the difference of its exponents.", "quantifier": "all pairs of products of any length in any number of variables, with any numbers and exponents, and every way of typing them", "why_tests_cant": "The cancelling loop depends on the order and form of all factors of both products; tests try a few products of two or three factors.", "anchors": ["src/SimplifyVisitor.cpp:SimplifyVisitor::TypedVisit(const Divide<>&)", "cli/main.cpp:main", "io/src/FromString.cpp:FromInFix"]}
{"id": "C73", "title": "TeX text is unambiguous", "statement": "For every option set, two expressions that are serialized to the same TeX text are the same expression, provided the names are ordinary identifiers other than the words of constants, the number texts have the usual form, the matrices have a row and an entry for each row and column, and the numbers and matrix entries that occur are told apart by their texts. The text of a matrix has a line for each row, with the texts of its entries in order between the signs &.", "quantifier": "all option sets and all pairs of expressions of any depth, with matrices of any size, for any number type and number texts", "why_tests_cant": "Injectivity is a statement about pairs of expressions; near collisions such as a fraction with numerator d against a derivative are found only by comparing all forms.", "anchors": ["io/src/TeXSerializer.cpp:TeXSerializer::TypedVisit", "io/include/Oasis/TeXSerializer.hpp:TeXOpts"]}
{"id": "C74", "title": "What MathML output tells apart", "statement": "Two expressions have the same MathML element exactly if they differ only in the grouping of sums and products and in the operands of sines, provided the names differ from the texts of constants, the matrices have a row and an entry for each row and column, and the numbers and matrix entries that occur are told apart by their texts. A matrix is a table with the entries of each row in order.", "quantifier": "all pairs of expressions of any depth, with matrices of any size, for any number type and number texts", "why_tests_cant": "Both directions are about pairs of expressions: the rows of products have no separators and leave out parentheses in some cases, so that they decode uniquely needs an argument over all forms.", "anchors": ["io/src/MathMLSerializer.cpp:MathMLSerializer::TypedVisit"]}
{"id": "C75", "title": "Numbers are printed to the chosen digits, and shorter numbers survive", "statement": "The text of a number with p digits is a decimal number whose value differs from it by at most half a unit of the last digit; a number with at most p significant digits is printed exactly and read back as itself. Hence infix and TeX texts of expressions with short numbers determine the expression, and infix texts read back as the same expression if the numbers need neither a sign nor an exponent.", "quantifier": "all precisions p, all rational numbers, and all expressions of any depth with ordinary names (in TeX with matrices of any size)", "why_tests_cant": "The range of numbers is infinite, and rounding carries (99999.5), trailing zeros and the change to exponent notation each depend on the number and the precision.", "anchors": ["io/src/InFixSerializer.cpp:InFixSerializer::TypedVisit", "io/src/TeXSerializer.cpp:TeXSerializer::TypedVisit", "io/src/FromString.cpp:ParseOperand"]}
{"id": "C76", "title": "Multiples of any expression are added and subtracted", "statement": "For every expression u that Simplify leaves as it is and that is not a product, quotient, number or matrix, a sum, nested in any way, of multiples of u simplifies to the one multiple of u whose number is the sum of the numbers, in the arithmetic of the program; differences likewise, and the value is kept. For products of two variables this fails: x*y + c*x*y simplifies to 2*x*y whatever c is.", "quantifier": "all expressions u of any depth, all coefficients, all nestings of the sum, all simplification options, every number type", "why_tests_cant": "The common factor may be any expression; whether some earlier rule of the sum or product visitor catches it first depends on its form.", "anchors": ["src/SimplifyVisitor.cpp:SimplifyVisitor::TypedVisit(const Add<>&)", "src/SimplifyVisitor.cpp:SimplifyVisitor::TypedVisit(const Subtract<>&)", "src/SimplifyVisitor.cpp:SimplifyVisitor::TypedVisit(const Multiply<>&)"]}
{"id": "C77", "title": "A common factor of any form cancels", "statement": "For every expression u as in C76 that is not a power, the quotient of two sums of multiples of u simplifies to the quotient of the numbers, a multiple divided by u to its number, and u/u to 1 unless u is a logarithm; the value is kept.", "quantifier": "all expressions u of any depth, all coefficients, all nestings of the sums, all simplification options, every number type", "why_tests_cant": "The common factor may be any expression, and the cancelling loop treats variables, powers and other expressions by different code.", "anchors": ["src/SimplifyVisitor.cpp:SimplifyVisitor::TypedVisit(const Divide<>&)"]}
{"id": "C78", "title": "Which polynomials are integrated correctly", "statement": "A polynomial in x that has n >= 2 terms after collecting is integrated to an antiderivative if and only if n has at most two ones in binary. In general exactly as many terms are integrated as is the number given by the two highest binary ones of n, each of them correctly, and the others are lost, also when the integral is typed on the command line. A definite integral is that of a part of the polynomial with as many terms as the largest power of two that is at most n; with positive coefficients and bounds 0 <= a < b it is right if n is a power of two and too small otherwise.", "quantifier": "all polynomials with any number of terms, rational exponents above -1 and coefficients on a grid (definite integrals: integer coefficients and natural exponents), every way of writing them as sums and differences covered by C59, all rational bounds", "why_tests_cant": "Which terms are lost depends on the shape of the tree built from n terms; up to six terms nothing is lost, so small tests pass.", "anchors": ["src/Add.cpp:Add<Expression>::Integrate", "src/Subtract.cpp:Subtract<Expression>::Integrate", "src/Integral.cpp:IntegrateWithBounds", "include/Oasis/BinaryExpression.hpp:BuildFromVector"]}
{"id": "C79", "title": "The laws of logarithms are applied", "statement": "Logarithms to one base, combined by sums and differences nested in any way, simplify to one logarithm, of the same combination of products and quotients of the arguments; the quotient of two such combinations simplifies to the logarithm to the base that is the second argument; the logarithm of a power simplifies to what the exponent times the logarithm of the base of the power simplifies to; b^log_b(a) simplifies to a, log_b(b^p) to p, log_b(b) to 1 and log_b(1) to 0. Over exact numbers the value is kept.", "quantifier": "all bases and arguments that simplification leaves as they are, of any depth, all nestings of the sums and differences, all simplification options, every number type", "why_tests_cant": "Base and arguments may be any expression and the nesting is unbounded; a rule that is never applied changes no value, so value tests do not notice it.", "anchors": ["src/SimplifyVisitor.cpp:SimplifyVisitor::TypedVisit(const Add<>&)", "src/SimplifyVisitor.cpp:SimplifyVisitor::TypedVisit(const Subtract<>&)", "src/SimplifyVisitor.cpp:SimplifyVisitor::TypedVisit(const Divide<>&)", "src/SimplifyVisitor.cpp:SimplifyVisitor::TypedVisit(const Exponent<>&)", "src/SimplifyVisitor.cpp:SimplifyVisitor::TypedVisit(const Log<>&)"]}
{"id": "C80", "title": "The laws of powers are applied", "statement": "For every expression u that is not a number, product, quotient or power and that simplification leaves as it is, a product, nested in any way, of powers of u with numeric exponents and copies of u simplifies to one power of u with the sum of the exponents; the quotient of two such products (u not a name, for which see C72) to the power with the difference, written without exponents 0 and 1 and with negative exponents as denominators; a power of such a product to the power with the product of the exponents; and u^p*u^q, u^p*u, u*u^p, for exponents that are any expressions, to the power with what p+q, p+1 simplifies to. Over exact numbers products and quotients keep their value.", "quantifier": "all expressions u of any depth, all exponents, all nestings of the products, all simplification options, every number type", "why_tests_cant": "Base, exponents and nesting are unbounded, and names, other expressions, powers and plain factors are treated by different code; equal powers are treated differently from unequal ones.", "anchors": ["src/SimplifyVisitor.cpp:SimplifyVisitor::TypedVisit(const Multiply<>&)", "src/SimplifyVisitor.cpp:SimplifyVisitor::TypedVisit(const Divide<>&)", "src/SimplifyVisitor.cpp:SimplifyVisitor::TypedVisit(const Exponent<>&)"]}
{"id": "C81", "title": "Multiplication signs may be left out", "statement": "If the words of a typed line, completed by the multiplication signs that are meant (between a number or letter and a letter, behind an operand or ')' and in front of an operand, function or '('), form an expression of the infix grammar, PreProcessInFix followed by FromInFix reads exactly that expression, however the words are laid out with blanks. (Violated: a line with touching parentheses '((', '))' or ',(' is always rejected, and a word of several factors behind ')' is not cut, so that (1+2)3x is read as 9.)", "quantifier": "all lines of any length and nesting, all layouts with blanks, every number type", "why_tests_cant": "Lines are unbounded, and whether a sign is put in depends on every pair of neighbouring words and characters.", "anchors": ["io/src/FromString.cpp:PreProcessInFix", "io/src/FromString.cpp:ImplicitMultiplication", "io/src/FromString.cpp:SpaceAroundOperators", "io/src/FromString.cpp:FromInFix", "cli/main.cpp:main"]}
{"id": "C82", "title": "The command line program is a calculator", "statement": "Whoever types a calculation with decimal numbers, + - * / ^ and parentheses that do not touch, with blanks anywhere and multiplication signs left out before '(' and after ')', gets the result of the calculation rounded to five digits, exactly if it has no more. If parentheses touch the answer is an error.", "quantifier": "all calculations of any length and nesting with nonzero divisors, integer exponents and left factors that are zero or above 2^-23, all layouts with blanks", "why_tests_cant": "The result depends on parsing, simplification and printing together, for unbounded lines.", "anchors": ["cli/main.cpp:main", "io/src/FromString.cpp:PreProcessInFix", "io/src/FromString.cpp:FromInFix", "src/SimplifyVisitor.cpp:SimplifyVisitor", "io/src/InFixSerializer.cpp:InFixSerializer"]}
{"id": "C83", "title": "Products of numbers and powers are multiplied", "statement": "For every expression u that is not a number, product, quotient or power and that simplification leaves as it is, a product, nested in any way and in any order, of numbers, powers of u with numeric exponents and copies of u simplifies to one number times one power of u: the product of the numbers and the sum of the exponents. The result has the value of the product.", "quantifier": "all expressions u of any depth, all numbers and exponents, all nestings and orders of the factors, all simplification options", "why_tests_cant": "Some fifteen rules compete for such products, each for another arrangement of the factors, with commuting casts between them; two of them compare or multiply the wrong operands and fire only for particular arrangements.", "anchors": ["src/SimplifyVisitor.cpp:SimplifyVisitor::TypedVisit(const Multiply<>&)", "include/Oasis/RecursiveCast.hpp:RecursiveCast", "include/Oasis/BinaryExpression.hpp:Equals"]}
{"id": "C84", "title": "Complex numbers are added up and their magnitudes are computed", "statement": "A sum, nested in any way, of numbers, numerical multiples of i, and differences and negations of such sums, in which no part cancels, simplifies to one complex number in Cartesian form whose parts are the sums of the parts; it has the value of the sum. The magnitude of such a sum simplifies to one number, the square root of the sum of the squares of the parts.", "quantifier": "all such sums of any size, nesting and order, all rational coefficients, all simplification options", "why_tests_cant": "The collecting loop keeps one slot per kind of summand and treats i, multiples of i and numbers in different branches, so that the outcome depends on the order and nesting of unboundedly many summands; cases in which a part cancels take another path.", "anchors": ["src/SimplifyVisitor.cpp:SimplifyVisitor::TypedVisit(const Add<>&)", "src/SimplifyVisitor.cpp:SimplifyVisitor::TypedVisit(const Subtract<>&)", "src/SimplifyVisitor.cpp:SimplifyVisitor::TypedVisit(const Negate<Expression>&)", "src/SimplifyVisitor.cpp:SimplifyVisitor::TypedVisit(const Magnitude<Expression>&)"]}
{"id": "C85", "title": "Displayed formulas are read as the expression", "statement": "The MathML output of an expression, with the invisible groups removed and read with the usual precedence of products and sums, is read in exactly one way, and that reading differs from the expression only in the grouping of sums, differences and products and in where a minus is written; so it has the same value.", "quantifier": "all expressions of any depth without sines in which no number with a minus is a later factor or the base of a power, no power of a number follows a number, no matrix is without rows, and no integral is taken with respect to a sum, difference, product or something with a minus in front, for any number type and number texts", "why_tests_cant": "Parentheses are left out in many combinations of operators; that each omission is harmless is a statement about all nestings, and the reader has to be shown to have no other choice.", "anchors": ["io/src/MathMLSerializer.cpp:MathMLSerializer::TypedVisit"]}
{"id": "C86", "title": "The text for the page says what the element tree says", "statement": "The text that ToMathMLString returns is well-formed markup with exactly one meaning: the element tree of the expression, whatever characters occur in names; clearly displayed expressions are read back from it, and the signs of constants and integrals are shown.", "quantifier": "all expressions of any depth and shape with any variable names, any number type and number texts, and all typed texts that are parsed and simplified", "why_tests_cant": "The tests compare three texts without special characters; that every text is parsed back to the same tree needs all names and all nestings.", "anchors": ["bindings/js/src/bindings.cpp:ToMathMLString", "io/src/MathMLSerializer.cpp:MathMLSerializer::TypedVisit"]}
{"id": "C87", "title": "The names of variables do not matter", "statement": "Renaming the variables of an expression (injectively, leaving C alone) and then simplifying, differentiating, integrating, substituting, comparing, finding zeros or solving a linear system gives the renamed result of the original call: the same answer, error, exception, undefined behaviour or endless recursion, reached by the same decisions.", "quantifier": "all expressions, all injective renamings of variables that keep C (and for FindZeros the empty name), all options, all visitor calls and budgets, all number types", "why_tests_cant": "A test uses a few names such as x and y; that no other name is special, and that no decision depends on the spelling or the order of names, is a statement about all pairs of names and all runs.", "anchors": ["src/SimplifyVisitor.cpp:SimplifyVisitor::TypedVisit", "src/DifferentiateVisitor.cpp", "src/Variable.cpp:Variable::Equals", "src/Expression.cpp:FindZeros", "src/Linear.cpp:SolveLinearSystems", "src/Add.cpp:Add<Expression>::Integrate"]}
{"id": "C88", "title": "Simplifying a derivative ends", "statement": "Simplifying a derivative gives an answer or an error. (False: whenever Differentiate returns the derivative unevaluated, Simplify of that derivative calls itself for ever; this happens for every derivative with respect to something that does not simplify to a variable, unless the differentiated expression simplifies to a number or to Undefined, and for magnitudes and matrices.)", "quantifier": "all differentiated expressions, all second operands, all options, any number type, any recursion depth", "why_tests_cant": "That a call never ends is a statement about every depth of the recursion; a test that hits it does not fail, it hangs, and it can be tried for finitely many expressions only.", "anchors": ["src/SimplifyVisitor.cpp:SimplifyVisitor::TypedVisit(const Derivative<>&)", "src/Expression.cpp:Expression::Differentiate", "src/DifferentiateVisitor.cpp", "cli/main.cpp:main"]}
{"id": "C89", "title": "The table of derivatives and antiderivatives is right", "statement": "The standard derivatives and antiderivatives (powers, roots, exponentials, logarithms, products, quotients and compositions of a variable and a parameter) are answered with the expressions listed in the table, the derivative of the listed function exists wherever the function has a value and is the value of the listed answer, and the listed antiderivatives have the function as derivative.", "quantifier": "all names of the variable and the parameter, all real values of both at which the function is defined, all rows of the table", "why_tests_cant": "A test compares one answer for one name with an expected text; that the answer is the derivative as a limit, at every point and for every name, cannot be evaluated.", "anchors": ["src/DifferentiateVisitor.cpp:DifferentiateVisitor::TypedVisit", "src/SimplifyVisitor.cpp:SimplifyVisitor::TypedVisit", "src/Exponent.cpp:Exponent<Expression>::Integrate", "src/Log.cpp:Log<Expression>::Integrate", "src/Multiply.cpp:Multiply<Expression>::Integrate"]}
{"id": "C90", "title": "Arithmetic is that of IEEE doubles, with bounded errors", "statement": "Simplifying a sum, difference, product or quotient of two numbers gives the double nearest to the exact result. Arithmetic whose results are all doubles is exact, in particular whole numbers up to 2^53, and sums, products and quotients of positive numbers have a relative error of at most k*2^-52 after k operations. Division by zero gives infinities and NaN, not errors. Comparisons are those of the extended real line, NaN comparing with nothing, which settles the magnitudes of all doubles and the bases at which a logarithm is Undefined. (A power of i with an infinite or NaN exponent is undefined behaviour.)", "quantifier": "all doubles, all expression trees of numbers of any size, all options, any implementation of pow and log2", "why_tests_cant": "There are 2^128 pairs of doubles and unboundedly many trees; an error bound is a statement about all of them, and tests compare with a tolerance.", "anchors": ["src/SimplifyVisitor.cpp:SimplifyVisitor::TypedVisit", "include/Oasis/Real.hpp:Real", "include/Oasis/Divide.hpp", "src/SimplifyVisitor.cpp:EPSILON"]}
{"id": "C91", "title": "Typed calculations are answered to four digits", "statement": "The answer of the command line to a typed calculation with positive decimal numbers (sums, products, quotients, parentheses, multiplication signs left out) is off by at most one in ten thousand if there are at most 400 numbers; with a numbers the error is at most a/2^23 and half a unit in the fifth digit. Whole numbers up to 2^24 are added, subtracted and multiplied exactly up to 2^53. (The numbers are read in single precision, so 16777217-16777216 is answered 0, and 0.1*3-0.3 is not.)", "quantifier": "all typed lines of calculations, any number of spaces, all decimal numbers from 2^-126 to 2^126, any implementation of pow and log2", "why_tests_cant": "The claim is about all calculations and all decimal numbers, with the rounding of reading, computing and printing together; tests evaluate a few lines.", "anchors": ["cli/main.cpp:main", "io/src/FromString.cpp:FromInFix", "io/src/InFixSerializer.cpp:InFixSerializer::TypedVisit(const Real&)", "src/SimplifyVisitor.cpp:SimplifyVisitor::TypedVisit"]}
{"id": "C92", "title": "Numbers survive being written and read", "statement": "Written with 17 or more digits (as in the MathML output of matrices) different doubles have different texts and std::stod recovers the double; matrices with the same MathML are equal. A text of at most 6 digits read with std::stof, or of at most 15 read with std::stod, is reproduced exactly when the number is written again. So an infix text is a fixed point: writing an expression and reading the text rounds its numbers to five digits, after which nothing changes any more; and an answer of everyday size typed in again is answered by itself. (Sixteen digits do not tell doubles apart; seven are not kept by stof; answers that are negative, at least 1e+05 or small, such as 1e+06, cannot be typed in again.)", "quantifier": "all doubles, all digit counts, all well-formed matrices, all expressions with numbers of everyday size", "why_tests_cant": "There are 2^64 doubles and the claim is about all of them and all digit counts; the failing pairs at 16 and 7 digits are rare, so a sample does not find them.", "anchors": ["io/src/MathMLSerializer.cpp:MathMLSerializer::TypedVisit(const Matrix&)", "io/src/InFixSerializer.cpp:InFixSerializer::TypedVisit(const Real&)", "io/src/FromString.cpp:FromInFix", "cli/main.cpp:main"]}
{"id": "C93", "title": "Sums of multiples are collected exactly", "statement": "A sum, nested in any way, of numbers and multiples of different expressions (variables, powers, i) simplifies to a sum in which every kind appears once, in the order of first appearance, with the sum of its numbers, and kinds whose numbers cancel do not appear; sums may also be subtracted and negated, and multiplied by numbers that are multiplied out. The result is determined by the list of totals and is a fixed point of Simplify. With whole numbers in IEEE doubles whose absolute values add up to at most 2^53 the totals are exact: a kind appears if and only if its integer total is not 0. This holds as long as two kinds are left after each addition (or the addition is of two multiples of one kind with a total other than 0 and 1), of two sums the first is not contained in the second nor, if they are subtracted, in its negative, and -1 times a variable is not subtracted; in these cases 1*x appears, nothing is collected, or a summand is lost.", "quantifier": "all number types, all families of distinguishable variables and powers, all numbers of terms and nestings of the sum; for doubles all whole multiples", "why_tests_cant": "The number of terms and kinds and the nesting are unbounded, and rounding makes exactness depend on every intermediate sum; tests check a few small sums.", "anchors": ["src/SimplifyVisitor.cpp:SimplifyVisitor::TypedVisit(const Add<Expression, Expression>&)", "src/SimplifyVisitor.cpp:SimplifyVisitor::TypedVisit(const Subtract<Expression, Expression>&)", "include/Oasis/BinaryExpression.hpp:BuildFromVector", "include/Oasis/Add.hpp"]}
{"id": "C94", "title": "Expressions of matrices are computed, and their magnitudes", "statement": "An expression built from matrices by sums, differences, products, multiples by numbers and minus, of any depth and any dimensions that fit, simplifies to one matrix, the value of the expression in matrix algebra; so two such expressions simplify to the same thing exactly if they are equal as matrices. The magnitude of such an expression simplifies to the square root of the sum of the squares of the entries of its value. Excluded are differences and products of two matrices that are equal and multiples by a number within EPSILON of 0, where the result is not a matrix (C53).", "quantifier": "all expressions of matrices, all dimensions, all rational entries, all options", "why_tests_cant": "Depth, dimensions and entries are unbounded.", "anchors": ["src/SimplifyVisitor.cpp:SimplifyVisitor::TypedVisit(const Add<Expression, Expression>&)", "src/SimplifyVisitor.cpp:SimplifyVisitor::TypedVisit(const Subtract<Expression, Expression>&)", "src/SimplifyVisitor.cpp:SimplifyVisitor::TypedVisit(const Multiply<Expression, Expression>&)", "src/SimplifyVisitor.cpp:SimplifyVisitor::TypedVisit(const Negate<Expression>&)", "src/SimplifyVisitor.cpp:SimplifyVisitor::TypedVisit(const Magnitude<Expression>&)", "src/Matrix.cpp"]}
{"id": "C95", "title": "Differentiation and integration undo each other, up to the terms that integration loses", "statement": "The derivative of the integral of a polynomial in one variable that has n terms (at least two) simplifies to a sum of terms of the polynomial, as many as the number given by the two highest binary ones of n; so the polynomial comes back exactly if n has at most two ones in binary. The integral of the derivative simplifies to C and terms of the polynomial, and these are all terms with the variable exactly if the number of terms of the derivative has at most two ones in binary. The same holds for what is typed, dd(in(p,x),x) and in(dd(p,x),x). Exponents are not negative, and coefficients, exponents and their quotients are fractions with a common denominator below 2^23.", "quantifier": "all polynomials with rational coefficients and any number of terms, all ways to type them, all variables other than C", "why_tests_cant": "The number of terms is not bounded and the result depends on its binary digits; the first polynomial that does not come back has seven terms.", "anchors": ["src/SimplifyVisitor.cpp:SimplifyVisitor::TypedVisit(const Derivative<Expression, Expression>&)", "src/DifferentiateVisitor.cpp", "src/Exponent.cpp:Integrate", "src/Add.cpp:Integrate", "src/SimplifyVisitor.cpp:SimplifyVisitor::TypedVisit(const Integral<Expression, Expression>&)", "cli/main.cpp"]}
{"id": "C96", "title": "Derivatives of derivatives", "statement": "A derivative of a derivative of ... a polynomial, to any depth and with respect to any variables, simplifies to an expression with exactly the coefficients of the iterated formal derivative (for one variable and natural exponents: Mathlib's iterated derivative of the polynomial). It is a sum with one summand for each coefficient if there are at least two, and the number 0 if there is none, in particular after more derivatives than the degree. The same holds for what is typed, dd(dd(p,x),y). The polynomial has two terms after collecting or is a monomial other than 0; with fractional exponents the denominators must stay below 2^23.", "quantifier": "all polynomials with rational coefficients, any number of derivatives, all lists of variables, all ways to type them", "why_tests_cant": "The number of derivatives, terms and variables is not bounded.", "anchors": ["src/SimplifyVisitor.cpp:SimplifyVisitor::TypedVisit(const Derivative<Expression, Expression>&)", "src/DifferentiateVisitor.cpp", "cli/main.cpp", "io/src/FromString.cpp"]}
{"id": "C97", "title": "Polynomials with whole coefficients are collected exactly in doubles", "statement": "Sums, differences and negations, nested in any way, of whole multiples of powers of variables simplify in IEEE doubles to a sum in which a power appears if and only if its coefficients do not add up to 0, once, with exactly the sum of its coefficients; this sum is a fixed point. The same holds for what is typed in the command line program, with whole numbers up to 2^24 and multiplication signs left out. After every addition or subtraction two different powers are left, or a multiple other than 0 and 1 of one; of two sums the first is not contained in the second nor, if they are subtracted, in its negative; -1 times a power is not subtracted. Absolute values add up to at most 2^53. Beyond 2^24 typed exponents are read as others.", "quantifier": "all sums of powers of variables with whole coefficients and natural exponents, all nestings, all ways to type them, all implementations of pow and log2", "why_tests_cant": "The numbers, exponents, variables and nestings are unbounded, and the effects of rounding appear beyond 2^24.", "anchors": ["src/SimplifyVisitor.cpp:TypedVisit(Add<>)", "src/SimplifyVisitor.cpp:TypedVisit(Subtract<>)", "io/src/FromString.cpp:FromInFix", "cli/main.cpp:main"]}
{"id": "C98", "title": "Simplifying does not multiply the parts of an expression", "statement": "Every variable, e, matrices, sines, magnitudes and logarithms occur in the result of simplifying at most as often as in the expression; only numbers, i, pi, Undefined and arithmetic operations are introduced or copied. It is violated by the rule of line 676 where the bases of two factors are different although Equals takes them for equal: 2*(p+q)^3*(w^2*((p+q)+z)) becomes (2*((p+q)+z))*((p+q)+z)^4.", "quantifier": "all number types, all expressions without derivatives and integrals, both settings of the options, all kinds of nodes that no rule introduces, all weights of them", "why_tests_cant": "It is about every rewrite rule at every depth, also those that act on operands which Equals wrongly takes for equal.", "anchors": ["src/SimplifyVisitor.cpp:TypedVisit(Add<>)", "src/SimplifyVisitor.cpp:TypedVisit(Multiply<>)", "src/SimplifyVisitor.cpp:TypedVisit(Divide<>)", "src/SimplifyVisitor.cpp:TypedVisit(Exponent<>)"]}
{"id": "C99", "title": "Simplifying does not leave the ring of the numbers in an expression", "statement": "If all numbers and matrix entries of an expression without quotients, logarithms and magnitudes lie in a set closed under sums, differences, products and powers with given exponents (whole numbers, finite decimals, doubles without fractional part), so do those of its result; the exponents remain numbers, and no quotient, logarithm or magnitude appears. It is violated by the rule of line 693: x*3*3*y^3 becomes x*3^(y+2).", "quantifier": "all number types, all such sets of numbers, all expressions built from variables, i, pi, e, matrices, negations, sines, sums, differences, products and powers with numerical exponents, both settings of the options", "why_tests_cant": "It is about every number that any rewrite rule computes at any depth, with rounding and overflow in doubles.", "anchors": ["src/SimplifyVisitor.cpp:TypedVisit(Add<>)", "src/SimplifyVisitor.cpp:TypedVisit(Subtract<>)", "src/SimplifyVisitor.cpp:TypedVisit(Multiply<>)", "src/SimplifyVisitor.cpp:TypedVisit(Exponent<>)", "src/SimplifyVisitor.cpp:TypedVisit(Negate<Expression>)"]}
{"id": "C100", "title": "What Equals decides", "statement": "On expressions without missing operands and without pi on the left, Equals returns true exactly if the left side is covered by the right: same shape and equal numbers, except that each operand of a sum, product or integral on the left corresponds to some operand on the right, which may be used several times or not at all. If no operand of a sum or product is covered by another operand of it, Equals in both directions holds exactly between rearrangements of each other, so the values are the same in every interpretation. In general both directions do not suffice: (p+q)*((p+q)+z) and ((p+q)+z)*((p+q)+z) compare equal both ways.", "quantifier": "all number types, all pairs of expressions of any size without missing operands and without pi; for the second part number types with exact comparison, no integrals and no Undefined", "why_tests_cant": "It characterises the answer for every pair of trees, including chains of any length nested in any way, which samples of pairs cannot.", "anchors": ["include/Oasis/BinaryExpression.hpp:Equals", "include/Oasis/BinaryExpression.hpp:Flatten", "include/Oasis/UnaryExpression.hpp:Equals", "src/Real.cpp:Equals", "src/Matrix.cpp:Equals"]}
{"id": "C101", "title": "Missing operands are reported by Simplify", "statement": "Every visitor of the simplifier has a branch that returns the error 'Missing operand.' for a missing operand. Violated for every expression in which an operand is missing anywhere: a run that ends is always stopped by an exception or undefined behaviour, never by a returned error (and never returns an expression); if the parts without missing operands are not stopped themselves, the null pointer is dereferenced. The same holds for the method Simplify(), and Substitute never returns an expression.", "quantifier": "all number types, all expressions of any size with a missing operand at any depth, both settings of the options, all recursion depths", "why_tests_cant": "It covers a missing operand at every position in every expression, next to operands that fail in other ways first.", "anchors": ["src/SimplifyVisitor.cpp:TypedVisit(Add<>)", "src/SimplifyVisitor.cpp:TypedVisit(Negate<Expression>)", "include/Oasis/BinaryExpression.hpp:GetMostSigOp", "include/Oasis/BinaryExpression.hpp:Substitute", "src/Expression.cpp:Simplify"]}
{"id": "C102", "title": "Which words are numbers", "statement": "The parsers decide with std::stof and std::stod what is a number: the longest beginning of a word that is a number by the C standard (sign, decimal or hexadecimal digits with point and exponent, inf, infinity, nan), rounded to 24 or 53 binary digits; the rest of the word is ignored, and only words without such a beginning, or out of range, are not numbers. A word of letters is therefore a variable unless it begins with inf or nan. Claims violated: names are variables (info is infinity, nano is NaN); a line that is not an expression is rejected (5%2 is answered by 5, 1=2 by 1). In every calculation without parentheses, whatever follows a number up to the next blank or sign without letters is ignored.", "quantifier": "all words; all words of letters; all calculations without parentheses of any length, all tails after the numbers, any blanks", "why_tests_cant": "The words are arbitrary texts; the tests only use well-formed numbers.", "anchors": ["io/src/FromString.cpp:is_number", "io/src/FromString.cpp:ParseOperand", "io/src/FromString.cpp:PreProcessInFix", "io/src/FromPALM.cpp:ParseReal", "cli/main.cpp:main"]}
{"id": "C103", "title": "FindZeros with doubles", "statement": "For an integer polynomial of degree at least 1 with a constant term, written with doubles so that the coefficients written for each power add up to at most 2^53 in magnitude, FindZeros either overflows its 64-bit integers or returns quotients p/q that are exact zeros, followed by the solution of the polynomial that remains: the double nearest to the zero if it is linear, the two quotients of the quadratic formula if it is quadratic. Every zero is one of the quotients or a zero of what remains, every rational zero within the divisors searched is one of the quotients, and within an explicit bound nothing overflows. Without a constant term it divides by zero unless the leading coefficient is -1. Beyond 2^53 the claim is false: 2^53*x + x + (-2^53)*x + 1 makes FindZeros divide by zero.", "quantifier": "all sums of terms with double coefficients, nested in any way, of any degree and length; all complex zeros", "why_tests_cant": "Degrees, coefficients and zeros are unbounded, and rounding only shows for particular sums.", "anchors": ["src/Expression.cpp:FindZeros", "src/Expression.cpp:getAllFactors"]}
{"id": "C104", "title": "FindZeros with coefficients that are not whole numbers", "statement": "For a polynomial with rational coefficients (numbers or quotients of numbers) of which at least one is not a whole number, FindZeros returns the exact zero if the degree is 1, and two expressions whose values are exactly the zeros if the degree is 2, provided that a and b are not negligible (at most 2^-23 in magnitude) where they matter. Where products in the discriminant are dropped because of negligible factors and this changes its value, neither of the two expressions returned is a zero. For degree 3 and more nothing is returned, also if there are zeros: x^3 - x^2/2 has the zero 1/2. With doubles, p*x + q gives the double nearest to -q/p.", "quantifier": "all sums of terms with rational coefficients, nested in any way, of any degree and length; all complex numbers and assignments", "why_tests_cant": "Coefficients, nesting and degrees are unbounded, and the dropped products only show for coefficients below 2^-23.", "anchors": ["src/Expression.cpp:FindZeros", "src/SimplifyVisitor.cpp:TypedVisit(Multiply<>)"]}
{"id": "C105", "title": "Simplifying a second time changes nothing", "statement": "What Simplify returns for a polynomial in which two terms or more remain, or for a product of a number and powers of variables, for a quotient of two such products, for a derivative of any order of a polynomial, and what Integrate returns for a polynomial, is returned unchanged, as the same tree, by a further call of Simplify, which succeeds. In general this is violated: x^2*x^2 becomes (x^2)^2 and then x^4, x + -1*x becomes 0*x and then 0. No fixed number of calls is enough: of x + -1*x + y + -1*y + x + ... each call removes one pair.", "quantifier": "all polynomials and products of any length, nesting, number of variables, coefficients and exponents; all recursion depths beyond some point", "why_tests_cant": "Expressions of any size; the tests simplify once and compare with one expected result.", "anchors": ["src/SimplifyVisitor.cpp:TypedVisit(Add<>)", "src/SimplifyVisitor.cpp:TypedVisit(Multiply<>)", "src/SimplifyVisitor.cpp:TypedVisit(Divide<>)", "src/Add.cpp:Add<Expression>::Integrate"]}
{"id": "C106", "title": "Which answers can be typed in again", "statement": "If a polynomial typed into the command line program keeps two terms or more, and its numbers are printed in full, then typing in the answer gives the same answer if there are exactly two terms, each of them a number or a variable alone; likewise for a typed product of which a number, a power of one variable, a number and a variable, or two variables are left; in all other cases the answer to the answer is an error, because PreProcessInFix inserts a multiplication sign between adjacent parentheses. So the program does not understand most of its own answers.", "quantifier": "all polynomials and products typed as terms joined with + and - or factors joined with *, with any number of terms, coefficients, exponents, variables and blanks; all recursion depths beyond some point", "why_tests_cant": "Polynomials of any length; the tests check single texts in one direction, never the way from an answer back to the parser.", "anchors": ["cli/main.cpp:main", "io/src/InFixSerializer.cpp:TypedVisit(Add<>)", "io/src/FromString.cpp:ImplicitMultiplication", "src/SimplifyVisitor.cpp:TypedVisit(Add<>)"]}
{"id": "C107", "title": "Simplifying after each term gives the terms of the whole sum", "statement": "What Simplify returns for a polynomial is a polynomial of the same kind, so that one can go on with it. If monomials are added to or subtracted from a polynomial one after the other and the sum is simplified each time, every call succeeds, the coefficients at the end are those of the whole sum, and if two terms or more remain the summands are those that Simplify returns for the whole sum at once.", "quantifier": "all polynomials with coefficients of a bounded denominator, all lists of monomials, added or subtracted, of any length, all simplification options, all recursion depths beyond some point", "why_tests_cant": "Lists of terms of any length, and the input of each call is the output of the one before; the tests simplify expressions that were written down, never results.", "anchors": ["src/SimplifyVisitor.cpp:TypedVisit(Add<>)", "src/SimplifyVisitor.cpp:TypedVisit(Subtract<>)", "include/Oasis/BinaryExpression.hpp:BuildFromVector"]}
{"id": "C108", "title": "It makes no difference which parts are simplified first", "statement": "If any operands of sums, differences and negations in a polynomial are replaced with what Simplify returns for them, in any order and any number of times, then simplifying the expression so obtained succeeds, the coefficients are those of the polynomial, and if two terms or more remain the summands are those that Simplify returns for the polynomial as it was.", "quantifier": "all polynomials with coefficients of a bounded denominator, all ways to simplify parts of it first, all simplification options, all recursion depths beyond some point", "why_tests_cant": "There are exponentially many orders in which the parts of an expression can be simplified, for expressions of any size; the tests simplify each expression once.", "anchors": ["src/SimplifyVisitor.cpp:TypedVisit(Add<>)", "src/SimplifyVisitor.cpp:TypedVisit(Subtract<>)", "src/SimplifyVisitor.cpp:TypedVisit(Negate<>)"]}
{"id": "C109", "title": "Simplify uses operands only through what it returns for them", "statement": "If parts of an expression are exchanged for others for which Simplify ends in the same way, with the same result or error, then Simplify ends in the same way for the whole expression, or for both it does not end. In particular an operand can be replaced with its simplified form if simplifying that again changes nothing. Magnitudes are an exception: |x+x| and |2*x| are returned as they are.", "quantifier": "all expressions with all operators except that the parts are not inside of a magnitude, all ways to exchange parts of them, all kinds of numbers (exact or floating-point), all simplification options, all outcomes", "why_tests_cant": "It compares the runs of Simplify on all pairs of expressions with interchangeable parts, whatever the parts are, including those for which it fails or does not end.", "anchors": ["src/SimplifyVisitor.cpp:TypedVisit(Add<>)", "src/SimplifyVisitor.cpp:TypedVisit(Multiply<>)", "src/SimplifyVisitor.cpp:TypedVisit(Derivative<>)", "src/SimplifyVisitor.cpp:TypedVisit(Magnitude<Expression>)"]}
{"id": "C110", "title": "Simplify has a result only if it has one for every part", "statement": "If Simplify returns a result for an expression, then it returns a result for every part of it, however deep. If it fails for an operand, with an error text, an exception or undefined behaviour, and returns a result for the other operand if there is one, then it fails in the same way for the whole.", "quantifier": "all expressions with all operators, all parts of them, all kinds of numbers (exact or floating-point), all simplification options, all failures", "why_tests_cant": "Expressions of any depth; the tests contain hardly any expression for which Simplify fails.", "anchors": ["src/SimplifyVisitor.cpp:TypedVisit(Add<>)", "src/SimplifyVisitor.cpp:TypedVisit(Multiply<>)", "src/SimplifyVisitor.cpp:TypedVisit(Negate<Expression>)", "src/SimplifyVisitor.cpp:TypedVisit(Magnitude<Expression>)"]}
