import Verif.Proofs.SettledQuotient
import Verif.Proofs.Unsettled
import Verif.Proofs.Rest
import Verif.Props.Product
import Verif.Props.Quotient
import Verif.Props.PolyLost
import Verif.Props.HigherDeriv

/-!
# Property C105: simplifying a second time changes nothing

`Poly m e` (Verif/Spec/Polynomial.lean) and `Product m e c f` (Verif/Spec/Product.lean): sums of monomials, and products
of powers.  The theorems say of whatever the first run returned that the second run succeeds and returns the same tree, not
only an equal one.
-/

namespace Oasis
namespace Props
open Expr

theorem settled_out {o : SOpts} {r : Expr ℚ} (h : Simp o r r) :
    ∃ N, ∀ n, N ≤ n → (simplify n o r).out = some (.ok r) := by
  obtain ⟨N, hN⟩ := h
  refine ⟨N, fun n hn => ?_⟩
  obtain ⟨r', l, h1, _, h2⟩ := hN n hn
  show Option.map _ (run n (.simp o r)) = _
  rw [h1, h2]
  rfl

/-- **C105 (partial)** Of a polynomial in which two terms or more remain, what `Simplify` returns is not changed by
simplifying it again, with the same or other options.  Missing: polynomials with fewer terms (`C105_violated`). -/
theorem C105_polynomials_partial (m : ℕ) (hm : 0 < m ∧ m < 8388608) (o o' : SOpts) (e : Expr ℚ) (he : Poly m e)
    (h2 : Two (coefs e)) (k : ℕ) (r : Expr ℚ) (h : (simplify k o e).out = some (.ok r)) :
    ∃ N, ∀ n, N ≤ n → (simplify n o' r).out = some (.ok r) := by
  have ho := simplified hm he h
  obtain ⟨l, hl, _, hb⟩ := neat_of_nf (ho.nf (by rw [ho.coefs]; exact h2))
  exact settled_out (simp_tree hm _ le_rfl hl (.inr hb))

/-- non-vacuous: the first run on `((2*x - (3 - x^2)) + -(y + 3*x))` -/
example : ∃ r : Expr ℚ, (simplify 40 .default polyExample).out = some (.ok r) ∧ r ≠ polyExample ∧
    ∃ N, ∀ n, N ≤ n → (simplify n .default r).out = some (.ok r) := by
  refine ⟨.add (.add (.mul (N (-1)) X) (N (-3))) (.add (.pow X (N 2)) (.mul (N (-1)) Y)), by decide +kernel,
    by decide +kernel, ?_⟩
  refine C105_polynomials_partial 1 (by norm_num) .default .default _ poly_example ?_ 40 _ (by decide +kernel)
  refine ⟨none, some (['x'], 2), by simp, ?_, ?_⟩ <;> simp [polyExample, coefs, N, X, Y]

/-- **C105 (partial)** Of a product of a number and powers of any number of variables, what `Simplify` returns is not
changed by simplifying it again.  Missing: a power that follows factors with the same power together
(`C105_violated`), and factors that are not numbers or powers of variables. -/
theorem C105_products_partial (m : ℕ) (hm : 0 < m ∧ m < 8388608) (o : SOpts) (e : Expr ℚ) (c : ℚ) (f : Str → ℚ)
    (he : Product m e c f) (k : ℕ) (r : Expr ℚ) (h : (simplify k o e).out = some (.ok r)) :
    ∃ N, ∀ n, N ≤ n → (simplify n o r).out = some (.ok r) := by
  obtain ⟨s, hs, _⟩ := product_out hm (o := o) he
  obtain rfl := simp_out hs h
  exact settled_out (product_settled hm he hs)

/-- non-vacuous: `((3*x)*y)*x^2` -/
example : ∃ r : Expr ℚ, (simplify 40 .default (.mul (.mul (.mul (N 3) X) Y) (.pow X (N 2)))).out = some (.ok r) ∧
    r ≠ .mul (.mul (.mul (N 3) X) Y) (.pow X (N 2)) ∧
    ∃ N, ∀ n, N ≤ n → (simplify n .default r).out = some (.ok r) := by
  have p : Product 1 (.mul (.mul (.mul (N 3) X) Y) (.pow X (N 2))) _ _ :=
    (((Product.num _ ⟨3, by norm_num⟩).mul (.var _) (by norm_num) (.inl rfl)).mul (.var _) (by norm_num)
      (.inl rfl)).mul (.pow _ _) (by norm_num) (.inr (by simp))
  obtain ⟨M, r, h1, _⟩ := C70_products_partial 1 (by norm_num) .default _ _ _ p
  have h2 := C105_products_partial 1 (by norm_num) .default _ _ _ p M r (h1 M le_rfl)
  have h3 : (simplify 40 .default (.mul (.mul (.mul (N 3) X) Y) (.pow X (N 2)))).out =
      some (.ok (.mul (.mul (N 3) (.pow X (N 3))) Y)) := by decide +kernel
  obtain ⟨s, hs, _⟩ := product_out (m := 1) (by norm_num) (o := .default) p
  obtain rfl := simp_out hs (h1 M le_rfl)
  obtain rfl := simp_out hs h3
  exact ⟨_, h3, by decide +kernel, h2⟩

/-- **C105 (partial)** Of a quotient of two such products, what `Simplify` returns is not changed by simplifying it again.
Missing: divisors that are 0, exponents that differ by less than 1, quotients of numbers that are no fraction with a
denominator below 2^23, and the powers of `C72_typed_partial`. -/
theorem C105_quotients_partial (m m' : ℕ) (hm : 0 < m ∧ m < 8388608) (hm' : 0 < m' ∧ m' < 8388608) (o : SOpts)
    (e e' : Expr ℚ) (c c' : ℚ) (f f' : Str → ℚ) (he : Product m e c f) (he' : Product m e' c' f') (h0 : c' ≠ 0)
    (hf : c ≠ 0 → ∀ x, 1 < f' x → f x ≠ 1 ∧ f x ≠ f' x) (hg : Grid m' (c / c'))
    (big : c ≠ 0 → ∀ x, f x = f' x ∨ f' x + 1 ≤ f x ∨ f x + 1 ≤ f' x) (k : ℕ) (r : Expr ℚ)
    (h : (simplify k o (.div e e')).out = some (.ok r)) :
    ∃ N, ∀ n, N ≤ n → (simplify n o r).out = some (.ok r) := by
  obtain ⟨s, hs, _⟩ := simp_quotient hm (o := o) he he' h0 hf
  obtain rfl := simp_out hs h
  exact settled_out (quotient_settled hm hm' he he' h0 hf hg big hs)

/-- non-vacuous: `(3*x^3) / ((2*x)*y)` -/
example : ∃ (M : ℕ) (r : Expr ℚ),
    (simplify M .default (.div (.mul (N 3) (.pow X (N 3))) (.mul (.mul (N 2) X) Y))).out = some (.ok r) ∧
    ∃ N, ∀ n, N ≤ n → (simplify n .default r).out = some (.ok r) := by
  have p : Product 1 (.mul (N 3) (.pow X (N 3))) _ _ :=
    (Product.num _ ⟨3, by norm_num⟩).mul (.pow _ _) (by norm_num) (.inr (by simp))
  have q : Product 1 (.mul (.mul (N 2) X) Y) _ _ :=
    ((Product.num _ ⟨2, by norm_num⟩).mul (.var _) (by norm_num) (.inl rfl)).mul (.var _) (by norm_num) (.inl rfl)
  have c1 : (3 * 1 : ℚ) ≠ 0 → ∀ x : Str, 1 < ((0 + if x = ['x'] then (1 : ℚ) else 0) + if x = ['y'] then 1 else 0) →
      (0 + if x = ['x'] then (3 : ℚ) else 0) ≠ 1 ∧
      (0 + if x = ['x'] then (3 : ℚ) else 0) ≠ (0 + if x = ['x'] then 1 else 0) + if x = ['y'] then 1 else 0 := by
    intro _ x
    by_cases hx : x = ['x']
    · simp [hx]
    · by_cases hy : x = ['y'] <;> simp [hx, hy]
  obtain ⟨M, r, h1, _⟩ := C72_quotients_partial 1 (by norm_num) .default _ _ _ _ _ _ p q (by norm_num) (by simpa using c1)
  refine ⟨M, r, h1 M le_rfl, C105_quotients_partial 1 2 (by norm_num) (by norm_num) .default _ _ _ _ _ _ p q (by norm_num)
    (by simpa using c1) ⟨3, by norm_num⟩ ?_ M r (h1 M le_rfl)⟩
  intro _ x
  by_cases hx : x = ['x']
  · simp [hx]; norm_num
  · by_cases hy : x = ['y'] <;> simp [hx, hy]

/-- **C105 (partial)** What `Integrate` returns for a sum or difference that is a polynomial in `x` with two terms or more is
not changed by `Simplify`.  Missing: other integrands. -/
theorem C105_integrals_partial (m : ℕ) (hm : 0 < m ∧ m < 8388608) (x : Str) (hx : x ≠ chars! "C") (e : Expr ℚ)
    (he : Poly m e) (hs : ∃ a b, e = .add a b ∨ e = .sub a b)
    (hi : ∀ k, coefs e k ≠ 0 → Integrable m x (k, coefs e k)) (t : ℕ) (ht : Terms e t) (h2 : 2 ≤ t) (k : ℕ) (r : Expr ℚ)
    (h : (integrate k (.var x) e).out = some (.ok r)) (o : SOpts) :
    ∃ N, ∀ n, N ≤ n → (simplify n o r).out = some (.ok r) := by
  obtain ⟨l, _, hl, hi', _, l', s, pm, _, tr, N, hN⟩ := lost_poly hm hx he hs hi ht h2
  obtain ⟨w, h1⟩ := hN (max N k) (le_max_left _ _)
  obtain ⟨w', h3⟩ := out_eq_some.1 h
  have h4 := run_mono (le_max_right N k) (h3 : run k (.integ (.var x) e) = _)
  rw [h1] at h4
  cases h4
  exact settled_out (simp_tree hm _ le_rfl (neat_lost hx hl hi' pm) tr)

/-- non-vacuous: the integral of `7 + 2*x^2 + 3*x^3 - x^5` -/
example : ∃ r : Expr ℚ,
    (∃ n, (integrate n (.var (chars! "x")) (typed (chars! "x") 7 [(2, 2), (3, 3), (-1, 5)])).out = some (.ok r)) ∧
    ∃ N, ∀ n, N ≤ n → (simplify n .default r).out = some (.ok r) := by
  have h0 : (7 : ℤ) ≠ 0 := by decide
  have hl : ∀ t ∈ ([(2, 2), (3, 3), (-1, 5)] : List (ℤ × ℕ)), t.1 ≠ 0 ∧ 1 ≤ t.2 := by decide
  have hd : (([(2, 2), (3, 3), (-1, 5)] : List (ℤ × ℕ)).map Prod.snd).Nodup := by decide
  have mem := typed_mem (chars! "x") 7 h0 hl hd
  have ip := typed_isPoly 12 (chars! "x") 7 [(2, 2), (3, 3), (-1, 5)]
  have is := typed_sum (chars! "x") 7 (l := [(2, 2), (3, 3), (-1, 5)]) (by decide)
  have ii : ∀ k, coefs (typed (chars! "x") 7 [(2, 2), (3, 3), (-1, 5)]) k ≠ 0 → Integrable 12 (chars! "x")
      (k, coefs (typed (chars! "x") 7 [(2, 2), (3, 3), (-1, 5)]) k) :=
    fun k hk => typed_integrable _ 7 (by decide) ((mem _).2 ⟨rfl, hk⟩)
  have it := typed_terms (chars! "x") 7 h0 hl hd
  obtain ⟨N, r, h1, _⟩ := C78_integrals 12 (by decide) (chars! "x") (by decide) _ ip is ii _ it (by decide)
  exact ⟨r, ⟨N, h1 N le_rfl⟩,
    C105_integrals_partial 12 (by decide) (chars! "x") (by decide) _ ip is ii _ it (by decide) N r (h1 N le_rfl) .default⟩

/-- **C105 (partial)** What `Simplify` returns for a derivative of a derivative of ... a polynomial, with respect to any variables, is
not changed by simplifying it again, however many terms are left.  The hypotheses are those of `C96_derivatives`.  Missing:
other functions. -/
theorem C105_derivatives_partial (a b : ℕ) (xs : List Str) (h0 : xs ≠ [])
    (hm : 0 < a * b ^ xs.length ∧ a * b ^ xs.length < 8388608) (e : Expr ℚ) (he : Poly a e)
    (h2 : Two (coefs e) ∨ (∃ c, Monomial a e c) ∧ ∃ k, coefs e k ≠ 0) (hp : ∀ y p, some (y, p) ∈ powers e → Grid b p)
    (k : ℕ) (r : Expr ℚ) (h : (simplify k .default (derivatives e xs)).out = some (.ok r)) :
    ∃ N, ∀ n, N ≤ n → (simplify n .default r).out = some (.ok r) := by
  have hb : 0 < b ^ xs.length := Nat.pos_of_mul_pos_left hm.1
  have ha : 0 < a ∧ a < 8388608 :=
    ⟨Nat.pos_of_mul_pos_right hm.1, lt_of_le_of_lt (Nat.le_mul_of_pos_right a hb) hm.2⟩
  obtain ⟨P, q, h1, h3, h4⟩ := left_start ha he h2 hp
  obtain ⟨t, ⟨N, hN⟩, _, _, hs⟩ := left_steps xs hm h1 (poly_ne he) h3
  obtain ⟨w, e1⟩ := hN (max N k) (le_max_left _ _)
  obtain ⟨w', e2⟩ := out_eq_some.1 h
  have e3 := run_mono (le_max_right N k) (e2 : run k (.simp .default (derivatives e xs)) = _)
  rw [e1] at e3
  cases e3
  exact settled_out (hs (.inl h0))

/-- non-vacuous: the second derivative of `x^3 + y`, with one term left -/
example : ∃ r : Expr ℚ, (simplify 60 .default (derivatives (.add (.pow X (N 3)) Y) [chars! "x", chars! "x"])).out = some (.ok r) ∧
    ∃ N, ∀ n, N ≤ n → (simplify n .default r).out = some (.ok r) := by
  have hr : (simplify 60 .default (derivatives (.add (.pow X (N 3)) Y) [chars! "x", chars! "x"])).out =
      some (.ok (.mul X (N 6))) := by decide +kernel
  refine ⟨_, hr, C105_derivatives_partial 1 1 _ (by simp) (by norm_num) (.add (.pow X (N 3)) Y)
    (.add (.mono (.pow _ _)) (.mono (.var _)) (.inl ⟨_, .pow _ _⟩)) (.inl ?_) ?_ 60 _ hr⟩
  · refine ⟨some (['x'], 3), some (['y'], 1), by simp, ?_, ?_⟩ <;> simp [coefs, N, X, Y]
  · intro y p h
    simp [powers, N, X, Y] at h
    rcases h with ⟨_, rfl⟩ | ⟨_, rfl⟩
    · exact ⟨3, by norm_num⟩
    · exact ⟨1, by norm_num⟩

/-- **C105 is violated** in general.  `x^2*x^2` becomes `(x^2)^2`, which becomes `x^4`.  `x + (-1)*x` becomes `0*x`,
which becomes 0. -/
theorem C105_violated :
    ((simplify 40 .default (.mul (.pow X (N 2)) (.pow X (N 2)))).out = some (.ok (.pow (.pow X (N 2)) (N 2))) ∧
      (simplify 40 .default (.pow (.pow X (N 2)) (N 2))).out = some (.ok (.pow X (N 4)))) ∧
    ((simplify 40 .default (.add X (.mul (N (-1)) X))).out = some (.ok (.mul (N 0) X)) ∧
      (simplify 40 .default (.mul (N 0) X)).out = some (.ok (N 0))) := by
  refine ⟨⟨?_, ?_⟩, ?_, ?_⟩ <;> decide +kernel

/-! ### No number of calls is enough -/

/-- the names `x` and `y` -/
def xy (b : Bool) : Str := if b then chars! "y" else chars! "x"

/-- `n` names, `x` and `y` alternately -/
def alternate : Bool → ℕ → List Str
  | _, 0 => []
  | b, n + 1 => xy b :: alternate (!b) n

theorem simp_pair (b : Bool) : Simp .default (.add (.add (.mul (.real 0) (.var (xy b))) (.var (xy !b)))
    (.mul (.real (-1)) (.var (xy !b)))) (.mul (.real 0) (.var (xy !b))) := by
  refine Simp.of_eq (n := 20) ⟨.mul (.real 0) (.var (xy !b)),
    [.drop 0, .eq (.var (xy !b)) (.var (xy !b))], ?_, ?_, rfl⟩
  · cases b <;> kernel_rfl
  · intro ev hev
    simp only [List.mem_cons, List.not_mem_nil, or_false] at hev
    rcases hev with rfl | rfl
    · exact rfl
    · exact ⟨rfl, by simp [derivFree]⟩

theorem simp_first : Simp .default (.add X (.mul (N (-1)) X)) (.mul (.real 0) (.var (xy false))) := by
  refine Simp.of_eq (n := 20) ⟨.mul (.real 0) (.var (xy false)), [.eq X X], ?_, ?_, rfl⟩
  · kernel_rfl
  · intro ev hev
    simp only [List.mem_cons, List.not_mem_nil, or_false] at hev
    subst hev
    exact ⟨rfl, by simp [derivFree]⟩

theorem alternate_head (b : Bool) (n : ℕ) : ∀ z ∈ (alternate b n).head?, xy (!b) ≠ z := by
  cases n with
  | zero => simp [alternate]
  | succ n => cases b <;> simp [alternate, xy]

theorem zero_coefs (x : Str) : coefs (.mul (.real 0) (.var x)) = 0 := by
  funext k
  simp [coefs]

theorem simp_alternate {e : Expr ℚ} (b : Bool) (n : ℕ) (h : Simp .default e (.mul (.real 0) (.var (xy !b)))) (pe : e ≠ .absent) :
    Simp .default (pairs e (alternate b n)) (pairs (.mul (.real 0) (.var (xy !b))) (alternate b n)) :=
  simp_pairs (m := 1) (f := true) (by norm_num) _ h pe (.term (.scaled 0 grid_zero (.var _))) (zero_coefs _)
    (.inr ⟨_, rfl, alternate_head b n⟩)

theorem pairs_size : ∀ (zs : List Str) (e : Expr ℚ), (pairs e zs).size = e.size + 6 * zs.length
  | [], e => rfl
  | z :: zs, e => by
    rw [pairs, pairs_size zs]
    simp [Expr.size]
    omega

theorem alternate_length : ∀ (b : Bool) (n : ℕ), (alternate b n).length = n
  | _, 0 => rfl
  | b, n + 1 => by simp [alternate, alternate_length (!b) n]

theorem pairs_poly : ∀ (zs : List Str) {e : Expr ℚ}, Poly 1 e → Poly 1 (pairs e zs)
  | [], _, h => h
  | z :: zs, e, h => by
    have h1 : Monomial 1 (.mul (.real (-1)) (.var z)) (-1 * 1) := .scale ⟨-1, by norm_num⟩ (.var z) ⟨-1, by norm_num⟩
    exact pairs_poly zs (.add (.add h (.mono (.var z)) (.inr (.inl ⟨_, .var z⟩))) (.mono h1) (.inr (.inl ⟨_, h1⟩)))

/-- **C105 is violated** by any number of calls: for every `n` there is a polynomial that is changed by each of `n + 1`
successive calls of `Simplify`.  Of `x + -x + y + -y + x + ...` each call removes one pair. -/
theorem C105_never_enough (n : ℕ) : ∃ f : ℕ → Expr ℚ, Poly 1 (f 0) ∧ ∀ k, k ≤ n →
    (∃ N, ∀ i, N ≤ i → (simplify i .default (f k)).out = some (.ok (f (k + 1)))) ∧ f (k + 1) ≠ f k := by
  have m1 : Monomial 1 (.mul (N (-1)) X) (-1 * 1) := .scale ⟨-1, by norm_num⟩ (.var _) ⟨-1, by norm_num⟩
  refine ⟨fun k => match k with
    | 0 => pairs (.add X (.mul (N (-1)) X)) (alternate true n)
    | k + 1 => pairs (.mul (.real 0) (.var (xy k.bodd))) (alternate (!k.bodd) (n - k)), ?_, fun k hk => ⟨?_, fun he => ?_⟩⟩
  · exact pairs_poly _ (.add (.mono (.var _)) (.mono m1) (.inl ⟨_, .var _⟩))
  · have out : ∀ {e r : Expr ℚ}, Simp .default e r → ∃ N, ∀ i, N ≤ i → (simplify i .default e).out = some (.ok r) := by
      rintro e r ⟨N, hN⟩
      refine ⟨N, fun i hi => ?_⟩
      obtain ⟨r', l, h1, _, h2⟩ := hN i hi
      show Option.map _ (run i (.simp .default e)) = _
      rw [h1, h2]
      rfl
    refine out ?_
    rcases k with _ | k
    · exact simp_alternate true n simp_first (by simp)
    · have e1 : n - k = n - (k + 1) + 1 := by omega
      show Simp .default (pairs _ (alternate (!k.bodd) (n - k))) (pairs _ (alternate (!(k + 1).bodd) (n - (k + 1))))
      rw [e1, Nat.bodd_succ, Bool.not_not]
      have := simp_alternate k.bodd (n - (k + 1)) (simp_pair k.bodd) (by simp)
      rw [alternate, pairs, Bool.not_not]
      exact this
  · have := congrArg Expr.size he
    rcases k with _ | k
    · simp [pairs_size, alternate_length, Expr.size] at this
    · simp only [pairs_size, alternate_length, Expr.size] at this
      omega

/-- the polynomial for `n = 2`, and the third and fourth result -/
example : (simplify 40 .default (.add (.add (.mul (N 0) Y) X) (.mul (N (-1)) X))).out = some (.ok (.mul (N 0) X)) ∧
    (simplify 40 .default (.mul (N 0) X)).out = some (.ok (N 0)) := by
  constructor <;> decide +kernel

/-- **C105 (partial)** Simplifying a polynomial again and again comes to rest: every call succeeds and keeps the value, and after
twice as many calls as the first result has summands nothing changes any more.  With `C105_never_enough`: no number of
calls is enough for all polynomials, and for each of them some number is.  Missing: expressions that are not sums of monomials. -/
theorem C105_comes_to_rest_partial (m : ℕ) (hm : 0 < m ∧ m < 8388608) (o : SOpts) (e : Expr ℚ) (he : Poly m e) :
    ∃ f : ℕ → Expr ℚ, f 0 = e ∧
      (∀ i, (∃ N, ∀ n, N ≤ n → (simplify n o (f i)).out = some (.ok (f (i + 1)))) ∧ coefs (f i) = coefs e) ∧
      ∃ l, Operands .add (f 1) l ∧ ∀ i, 2 * l.length ≤ i → f i = f (2 * l.length) := by
  obtain ⟨r, hr, ho, _⟩ := simp_poly hm (o := o) he
  obtain ⟨g, g0, gs, gk⟩ := (rests_og hm (o := o) ho.og).results
  have out : ∀ {e r : Expr ℚ}, Simp o e r → ∃ N, ∀ i, N ≤ i → (simplify i o e).out = some (.ok r) := by
    rintro e r ⟨N, hN⟩
    refine ⟨N, fun i hi => ?_⟩
    obtain ⟨r', l, h1, _, h2⟩ := hN i hi
    show Option.map _ (run i (.simp o e)) = _
    rw [h1, h2]
    rfl
  have val : ∀ i, OG m false (g i) ∧ coefs (g i) = coefs e := by
    intro i
    induction i with
    | zero => rw [g0]; exact ⟨ho.og, ho.coefs⟩
    | succ i ih =>
      obtain ⟨r', h1, h2, _⟩ := simp_og hm (o := o) ih.1
      obtain rfl := Simp.unique h1 (gs i)
      exact ⟨h2.og, h2.coefs.trans ih.2⟩
  have pos := og_pos ho.og
  refine ⟨fun i => match i with | 0 => e | i + 1 => g i, rfl, ?_, flatOp .add r, ?_, ?_⟩
  · rintro (_ | i)
    · refine ⟨out ?_, rfl⟩
      show Simp o e (g 0)
      rw [g0]; exact hr
    · exact ⟨out (gs i), (val i).2⟩
  · show Operands .add (g 0) _
    rw [g0]; exact operands_flatOp _ _
  · intro i hi
    obtain ⟨L, hL⟩ : ∃ L, 2 * (flatOp .add r).length = L + 1 := ⟨2 * (flatOp .add r).length - 1, by omega⟩
    rw [hL] at hi ⊢
    obtain ⟨j, rfl⟩ : ∃ j, i = j + 1 := ⟨i - 1, by omega⟩
    show g j = g L
    have eL : 2 * (flatOp .add r).length - 1 = L := by omega
    rw [eL] at gk
    exact gk j (by omega)

/-- non-vacuous: of `((x + -x) + y) + -y` the first results are `(0*x + y) + -y`, `0*y` and `0` -/
example : ∃ f : ℕ → Expr ℚ, f 0 = .add (.add (.add X (.mul (N (-1)) X)) Y) (.mul (N (-1)) Y) ∧
    (∀ i, ∃ N, ∀ n, N ≤ n → (simplify n .default (f i)).out = some (.ok (f (i + 1)))) ∧ f 1 ≠ f 0 ∧ f 2 ≠ f 1 ∧
    f 3 = .real 0 := by
  have mx : Monomial 1 (.mul (N (-1)) X) (-1 * 1) := .scale ⟨-1, by norm_num⟩ (.var _) ⟨-1, by norm_num⟩
  have my : Monomial 1 (.mul (N (-1)) Y) (-1 * 1) := .scale ⟨-1, by norm_num⟩ (.var _) ⟨-1, by norm_num⟩
  obtain ⟨f, f0, fs, _⟩ := C105_comes_to_rest_partial 1 (by norm_num) .default
    (.add (.add (.add X (.mul (N (-1)) X)) Y) (.mul (N (-1)) Y))
    (.add (.add (.add (.mono (.var _)) (.mono mx) (.inl ⟨_, .var _⟩)) (.mono (.var _)) (.inr (.inl ⟨_, .var _⟩))) (.mono my)
      (.inr (.inl ⟨_, my⟩)))
  have next : ∀ i a r, f i = a → (simplify 40 .default a).out = some (.ok r) → f (i + 1) = r := by
    rintro i a r rfl h
    obtain ⟨⟨N, hN⟩, _⟩ := fs i
    have h1 := hN (N + 40) (by omega)
    have h2 : (simplify (N + 40) .default (f i)).out = _ := out_mono (q := .simp .default (f i)) (show 40 ≤ N + 40 by omega) h
    rw [h1] at h2
    cases h2
    rfl
  have f1 := next 0 _ (.add (.add (.mul (N 0) X) Y) (.mul (N (-1)) Y)) f0 (by decide +kernel)
  have f2 := next 1 _ (.mul (N 0) Y) f1 (by decide +kernel)
  have f3 := next 2 _ (.real 0) f2 (by decide +kernel)
  exact ⟨f, f0, fun i => (fs i).1, by rw [f0, f1]; decide +kernel, by rw [f1, f2]; decide +kernel, f3⟩

/-! ### C59: summands that cancel -/

/-- **C59 is violated** whenever a monomial `b` is added to a polynomial `a` with two terms or more and fewer than two terms remain,
so that `b` cancels a term of `a`: the result is what `Simplify` returns for `a`, plus what it returns for `b`, and the
cancelled term is in it twice. -/
theorem C59_cancelled (m : ℕ) (hm : 0 < m ∧ m < 8388608) (o : SOpts) (a b : Expr ℚ) (c : ℚ) (ha : Poly m a)
    (hb : Monomial m b c) (h2 : Two (coefs a)) (h : ¬ Two (coefs (.add a b))) (i j : ℕ) (a' b' : Expr ℚ)
    (hA : (simplify i o a).out = some (.ok a')) (hB : (simplify j o b).out = some (.ok b')) :
    (∃ N, ∀ n, N ≤ n → (simplify n o (.add a b)).out = some (.ok (.add a' b'))) ∧
      (∀ k, coefs b k ≠ 0 → coefs a' k = - coefs b' k) := by
  obtain ⟨s, hs, os, _⟩ := simp_poly hm (o := o) ha
  obtain ⟨t, ht, ot, tt⟩ := simp_poly hm (o := o) (.mono hb)
  obtain rfl := simp_out hs hA
  obtain rfl := simp_out ht hB
  have tt := tt ⟨c, hb⟩
  have ec : coefs (.add a' b') = coefs (.add a b) := by funext k; simp [coefs, os.coefs, ot.coefs]
  have two : Two (coefs a') := by rw [os.coefs]; exact h2
  have ne : b' ≠ .real 0 := by
    rintro rfl
    refine h ?_
    rw [← ec]
    have : coefs (.add a' (.real 0)) = coefs a' := by funext k; simp [coefs]
    rwa [this]
  constructor
  · cases os.og with
    | term h => exact absurd two (not_two_term h)
    | add h1 h3 h4 =>
      obtain ⟨N, hN⟩ := simp_cancelled hm hs ht (poly_ne ha) (poly_ne (.mono hb)) os.og tt ne (by rw [ec]; exact h)
      refine ⟨N, fun n hn => ?_⟩
      obtain ⟨r', l, e1, _, e2⟩ := hN n hn
      show Option.map _ (run n (.simp o _)) = _
      rw [e1, e2]
      rfl
  · intro k hk
    rw [os.coefs, ot.coefs]
    by_contra hne
    obtain ⟨p, q, hpq, hp, hq⟩ := h2
    have tb := (term_coeff tt).2.2
    rw [ot.coefs] at tb
    have only : ∀ l, l ≠ k → coefs b l = 0 := by
      intro l hl
      rw [tb] at hk ⊢
      simp only at hk ⊢
      have : k = keyOf b' := by by_contra h; exact hk (if_neg h)
      rw [if_neg (by rw [← this]; exact hl)]
    have key : ∀ l, coefs a l ≠ 0 → coefs (.add a b) l ≠ 0 := by
      intro l hl
      simp only [coefs]
      by_cases e : l = k
      · subst e
        exact fun h => hne (by linarith)
      · rw [only l e, add_zero]
        exact hl
    exact h ⟨p, q, hpq, key p hp, key q hq⟩

/-- non-vacuous: `(2 + 3*x) + -3*x` -/
example : Poly 1 (.add (N 2) (.mul (N 3) X)) ∧ Monomial 1 (.mul (N (-3)) X) (-3 * 1) ∧ Two (coefs (.add (N 2) (.mul (N 3) X))) ∧
    ¬ Two (coefs (.add (.add (N 2) (.mul (N 3) X)) (.mul (N (-3)) X))) := by
  have m3 : Monomial 1 (.mul (N 3) X) (3 * 1) := .scale ⟨3, by norm_num⟩ (.var _) ⟨3, by norm_num⟩
  have m2 : Monomial 1 (N 2) 2 := .num ⟨2, by norm_num⟩
  refine ⟨.add (.mono m2) (.mono m3) (.inl ⟨_, m2⟩), .scale ⟨-3, by norm_num⟩ (.var _) ⟨-3, by norm_num⟩,
    ⟨none, some (['x'], 1), by simp, by simp [coefs], by simp [coefs]⟩, ?_⟩
  rintro ⟨k, l, h1, h2, h3⟩
  have z : ∀ k, k ≠ none → coefs (.add (.add (N 2) (.mul (N 3) X)) (.mul (N (-3)) X)) k = 0 := by
    intro k hk
    by_cases h : k = some (['x'], 1) <;> simp [coefs, hk, h]
  by_cases hk : k = none
  · exact h3 (z l fun hl => h1 (hk.trans hl.symm))
  · exact h2 (z k hk)

end Props
end Oasis
