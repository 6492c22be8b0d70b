import Verif.Props.Arith

/-!
# Properties C52 and C53: matrices
-/

namespace Oasis
namespace Props
variable {K : Type} [Num K]

open Expr

/-- every entry is stored -/
def Filled (m : Mat K) : Prop := m.data.length = m.rows * m.cols

/-! ## C52 construction -/

theorem getElem?_flatMap_range {α : Type} (r c : Nat) (f : Nat → Nat → α) (i j : Nat) (hi : i < r)
    (hj : j < c) :
    ((List.range r).flatMap fun i => (List.range c).map fun j => f i j)[i * c + j]? = some (f i j) := by
  induction r generalizing i f with
  | zero => omega
  | succ r ih =>
    rw [List.range_succ_eq_map, List.flatMap_cons]
    cases i with
    | zero =>
      rw [List.getElem?_append_left (by simp; omega)]
      simp [hj]
    | succ i =>
      rw [List.getElem?_append_right (by simp [Nat.succ_mul]; omega)]
      have : (i + 1) * c + j - ((List.range c).map fun j => f 0 j).length = i * c + j := by
        simp [Nat.succ_mul]; omega
      rw [this, List.flatMap_map]
      exact ih (fun a b => f (a + 1) b) i (by omega)

theorem length_flatMap_range {α : Type} (r c : Nat) (f : Nat → Nat → α) :
    ((List.range r).flatMap fun i => (List.range c).map fun j => f i j).length = r * c := by
  simp [List.length_flatMap]

theorem filled_ofFn (r c : Nat) (f : Nat → Nat → K) : Filled (Mat.ofFn r c f) :=
  length_flatMap_range r c f

theorem get_ofFn (r c : Nat) (f : Nat → Nat → K) (i j : Nat) (hi : i < r) (hj : j < c) :
    (Mat.ofFn r c f).get i j = f i j := by
  unfold Mat.get Mat.ofFn
  rw [List.getD_eq_getElem?_getD, getElem?_flatMap_range r c f i j hi hj]
  rfl

theorem index_lt {r c i j : Nat} (hi : i < r) (hj : j < c) : i * c + j < r * c := by
  calc i * c + j < i * c + c := by omega
    _ = (i + 1) * c := by rw [Nat.succ_mul]
    _ ≤ r * c := Nat.mul_le_mul_right c hi

/-- **C52** The matrix built from a list of values, of whatever length, has the requested dimensions
and holds the `i*cols+j`-th value at `(i, j)`, or 0 where the list is too short. -/
theorem C52_construction (r c : Nat) (vals : List K) :
    (Mat.ofVals r c vals).rows = r ∧ (Mat.ofVals r c vals).cols = c ∧ Filled (Mat.ofVals r c vals) ∧
    ∀ i j, i < r → j < c →
      (Mat.ofVals r c vals).get i j =
        if h : i * c + j < vals.length then vals[i * c + j] else Num.zero := by
  refine ⟨rfl, rfl, by simp [Filled, Mat.ofVals], fun i j hi hj => ?_⟩
  have := index_lt hi hj
  unfold Mat.get Mat.ofVals
  simp only [List.getD_eq_getElem?_getD, List.getElem?_map, List.getElem?_range this, Option.map_some,
    Option.getD_some]
  split
  · rw [List.getElem?_eq_getElem ‹_›]; rfl
  · rw [List.getElem?_eq_none (by omega)]; rfl

/-- **C52** `Identity` keeps the dimensions and has 1 on the diagonal and 0 elsewhere. -/
theorem C52_identity (m : Mat K) :
    m.identity.rows = m.rows ∧ m.identity.cols = m.cols ∧ Filled m.identity ∧
    ∀ i j, i < m.rows → j < m.cols → m.identity.get i j = if i = j then Num.one else Num.zero :=
  ⟨rfl, rfl, filled_ofFn _ _ _, fun i j hi hj => get_ofFn _ _ _ i j hi hj⟩

/-- **C52** `Transpose` exchanges dimensions and indices. -/
theorem C52_transpose (m : Mat K) :
    m.transpose.rows = m.cols ∧ m.transpose.cols = m.rows ∧ Filled m.transpose ∧
    ∀ i j, i < m.rows → j < m.cols → m.transpose.get j i = m.get i j :=
  ⟨rfl, rfl, filled_ofFn _ _ _, fun i j hi hj => get_ofFn _ _ _ j i hj hi⟩

/-- Matrices with the same dimensions and entries are the same. -/
theorem mat_ext {m n : Mat K} (hm : Filled m) (hn : Filled n) (hr : m.rows = n.rows)
    (hc : m.cols = n.cols) (h : ∀ i j, i < m.rows → j < m.cols → m.get i j = n.get i j) : m = n := by
  obtain ⟨r, c, d⟩ := m
  obtain ⟨r', c', d'⟩ := n
  simp only at hr hc h
  subst hr hc
  simp only [Filled] at hm hn
  congr 1
  refine List.ext_getElem (hm.trans hn.symm) fun k hk hk' => ?_
  have hc0 : 0 < c := by
    rcases Nat.eq_zero_or_pos c with rfl | h
    · simp at hm; omega
    · exact h
  have hi : k / c < r := (Nat.div_lt_iff_lt_mul hc0).2 (hm ▸ hk)
  have hj : k % c < c := Nat.mod_lt _ hc0
  have := h (k / c) (k % c) hi hj
  unfold Mat.get at this
  simp only [Nat.div_add_mod', List.getD_eq_getElem?_getD, List.getElem?_eq_getElem hk,
    List.getElem?_eq_getElem hk', Option.getD_some] at this
  exact this

/-- **C52** `Transpose` is an involution. -/
theorem C52_transpose_involution (m : Mat K) (h : Filled m) : m.transpose.transpose = m := by
  refine mat_ext (filled_ofFn _ _ _) h rfl rfl fun i j hi hj => ?_
  have h1 := (C52_transpose m.transpose).2.2.2 j i hj hi
  rw [h1]
  exact (C52_transpose m).2.2.2 i j hi hj

/-- non-vacuous: a 2x3 matrix from four values -/
example : (Mat.ofVals 2 3 [5, 6, 7, 8] : Mat ℚ) = ⟨2, 3, [5, 6, 7, 8, 0, 0]⟩ ∧
    (Mat.ofVals 2 3 [5, 6, 7, 8] : Mat ℚ).transpose = ⟨3, 2, [5, 8, 6, 0, 7, 0]⟩ := by decide +kernel

/-! ## C53 arithmetic in Simplify -/

/-- **C53** Matrices of equal dimensions are added entry by entry. -/
theorem C53_sum (m n : Mat K) (o : SOpts) (b : Nat) (hr : m.rows = n.rows) (hc : m.cols = n.cols) :
    ∃ s : Mat K, simplify (b + 2) o (.add (.mat m) (.mat n)) = some (.ok (.mat s), []) ∧
      s.rows = m.rows ∧ s.cols = m.cols ∧ Filled s ∧
      ∀ i j, i < m.rows → j < m.cols → s.get i j = Num.add (m.get i j) (n.get i j) := by
  refine ⟨Mat.ofFn m.rows m.cols fun i j => Num.add (m.get i j) (n.get i j), ?_, rfl, rfl,
    filled_ofFn _ _ _, fun i j hi hj => get_ofFn _ _ _ i j hi hj⟩
  change simpAdd (run (b + 1)) o (.mat m) (.mat n) = _
  unfold simpAdd
  refine (bind_ok_nil (simpBoth_ok (by simp) (by simp) rfl rfl) _).trans ?_
  refine (orElse_none rfl).trans ((orElse_none rfl).trans ((orElse_none rfl).trans (orElse_some ?_)))
  simp only [add120, cast, if_true, hr, hc, and_self, Mat.add]
  rfl

/-- **C53** The sum of matrices whose dimensions differ is left as it is. -/
theorem C53_sum_mismatch (m n : Mat K) (o : SOpts) (b : Nat) (h : ¬ (m.rows = n.rows ∧ m.cols = n.cols)) :
    simplify (b + 2) o (.add (.mat m) (.mat n)) = some (.ok (.add (.mat m) (.mat n)), []) := by
  change simpAdd (run (b + 1)) o (.mat m) (.mat n) = _
  unfold simpAdd
  refine (bind_ok_nil (simpBoth_ok (by simp) (by simp) rfl rfl) _).trans ?_
  refine (orElse_none rfl).trans ((orElse_none rfl).trans ((orElse_none rfl).trans (orElse_some ?_)))
  simp only [add120, cast, if_true, if_neg h]
  rfl

theorem equals_mat (m n : Mat K) : equals (.mat m) (.mat n) = .ok (matEq m n) := by
  rw [equals.eq_def]; simp [Expr.isAbsent]

theorem eqv_mat_false {m n : Mat K} (h : matEq m n = false) :
    eqv (.mat m) (.mat n) = some (.ok false, []) := by
  unfold eqv
  rw [equals_mat, h]
  rfl

/-- **C53 (partial)** Matrices of equal dimensions that are not equal are subtracted entry by entry.
Missing: equal matrices (`C53_difference_of_equal`) and mismatched columns
(`C53_difference_mismatch`). -/
theorem C53_difference_partial (m n : Mat K) (o : SOpts) (b : Nat) (hr : m.rows = n.rows)
    (hc : m.cols = n.cols) (hne : matEq m n = false) :
    ∃ s : Mat K, simplify (b + 2) o (.sub (.mat m) (.mat n)) = some (.ok (.mat s), []) ∧
      s.rows = m.rows ∧ s.cols = m.cols ∧ Filled s ∧
      ∀ i j, i < m.rows → j < m.cols → s.get i j = Num.sub (m.get i j) (n.get i j) := by
  refine ⟨Mat.ofFn m.rows m.cols fun i j => Num.sub (m.get i j) (n.get i j), ?_, rfl, rfl,
    filled_ofFn _ _ _, fun i j hi hj => get_ofFn _ _ _ i j hi hj⟩
  change simpSub (run (b + 1)) o (.mat m) (.mat n) = _
  unfold simpSub
  refine (bind_ok_nil (simpBoth_ok (by simp) (by simp) rfl rfl) _).trans ?_
  refine (orElse_none rfl).trans ((orElse_none ?_).trans (orElse_some ?_))
  · unfold sub368
    exact bind_ok_nil (eqv_mat_false hne) _
  · simp only [sub372, cast, if_true, hr, hc, and_self, Mat.sub]
    rfl

/-- **C53 (counterexample)** The difference of two equal matrices is the number 0, not a matrix. -/
theorem C53_difference_of_equal (m : Mat K) (o : SOpts) (b : Nat) (h : matEq m m = true) :
    (simplify (b + 2) o (.sub (.mat m) (.mat m))).out = some (.ok (.real Num.zero)) := by
  change (simpSub (run (b + 1)) o (.mat m) (.mat m)).out = _
  unfold simpSub
  refine (out_bind (out_simpBoth_ok (by simp) (by simp) rfl rfl) _).trans ?_
  refine (out_orElse_none rfl).trans (out_orElse_some ?_)
  unfold sub368 eqv
  rw [equals_mat, h]
  rfl

/-- **C53 (counterexample)** Whenever the rows agree but the columns do not, the subtraction is handed to
Eigen: line 376 compares the columns of the left matrix with themselves. -/
theorem C53_difference_mismatch (m n : Mat K) (o : SOpts) (b : Nat) (hr : m.rows = n.rows)
    (hc : m.cols ≠ n.cols) :
    (simplify (b + 2) o (.sub (.mat m) (.mat n))).out = some (.error (.ub .dimMismatch)) := by
  change (simpSub (run (b + 1)) o (.mat m) (.mat n)).out = _
  unfold simpSub
  refine (out_bind (out_simpBoth_ok (by simp) (by simp) rfl rfl) _).trans ?_
  refine (out_orElse_none rfl).trans ((out_orElse_none ?_).trans (out_orElse_error ?_))
  · unfold sub368
    have : matEq m n = false := by simp [matEq, hc]
    exact congrArg M.out (bind_ok_nil (eqv_mat_false this) _)
  · simp only [sub372, cast, if_true, hr, and_self, Mat.sub, hc, and_false, if_false]
    rfl

/-- Sum of products of row `i` of `m` and column `j` of `n`, from left to right. -/
def rowTimesCol (m n : Mat K) (i j : Nat) : Nat → K
  | 0 => Num.zero
  | k + 1 => Num.add (rowTimesCol m n i j k) (Num.mul (m.get i k) (n.get k j))

theorem dot_eq (m n : Mat K) (i j : Nat) : Mat.dot m n i j = rowTimesCol m n i j m.cols := by
  unfold Mat.dot
  generalize m.cols = c
  induction c with
  | zero => rfl
  | succ c ih => rw [List.range_succ, List.foldl_append, ih]; rfl

/-- **C53 (partial)** Two matrices that are not equal and whose inner dimensions agree are multiplied.
Missing: equal matrices (`C53_product_of_equal`). -/
theorem C53_product_partial (m n : Mat K) (o : SOpts) (b : Nat) (h : m.cols = n.rows)
    (hne : matEq m n = false) :
    ∃ s : Mat K, simplify (b + 2) o (.mul (.mat m) (.mat n)) = some (.ok (.mat s), []) ∧
      s.rows = m.rows ∧ s.cols = n.cols ∧ Filled s ∧
      ∀ i j, i < m.rows → j < n.cols → s.get i j = rowTimesCol m n i j m.cols := by
  refine ⟨Mat.ofFn m.rows n.cols (Mat.dot m n), ?_, rfl, rfl,
    filled_ofFn _ _ _, fun i j hi hj => (get_ofFn _ _ _ i j hi hj).trans (dot_eq m n i j)⟩
  change simpMul (run (b + 1)) o (.mat m) (.mat n) = _
  unfold simpMul
  refine (bind_ok_nil (simpBoth_ok (by simp) (by simp) rfl rfl) _).trans ?_
  refine (orElse_none rfl).trans ((orElse_none rfl).trans ((orElse_none rfl).trans ((orElse_none
    rfl).trans ((orElse_none ?_).trans ((orElse_none rfl).trans (orElse_some ?_))))))
  · simp only [mul506, cast, if_true]
    exact bind_ok_nil (eqv_mat_false hne) _
  · simp only [mul516, cast, if_true, h, Mat.mul]
    rfl

/-- **C53** Products with mismatched inner dimensions are left as they are. -/
theorem C53_product_mismatch (m n : Mat K) (o : SOpts) (b : Nat) (h : m.cols ≠ n.rows)
    (hne : matEq m n = false) :
    simplify (b + 2) o (.mul (.mat m) (.mat n)) = some (.ok (.mul (.mat m) (.mat n)), []) := by
  change simpMul (run (b + 1)) o (.mat m) (.mat n) = _
  unfold simpMul
  refine (bind_ok_nil (simpBoth_ok (by simp) (by simp) rfl rfl) _).trans ?_
  refine (orElse_none rfl).trans ((orElse_none rfl).trans ((orElse_none rfl).trans ((orElse_none
    rfl).trans ((orElse_none ?_).trans ((orElse_none rfl).trans (orElse_some ?_))))))
  · simp only [mul506, cast, if_true]
    exact bind_ok_nil (eqv_mat_false hne) _
  · simp only [mul516, cast, if_true, h, if_false]
    rfl

/-- **C53 (counterexample)** The product of a matrix with itself is not computed but becomes a power,
even when the matrix is not square. -/
theorem C53_product_of_equal (m : Mat K) (o : SOpts) (b : Nat) (h : matEq m m = true) :
    (simplify (b + 2) o (.mul (.mat m) (.mat m))).out =
      some (.ok (.pow (.mat m) (.real Num.two))) := by
  change (simpMul (run (b + 1)) o (.mat m) (.mat m)).out = _
  unfold simpMul
  refine (out_bind (out_simpBoth_ok (by simp) (by simp) rfl rfl) _).trans ?_
  refine (out_orElse_none rfl).trans ((out_orElse_none rfl).trans ((out_orElse_none rfl).trans
    ((out_orElse_none rfl).trans (out_orElse_some ?_))))
  simp only [mul506, cast, if_true]
  unfold eqv
  rw [equals_mat, h]
  rfl

/-- **C53 (partial)** A number in front of or behind a matrix multiplies every entry.  Missing: numbers of
magnitude at most `EPSILON` (`C53_scalar_zero`). -/
theorem C53_scalar_partial (c : K) (m : Mat K) (o : SOpts) (b : Nat) (h0 : Num.tiny c = false) :
    ∃ s : Mat K, s.rows = m.rows ∧ s.cols = m.cols ∧
      (Num.beq c Num.one = true → s = m) ∧
      (Num.beq c Num.one = false → Filled s ∧
        ∀ i j, i < m.rows → j < m.cols → s.get i j = Num.mul (m.get i j) c) ∧
      simplify (b + 2) o (.mul (.real c) (.mat m)) = some (.ok (.mat s), []) ∧
      simplify (b + 2) o (.mul (.mat m) (.real c)) = some (.ok (.mat s), []) := by
  have key : ∀ x y : Expr K, (x = .real c ∧ y = .mat m) ∨ (x = .mat m ∧ y = .real c) →
      simplify (b + 2) o (.mul x y) =
        some (.ok (.mat (if Num.beq c Num.one = true then m else Mat.scale m c)), []) := by
    intro x y h
    change simpMul (run (b + 1)) o x y = _
    unfold simpMul
    have hx : run (b + 1) (.simp o x) = some (.ok x, []) := by rcases h with ⟨rfl, rfl⟩ | ⟨rfl, rfl⟩ <;> rfl
    have hy : run (b + 1) (.simp o y) = some (.ok y, []) := by rcases h with ⟨rfl, rfl⟩ | ⟨rfl, rfl⟩ <;> rfl
    have px : x ≠ .absent := by rcases h with ⟨rfl, rfl⟩ | ⟨rfl, rfl⟩ <;> simp
    have py : y ≠ .absent := by rcases h with ⟨rfl, rfl⟩ | ⟨rfl, rfl⟩ <;> simp
    have hc : cast (.bin .mul .real .any) (.mul x y) = some (.mul (.real c) (.mat m)) := by
      rcases h with ⟨rfl, rfl⟩ | ⟨rfl, rfl⟩ <;> simp [cast, BinOp.comm]
    refine (bind_ok_nil (simpBoth_ok px py hx hy) _).trans ?_
    by_cases h1 : Num.beq c Num.one = true
    · refine orElse_some ?_
      simp only [mul478, hc, h0, Bool.false_eq_true, if_false, h1, if_true]
      rfl
    · have e1 : mul478 (run (b + 1)) o (.mul x y) = some (.ok none, []) := by
        simp only [mul478, hc, h0, Bool.false_eq_true, if_false, h1]; rfl
      rcases h with ⟨rfl, rfl⟩ | ⟨rfl, rfl⟩
      · refine (orElse_none e1).trans ((orElse_none rfl).trans ((orElse_none rfl).trans ((orElse_none
          rfl).trans ((orElse_none ?_).trans (orElse_some ?_)))))
        · simp only [mul506, cast, if_true]
          refine bind_ok_nil (a := false) ?_ _
          unfold eqv
          rw [equals.eq_def]
          rfl
        · simp only [h1, Bool.false_eq_true, if_false]; rfl
      · refine (orElse_none e1).trans ((orElse_none rfl).trans ((orElse_none rfl).trans ((orElse_none
          rfl).trans ((orElse_none ?_).trans (orElse_some ?_)))))
        · simp only [mul506, cast, if_true]
          refine bind_ok_nil (a := false) ?_ _
          unfold eqv
          rw [equals.eq_def]
          rfl
        · simp only [h1, Bool.false_eq_true, if_false]; rfl
  refine ⟨if Num.beq c Num.one = true then m else Mat.scale m c, ?_, ?_, fun h => if_pos h, fun h => ?_,
    key _ _ (.inl ⟨rfl, rfl⟩), key _ _ (.inr ⟨rfl, rfl⟩)⟩
  · split <;> rfl
  · split <;> rfl
  · rw [if_neg (by simp [h])]
    exact ⟨filled_ofFn _ _ _, fun i j hi hj => get_ofFn _ _ _ i j hi hj⟩

/-- **C53 (counterexample)** A small number times a matrix is the number 0, not a matrix. -/
theorem C53_scalar_zero (c : K) (m : Mat K) (o : SOpts) (b : Nat) (h0 : Num.tiny c = true) :
    (simplify (b + 2) o (.mul (.real c) (.mat m))).out = some (.ok (.real Num.zero)) := by
  change (simpMul (run (b + 1)) o (.real c) (.mat m)).out = _
  unfold simpMul
  refine (out_bind (out_simpBoth_ok (by simp) (by simp) rfl rfl) _).trans (out_orElse_some ?_)
  simp only [mul478, cast, if_true, h0]
  rfl

/-- non-vacuous: a multiple in both orders, and 0 times a matrix -/
example : (simplify 5 .default (.mul (.real 3) (.mat ⟨1, 2, [1, 2]⟩) : Expr ℚ)).out = some (.ok (.mat ⟨1, 2, [3, 6]⟩)) ∧
    (simplify 5 .default (.mul (.mat ⟨1, 2, [1, 2]⟩) (.real 3) : Expr ℚ)).out = some (.ok (.mat ⟨1, 2, [3, 6]⟩)) ∧
    (simplify 5 .default (.mul (.real 0) (.mat ⟨1, 2, [1, 2]⟩) : Expr ℚ)).out = some (.ok (.real 0)) := by
  decide +kernel

/-- non-vacuous: sum, difference and product of 2x2 matrices, and the number 0 for equal ones -/
example : matEq (⟨2, 2, [1, 2, 3, 4]⟩ : Mat ℚ) ⟨2, 2, [5, 6, 7, 8]⟩ = false ∧
    (simplify 5 .default (.mul (.mat ⟨2, 2, [1, 2, 3, 4]⟩) (.mat ⟨2, 2, [5, 6, 7, 8]⟩) : Expr ℚ)).out =
      some (.ok (.mat ⟨2, 2, [19, 22, 43, 50]⟩)) ∧
    matEq (⟨2, 1, [1, 2]⟩ : Mat ℚ) ⟨2, 1, [1, 2]⟩ = true := by
  decide +kernel

end Props
end Oasis
