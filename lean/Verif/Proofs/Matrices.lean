import Verif.Spec.Matrices
import Verif.Proofs.Cartesian
import Verif.Props.Matrices
import Mathlib.Algebra.BigOperators.Fin

/-! # Expressions of matrices are computed -/

namespace Oasis
namespace MatCalc
open Expr Like Props

variable {o : SOpts} {r c k : ℕ}

theorem filled_store (M : Matrix (Fin r) (Fin c) ℚ) : Filled (store M) := by
  simp [Filled, store, List.length_flatMap]

theorem store_eq (M : Matrix (Fin r) (Fin c) ℚ) :
    store M = Mat.ofFn r c fun i j => if h : i < r ∧ j < c then M ⟨i, h.1⟩ ⟨j, h.2⟩ else 0 := by
  unfold store Mat.ofFn
  congr 1
  have e : ∀ n : ℕ, List.range n = (List.finRange n).map (·.1) := fun n => by simp
  rw [e r, e c, List.flatMap_map]
  congr 1
  funext i
  rw [List.map_map]
  refine List.map_congr_left fun j _ => ?_
  simp

theorem get_store (M : Matrix (Fin r) (Fin c) ℚ) (i : Fin r) (j : Fin c) : (store M).get i j = M i j := by
  rw [store_eq, get_ofFn _ _ _ _ _ i.2 j.2, dif_pos ⟨i.2, j.2⟩]

/-- a full matrix with these entries is this matrix -/
theorem store_of (M : Matrix (Fin r) (Fin c) ℚ) (f : ℕ → ℕ → ℚ) (h : ∀ (i : Fin r) (j : Fin c), f i j = M i j) :
    Mat.ofFn r c f = store M := by
  refine mat_ext (filled_ofFn _ _ _) (filled_store M) rfl rfl fun i j hi hj => ?_
  rw [get_ofFn r c f i j hi hj]
  exact (h ⟨i, hi⟩ ⟨j, hj⟩).trans (get_store M ⟨i, hi⟩ ⟨j, hj⟩).symm

theorem store_inj {M N : Matrix (Fin r) (Fin c) ℚ} (h : store M = store N) : M = N := by
  ext i j
  rw [← get_store M i j, h, get_store]

theorem matEq_eq {m n : Mat ℚ} (h : matEq m n = true) : m = n := by
  obtain ⟨r, c, d⟩ := m
  obtain ⟨r', c', d'⟩ := n
  simp only [matEq, Bool.and_eq_true, beq_iff_eq, List.all_eq_true] at h
  obtain ⟨⟨⟨rfl, rfl⟩, hl⟩, ha⟩ := h
  congr 1
  refine List.ext_getElem hl fun i hi hi' => ?_
  have := ha (d[i], d'[i]) (by
    rw [List.mem_iff_getElem]
    exact ⟨i, by simp; omega, by simp⟩)
  simpa [beq_rat] using this

theorem matEq_ne {m n : Mat ℚ} (h : m ≠ n) : matEq m n = false := by
  cases e : matEq m n
  · rfl
  · exact absurd (matEq_eq e) h

theorem sumSq_store (M : Matrix (Fin r) (Fin c) ℚ) : Mat.sumSq (store M) = squares M := by
  have key : ∀ (l : List ℚ) (s : ℚ), l.foldl (fun s v => Num.add s (Num.pow v Num.two)) s = s + (l.map (· ^ 2)).sum := by
    intro l
    induction l with
    | nil => intro s; simp
    | cons a l ih =>
      intro s
      rw [List.foldl_cons, ih, List.map_cons, List.sum_cons, ← add_assoc]
      have e : Num.pow a (2 : ℚ) = a ^ 2 := by
        show (if (2 : ℚ).den = 1 then ratZpow a (2 : ℚ).num else _) = _
        rw [if_pos (show (2 : ℚ).den = 1 from rfl)]
        show ratZpow a 2 = _
        simp [ratZpow]
      exact congrArg (· + _) (congrArg (s + ·) e)
  rw [Mat.sumSq, key, squares, Fin.sum_univ_def]
  show 0 + _ = _
  rw [zero_add]
  unfold store
  simp only [List.map_flatMap, List.map_map]
  have sums : ∀ l : List (Fin r), (l.flatMap fun i => (List.finRange c).map ((· ^ 2) ∘ fun j => M i j)).sum =
      (l.map fun i => ∑ j, M i j ^ 2).sum := by
    intro l
    induction l with
    | nil => rfl
    | cons i l ih =>
      rw [List.flatMap_cons, List.sum_append, ih, List.map_cons, List.sum_cons, Fin.sum_univ_def]
      rfl
  exact sums _

theorem sim_mat (m : Mat ℚ) : Simplifies o (.mat m) (.mat m) := simplifies_iff.2 ⟨1, ⟨_, rfl⟩⟩

theorem present {e : Expr ℚ} {M : Matrix (Fin r) (Fin c) ℚ} (h : MatExpr e M) : e ≠ .absent := by
  cases h <;> simp

theorem dot_store (M : Matrix (Fin r) (Fin k) ℚ) (N : Matrix (Fin k) (Fin c) ℚ) (i : Fin r) (j : Fin c) :
    Mat.dot (store M) (store N) i j = (M * N) i j := by
  rw [Matrix.mul_apply, Fin.sum_univ_def]
  show (List.range k).foldl _ _ = _
  have e : List.range k = (List.finRange k).map (·.1) := by simp
  have key : ∀ (l : List (Fin k)) (s : ℚ),
      (l.map (·.1)).foldl (fun s t => Num.add s (Num.mul ((store M).get i t) ((store N).get t j))) s
        = s + (l.map fun t => M i t * N t j).sum := by
    intro l
    induction l with
    | nil => intro s; simp
    | cons a l ih =>
      intro s
      rw [List.map_cons, List.foldl_cons, ih, List.map_cons, List.sum_cons, ← add_assoc]
      congr 1
      show s + (store M).get i a * (store N).get a j = _
      rw [get_store, get_store]
  rw [e, key]
  exact zero_add _

theorem scale_store (M : Matrix (Fin r) (Fin c) ℚ) (s : ℚ) : Mat.scale (store M) s = store (s • M) :=
  store_of (r := r) (c := c) (s • M) _ fun i j => by
    show (store M).get i j * s = s * M i j
    rw [get_store, mul_comm]

theorem sim_scale {x y : Expr ℚ} {M : Matrix (Fin r) (Fin c) ℚ} {s : ℚ} (hs : Seen s) (hy : Simplifies o y (.mat (store M)))
    (hx : Simplifies o x (.real s)) (px : x ≠ .absent) (py : y ≠ .absent) :
    Simplifies o (.mul x y) (.mat (store (s • M))) ∧ Simplifies o (.mul y x) (.mat (store (s • M))) := by
  have hs' : Num.tiny s = false := hs
  by_cases h1 : s = 1
  · subst h1
    rw [one_smul]
    constructor
    · obtain ⟨N, hN⟩ := (sim_mat (o := o) (store M)).gives
      refine sim_mul hx hy px py ⟨N, fun n hn => ?_⟩
      exact mul_unit (hN n hn)
    · obtain ⟨N, hN⟩ := (sim_mat (o := o) (store M)).gives
      refine sim_mul hy hx py px ⟨N, fun n hn => ?_⟩
      refine Gives.orSome (K := ℚ) (k := fun _ => _) ?_
      simp only [mul478, cast, if_true, BinOp.comm, hs', Bool.false_eq_true, if_false, beq_rat, one_rat, decide_true]
      exact Gives.bind (hN n hn) (Gives.pure _)
  · rw [← scale_store]
    have e1 : eqv (.real s : Expr ℚ) (.mat (store M)) = pure false := eqv_false (by rw [equals.eq_def]; rfl)
    have e2 : eqv (.mat (store M) : Expr ℚ) (.real s) = pure false := eqv_false (by rw [equals.eq_def]; rfl)
    constructor
    · refine sim_mul hx hy px py (always fun n => ?_)
      mulPass [hs', beq_rat, one_rat, h1, decide_false, e1]
      exact Gives.orSome (Gives.pure _)
    · refine sim_mul hy hx py px (always fun n => ?_)
      mulPass [hs', beq_rat, one_rat, h1, decide_false, e2]
      exact Gives.orSome (Gives.pure _)

theorem sim_expr {e : Expr ℚ} {M : Matrix (Fin r) (Fin c) ℚ} (h : MatExpr e M) : Simplifies o e (.mat (store M)) := by
  induction h with
  | leaf M => exact sim_mat _
  | @add r c a b M N ha hb iha ihb =>
    refine sim_add iha ihb (present ha) (present hb) (always fun n => ?_)
    have e : Mat.add (store M) (store N) = .ok (store (M + N)) := by
      unfold Mat.add
      rw [if_pos ⟨rfl, rfl⟩]
      congr 1
      exact store_of (r := r) (c := c) _ _ fun i j => by
        show (store M).get i j + (store N).get i j = _
        rw [get_store, get_store]; rfl
    addPass [show (store M).rows = (store N).rows from rfl, show (store M).cols = (store N).cols from rfl, and_self, e]
    exact Gives.orSome ⟨_, rfl⟩
  | @sub r c a b M N ha hb hne iha ihb =>
    refine sim_sub iha ihb (present ha) (present hb) (always fun n => ?_)
    have e : Mat.sub (store M) (store N) = .ok (store (M - N)) := by
      unfold Mat.sub
      rw [if_pos ⟨rfl, rfl⟩]
      congr 1
      exact store_of (r := r) (c := c) _ _ fun i j => by
        show (store M).get i j - (store N).get i j = _
        rw [get_store, get_store]; rfl
    have e1 : eqv (.mat (store M) : Expr ℚ) (.mat (store N)) = pure false :=
      eqv_mat_false (matEq_ne fun h => hne (store_inj h))
    subPass [show (store M).rows = (store N).rows from rfl, and_self, e, e1]
    exact Gives.orSome ⟨_, rfl⟩
  | @mul r k c a b M N ha hb hne iha ihb =>
    refine sim_mul iha ihb (present ha) (present hb) (always fun n => ?_)
    have e : Mat.mul (store M) (store N) = .ok (store (M * N)) := by
      unfold Mat.mul
      rw [if_pos (show (store M).cols = (store N).rows from rfl)]
      congr 1
      exact store_of (r := r) (c := c) _ _ fun i j => dot_store M N i j
    have e1 : eqv (.mat (store M) : Expr ℚ) (.mat (store N)) = pure false := eqv_mat_false (matEq_ne hne)
    mulPass [show (store M).cols = (store N).rows from rfl, e, e1]
    exact Gives.orSome ⟨_, rfl⟩
  | times hs ha iha => exact (sim_scale hs iha (sim_real _) (by simp) (present ha)).1
  | timesRight hs ha iha => exact (sim_scale hs iha (sim_real _) (by simp) (present ha)).2
  | @neg r c a M ha iha =>
    refine sim_neg iha (present ha) ?_
    have := (sim_scale (o := o) seen_minus (sim_mat (store M)) (sim_real _) (by simp) (by simp)).1
    rwa [neg_smul, one_smul] at this

theorem sim_magnitude {e : Expr ℚ} {M : Matrix (Fin r) (Fin c) ℚ} (h : MatExpr e M) :
    Simplifies o (.un .mag e) (.real (if squares M = 0 then 0 else Num.pow (squares M) (1 / 2))) := by
  have key : Simplifies o (.bin .pow (.real (squares M)) (.real (1 / 2)) : Expr ℚ)
      (.real (if squares M = 0 then 0 else Num.pow (squares M) (1 / 2))) := by
    split_ifs with h0
    · rw [h0]
      refine simplifies_iff.2 ⟨2, Like.run_pow ?_⟩
      unfold simpPow
      refine (gives_simpBoth (simp_real _ _) (simp_real _ _) (by simp) (by simp)).bind (value_gives ?_)
      have h2 : ¬ (1 / 2 : ℚ) = 0 := by norm_num
      simp only [pow1138, pow1147, cast, if_true, beq_rat, zero_rat, h2, decide_false, decide_true, Bool.false_eq_true, if_false, Like.orElse_none]
      exact Gives.orSome (Gives.bind (note_gives (e := .zeroPow _)) (Gives.pure _))
    · exact sim_root (sim_real _) (by simp) h0
  obtain ⟨N, hN⟩ := key.gives
  refine sim_mag (sim_expr h) (present h) ⟨N, fun n hn => ?_⟩
  magPass [sumSq_store]
  exact Gives.orSome (Gives.bind (hN n hn) (Gives.pure _))

end MatCalc
end Oasis
