import Verif.Proofs.Linear
import Verif.Props.Value

/-!
# Properties C49–C51: linear systems

Exact rational arithmetic; assignments are complex.
-/

namespace Oasis
namespace Props
open Linear Expr

/-- the variables of a system -/
def Occurs (ls : List (List (Option Str × ℚ))) (x : Str) : Prop := ∃ l ∈ ls, some x ∈ l.map Prod.fst

/-! ## C49 Linear system construction -/

/-- **C49** For equations with not more variables than equations, `ConstructMatrices` gives an `n × n` matrix,
`n` right sides and a column for each variable, such that an assignment solves all equations exactly
when it solves the matrix equation. -/
theorem C49_equivalent (es : List (Expr ℚ)) (ls : List (List (Option Str × ℚ))) (h : List.Forall₂ Equation es ls)
    (vs : List Str) (hvs : ∀ x, Occurs ls x → x ∈ vs) (hle : vs.length ≤ es.length) :
    ∃ s, constructMatrices es = .ok s ∧ s.A.rows = es.length ∧ s.A.cols = es.length ∧
      s.A.data.length = es.length * es.length ∧ s.b.length = es.length ∧
      (s.vars.map Prod.fst).Nodup ∧ (∀ x, x ∈ s.vars.map Prod.fst ↔ Occurs ls x) ∧
      s.vars.map Prod.snd = List.range s.vars.length ∧
      ∀ (env : Str → ℂ) (y : Nat → ℂ), (∀ p ∈ s.vars, y p.2 = env p.1) →
        ((∀ e ∈ es, Solves env e) ↔ ∀ i < es.length,
          ∑ j ∈ Finset.range es.length, (s.A.get i j : ℂ) * y j = ((s.b.getD i 0 : ℚ) : ℂ)) := by
  obtain ⟨s, e, i⟩ := construct_inv h hle fun l hl x hx => hvs x ⟨l, hl, hx⟩
  refine ⟨s, e, i.rows, i.cols, i.filled, i.blen, i.nodup, i.names, i.columns, fun env y hy => ?_⟩
  constructor
  · intro h' k hk
    exact (row_iff h i env y hy k hk).1 (h' _ (List.getElem_mem hk))
  · intro h' e he
    obtain ⟨k, hk, rfl⟩ := List.getElem_of_mem he
    exact (row_iff h i env y hy k hk).2 (h' k hk)

/-- non-vacuous: `4x + (y*7 + 2) = 0`, `y + x = 0` -/
example : List.Forall₂ Equation
    [.add (.mul (N 4) X) (.add (.mul Y (N 7)) (N 2)), .add Y X]
    [[(some ['x'], 4), (some ['y'], 7), (none, 2)], [(some ['y'], 1), (some ['x'], 1)]] := by
  refine .cons ⟨?_, by simp, by simp⟩ (.cons ⟨?_, by simp, by simp⟩ .nil)
  · exact .add (l := [_]) (.term (.product _ _)) (.add (l := [_]) (.term (.swapped _ _)) (.term (.number _)))
  · exact .add (l := [_]) (.term (.variable _)) (.term (.variable _))

/-- the result in that case -/
example : constructMatrices [.add (.mul (N 4) X) (.add (.mul Y (N 7)) (N 2)), .add Y X] =
    .ok ⟨⟨2, 2, [4, 7, 1, 1]⟩, [-2, 0], 2, [(['x'], 0), (['y'], 1)]⟩ := by decide +kernel

/-- Outside that class terms are ignored or overwritten: `2x + xy + 1` gives the matrices of `2x + 1`, and
`2x + 3x + 1` those of `3x + 1`. -/
theorem C49_other_terms :
    constructMatrices [.add (.add (.mul (N 2) X) (.mul X Y)) (N 1)] = constructMatrices [.add (.mul (N 2) X) (N 1)] ∧
    constructMatrices [.add (.add (.mul (N 2) X) (.mul (N 3) X)) (N 1)] =
      constructMatrices [.add (.mul (N 3) X) (N 1)] ∧
    constructMatrices [.add (.mul (N 2) X) (N 1)] = .ok ⟨⟨1, 1, [2]⟩, [-1], 1, [(['x'], 0)]⟩ := by
  decide +kernel

/-! ## C50 Linear system solving -/

/-- **C50** If the constructed matrix is invertible, the solution is returned: the map has exactly the
variables of the system as keys, and an assignment solves all equations exactly when it gives each variable
its value in the map. -/
theorem C50_invertible (es : List (Expr ℚ)) (ls : List (List (Option Str × ℚ))) (h : List.Forall₂ Equation es ls)
    (vs : List Str) (hvs : ∀ x, Occurs ls x → x ∈ vs) (hle : vs.length ≤ es.length) (s : State ℚ)
    (hc : constructMatrices es = .ok s)
    (hd : (Matrix.of fun i j : Fin es.length => s.A.get i j).det ≠ 0) :
    ∃ m, solveSimplified es = .ok m ∧ (m.map Prod.fst).Nodup ∧ (∀ x, x ∈ m.map Prod.fst ↔ Occurs ls x) ∧
      ∀ env : Str → ℂ, (∀ e ∈ es, Solves env e) ↔ ∀ p ∈ m, env p.1 = (p.2 : ℂ) := by
  obtain ⟨s', e, i⟩ := construct_inv h hle fun l hl x hx => hvs x ⟨l, hl, hx⟩
  rw [hc] at e
  cases e
  obtain ⟨m, h1, h2, h3⟩ := solve_inv h i hc hd
  exact ⟨m, h1, by rw [h2]; exact i.nodup, fun x => by rw [h2]; exact i.names x, h3⟩

/-- **C50** The same without mention of matrices: if as many equations as variables have exactly one solution,
it is returned. -/
theorem C50_unique_solution (es : List (Expr ℚ)) (ls : List (List (Option Str × ℚ))) (h : List.Forall₂ Equation es ls)
    (vs : List Str) (hvs : ∀ x, x ∈ vs ↔ Occurs ls x) (hnd : vs.Nodup) (hle : vs.length = es.length) (env : Str → ℂ)
    (hsol : ∀ e ∈ es, Solves env e)
    (huniq : ∀ env', (∀ e ∈ es, Solves env' e) → ∀ x ∈ vs, env' x = env x) :
    ∃ m, solveSimplified es = .ok m ∧ (m.map Prod.fst).Perm vs ∧ ∀ p ∈ m, env p.1 = (p.2 : ℂ) := by
  obtain ⟨s, e, i⟩ := construct_inv h hle.le fun l hl x hx => (hvs x).2 ⟨l, hl, hx⟩
  have hp : (s.vars.map Prod.fst).Perm vs := by
    rw [List.perm_ext_iff_of_nodup i.nodup hnd]
    intro x
    rw [i.names, hvs]; rfl
  have hd := det_of_unique h i (by have := hp.length_eq; simp at this; omega) hsol
    (fun env' h' x hx => huniq env' h' x (hp.subset hx))
  obtain ⟨m, h1, h2, h3⟩ := solve_inv h i e hd
  exact ⟨m, h1, by rw [h2]; exact hp, (h3 env).1 hsol⟩

/-- **C50 (exactly when)** The matrix that is inverted is invertible exactly when there are as many variables as equations and
exactly one solution.  In all other cases, for example for a system with one redundant equation, the inverse of a
singular matrix is computed, for which Eigen promises nothing. -/
theorem C50_exactly (es : List (Expr ℚ)) (ls : List (List (Option Str × ℚ))) (h : List.Forall₂ Equation es ls)
    (vs : List Str) (hvs : ∀ x, x ∈ vs ↔ Occurs ls x) (hnd : vs.Nodup) (hle : vs.length ≤ es.length) :
    ∃ s, constructMatrices es = .ok s ∧
      ((Matrix.of fun i j : Fin es.length => s.A.get i j).det ≠ 0 ↔
        vs.length = es.length ∧ ∃ env : Str → ℂ, (∀ e ∈ es, Solves env e) ∧
          ∀ env', (∀ e ∈ es, Solves env' e) → ∀ x ∈ vs, env' x = env x) := by
  obtain ⟨s, e, i⟩ := construct_inv h hle fun l hl x hx => (hvs x).2 ⟨l, hl, hx⟩
  have hp : (s.vars.map Prod.fst).Perm vs := by
    rw [List.perm_ext_iff_of_nodup i.nodup hnd]
    intro x
    rw [i.names, hvs]; rfl
  have hlen : s.vars.length = vs.length := by simpa using hp.length_eq
  refine ⟨s, e, fun hd => ?_, ?_⟩
  · obtain ⟨m, h1, h2, h3⟩ := solve_inv h i e hd
    refine ⟨?_, ?_⟩
    · by_contra hne
      have hn : vs.length < es.length := lt_of_le_of_ne hle hne
      refine hd (Matrix.det_eq_zero_of_column_eq_zero ⟨vs.length, hn⟩ fun k => ?_)
      exact i.zero k k.2 _ hn hlen.le
    · have hmn : (m.map Prod.fst).Nodup := by rw [h2]; exact i.nodup
      have hlook : ∀ p ∈ m, (find p.1 m).getD 0 = p.2 := by
        intro p hpm
        cases hf : find p.1 m with
        | none => exact absurd (List.mem_map_of_mem hpm) (find_none hf)
        | some v =>
          have := List.inj_on_of_nodup_map hmn (find_some hf) hpm rfl
          rw [← this]; rfl
      refine ⟨fun x => (((find x m).getD 0 : ℚ) : ℂ), (h3 _).2 fun p hpm => by beta_reduce; rw [hlook p hpm], fun env' h' x hx => ?_⟩
      have hx' : x ∈ m.map Prod.fst := by rw [h2]; exact hp.symm.subset hx
      obtain ⟨p, hpm, rfl⟩ := List.mem_map.1 hx'
      beta_reduce
      rw [(h3 env').1 h' p hpm, hlook p hpm]
  · rintro ⟨hfull, env, hsol, huniq⟩
    exact det_of_unique h i (hlen.trans hfull) hsol (fun env' h' x hx => huniq env' h' x (hp.subset hx))

/-- `x + (-1)` twice: one variable, two equations -/
example : ¬ (([chars!"x"] : List Str).length = ([.add X (N (-1)), .add X (N (-1))] : List (Expr ℚ)).length) ∧
    List.Forall₂ Equation [.add X (N (-1)), .add X (N (-1))] [[(some chars!"x", 1), (none, -1)], [(some chars!"x", 1), (none, -1)]] := by
  have h : Equation (.add X (N (-1))) [(some chars!"x", 1), (none, -1)] :=
    ⟨.add (.term (.variable _)) (.term (.number _)), by simp, by simp⟩
  exact ⟨by simp, .cons h (.cons h .nil)⟩

/-- the simplified equations -/
theorem simplifyAll_inv {n : Nat} : ∀ {es rs : List (Expr ℚ)} {log : List (Ev ℚ)}, simplifyAll n es = some (.ok rs, log) →
    List.Forall₂ (fun e r => ∃ l, simplify n .default e = some (.ok r, l) ∧ ∀ ev ∈ l, ev ∈ log) es rs := by
  intro es
  induction es with
  | nil => intro rs log h; cases h; exact .nil
  | cons e es ih =>
    intro rs log h
    rw [simplifyAll] at h
    by_cases ha : e.isAbsent = true
    · rw [if_pos ha] at h; cases h
    · rw [if_neg ha] at h
      obtain ⟨r, l1, l2, h1, h2, rfl⟩ := bind_ok_inv h
      obtain ⟨rs', l3, l4, h3, h4, rfl⟩ := bind_ok_inv h2
      cases h4
      have h1' : simplify n .default e = some (.ok r, l1) := by
        unfold simplify
        unfold M.value at h1
        cases hr : run n (.simp .default e) with
        | none => rw [hr] at h1; cases h1
        | some q =>
          rw [hr] at h1
          obtain ⟨x, l⟩ := q
          cases x with
          | ok y => cases h1; rfl
          | error f => cases f <;> cases h1
      refine .cons ⟨l1, h1', fun ev hev => by simp [hev]⟩ ?_
      have := ih h3
      exact this.imp fun _ _ ⟨l, hl, hl'⟩ => ⟨l, hl, fun ev hev => by simp [hl' ev hev]⟩

/-- **C50** The public function: if the equations have values wherever all variables have, their simplified
forms are linear equations in as many variables as equations, the system has exactly one solution, and the
logged decisions of the simplifier are certified (`C12_certified_partial`), then the solution of the
*original* system is returned. -/
theorem C50_system_partial (n : Nat) (es rs : List (Expr ℚ)) (log : List (Ev ℚ))
    (hr : simplifyAll n es = some (.ok rs, log)) (hlog : ∀ ev ∈ log, certified ev = true)
    (hdef : ∀ env, ∀ e ∈ es, ∃ z, CVal env e z)
    (ls : List (List (Option Str × ℚ))) (h : List.Forall₂ Equation rs ls)
    (vs : List Str) (hvs : ∀ x, x ∈ vs ↔ Occurs ls x) (hnd : vs.Nodup) (hle : vs.length = es.length) (env : Str → ℂ)
    (hsol : ∀ e ∈ es, Solves env e)
    (huniq : ∀ env', (∀ e ∈ es, Solves env' e) → ∀ x ∈ vs, env' x = env x) :
    ∃ m, solveSystem n es = some (.ok m, log) ∧ (m.map Prod.fst).Perm vs ∧ ∀ p ∈ m, env p.1 = (p.2 : ℂ) := by
  have hf := simplifyAll_inv hr
  have hlen := hf.length_eq
  have same : ∀ env : Str → ℂ, (∀ r ∈ rs, Solves env r) ↔ ∀ e ∈ es, Solves env e := by
    intro env
    have step : ∀ i (h1 : i < es.length) (h2 : i < rs.length), Solves env rs[i] ↔ Solves env es[i] := by
      intro i h1 h2
      obtain ⟨l, hl, hl'⟩ := (List.forall₂_iff_get.1 hf).2 i h1 h2
      have hc := C12_certified_partial n .default es[i] rs[i] l hl (fun ev hev => hlog ev (hl' ev hev)) env
      constructor
      · intro hz
        obtain ⟨z, hz'⟩ := hdef env es[i] (List.getElem_mem h1)
        have := complex_unique (hc z hz') hz
        rw [this] at hz'
        exact hz'
      · exact hc 0
    constructor
    · intro h' e he
      obtain ⟨i, hi, rfl⟩ := List.getElem_of_mem he
      exact (step i hi (by omega)).1 (h' _ (List.getElem_mem _))
    · intro h' e he
      obtain ⟨i, hi, rfl⟩ := List.getElem_of_mem he
      exact (step i (by omega) hi).2 (h' _ (List.getElem_mem _))
  obtain ⟨m, h1, h2, h3⟩ := C50_unique_solution rs ls h vs hvs hnd (by omega) env ((same env).2 hsol)
    (fun env' h' => huniq env' ((same env').1 h'))
  refine ⟨m, ?_, h2, h3⟩
  change Option.bind (simplifyAll n es) (M.bindK fun rs => M.lift (solveSimplified rs)) = _
  rw [hr]
  change Option.bind (M.lift (solveSimplified rs)) (fun p => some (p.1, log ++ p.2)) = _
  rw [h1]
  simp [M.lift]

/-- non-vacuous: `4x - 7y + -5`, `y + z + -8`, `3x + 2z - 23` -/
example : (solveSystem 60 [.add (.sub (.mul (N 4) X) (.mul (N 7) Y)) (N (-5)), .add (.add Y Z) (N (-8)),
      .sub (.add (.mul (N 3) X) (.mul (N 2) Z)) (N 23)]).out = some (.ok [(['x'], 3), (['y'], 1), (['z'], 7)]) ∧
    (simplifyAll 60 [.add (.sub (.mul (N 4) X) (.mul (N 7) Y)) (N (-5)), .add (.add Y Z) (N (-8)),
      .sub (.add (.mul (N 3) X) (.mul (N 2) Z)) (N 23)]).map (fun p => p.2.all certified) = some true := by
  constructor <;> decide +kernel

/-- **C50 (augmented matrix)** `SolveLinearSystems(matrix)` solves `A x = b` for the `n × (n+1)` matrix `(A | b)`
with invertible `A`, and returns the empty vector for all other dimensions. -/
theorem C50_matrix (M : Mat ℚ) :
    (M.cols ≠ M.rows + 1 → solveMatrix M = .ok []) ∧
    (M.cols = M.rows + 1 → (Matrix.of fun i j : Fin M.rows => M.get i j).det ≠ 0 →
      ∃ x, solveMatrix M = .ok x ∧ x.length = M.rows ∧ ∀ y : Nat → ℚ,
        (∀ i < M.rows, ∑ j ∈ Finset.range M.rows, M.get i j * y j = M.get i M.rows) ↔
          ∀ j < M.rows, x[j]? = some (y j)) := by
  constructor
  · intro h
    unfold solveMatrix
    rw [if_pos (by omega)]
  · intro h hd
    have hg : ∀ i j, i < M.rows → j < M.rows → (Mat.ofFn M.rows M.rows M.get).get i j = M.get i j :=
      fun i j hi hj => get_ofFn _ _ _ i j hi hj
    have hm : toMatrix M.rows (Mat.ofFn M.rows M.rows M.get) = Matrix.of fun i j : Fin M.rows => M.get i j := by
      ext i j
      exact hg i j i.isLt j.isLt
    obtain ⟨x, h1, h2, h3⟩ := solveAb_eq (A := Mat.ofFn M.rows M.rows M.get)
      (b := (List.range M.rows).map fun row => M.get row M.rows) (n := M.rows) rfl rfl (by simp)
    refine ⟨x, by unfold solveMatrix; rw [if_neg (by omega)]; exact h1, h2, fun y => ?_⟩
    rw [← h3 (by rw [hm]; exact hd) y]
    apply forall_congr'; intro i
    apply forall_congr'; intro hi
    have e1 : ∑ j ∈ Finset.range M.rows, (Mat.ofFn M.rows M.rows M.get).get i j * y j =
        ∑ j ∈ Finset.range M.rows, M.get i j * y j := by
      apply Finset.sum_congr rfl
      intro j hj
      rw [hg i j hi (by simpa using hj)]
    rw [e1]
    simp [List.getElem?_range hi, hi]

example : solveMatrix (⟨2, 3, [1, 2, 5, 3, 4, 6]⟩ : Mat ℚ) = .ok [-4, 9 / 2] := by decide +kernel

/-! ## C51 Linear system construction returns normally -/

/-- **C51 (partial)** Linear equations with not more variables than equations are processed without a crash.
Missing: all other expressions, see below. -/
theorem C51_returns_partial (es : List (Expr ℚ)) (ls : List (List (Option Str × ℚ))) (h : List.Forall₂ Equation es ls)
    (vs : List Str) (hvs : ∀ x, Occurs ls x → x ∈ vs) (hle : vs.length ≤ es.length) :
    ∃ m, solveSimplified es = .ok m := by
  obtain ⟨s, e, i⟩ := construct_inv h hle fun l hl x hx => hvs x ⟨l, hl, hx⟩
  obtain ⟨x, e1, hx, _⟩ := solveAb_eq i.rows i.cols i.blen
  have hcol : ∀ p ∈ s.vars, p.2 < x.length := by
    rintro ⟨z, j⟩ hp
    have := column_lt i hp
    have := i.le
    rw [hx]; simp only; omega
  exact ⟨_, by unfold solveSimplified; rw [e]; simp only [e1]; exact readBack_eq hcol⟩

/-- **C51 (violated)** If the first equation simplifies to anything but a sum, a null pointer is dereferenced. -/
theorem C51_not_a_sum {K : Type} [Num K] (e : Expr K) (es : List (Expr K)) (h : ∀ a b, e ≠ .add a b) :
    constructMatrices (e :: es) = .error (.ub .nullDeref) := by
  have : ∀ s, putEquation 0 s e = .error (.ub .nullDeref) := by
    intro s
    unfold putEquation
    split
    · rfl
    · split
      · rename_i a b hc
        exfalso
        cases e with
        | bin op x y =>
          by_cases ho : op = .add
          · subst ho; exact h x y rfl
          · simp only [cast] at hc
            rw [if_neg (fun e => ho e.symm)] at hc
            cases hc
        | _ => simp [cast] at hc
      · rfl
  unfold constructMatrices
  rw [putEquations, this]

/-- **C51 (violated)** Linear equations with more variables than equations write outside the matrix. -/
theorem C51_too_many_variables (es : List (Expr ℚ)) (ls : List (List (Option Str × ℚ)))
    (h : List.Forall₂ Equation es ls) (vs : List Str) (hn : vs.Nodup) (hvs : ∀ x ∈ vs, Occurs ls x)
    (hlt : es.length < vs.length) : solveSimplified es = .error (.ub .outOfBounds) := by
  unfold solveSimplified
  rw [construct_overflow h hn hvs hlt]

/-- **C51 (violated)** Through the public function: `x + x` and `x + y + 1`. -/
theorem C51_violated :
    (solveSystem 40 [.add X X]).out = some (.error (.ub .nullDeref)) ∧
    (solveSystem 40 [.add (.add X Y) (N 1)]).out = some (.error (.ub .outOfBounds)) := by
  constructor <;> decide +kernel

end Props
end Oasis
