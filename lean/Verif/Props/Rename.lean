import Verif.Proofs.RenamePoly
import Verif.Props.LogLaws
import Mathlib.Logic.Equiv.Basic

/-!
# C87: the names of variables do not matter

Renaming the variables before a call gives the renamed answer, whatever the call is: the same value, error,
exception, undefined behaviour or endless recursion, reached by the same decisions.
-/

namespace Oasis
namespace Props
open Expr
variable {K : Type} [Num K] {f : Str → Str}

/-- C87: every visitor call commutes with renaming, for every number type and every budget. -/
theorem C87_calls (hf : Renaming f) (n : Nat) (q : Req K) :
    run n (q.ren f) = M.ren f (Expr.ren f) (run n q) := (Rn.recR_run hf n).call q

/-- C87: so do the public methods. -/
theorem C87_methods (hf : Renaming f) (n : Nat) (op : BinOp) (e v w l u : Expr K) :
    simplifyMethod n (e.ren f) = M.ren f (Expr.ren f) (simplifyMethod n e) ∧
    diffMethod n (v.ren f) (e.ren f) = M.ren f (Expr.ren f) (diffMethod n v e) ∧
    integrate n (v.ren f) (e.ren f) = M.ren f (Expr.ren f) (integrate n v e) ∧
    binOperator n op (e.ren f) (w.ren f) = M.ren f (Expr.ren f) (binOperator n op e w) ∧
    substitute n (v.ren f) (w.ren f) (e.ren f) = M.ren f (Expr.ren f) (substitute n v w e) ∧
    integrateWithBounds n (e.ren f) (v.ren f) (l.ren f) (u.ren f) =
      M.ren f (Expr.ren f) (integrateWithBounds n e v l u) := by
  have rl : Rn.RecR f (run n : Rec K) := Rn.recR_run hf n
  refine ⟨Rn.Sim.value (rl.simp rfl), Rn.R_differentiate hf rl rfl rfl, rl.integ rfl rfl, ?_,
    Rn.R_substitute hf n v w e, Rn.R_integrateWithBounds hf n e v l u⟩
  exact Rn.Sim.bindI (Rn.R_present rfl) fun _ => Rn.Sim.bindI (Rn.R_present rfl) fun _ =>
    Rn.R_simpOrSame hf rl rfl

/-- C87: `Equals` does not see which names are used, only which of them agree; no name is special to it. -/
theorem C87_equals (hf : Renaming f) (a b : Expr K) : equals (a.ren f) (b.ren f) = equals a b :=
  Rn.equals_ren hf a b

/-- C87: the solution of a renamed linear system is the renamed solution. -/
theorem C87_systems (hf : Renaming f) (n : Nat) (es : List (Expr K)) :
    Linear.solveSystem n (es.map (Expr.ren f)) =
      M.ren f (List.map fun p => (f p.1, p.2)) (Linear.solveSystem n es) := Rn.R_solveSystem hf n es

/-- C87: the zeros of a renamed expression are the renamed zeros, as long as the empty name stays. -/
theorem C87_zeros (hf : Renaming f) (h : f [] = []) (n : Nat) (e : Expr K) :
    findZeros n (e.ren f) = M.ren f (List.map (Expr.ren f)) (findZeros n e) := Rn.R_findZeros hf h n e

/-- what a renamed run answers -/
theorem ren_out {α β : Type} {φ : α → β} {m : M K α} : (M.ren f φ m).out = m.out.map (Except.map φ) := by
  rcases m with _ | ⟨r, l⟩ <;> rfl

theorem ren_injective (hf : Renaming f) : ∀ a b : Expr K, a.ren f = b.ren f → a = b := by
  intro a
  induction a with
  | un op a ih =>
    intro b h
    cases b <;> simp only [Expr.ren, Expr.un.injEq, reduceCtorEq] at h
    rw [h.1, ih _ h.2]
  | bin op a b iha ihb =>
    intro c h
    cases c <;> simp only [Expr.ren, Expr.bin.injEq, reduceCtorEq] at h
    rw [h.1, iha _ h.2.1, ihb _ h.2.2]
  | var n =>
    intro b h
    cases b <;> simp only [Expr.ren, Expr.var.injEq, reduceCtorEq] at h
    rw [hf.inj _ _ h]
  | _ =>
    intro b h
    cases b <;> simp_all [Expr.ren]

/-- C87: an answer carries over to other names, and back. -/
theorem C87_simplifies (hf : Renaming f) {o : SOpts} {e r : Expr K} :
    Simplifies o (e.ren f) (r.ren f) ↔ Simplifies o e r := by
  have h : ∀ n, (simplify n o (e.ren f)).out = some (.ok (r.ren f)) ↔ (simplify n o e).out = some (.ok r) := by
    intro n
    have := C87_calls hf n (.simp o e)
    rw [show simplify n o (e.ren f) = M.ren f (Expr.ren f) (simplify n o e) from this, ren_out]
    rcases (simplify n o e).out with _ | _ | t
    · simp
    · simp [Except.map]
    · simp only [Option.map_some, Except.map, Option.some.injEq, Except.ok.injEq]
      exact ⟨ren_injective hf _ _, congrArg _⟩
  simp only [Simplifies, h]

/-- Distinct names can be replaced by any other distinct names. -/
theorem renaming_exists : ∀ (xs ys : List Str), xs.length = ys.length → xs.Nodup → ys.Nodup →
    chars! "C" ∉ xs → chars! "C" ∉ ys → ∃ f, Renaming f ∧ xs.map f = ys
  | [], [], _, _, _, _, _ => ⟨id, ⟨fun _ _ h => h, rfl⟩, rfl⟩
  | x :: xs, y :: ys, hl, hx, hy, hxc, hyc => by
    simp only [List.nodup_cons] at hx hy
    simp only [List.mem_cons, not_or] at hxc hyc
    obtain ⟨g, hg, hm⟩ := renaming_exists xs ys (by simpa using hl) hx.2 hy.2 hxc.2 hyc.2
    have keep : ∀ z, z ≠ g x → z ≠ y → Equiv.swap (g x) y z = z :=
      fun z h1 h2 => Equiv.swap_apply_of_ne_of_ne h1 h2
    refine ⟨fun s => Equiv.swap (g x) y (g s), ⟨fun m n h => hg.inj _ _ (Equiv.injective _ h), ?_⟩, ?_⟩
    · show Equiv.swap (g x) y (g (chars! "C")) = _
      rw [hg.const]
      exact keep _ (fun h => hxc.1 (hg.inj _ _ (by rw [hg.const]; exact h))) hyc.1
    · simp only [List.map_cons, Equiv.swap_apply_left, List.cons.injEq, true_and]
      rw [← hm]
      refine List.map_congr_left fun z hz => ?_
      refine keep _ (fun h => hx.1 (hg.inj _ _ h ▸ hz)) ?_
      rintro rfl
      exact hy.1 (hm ▸ List.mem_map_of_mem hz)

/-- C87: what the simplifier answers about some distinct names it answers about all others, except for `C`. -/
theorem C87_names {xs ys : List Str} (hl : xs.length = ys.length) (hx : xs.Nodup) (hy : ys.Nodup)
    (hxc : chars! "C" ∉ xs) (hyc : chars! "C" ∉ ys) :
    ∃ f, xs.map f = ys ∧ (∀ (o : SOpts) (e r : Expr K), Simplifies o e r → Simplifies o (e.ren f) (r.ren f)) := by
  obtain ⟨f, hf, h⟩ := renaming_exists xs ys hl hx hy hxc hyc
  exact ⟨f, h, fun o e r => (C87_simplifies hf).2⟩

/-! ## Two names that do matter -/

/-- **Violation.**  A variable called `C` is mistaken for the integration constant: `∫ 1 dC` is answered with `2*C`,
whose derivative is 2, whereas `∫ 1 dx` is `x + C`. -/
theorem C87_constant : Simplifies .default (.integ (.real 1) (.var (chars! "C")) : Expr ℚ)
      (.mul (.real 2) (.var (chars! "C"))) ∧
    Simplifies .default (.integ (.real 1) (.var (chars! "x")) : Expr ℚ) (.add (.var (chars! "x")) (.var (chars! "C"))) ∧
    Simplifies .default (.deriv (.mul (.real 2) (.var (chars! "C"))) (.var (chars! "C")) : Expr ℚ) (.real 2) :=
  ⟨simplifies_of 20 (by decide +kernel), simplifies_of 20 (by decide +kernel), simplifies_of 20 (by decide +kernel)⟩

/-- **Violation.**  `FindZeros` takes a variable with the empty name for any other one: in the sum of `y`, `x` and -2 it
finds no polynomial in one variable, but if `y` is called by the empty name it finds the zero 1. -/
theorem C87_empty_name :
    (findZeros 20 (.add (.var (chars! "y")) (.add (.var (chars! "x")) (.real (-2))) : Expr ℚ)).out = some (.ok []) ∧
    (findZeros 20 (.add (.var []) (.add (.var (chars! "x")) (.real (-2))) : Expr ℚ)).out = some (.ok [.real 1]) := by
  decide +kernel

/-! ## Examples -/

/-- non-vacuous: the names `x` and `y` can be exchanged -/
example : Renaming (Equiv.swap (chars! "x") (chars! "y")) :=
  ⟨fun _ _ h => Equiv.injective _ h, by decide⟩

/-- ... which changes expressions, and their answers in the same way -/
example : (.sub (.mul (.real 3) (.var (chars! "x"))) (.var (chars! "y")) : Expr ℚ).ren (Equiv.swap (chars! "x") (chars! "y")) =
      .sub (.mul (.real 3) (.var (chars! "y"))) (.var (chars! "x")) ∧
    Simplifies .default (.add (.mul (.real 3) (.var (chars! "y"))) (.add (.var (chars! "x")) (.var (chars! "y"))) : Expr ℚ)
      (.add (.mul (.real 4) (.var (chars! "y"))) (.var (chars! "x"))) :=
  ⟨by decide, simplifies_of 20 (by decide +kernel)⟩

/-- non-vacuous: distinct names -/
example : ∃ f, [chars! "x", chars! "a"].map f = [chars! "speed", chars! "time"] ∧
    (∀ (o : SOpts) (e r : Expr ℚ), Simplifies o e r → Simplifies o (e.ren f) (r.ren f)) :=
  C87_names rfl (by decide) (by decide) (by decide) (by decide)

end Props
end Oasis
