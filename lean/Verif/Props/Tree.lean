import Mathlib.Tactic.Ring
import Verif.Model.NumInst
import Verif.Proofs.Equality
import Verif.Proofs.Build

/-!
# Properties C01–C11: Equals, StructurallyEquivalent, BuildFromVector, Flatten, RecursiveCast

All theorems hold for every number type `K` (`[Num K]`, no laws) unless a law is a hypothesis.
-/

namespace Oasis
namespace Props
variable {K : Type} [Num K]

/-- concrete expressions used in the examples -/
abbrev X : Expr ℚ := .var chars!"x"
/-- concrete expressions used in the examples -/
abbrev Y : Expr ℚ := .var chars!"y"
/-- concrete expressions used in the examples -/
abbrev Z : Expr ℚ := .var chars!"z"
/-- a literal -/
abbrev N (n : Int) : Expr ℚ := .real (n : ℚ)

/-! ## C01 Equals is reflexive -/

/-- **C01** `a.Equals(a)` returns true for every complete expression without `Undefined` whose
numbers compare equal to themselves (no NaN). -/
theorem C01_equals_refl (e : Expr K) (hc : e.Complete) (hu : e.NoUndef)
    (hn : e.AllNums (fun v => Num.beq v v = true)) : equals e e = .ok true :=
  equals_refl' hc hu hn

/-- The three hypotheses are needed: `Undefined`, NaN and a missing operand each break it. -/
theorem C01_sharp :
    equals (.undef : Expr K) .undef = .ok false ∧
    (∀ nan : K, Num.beq nan nan = false → equals (.real nan) (.real nan) = .ok false) ∧
    equals (.un .neg .absent : Expr K) (.un .neg .absent) = .error (.ub .nullDeref) := by
  refine ⟨?_, ?_, ?_⟩
  · rw [equals.eq_def]; simp [Expr.isAbsent]
  · intro nan h; rw [equals.eq_def]; simp [Expr.isAbsent, h]
  · rw [equals_un, if_pos rfl, equals.eq_def]; simp [Expr.isAbsent]

/-- non-vacuous: a nested expression with a matrix, `pi` and numbers meets the hypotheses -/
example : ∃ e : Expr ℚ, e = .add (.mul (N 2) (.pow X .pi)) (.sine (.mat ⟨1, 2, [3, 4]⟩)) ∧
    e.Complete ∧ e.NoUndef ∧ e.AllNums (fun v => Num.beq v v = true) := by
  refine ⟨_, rfl, ?_, ?_, ?_⟩ <;>
    simp [Expr.Complete, Expr.NoUndef, Expr.AllNums, Expr.Everywhere, Num.beq]

/-! ## C02 Equals is symmetric -/

/-- **C02 (counterexample)** `x + x` equals `x + y`, but not the other way round. -/
theorem C02_not_symmetric :
    equals (.add X X) (.add X Y) = .ok true ∧ equals (.add X Y) (.add X X) = .ok false := by
  decide +kernel

/-- **C02 (partial)** Symmetric on complete expressions in which no `Add`, `Multiply` or `Integral`
occurs.  Missing: it fails as soon as an associative node occurs (`C02_not_symmetric`). -/
theorem C02_equals_symm_partial (hr : ∀ v w : K, Num.beq v w = true → Num.beq w v = true)
    (e f : Expr K) (he : e.Complete) (hf : f.Complete) (hep : e.NoPi) (hfp : f.NoPi)
    (hea : e.NoAssoc) (h : equals e f = .ok true) : equals f e = .ok true := by
  have hs : ∀ {e f : Expr K}, e.SameUpTo (fun v w => Num.beq v w = true) f →
      f.SameUpTo (fun v w => Num.beq v w = true) e := by
    intro e f h
    induction h with
    | real h => exact .real (hr _ _ h)
    | mat h => exact .mat ((List.forall₂_iff_get.2
        ⟨h.length_eq.symm, fun i h1 h2 => hr _ _ ((List.forall₂_iff_get.1 h).2 i h2 h1)⟩))
    | un op _ ih => exact .un op ih
    | bin op _ _ ih1 ih2 => exact .bin op ih1 ih2
    | _ => constructor
  have tu : ∀ {e f : Expr K}, e.Complete → f.Complete → e.NoAssoc → equals e f = .ok true →
      e.NoUndef ∧ f.NoUndef := by
    intro e
    induction e with
    | undef => intro f _ _ _ h; rw [equals.eq_def] at h; cases f <;> simp [Expr.isAbsent] at h
    | absent => intro f hc; exact absurd rfl hc.here
    | un op a ih =>
      intro f hc hf ha h
      have t := equals_ty h
      cases f <;> simp only [Expr.ty, reduceCtorEq, Ty.un.injEq] at t
      subst t
      rw [equals_un, if_pos rfl] at h
      obtain ⟨h1, h2⟩ := ih hc.2 hf.2 ha.2 h
      exact ⟨⟨by simp, h1⟩, ⟨by simp, h2⟩⟩
    | bin op a b iha ihb =>
      intro f hc hf ha h
      have t := equals_ty h
      cases f <;> simp only [Expr.ty, reduceCtorEq, Ty.bin.injEq] at t
      subst t
      rw [equals_nonassoc_iff (noAssoc_op ha) hc.2.1 hc.2.2 hf.2.1 hf.2.2] at h
      obtain ⟨h1, h2⟩ := iha hc.2.1 hf.2.1 ha.2.1 h.1
      obtain ⟨h3, h4⟩ := ihb hc.2.2 hf.2.2 ha.2.2 h.2
      exact ⟨⟨by simp, h1, h3⟩, ⟨by simp, h2, h4⟩⟩
    | _ =>
      intro f hc hf ha h
      have t := equals_ty h
      cases f <;> simp only [Expr.ty, reduceCtorEq] at t <;>
        simp [Expr.NoUndef, Expr.Everywhere]
  obtain ⟨hu, hu'⟩ := tu he hf hea h
  have h' := hs ((equals_noAssoc_iff he hf hep hu hea).1 h)
  have hna : ∀ {e f : Expr K}, e.SameUpTo (fun v w => Num.beq v w = true) f → f.NoAssoc → e.NoAssoc := by
    intro e f h
    induction h with
    | un op _ ih => intro ha; exact ⟨by simp, ih ha.2⟩
    | bin op _ _ ih1 ih2 =>
      intro ha
      refine ⟨?_, ih1 ha.2.1, ih2 ha.2.2⟩
      have := noAssoc_op ha
      cases op <;> simp_all [BinOp.assoc]
    | _ => simp [Expr.NoAssoc, Expr.Everywhere]
  exact (equals_noAssoc_iff hf he hfp hu' (hna h' hea)).2 h'

/-- **C02 (supplement)** `Equals` is at least transitive, on all complete expressions without `pi`. -/
theorem C02_equals_trans
    (hr : ∀ u v w : K, Num.beq u v = true → Num.beq v w = true → Num.beq u w = true)
    (e f g : Expr K) (he : e.Complete) (hf : f.Complete) (hg : g.Complete) (hep : e.NoPi)
    (hfp : f.NoPi) (h1 : equals e f = .ok true) (h2 : equals f g = .ok true) :
    equals e g = .ok true :=
  equals_trans' hr _ e f g (Nat.le_refl _) he hf hg hep hfp h1 h2

example : equals (.add X Y) (.add (.add Y X) (.add Z X)) = .ok true ∧
    equals (.pow (.log (N 2) X) (.sine Y)) (.pow (.log (N 2) X) (.sine Y)) = .ok true := by
  decide +kernel

/-! ## C03 Equals ignores order and grouping of `+` and `*` -/

/-- **C03** Expressions that differ only by swapping and regrouping operands of `Add` and `Multiply`
nodes, anywhere in the tree, compare equal in both directions. -/
theorem C03_equals_of_rearrangement
    (hr : ∀ u v w : K, Num.beq u v = true → Num.beq v w = true → Num.beq u w = true)
    (e f : Expr K) (h : ACEq e f) (hc : e.Complete) (hp : e.NoPi) (hu : e.NoUndef)
    (hn : e.AllNums (fun v => Num.beq v v = true)) :
    equals e f = .ok true ∧ equals f e = .ok true :=
  equals_of_ACEq hr h hc hp hu hn

/-- **C03** Two sums (or products) whose operand lists are permutations of each other compare
equal. -/
theorem C03_equals_of_perm (op : BinOp) (ho : op = .add ∨ op = .mul) (a b c d : Expr K)
    (l m : List (Expr K)) (hl : Operands op (.bin op a b) l) (hm : Operands op (.bin op c d) m)
    (hlm : l.Perm m)
    (he : (Expr.bin op a b).Complete) (hf : (Expr.bin op c d).Complete)
    (hp : (Expr.bin op a b).NoPi) (hu : (Expr.bin op a b).NoUndef)
    (hn : (Expr.bin op a b).AllNums (fun v => Num.beq v v = true)) :
    equals (.bin op a b) (.bin op c d) = .ok true := by
  have ho' : op.assoc = true := by rcases ho with rfl | rfl <;> rfl
  rw [equals_assoc_iff ho' he.2.1 he.2.2 hp.2.1 hp.2.2 hf.2.1 hf.2.2]
  intro x hx
  have h1 := hl.eq_flatOp
  have h2 := hm.eq_flatOp
  simp only [flatOp, if_true] at h1 h2
  refine ⟨x, ?_, equals_refl' (flatten_everywhere op he.2.1 he.2.2 x hx)
    (flatten_everywhere op hu.2.1 hu.2.2 x hx) (flatten_everywhere op hn.2.1 hn.2.2 x hx)⟩
  simp only [flatten] at hx ⊢
  rw [← h2]; rw [← h1] at hx
  exact hlm.subset hx

example : ACEq (.add (.mul X Y) (.add (N 1) Z)) (.add (.add Z (N 1)) (.mul Y X)) :=
  .trans (.comm _ _ _ (.inl rfl)) (.bin _ (.comm _ _ _ (.inl rfl)) (.comm _ _ _ (.inr rfl)))

/-- `pi` is excluded for a reason: reordering a sum that contains it makes `Equals` throw. -/
theorem C03_pi_throws : ACEq (.add X .pi) (.add .pi X) ∧
    equals (.add .pi X) (.add X .pi) = .error (.exn .badCast) :=
  ⟨.comm _ _ _ (.inl rfl), by decide +kernel⟩

/-! ## C04 Equals implies equal value -/

/-- **C04 (counterexamples)** `Equals` holds between expressions of different value: it only checks
that every operand on the left occurs on the right; and an `Integral` may exchange its operands. -/
theorem C04_not_value_equal :
    equals (.add X Y) (.add (.add X Y) Z) = .ok true ∧
    equals (.mul X X) (.mul X (.mul X X)) = .ok true ∧
    equals (.integ X Y) (.integ Y X) = .ok true := by
  decide +kernel

/-- **C04 (partial)** On trees without `Add`, `Multiply`, `Integral` (and without `pi`, `Undefined`)
`Equals` holds exactly between trees that are identical up to `==` on numbers.  Missing: associative
nodes, where the claim is false (`C04_not_value_equal`). -/
theorem C04_equals_iff_same_partial (e f : Expr K) (hc : e.Complete) (hf : f.Complete)
    (hp : e.NoPi) (hu : e.NoUndef) (ha : e.NoAssoc) :
    equals e f = .ok true ↔ e.SameUpTo (fun v w => Num.beq v w = true) f :=
  equals_noAssoc_iff hc hf hp hu ha

/-- **C04 (supplement)** What `Equals` does guarantee for all expressions: every variable of the left
side occurs on the right. -/
theorem C04_equals_vars (e f : Expr K) (h : equals e f = .ok true) : ∀ n ∈ e.vars, n ∈ f.vars :=
  equals_vars' _ e f (Nat.le_refl _) h

example : (.pow (.log (N 2) X) (.sub Y (N 3)) : Expr ℚ).NoAssoc := by
  simp [Expr.NoAssoc, Expr.Everywhere]

/-! ## C05 Equals returns normally -/

/-- **C05 (partial)** `Equals` returns a bool for complete arguments when `pi` does not occur on the
left.  Missing: with `pi` on the left it throws (`C05_pi_throws`). -/
theorem C05_equals_ok_partial (e f : Expr K) (he : e.Complete) (hp : e.NoPi) (hf : f.Complete) :
    ∃ b, equals e f = .ok b :=
  equals_ok _ e f (Nat.le_refl _) he hp hf

/-- **C05 (counterexample)** `Pi.Equals(e)` throws `std::bad_cast` for every `e` that is not `Pi`. -/
theorem C05_pi_throws (e : Expr K) (h : e ≠ .pi) (hc : e.Complete) :
    equals .pi e = .error (.exn .badCast) := by
  have := hc.here
  rw [equals.eq_def]
  cases e <;> simp_all [Expr.isAbsent]

example : (.add X (.un .mag .imag) : Expr ℚ).Complete ∧ (.add X (.un .mag .imag) : Expr ℚ).NoPi := by
  simp [Expr.Complete, Expr.NoPi, Expr.Everywhere]

/-! ## C06 StructurallyEquivalent is an equivalence relation -/

omit [Num K] in
/-- **C06** reflexive, symmetric, transitive on complete expressions; independent of leaf contents. -/
theorem C06_structurally_equivalent :
    (∀ e : Expr K, structEq e e = true) ∧
    (∀ e f : Expr K, structEq e f = true → structEq f e = true) ∧
    (∀ e f g : Expr K, e.Complete → f.Complete → g.Complete →
      structEq e f = true → structEq f g = true → structEq e g = true) ∧
    (∀ (onNum : K → K) (onName : Str → Str) (onMat : Mat K → Mat K) (e f : Expr K),
      structEq (e.relabel onNum onName onMat) f = structEq e f) := by
  refine ⟨structEq_refl, fun e f h => by rw [structEq_symm]; exact h, ?_, ?_⟩
  · intro e f g he hf hg
    exact structEq_trans ((Expr.complete_iff e).1 he) ((Expr.complete_iff f).1 hf)
      ((Expr.complete_iff g).1 hg)
  · intro onNum onName onMat e
    induction e with
    | bin op a b iha ihb =>
      intro f
      have na : ∀ x : Expr K, (x.relabel onNum onName onMat).isAbsent = x.isAbsent := by
        intro x; cases x <;> rfl
      cases f <;> simp [structEq, Expr.relabel, iha, ihb, na, Expr.ty]
    | _ => intro f; cases f <;> simp [structEq, Expr.relabel, Expr.ty]

/-- Completeness is needed for transitivity: a node with missing operands is equivalent to every node
of its type. -/
theorem C06_sharp :
    structEq (.add X (N 1)) (.add .absent .absent) = true ∧
    structEq (.add .absent .absent) (.add (N 1) X) = true ∧
    structEq (.add X (N 1)) (.add (N 1) X) = false := by
  decide +kernel

example : structEq (.add (.mul X (N 2)) Y) (.add (.mul Z (N 7)) X) = true ∧
    structEq (.add (.mul X (N 2)) Y) (.add (.mul X Y) Y) = false := by decide +kernel

/-! ## C07 BuildFromVector -/

omit [Num K] in
/-- **C07** Null exactly for fewer than two operands; otherwise a node of the requested type whose
operands are those of the inputs in order, with the folded value under every associative
interpretation of the operator. -/
theorem C07_build (op : BinOp) (l : List (Expr K)) :
    (build op l = none ↔ l.length < 2) ∧
    ∀ t, build op l = some t →
      (∃ a b, t = .bin op a b) ∧
      (∀ ls : List (List (Expr K)), List.Forall₂ (Operands op) l ls → Operands op t ls.flatten) ∧
      ∀ (α : Type) (val : Expr K → α) (f : α → α → α), (∀ a b c, f (f a b) c = f a (f b c)) →
        (∀ a b, val (.bin op a b) = f (val a) (val b)) →
        ∀ x xs, l = x :: xs → val t = (xs.map val).foldl f (val x) := by
  refine ⟨build_none_iff op l, fun t h => ⟨build_isBin h, ?_, ?_⟩⟩
  · intro ls hls
    have h1 := build_induct (op := op) (t := t)
      (P := fun m => m.flatMap (flatOp op) = l.flatMap (flatOp op))
      (by intro a b rest h; rw [pairUp_flat]; exact h) h rfl
    have h2 : ls.flatten = l.flatMap (flatOp op) := by
      clear h h1
      induction hls with
      | nil => rfl
      | cons hx _ ih => simp [List.flatMap_cons, ih, hx.eq_flatOp]
    rw [h2, ← h1]
    simpa using operands_flatOp op t
  · intro α val f ha hv x xs hl
    subst hl
    have h1 := build_induct (op := op) (t := t)
      (P := fun m => ∃ y ys, m = y :: ys ∧
        (ys.map val).foldl f (val y) = (xs.map val).foldl f (val x))
      (by
        rintro a b rest ⟨y, ys, hm, h⟩
        simp only [List.cons.injEq] at hm
        obtain ⟨rfl, rfl⟩ := hm
        refine ⟨_, _, rfl, ?_⟩
        rw [← h, pairUp_fold op val f ha hv, hv]; rfl)
      h ⟨x, xs, rfl, rfl⟩
    obtain ⟨y, ys, hm, h⟩ := h1
    simp only [List.cons.injEq] at hm
    obtain ⟨rfl, rfl⟩ := hm
    simpa using h

example : build .add [X, .mul X Y, .add Y Z] =
    some (.add (.add X (.mul X Y)) (.add Y Z)) := by decide +kernel

/-! ## C08 BuildFromVector is balanced -/

omit [Num K] in
/-- **C08** If all operands have depth at most `d`, the built tree has depth at most
`d + ⌈log₂ n⌉`. -/
theorem C08_build_balanced (op : BinOp) (l : List (Expr K)) (t : Expr K) (d : Nat)
    (h : build op l = some t) (hd : ∀ x ∈ l, x.depth ≤ d) :
    t.depth ≤ d + Nat.clog 2 l.length :=
  build_depth d h hd

example : ∃ t, build .mul [X, Y, Z, X, Y] = some t ∧ t.depth = 3 ∧ Nat.clog 2 5 = 3 :=
  ⟨_, rfl, by decide +kernel, by decide +kernel⟩

/-! ## C09 Flatten -/

omit [Num K] in
/-- **C09** `Flatten` of an `op` node returns the operands of the maximal chain of `op` at the root, and
nothing else is such a list; no element is an `op` node or missing; there are at least two elements if
the node is complete; and the folded value is unchanged under every associative interpretation. -/
theorem C09_flatten (op : BinOp) (a b : Expr K) :
    (∀ l, Operands op (.bin op a b) l ↔ l = flatten op a b) ∧
    (∀ x ∈ flatten op a b, x ≠ .absent ∧ ∀ c d, x ≠ .bin op c d) ∧
    ((Expr.bin op a b).Complete → 2 ≤ (flatten op a b).length) ∧
    ∀ (α : Type) (val : Expr K → α) (f : α → α → α), (∀ a b c, f (f a b) c = f a (f b c)) →
      (∀ a b, val (.bin op a b) = f (val a) (val b)) → (Expr.bin op a b).Complete →
      ∃ x xs, flatten op a b = x :: xs ∧ val (.bin op a b) = (xs.map val).foldl f (val x) := by
  have hfl : flatOp op (.bin op a b) = flatten op a b := by simp [flatOp, flatten]
  refine ⟨fun l => ⟨fun h => ?_, fun h => ?_⟩, ?_, ?_, ?_⟩
  · rw [h.eq_flatOp, hfl]
  · rw [h, ← hfl]; exact operands_flatOp op _
  · intro x hx; rw [← hfl] at hx
    exact ⟨flatOp_ne_absent op x hx, flatOp_ne_bin op x hx⟩
  · intro h
    have h1 := flatOp_ne_nil op ((Expr.complete_iff a).1 h.2.1)
    have h2 := flatOp_ne_nil op ((Expr.complete_iff b).1 h.2.2)
    have := List.length_pos_iff.2 h1
    have := List.length_pos_iff.2 h2
    simp only [flatten, List.length_append]; omega
  · intro α val f ha hv hc
    have fold_assoc : ∀ (l : List α) (x y : α), f x (l.foldl f y) = l.foldl f (f x y) := by
      intro l
      induction l with
      | nil => intros; rfl
      | cons z l ih => intro x y; simp only [List.foldl_cons, ih, ha]
    have key : ∀ e : Expr K, e.Complete →
        ∃ x xs, flatOp op e = x :: xs ∧ val e = (xs.map val).foldl f (val x) := by
      intro e
      induction e with
      | bin op' a b iha ihb =>
        intro hc'
        simp only [flatOp]
        split
        · rename_i ho; subst ho
          obtain ⟨x, xs, h1, h2⟩ := iha hc'.2.1
          obtain ⟨y, ys, h3, h4⟩ := ihb hc'.2.2
          refine ⟨x, xs ++ y :: ys, by rw [h1, h3]; rfl, ?_⟩
          rw [hv, h2, h4, List.map_append, List.foldl_append, List.map_cons, List.foldl_cons,
            fold_assoc]
        · exact ⟨_, [], rfl, rfl⟩
      | absent => intro hc; exact absurd rfl hc.here
      | _ => intro _; exact ⟨_, [], rfl, rfl⟩
    obtain ⟨x, xs, h1, h2⟩ := key _ hc
    exact ⟨x, xs, by rw [← hfl, h1], h2⟩

example : flatten .add (.add X (.mul X (.add Y Z))) (.add Y Z) = [X, .mul X (.add Y Z), Y, Z] := by
  decide +kernel

/-! ## C10 RecursiveCast -/

omit [Num K] in
/-- **C10** `RecursiveCast<T>(e)` succeeds exactly when some reordering of operands of commutative
nodes of `e` has shape `T`; a result has shape `T` and is such a reordering; if `T` mentions no
`Integral` the result is a rearrangement of `e` in the sense of C03; and `Expression` matches anything
unchanged. -/
theorem C10_cast (p : Pat) (e : Expr K) :
    ((∃ r, cast p e = some r) ↔ ∃ e', Reordered e e' ∧ HasShape p e') ∧
    (∀ r, cast p e = some r → HasShape p r ∧ Reordered e r ∧ (p.NoInteg → ACEq e r)) ∧
    cast .any e = some e := by
  refine ⟨⟨fun ⟨r, h⟩ => ?_, fun ⟨e', h1, h2⟩ => cast_complete p e e' h1 h2⟩, fun r h => ?_, ?_⟩
  · obtain ⟨h1, h2⟩ := cast_sound p e r h; exact ⟨r, h2, h1⟩
  · obtain ⟨h1, h2⟩ := cast_sound p e r h
    exact ⟨h1, h2, fun hp => cast_ACEq p hp e r h⟩
  · simp [cast]

example : cast (.bin .add (.bin .mul .real .any) .var) (.add X (.mul (.sine Y) (N 2))) =
    some (.add (.mul (N 2) (.sine Y)) X) := by decide +kernel

/-! ## C11 Casting an Integral never exchanges integrand and variable -/

/-- **C11 (counterexample)** The integral of `x` with respect to `2` is accepted as an
`Integral<Real, Variable>`: integrand and variable are exchanged. -/
theorem C11_integral_swapped :
    cast (.bin .integ .real .var) (.integ X (N 2)) = some (.integ (N 2) X) := by
  decide +kernel

omit [Num K] in
/-- **C11 (partial)** The operands are kept in place when they match in place, and for every node type
other than `Add`, `Multiply` and `Integral` they are never exchanged.  Missing: an `Integral` whose
operands match only in the other order (`C11_integral_swapped`). -/
theorem C11_order_kept_partial (op : BinOp) (p q : Pat) (a b r : Expr K)
    (h : cast (.bin op p q) (.bin op a b) = some r)
    (hop : (op ≠ .add ∧ op ≠ .mul ∧ op ≠ .integ) ∨ ((∃ a', cast p a = some a') ∧ ∃ b', cast q b = some b')) :
    ∃ a' b', r = .bin op a' b' ∧ cast p a = some a' ∧ cast q b = some b' := by
  simp only [cast, if_true] at h
  split at h
  · rename_i a' b' ha hb; simp at h; exact ⟨a', b', h.symm, ha, hb⟩
  · rename_i hno
    rcases hop with hop | ⟨⟨a', ha⟩, b', hb⟩
    · have : op.comm = false := by cases op <;> simp_all [BinOp.comm]
      simp [this] at h
    · exact absurd hb (hno _ _ ha)

example : cast (.bin .integ .any .var) (.integ (.sine X) X) = some (.integ (.sine X) X) := by
  decide +kernel

end Props
end Oasis
