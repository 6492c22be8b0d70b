import Verif.Proofs.RenameDiff
import Verif.Proofs.Build
import Verif.Model.Poly
import Verif.Model.Linear

/-!
# Renaming: zeros of polynomials and linear systems
-/

set_option linter.unusedSectionVars false
set_option linter.unusedVariables false
set_option linter.unusedSimpArgs false

namespace Oasis.Rn
open Oasis Expr
variable {K : Type} [Num K] {f : Str → Str}

/-! ### Polynomials -/

theorem ren_polyTerm (e : Expr K) : polyTerm (e.ren f) =
    ((polyTerm e).1.ren f, (polyTerm e).2.1.map f, (polyTerm e).2.2) := by
  have h1 := ren_cast (f := f) (.bin .pow .var .real) e
  have h2 := ren_cast (f := f) (.bin .mul .any .var) e
  have h3 := ren_cast (f := f) (.bin .mul .any (.bin .pow .var .real)) e
  have h4 := ren_cast (f := f) (.bin .div .any .var) e
  have h5 := ren_cast (f := f) (.bin .div .any (.bin .pow .var .real)) e
  have s1 := cast_sound (.bin .pow .var .real) e
  have s2 := cast_sound (.bin .mul .any .var) e
  have s3 := cast_sound (.bin .mul .any (.bin .pow .var .real)) e
  have s4 := cast_sound (.bin .div .any .var) e
  have s5 := cast_sound (.bin .div .any (.bin .pow .var .real)) e
  by_cases hv : ∃ x, e = .var x
  · obtain ⟨x, rfl⟩ := hv
    rfl
  have u : ∀ g : Expr K, (¬ ∃ x, g = .var x) → polyTerm g =
      match cast (.bin .pow .var .real) g with
      | some (.bin .pow (.var x) (.real p)) => (.real Num.one, some x, p)
      | _ =>
      match cast (.bin .mul .any .var) g with
      | some (.bin .mul c (.var x)) => (c, some x, Num.one)
      | _ =>
      match cast (.bin .mul .any (.bin .pow .var .real)) g with
      | some (.bin .mul c (.bin .pow (.var x) (.real p))) => (c, some x, p)
      | _ =>
      match cast (.bin .div .any .var) g with
      | some (.bin .div c (.var x)) => (c, some x, Num.negOne)
      | _ =>
      match cast (.bin .div .any (.bin .pow .var .real)) g with
      | some (.bin .div c (.bin .pow (.var x) (.real p))) => (c, some x, Num.neg p)
      | _ => (g, none, Num.zero) := by
    intro g hg
    cases g <;> first | rfl | exact absurd ⟨_, rfl⟩ hg
  rw [u _ hv, u (e.ren f) (by
    rintro ⟨x, hx⟩
    obtain ⟨m, rfl, -⟩ := ren_eq_var.1 hx
    exact hv ⟨m, rfl⟩), h1, h2, h3, h4, h5]
  rcases c1 : cast (.bin .pow .var .real) e with _ | t
  on_goal 2 =>
    obtain ⟨sh, -⟩ := s1 t c1
    cases t <;> simp [HasShape] at sh
    rename_i op a b
    obtain ⟨rfl, ha, hb⟩ := sh
    cases a <;> simp [HasShape] at ha
    cases b <;> simp [HasShape] at hb
    rfl
  rcases c2 : cast (.bin .mul .any .var) e with _ | t
  on_goal 2 =>
    obtain ⟨sh, -⟩ := s2 t c2
    cases t <;> simp [HasShape] at sh
    rename_i op a b
    obtain ⟨rfl, hb⟩ := sh
    cases b <;> simp [HasShape] at hb
    rfl
  rcases c3 : cast (.bin .mul .any (.bin .pow .var .real)) e with _ | t
  on_goal 2 =>
    obtain ⟨sh, -⟩ := s3 t c3
    cases t <;> simp [HasShape] at sh
    rename_i op a b
    obtain ⟨rfl, hb⟩ := sh
    cases b <;> simp [HasShape] at hb
    rename_i op b c
    obtain ⟨rfl, hb, hc⟩ := hb
    cases b <;> simp [HasShape] at hb
    cases c <;> simp [HasShape] at hc
    rfl
  rcases c4 : cast (.bin .div .any .var) e with _ | t
  on_goal 2 =>
    obtain ⟨sh, -⟩ := s4 t c4
    cases t <;> simp [HasShape] at sh
    rename_i op a b
    obtain ⟨rfl, hb⟩ := sh
    cases b <;> simp [HasShape] at hb
    rfl
  rcases c5 : cast (.bin .div .any (.bin .pow .var .real)) e with _ | t
  on_goal 2 =>
    obtain ⟨sh, -⟩ := s5 t c5
    cases t <;> simp [HasShape] at sh
    rename_i op a b
    obtain ⟨rfl, hb⟩ := sh
    cases b <;> simp [HasShape] at hb
    rename_i op b c
    obtain ⟨rfl, hb, hc⟩ := hb
    cases b <;> simp [HasShape] at hb
    cases c <;> simp [HasShape] at hc
    rfl
  rfl

theorem ren_addCoeff (k : Nat) (c : Expr K) (pos : List (Expr K)) :
    addCoeff k (c.ren f) (pos.map (Expr.ren f)) = (addCoeff k c pos).map (Expr.ren f) := by
  have h : pos.map (Expr.ren f) ++ List.replicate (k + 1 - pos.length) (Expr.real Num.zero) =
      (pos ++ List.replicate (k + 1 - pos.length) (Expr.real Num.zero)).map (Expr.ren f) := by
    simp [Expr.ren]
  simp only [addCoeff, List.length_map, h]
  generalize pos ++ List.replicate (k + 1 - pos.length) (Expr.real Num.zero) = l
  rw [List.map_set]
  congr 1
  simp only [Expr.ren, List.getD_eq_getElem?_getD, List.getElem?_map]
  cases l[k]? <;> rfl

theorem ren_polyStep (hf : Renaming f) (h0 : f [] = []) (name : Str) (pos : List (Expr K)) (e : Expr K) :
    polyStep (f name) (pos.map (Expr.ren f)) (e.ren f) =
      (polyStep name pos e).map (Option.map (Prod.map f (List.map (Expr.ren f)))) := by
  have key : ∀ n m, (f n = f m) = (n = m) := fun n m => propext ⟨hf.inj _ _, congrArg f⟩
  have key0 : ∀ n, (f n = []) = (n = []) := fun n => by
    have := key n []
    rwa [h0] at this
  simp only [polyStep, ren_polyTerm]
  obtain ⟨c, x, p⟩ := polyTerm e
  have e1 : (x.map f).getD (f name) = f (x.getD name) := by cases x <;> rfl
  have e2 : (if f name = [] then f (x.getD name) else f name) =
      f (if name = [] then x.getD name else name) := by
    simp only [key0]; split <;> rfl
  simp only [e1, e2, ne_eq, key, ren_addCoeff]
  generalize (if name = [] then x.getD name else name) = y
  split
  · rfl
  · split <;> rfl

theorem ren_polyLoop (hf : Renaming f) (h0 : f [] = []) : ∀ (l : List (Expr K)) (name : Str)
    (pos : List (Expr K)),
    polyLoop (f name) (pos.map (Expr.ren f)) (l.map (Expr.ren f)) =
      (polyLoop name pos l).map (Option.map (List.map (Expr.ren f)))
  | [], _, _ => rfl
  | e :: es, name, pos => by
    simp only [List.map_cons, polyLoop, ren_polyStep hf h0]
    rcases polyStep name pos e with _ | _ | ⟨name', pos'⟩
    · rfl
    · rfl
    · exact ren_polyLoop hf h0 es name' pos'

theorem ren_polyTerms (e : Expr K) : polyTerms (e.ren f) = (polyTerms e).map (Expr.ren f) := by
  cases e with
  | bin op a b => cases op <;> first | rfl | exact ren_flatten .add a b
  | _ => rfl

theorem ren_dropZeroTail (l : List (Expr K)) :
    dropZeroTail (l.map (Expr.ren f)) = (dropZeroTail l).map (Expr.ren f) := by
  have h : (isZeroReal ∘ Expr.ren f : Expr K → Bool) = isZeroReal := by
    funext e; cases e <;> rfl
  simp only [dropZeroTail, ← List.map_reverse, List.dropWhile_map, h]

theorem ren_intCoeffs : ∀ l : List (Expr K), intCoeffs (l.map (Expr.ren f)) = intCoeffs l
  | [] => rfl
  | e :: es => by
    have ih := ren_intCoeffs es
    cases e <;> simp only [List.map_cons, Expr.ren, intCoeffs, ih]

theorem R_simpAll (hf : Renaming f) (n : Nat) : ∀ l : List (Expr K),
    Sim f (List.map (Expr.ren f)) (simpAll n l) (simpAll n (l.map (Expr.ren f)))
  | [] => Sim.pure rfl
  | e :: es => Sim.bind (Sim.value ((recR_run hf n).simp rfl)) fun _ =>
      Sim.bind (R_simpAll hf n es) fun _ => Sim.pure rfl

theorem R_solveSmall (hf : Renaming f) (n : Nat) (l : List (Expr K)) :
    Sim f (List.map (Expr.ren f)) (solveSmall n l) (solveSmall n (l.map (Expr.ren f))) := by
  have rl : RecR f (run n : Rec K) := recR_run hf n
  rcases l with _ | ⟨c, _ | ⟨b, _ | ⟨a, _ | ⟨d, l⟩⟩⟩⟩
  · exact Sim.pure rfl
  · exact Sim.pure rfl
  · exact Sim.bind (Sim.value (rl.simp rfl)) fun _ => Sim.pure rfl
  · exact Sim.bind (Sim.value (rl.simp rfl)) fun _ => Sim.bind (Sim.value (rl.simp rfl)) fun _ =>
      Sim.bind (Sim.value (rl.simp rfl)) fun _ => Sim.pure rfl
  · exact Sim.pure rfl

/-- trees without names are not changed -/
theorem Sim.liftMap {α β : Type} {φ : α → β} {x : Except Fail α} {y : Except Fail β} (h : y = x.map φ) :
    Sim f φ (M.lift x : M K α) (M.lift y) := by
  subst h; rfl

theorem ren_divideOut (p q : Int) : ∀ (n : Nat) (b : Bool) (t : List Int) (rs : List (Expr K)),
    divideOut p q n b t (rs.map (Expr.ren f)) =
      (divideOut p q n b t rs).map (Prod.map id (List.map (Expr.ren f)))
  | 0, _, _, _ => rfl
  | n + 1, b, t, rs => by
    have e : (if b = true then rs.map (Expr.ren f) ++ [Expr.div (.real (Num.ofInt p)) (.real (Num.ofInt q))]
        else rs.map (Expr.ren f)) = (if b = true then rs ++ [Expr.div (.real (Num.ofInt p)) (.real (Num.ofInt q))]
        else rs).map (Expr.ren f) := by
      split
      · simp [Expr.ren]
      · rfl
    simp only [divideOut, e]
    generalize (if b = true then rs ++ [Expr.div (.real (Num.ofInt p)) (.real (Num.ofInt q))] else rs) = rs'
    cases horner p q 0 t with
    | error e => rfl
    | ok nt =>
      simp only [bind, Except.bind]
      split
      · cases popZeros nt with
        | error e => rfl
        | ok t' =>
          simp only
          split
          · rfl
          · exact ren_divideOut p q n false t' rs'
      · rfl

theorem ren_tryPair (p q : Int) (t : List Int) (rs : List (Expr K)) :
    tryPair p q t (rs.map (Expr.ren f)) =
      (tryPair p q t rs).map (Prod.map id (List.map (Expr.ren f))) := by
  simp only [tryPair]
  cases gcf p q with
  | error e => rfl
  | ok g =>
    simp only [bind, Except.bind]
    split
    · cases ll (-p) with
      | error e => rfl
      | ok mp =>
        simp only [ren_divideOut]
        cases divideOut mp q (t.length + 1) true t rs with
        | error e => rfl
        | ok s => exact ren_divideOut p q _ true s.1 s.2
    · rfl

theorem ren_tryQs (p : Int) : ∀ (qs t : List Int) (rs : List (Expr K)),
    tryQs p qs t (rs.map (Expr.ren f)) =
      (tryQs p qs t rs).map (Prod.map id (List.map (Expr.ren f)))
  | [], _, _ => rfl
  | q :: qs, t, rs => by
    simp only [tryQs, ren_tryPair]
    cases tryPair p q t rs with
    | error e => rfl
    | ok s =>
      simp only [bind, Except.bind, Except.map, Prod.map, id]
      split
      · rfl
      · exact ren_tryQs p qs s.1 s.2

theorem ren_tryPs : ∀ (ps t : List Int) (rs : List (Expr K)),
    tryPs ps t (rs.map (Expr.ren f)) =
      (tryPs ps t rs).map (Prod.map id (List.map (Expr.ren f)))
  | [], _, _ => rfl
  | p :: ps, [], rs => rfl
  | p :: ps, lead :: t, rs => by
    simp only [tryPs, ren_tryQs]
    cases getAllFactors lead with
    | error e => rfl
    | ok qs =>
      simp only [bind, Except.bind]
      cases tryQs p qs (lead :: t) rs with
      | error e => rfl
      | ok s =>
        simp only [Except.map, Prod.map, id]
        split
        · rfl
        · exact ren_tryPs ps s.1 s.2

theorem ren_rationalRoots (cs : List Int) : (rationalRoots cs : Except Fail (List Int × List (Expr K))) =
    (rationalRoots cs).map (Prod.map id (List.map (Expr.ren f))) := by
  cases cs with
  | nil => rfl
  | cons c cs =>
    simp only [rationalRoots]
    cases getAllFactors c with
    | error e => rfl
    | ok ps =>
      have := ren_tryPs (f := f) (K := K) ps (c :: cs).reverse []
      simp only [List.map_nil] at this
      simp only [bind, Except.bind]
      rcases h : tryPs ps (c :: cs).reverse ([] : List (Expr K)) with e | s
      · rfl
      · rw [h] at this
        simp only [Except.map, Except.ok.injEq] at this
        simp only [pure, Except.pure, Except.map, Prod.map, id, Except.ok.injEq, Prod.mk.injEq, true_and]
        exact congrArg Prod.snd this

theorem R_findZeros (hf : Renaming f) (h0 : f [] = []) (n : Nat) (e : Expr K) :
    Sim f (List.map (Expr.ren f)) (findZeros n e) (findZeros n (e.ren f)) := by
  refine Sim.bindI (R_present rfl) fun _ => ?_
  have hl := ren_polyLoop hf h0 (polyTerms e) [] []
  rw [h0, List.map_nil, ← ren_polyTerms] at hl
  refine Sim.bind (Sim.liftMap hl) ?_
  rintro (_ | pos)
  · exact Sim.pure rfl
  simp only [Option.map_some, ren_dropZeroTail]
  refine Sim.bind (R_simpAll hf n _) fun cs => ?_
  simp only [List.length_map, ren_intCoeffs]
  refine Sim.ite (fun _ => Sim.pure rfl) fun _ => ?_
  cases intCoeffs cs with
  | none => exact R_solveSmall hf n cs
  | some cs =>
    refine Sim.bind (Sim.liftMap (ren_rationalRoots (f := f) cs)) ?_
    rintro ⟨left, rs⟩
    have := R_solveSmall hf n (left.map fun c => (.real (Num.ofInt c) : Expr K))
    rw [List.map_map] at this
    refine Sim.bind this fun more => Sim.pure ?_
    simp

/-! ### Linear systems -/

open Linear

/-- the renamed state -/
def stRen (f : Str → Str) (s : Linear.State K) : Linear.State K :=
  { s with vars := s.vars.map (Prod.map f id) }

theorem ren_find (hf : Renaming f) {α : Type} (key : Str) (m : List (Str × α)) :
    find (f key) (m.map (Prod.map f id)) = find key m := by
  induction m with
  | nil => rfl
  | cons p m ih =>
    have e : (f p.1 = f key) = (p.1 = key) := propext ⟨hf.inj _ _, congrArg f⟩
    obtain ⟨k, v⟩ := p
    simp only [List.map_cons, Prod.map, find, ih, id]
    simp only at e
    simp only [e]

theorem ren_putVar (hf : Renaming f) (s : Linear.State K) (row : Nat) (name : Str) (v : K) :
    putVar (stRen f s) row (f name) v = (putVar s row name v).map (stRen f) := by
  have hg : getMapValue (s.vars.map (Prod.map f id)) (f name) s.varCount =
      ((getMapValue s.vars name s.varCount).1, (getMapValue s.vars name s.varCount).2.map (Prod.map f id)) := by
    simp only [getMapValue, ren_find hf]
    cases find name s.vars with
    | some c => rfl
    | none => simp
  simp only [putVar, stRen, hg]
  rcases getMapValue s.vars name s.varCount with ⟨⟨col, isNew⟩, vars⟩
  simp only
  cases setEntry s.A row col v <;> rfl

theorem ren_putTerm (hf : Renaming f) (row : Nat) (s : Linear.State K) (t : Expr K) :
    putTerm row (stRen f s) (t.ren f) = (putTerm row s t).map (stRen f) := by
  cases t with
  | var x => exact ren_putVar hf s row x Num.one
  | real r => rfl
  | bin op a b =>
    have h := ren_cast (f := f) (.bin .mul .real .var) (.bin op a b)
    have sh := cast_sound (.bin .mul .real .var) (.bin op a b)
    have u : ∀ (s : Linear.State K) (a b : Expr K), putTerm row s (.bin op a b) =
        match cast (.bin .mul .real .var) (.bin op a b) with
        | some (.bin .mul (.real c) (.var x)) => putVar s row x c
        | _ => .ok s := fun _ _ _ => rfl
    simp only [Expr.ren] at h
    simp only [Expr.ren, u, h]
    generalize cast (.bin .mul .real .var) (.bin op a b) = c at sh ⊢
    rcases c with _ | t
    · rfl
    · obtain ⟨sh, -⟩ := sh t rfl
      obtain ⟨_, _, rfl, ⟨v, rfl⟩, x, rfl⟩ := sh
      exact ren_putVar hf s row _ _
  | _ => rfl

theorem ren_putTerms (hf : Renaming f) (row : Nat) : ∀ (ts : List (Expr K)) (s : Linear.State K),
    putTerms row (ts.map (Expr.ren f)) (stRen f s) = (putTerms row ts s).map (stRen f)
  | [], _ => rfl
  | t :: ts, s => by
    simp only [List.map_cons, putTerms, ren_putTerm hf]
    cases putTerm row s t with
    | error e => rfl
    | ok s' => exact ren_putTerms hf row ts s'

theorem ren_putEquation (hf : Renaming f) (row : Nat) (s : Linear.State K) (e : Expr K) :
    putEquation row (stRen f s) (e.ren f) = (putEquation row s e).map (stRen f) := by
  have sh := cast_sound (.bin .add .any .any) e
  simp only [putEquation, ren_isAbsent, ren_cast]
  generalize cast (.bin .add .any .any) e = c at sh ⊢
  split
  · rfl
  rcases c with _ | t
  · rfl
  · obtain ⟨sh, -⟩ := sh t rfl
    cases t <;> simp [HasShape] at sh
    subst sh
    simp only [Option.map_some, Expr.ren, ren_flatten, ren_putTerms hf]

theorem ren_putEquations (hf : Renaming f) : ∀ (es : List (Expr K)) (row : Nat) (s : Linear.State K),
    putEquations row (es.map (Expr.ren f)) (stRen f s) = (putEquations row es s).map (stRen f)
  | [], _, _ => rfl
  | e :: es, row, s => by
    simp only [List.map_cons, putEquations, ren_putEquation hf]
    cases putEquation row s e with
    | error e => rfl
    | ok s' => exact ren_putEquations hf es (row + 1) s'

theorem ren_readBack (x : List K) : ∀ m : List (Str × Nat),
    readBack x (m.map (Prod.map f id)) = (readBack x m).map (List.map (Prod.map f id))
  | [] => rfl
  | (k, i) :: m => by
    have ih := ren_readBack x m
    show (match x[i]?, readBack x (m.map (Prod.map f id)) with
      | some v, .ok r => .ok ((f k, v) :: r)
      | _, .error e => .error e
      | none, _ => .error (.ub .outOfBounds)) = Except.map _ (match x[i]?, readBack x m with
      | some v, .ok r => .ok ((k, v) :: r)
      | _, .error e => .error e
      | none, _ => .error (.ub .outOfBounds))
    rw [ih]
    cases x[i]? <;> cases readBack x m <;> rfl

theorem ren_solveSimplified (hf : Renaming f) (es : List (Expr K)) :
    solveSimplified (es.map (Expr.ren f)) =
      (solveSimplified es).map (List.map (Prod.map f id)) := by
  have h := ren_putEquations hf es 0
    ⟨Mat.ofFn es.length es.length fun _ _ => Num.zero, List.replicate es.length Num.zero, 0, []⟩
  simp only [solveSimplified, constructMatrices, List.length_map]
  simp only [stRen, List.map_nil] at h
  rw [h]
  generalize putEquations 0 es _ = r
  cases r with
  | error e => rfl
  | ok s =>
    show (match solveAb s.A s.b with
      | .error e => .error e
      | .ok x => readBack x (s.vars.map (Prod.map f id))) = Except.map _ (match solveAb s.A s.b with
      | .error e => .error e
      | .ok x => readBack x s.vars)
    cases solveAb s.A s.b with
    | error e => rfl
    | ok x => exact ren_readBack x s.vars

theorem R_simplifyAll (hf : Renaming f) (n : Nat) : ∀ l : List (Expr K),
    Sim f (List.map (Expr.ren f)) (simplifyAll n l) (simplifyAll n (l.map (Expr.ren f)))
  | [] => Sim.pure rfl
  | e :: es => by
    simp only [List.map_cons, simplifyAll, ren_isAbsent]
    exact Sim.ite (fun _ => Sim.fail) fun _ => Sim.bind (Sim.value ((recR_run hf n).simp rfl)) fun _ =>
      Sim.bind (R_simplifyAll hf n es) fun _ => Sim.pure rfl

theorem R_solveSystem (hf : Renaming f) (n : Nat) (es : List (Expr K)) :
    Sim f (List.map (Prod.map f id)) (solveSystem n es) (solveSystem n (es.map (Expr.ren f))) :=
  Sim.bind (R_simplifyAll hf n es) fun es => Sim.liftMap (ren_solveSimplified hf es)

end Oasis.Rn
