import Verif.Proofs.Value

/-!
# Pass B: every rule of the simplifier preserves values

Relative to the soundness of the logged decisions (`Sound`), rule by rule.
-/

set_option linter.unusedSectionVars false
set_option linter.unusedVariables false

namespace Oasis
variable {K : Type} [Num K]

open Expr

/-- contract of the recursive calls -/
structure RecB (M : Sem K) (U : Set (Str → M.V)) (rec : Rec K) : Prop where
  simp : ∀ o e, Sat (Sound M U) (rec (.simp o e)) (SRef M U e) (fun _ => True)
  var : ∀ o n, Sat (Sound M U) (rec (.simp o (.var n))) (· = .var n) (fun _ => True)
  diff : ∀ o n e, e.derivFree →
    Sat (Sound M U) (rec (.diff o (.var n) e)) (Refines M U (deriv e (.var n))) (fun _ => True)
  diff2 : ∀ o n a w, a.derivFree →
    Sat (Sound M U) (rec (.diff o (.var n) (deriv a w))) (Refines M U (deriv a (.var n))) (fun _ => True)

/-- derivatives of expressions with the same values are the same -/
def DCong (M : Sem K) (U : Set (Str → M.V)) : Prop :=
  ∀ a b : Expr K, ∀ n, a.derivFree → b.derivFree → Refines M U a b →
    Refines M U (deriv a (.var n)) (deriv b (.var n))

section
variable {M : Sem K} {U : Set (Str → M.V)} {rec : Rec K} (L : Lawful M) (rl : RecB M U rec)

theorem Lawful.zero (L : Lawful M) : M.ofK Num.zero = 0 := by simp [Num.zero, L.ofInt]
theorem Lawful.one (L : Lawful M) : M.ofK Num.one = 1 := by simp [Num.one, L.ofInt]
theorem Lawful.two (L : Lawful M) : M.ofK Num.two = 2 := by simp [Num.two, L.ofInt]
theorem Lawful.negOne (L : Lawful M) : M.ofK Num.negOne = -1 := by simp [Num.negOne, L.ofInt]

theorem Lawful.flag (L : Lawful M) {c d : Prop} [Decidable c] [Decidable d] (h : c → d) {x a u}
    (hp : M.pow (decide c) x a = some u) : M.pow (decide d) x a = some u := by
  by_cases hd : d
  · rw [decide_eq_true hd]
    by_cases hc : c
    · rwa [decide_eq_true hc] at hp
    · rw [decide_eq_false hc] at hp; exact L.pow_flag hp
  · have hc : ¬ c := fun hc => hd (h hc)
    rw [decide_eq_false hd]
    rwa [decide_eq_false hc] at hp

theorem Lawful.padd (L : Lawful M) {c d e : Prop} [Decidable c] [Decidable d] [Decidable e]
    (h : c → d → e) {x a b u w} (hp : M.pow (decide c) x a = some u)
    (hq : M.pow (decide d) x b = some w) : M.pow (decide e) x (a + b) = some (u * w) := by
  have := L.pow_add hp hq
  rw [← Bool.decide_and] at this
  exact L.flag (fun hc => h hc.1 hc.2) this

theorem Lawful.psub (L : Lawful M) {c d e : Prop} [Decidable c] [Decidable d] [Decidable e]
    (h : c → d → e) {x a b u w} (hp : M.pow (decide c) x a = some u)
    (hq : M.pow (decide d) x b = some w) (h0 : w ≠ 0) :
    M.pow (decide e) x (a - b) = some (u / w) := by
  rw [sub_eq_add_neg, div_eq_mul_inv]
  exact L.padd h hp (L.pow_neg hq h0)

theorem Lawful.pone (L : Lawful M) {x : M.V} : M.pow (decide True) x (M.ofK Num.one) = some x := by
  rw [L.one]; exact L.pow_one x

theorem Lawful.ptwo (L : Lawful M) {x : M.V} : M.pow true x (M.ofK Num.two) = some (x * x) := by
  have := L.pow_add (L.pow_one x) (L.pow_one x)
  rw [L.two]
  rw [show (2 : M.V) = 1 + 1 by norm_num]
  exact this

theorem B_if {α} {a b : Expr K} {m n : Oasis.M K α} {Q : α → Prop}
    (h : Agree M U a b → Sat (Sound M U) m Q (fun _ => True))
    (h' : Sat (Sound M U) n Q (fun _ => True)) :
    Sat (Sound M U) (do if ← eqv a b then m else n) Q (fun _ => True) := by
  have he : Sat (Sound M U) (eqv a b) (fun r => r = true → Agree M U a b) (fun _ => True) := by
    unfold eqv
    refine (Sat.lift (Q := fun _ => True) (fun _ _ => trivial) (fun _ _ => trivial)).bind fun r _ => ?_
    split
    · exact (Sat.note (Q := fun _ => Agree M U a b) fun h => h).bind fun _ h => Sat.pure fun _ => h
    · exact Sat.pure (by simp)
  refine he.bind fun r hr => ?_
  split
  · exact h (hr ‹_›)
  · exact h'

theorem B_note {α} {ev : Ev K} {m : Oasis.M K α} {Q : α → Prop}
    (h : Sound M U ev → Sat (Sound M U) m Q (fun _ => True)) :
    Sat (Sound M U) (do Oasis.M.note ev; m) Q (fun _ => True) :=
  (Sat.note (Q := fun _ => Sound M U ev) fun h => h).bind fun _ h' => h h'

/-- start of a rule: the pattern matched -/
macro "ruleB" id:ident : tactic =>
  `(tactic| (unfold $id; split; swap; exact Sat.pure optRef_none; rename_i $(Lean.mkIdent `hc):ident))

/-! ### Add -/

include L in
theorem B_add94 (s : Expr K) : Sat (Sound M U) (add94 s) (OptRef M U s) (fun _ => True) := by
  ruleB add94
  refine Sat.pure (optRef_some fun env hU v hv => ?_)
  obtain ⟨_, _, rfl, rfl, rfl⟩ := cast_val hc hv
  exact (L.add _ _).symm

include L in
theorem B_add101 (s : Expr K) : Sat (Sound M U) (add101 s) (OptRef M U s) (fun _ => True) := by
  ruleB add101
  split
  · rename_i h0
    refine Sat.pure (optRef_some fun env hU v hv => ?_)
    obtain ⟨_, x, rfl, hx, rfl⟩ := cast_val hc hv
    rw [L.beq _ _ h0, L.zero, zero_add]; exact hx
  · exact Sat.pure optRef_none

include L in
theorem B_add107 (s : Expr K) : Sat (Sound M U) (add107 s) (OptRef M U s) (fun _ => True) := by
  ruleB add107
  refine B_if (fun hag => Sat.pure (optRef_some fun env hU v hv => ?_)) (Sat.pure optRef_none)
  obtain ⟨_, _, ⟨_, x, rfl, hx, rfl⟩, ⟨_, y, rfl, hy, rfl⟩, rfl⟩ := cast_val hc hv
  exact ⟨_, x, rfl, hx, by rw [L.add, hag env hU x y hx hy]; ring⟩

theorem B_add120 (s : Expr K) : Sat (Sound M U) (add120 s) (OptRef M U s) (fun _ => True) := by
  ruleB add120
  have key : ∀ t, Refines M U s t := fun t env hU v hv => by
    obtain ⟨_, _, h, _⟩ := cast_val hc hv; exact h.elim
  split
  · exact (Sat.lift (Q := fun _ => True) (fun _ _ => trivial) (fun _ _ => trivial)).bind fun r _ =>
      Sat.pure (optRef_some (key _))
  · exact Sat.pure (optRef_some (key _))

include L in
theorem B_add132 (s : Expr K) : Sat (Sound M U) (add132 s) (OptRef M U s) (fun _ => True) := by
  ruleB add132
  refine B_if (fun hag => Sat.pure (optRef_some fun env hU v hv => ?_)) (Sat.pure optRef_none)
  obtain ⟨_, _, ⟨b, x, hb, hx, hl⟩, ⟨b', y, hb', hy, hl'⟩, rfl⟩ := cast_val hc hv
  rw [← hag env hU b b' hb hb'] at hl'
  exact ⟨b, x * y, hb, ⟨x, y, hx, hy, rfl⟩, L.log_add hl hl'⟩

include L rl in
theorem B_add141 (o : SOpts) (a b : Expr K) :
    Sat (Sound M U) (add141 rec o a b) (OptRef M U (Expr.add a b)) (fun _ => True) := by
  unfold add141
  refine B_if (fun hag => (rl.simp o _).bind fun r hr =>
    Sat.pure (optRef_some fun env hU v hv => ?_)) (Sat.pure optRef_none)
  obtain ⟨x, y, hx, hy, rfl⟩ := hv
  refine (hr env hU _ ⟨_, x, rfl, hx, ?_⟩).1
  rw [L.two, ← hag env hU x y hx hy]; ring

include L in
theorem B_add146 (s : Expr K) : Sat (Sound M U) (add146 s) (OptRef M U s) (fun _ => True) := by
  ruleB add146
  refine B_if (fun hag => Sat.pure (optRef_some fun env hU v hv => ?_)) (Sat.pure optRef_none)
  obtain ⟨_, y, ⟨_, x, rfl, hx, rfl⟩, hy, rfl⟩ := cast_val hc hv
  exact ⟨_, x, rfl, hx, by rw [L.add, L.one, hag env hU x y hx hy]; ring⟩

include L in
theorem B_addReal (v : K) (val : Expr K) : Sat (Sound M U) (addReal v val)
    (OptJoins M U (fun _ => True) (· + ·) (.real v) val) (fun _ => True) := by
  unfold addReal
  split
  · refine Sat.pure (optJoins_some ?_)
    rintro env hU _ _ rfl rfl -
    exact (L.add _ _).symm
  · exact Sat.pure optJoins_none

include rl in
theorem B_addImag (o : SOpts) (c x val : Expr K)
    (hx : ∀ env ∈ U, ∀ v, M.Val env x v → M.Val env (Expr.mul c .imag) v) :
    Sat (Sound M U) (addImag rec o c val)
    (OptJoins M U (fun _ => True) (· + ·) x val) (fun _ => True) := by
  unfold addImag
  split
  · rename_i hc
    refine (rl.simp o _).bind fun r hr => Sat.pure (optJoins_some ?_)
    intro env hU v a hv ha _
    obtain ⟨n, i, hn, hi, rfl⟩ := cast_val hc hv
    obtain ⟨m, i', hm, hi', rfl⟩ := hx env hU a ha
    have e : i = i' := Option.some.inj (Eq.trans (Eq.symm hi) hi')
    subst e
    exact ⟨n + m, i, (hr env hU _ ⟨n, m, hn, hm, rfl⟩).1, hi, by ring⟩
  · exact Sat.pure optJoins_none

include rl in
theorem B_addVar (o : SOpts) (c : Expr K) (name : Str) (x val : Expr K)
    (hx : ∀ env ∈ U, ∀ v, M.Val env x v → M.Val env (Expr.mul c (.var name)) v) :
    Sat (Sound M U) (addVar rec o c name val)
    (OptJoins M U (fun _ => True) (· + ·) x val) (fun _ => True) := by
  unfold addVar
  split
  · rename_i hc
    split
    · rename_i hmn
      refine (rl.simp o _).bind fun r hr => Sat.pure (optJoins_some ?_)
      intro env hU v a hv ha _
      obtain ⟨n, _, hn, rfl, rfl⟩ := cast_val hc hv
      obtain ⟨m, _, hm, rfl, rfl⟩ := hx env hU a ha
      exact ⟨n + m, _, (hr env hU _ ⟨n, m, hn, hm, rfl⟩).1, rfl, by rw [hmn]; ring⟩
    · exact Sat.pure optJoins_none
  · exact Sat.pure optJoins_none

include L rl in
theorem B_addExp1 (o : SOpts) (x val : Expr K) :
    Sat (Sound M U) (addExp1 rec o x val)
    (OptJoins M U (fun _ => True) (· + ·) x val) (fun _ => True) := by
  unfold addExp1
  split
  · rename_i hc
    refine B_if (fun hag => (rl.simp o _).bind fun r hr => Sat.pure (optJoins_some ?_))
      (Sat.pure optJoins_none)
    intro env hU v a hv ha _
    obtain ⟨n, w, hn, hw, rfl⟩ := cast_val hc hv
    have e := hag env hU w a hw ha
    subst e
    exact ⟨_, w, (hr env hU _ ⟨n, _, hn, rfl, rfl⟩).1, ha, by rw [L.one]; ring⟩
  · exact Sat.pure optJoins_none

include rl in
theorem B_addExp (o : SOpts) (c x y val : Expr K)
    (hx : ∀ env ∈ U, ∀ v, M.Val env y v → M.Val env (Expr.mul c x) v) :
    Sat (Sound M U) (addExp rec o c x val)
    (OptJoins M U (fun _ => True) (· + ·) y val) (fun _ => True) := by
  unfold addExp
  split
  · rename_i hc
    refine B_if (fun hag => (rl.simp o _).bind fun r hr => Sat.pure (optJoins_some ?_))
      (Sat.pure optJoins_none)
    intro env hU v a hv ha _
    obtain ⟨n, w, hn, hw, rfl⟩ := cast_val hc hv
    obtain ⟨m, w', hm, hw', rfl⟩ := hx env hU a ha
    have e := hag env hU w w' hw hw'
    subst e
    exact ⟨_, w, (hr env hU _ ⟨n, _, hn, hm, rfl⟩).1, hw, by ring⟩
  · exact Sat.pure optJoins_none

include L in
theorem val_oneMul {x : Expr K} {env v} (h : M.Val env x v) :
    M.Val env (Expr.mul (.real Num.one) x) v := ⟨_, v, rfl, h, by rw [L.one, one_mul]⟩

include L rl in
theorem B_addStep (o : SOpts) (vals : List (Expr K)) (x : Expr K) :
    Sat (Sound M U) (addStep rec o vals x) (JoinsSum M U x vals) (fun _ => True) := by
  have last : ∀ x, Sat (Sound M U) (pure (vals ++ [x]) : Oasis.M K _) (JoinsSum M U x vals)
      (fun _ => True) := fun x => Sat.pure fun env hU v a hv ha =>
    vsum_append.2 ⟨v, a, hv, vsum_single.2 ha, rfl⟩
  unfold addStep
  split
  · exact updOrPush_sum (B_addReal L _) (Sat.pure (Refines.refl _)) _
  · exact updOrPush_sum (fun val => B_addImag rl o _ _ val fun env hU v hv => val_oneMul L hv)
      (Sat.pure fun env hU v hv => val_oneMul L hv) _
  split
  · rename_i hc
    exact updOrPush_sum (fun val => B_addImag rl o _ _ val fun env hU v hv => cast_val hc hv)
      (Sat.pure fun env hU v hv => cast_val hc hv) _
  split
  · exact updOrPush_sum (fun val => B_addVar rl o _ _ _ val fun env hU v hv => val_oneMul L hv)
      (Sat.pure fun env hU v hv => val_oneMul L hv) _
  split
  · rename_i hc
    exact updOrPush_sum (fun val => B_addVar rl o _ _ _ val fun env hU v hv => cast_val hc hv)
      (Sat.pure fun env hU v hv => cast_val hc hv) _
  split
  · exact updOrPush_sum (fun val => B_addExp1 L rl o _ val)
      (Sat.pure fun env hU v hv => val_oneMul L hv) _
  split
  · rename_i hc
    exact updOrPush_sum (fun val => B_addExp rl o _ _ _ val fun env hU v hv => cast_val hc hv)
      (Sat.pure fun env hU v hv => cast_val hc hv) _
  · exact last _

include L in
theorem val_dropUnit {env : Str → M.V} (x : Expr K) (a) (h : M.Val env x a) : M.Val env (dropUnit x) a := by
  unfold dropUnit
  split
  · rename_i hc
    split
    · rename_i h1
      obtain ⟨_, y, rfl, hy, rfl⟩ := cast_val hc h
      rw [L.beq _ _ h1, L.one, one_mul]; exact hy
    · exact h
  · exact h

theorem val_tiny {env : Str → M.V} {x : Expr K} {a c} (h : M.Val env x a) (ht : tinyCoeff x = some c)
    (h0 : M.ofK c = 0) : a = 0 := by
  unfold tinyCoeff at ht
  split at ht
  · split at ht
    · cases ht; exact Eq.trans h h0
    · cases ht
  · split at ht
    · rename_i hc
      split at ht
      · cases ht
        obtain ⟨_, y, rfl, hy, rfl⟩ := cast_val hc h
        rw [h0, zero_mul]
      · cases ht
    · cases ht

theorem B_notes (cs : List K) : Sat (Sound M U) (cs.forM fun c => Oasis.M.note (.drop c))
    (fun _ => ∀ c ∈ cs, M.ofK c = 0) (fun _ => True) := by
  induction cs with
  | nil => exact Sat.pure (by simp)
  | cons c cs ih =>
    show Sat (Sound M U) (do Oasis.M.note (.drop c); cs.forM fun c => Oasis.M.note (.drop c)) _ _
    refine B_note fun h => ih.conseq fun _ h' => ?_
    intro d hd
    rcases List.mem_cons.1 hd with rfl | hd
    · exact h
    · exact h' d hd

theorem vsum_filter {env : Str → M.V} : ∀ {l : List (Expr K)} {v}, VSum M env l v →
    (∀ c ∈ l.filterMap tinyCoeff, M.ofK c = 0) →
    VSum M env (l.filter fun v => (tinyCoeff v).isNone) v
  | [], v, h, _ => h
  | x :: xs, v, h, h0 => by
    obtain ⟨a, b, ha, hb, rfl⟩ := vsum_cons.1 h
    cases ht : tinyCoeff x with
    | none =>
      rw [List.filter_cons_of_pos (by rw [ht]; rfl)]
      exact vsum_cons.2 ⟨a, b, ha, vsum_filter hb fun c hc => h0 c (by
        rw [List.filterMap_cons_none ht]; exact hc), rfl⟩
    | some c =>
      rw [List.filter_cons_of_neg (by rw [ht]; simp)]
      rw [List.filterMap_cons_some ht] at h0
      rw [val_tiny ha ht (h0 c (by simp)), zero_add]
      exact vsum_filter hb fun c hc => h0 c (by simp [hc])

include L in
theorem B_addRebuild (s : Expr K) (vals : List (Expr K))
    (h : ∀ env ∈ U, ∀ v, M.Val env s v → VSum M env vals v) :
    Sat (Sound M U) (addRebuild s vals) (Refines M U s) (fun _ => True) := by
  unfold addRebuild
  dsimp only
  split
  · rename_i hb
    refine (B_notes _).bind fun _ h0 => Sat.pure ?_
    intro env hU v hv
    exact build_sum hb (vsum_filter (vsum_map (val_dropUnit L) (h env hU v hv)) h0)
  · exact Sat.pure (Refines.refl _)

include L rl in
theorem B_addCollect (o : SOpts) (a b : Expr K) :
    Sat (Sound M U) (addCollect rec o a b) (Refines M U (Expr.add a b)) (fun _ => True) := by
  unfold addCollect
  refine (foldlM_sum (B_addStep L rl o) _ []).bind fun vals hvals => B_addRebuild L _ _ ?_
  intro env hU v hv
  have := hvals env hU 0 v (vsum_nil.2 rfl) (flatten_sum hv)
  rwa [zero_add] at this

include rl in
theorem B_simpBoth (o : SOpts) (a b : Expr K) : Sat (Sound M U) (simpBoth rec o a b)
    (fun r => SRef M U a r.1 ∧ SRef M U b r.2) (fun _ => True) := by
  unfold simpBoth
  have hp : ∀ e : Expr K, Sat (Sound M U) (present e) (fun _ => True) (fun _ => True) := by
    intro e; unfold present; split
    · exact Sat.fail trivial
    · exact Sat.pure trivial
  exact (hp a).bind fun _ _ => (hp b).bind fun _ _ =>
    Sat.both (fun _ => trivial) (rl.simp o a) (rl.simp o b)

theorem B_orElse {s : Expr K} {rule : Oasis.M K (Option (Expr K))} {rest : Unit → Oasis.M K (Expr K)}
    (h : Sat (Sound M U) rule (OptRef M U s) (fun _ => True))
    (h' : Sat (Sound M U) (rest ()) (Refines M U s) (fun _ => True)) :
    Sat (Sound M U) (Oasis.M.orElse rule rest) (Refines M U s) (fun _ => True) := Sat.orElse h h'

include L rl in
theorem B_simpAdd (o : SOpts) (x y : Expr K) :
    Sat (Sound M U) (simpAdd rec o x y) (Refines M U (Expr.add x y)) (fun _ => True) := by
  unfold simpAdd
  refine (B_simpBoth rl o x y).bind ?_
  rintro ⟨a, b⟩ ⟨ha, hb⟩
  have key : Refines M U (Expr.add x y) (Expr.add a b) := by
    rintro env hU _ ⟨u, w, hu, hw, rfl⟩
    exact ⟨u, w, (ha env hU u hu).1, (hb env hU w hw).1, rfl⟩
  refine Sat.conseq (Q' := Refines M U (Expr.add a b)) ?_ fun r hr => key.trans hr
  refine B_orElse (B_add94 L _) (B_orElse (B_add101 L _) (B_orElse (B_add107 L _) (B_orElse (B_add120 _)
    (B_orElse (B_add132 L _) (B_orElse (B_add141 L rl o _ _) (B_orElse (B_add146 L _)
      (B_addCollect L rl o a b)))))))

/-! ### Subtract -/

include L in
theorem B_sub360 (s : Expr K) : Sat (Sound M U) (sub360 s) (OptRef M U s) (fun _ => True) := by
  ruleB sub360
  refine Sat.pure (optRef_some fun env hU v hv => ?_)
  obtain ⟨_, _, rfl, rfl, rfl⟩ := cast_val hc hv
  exact (L.sub _ _).symm

include L in
theorem B_sub368 (a b : Expr K) :
    Sat (Sound M U) (sub368 a b) (OptRef M U (Expr.sub a b)) (fun _ => True) := by
  unfold sub368
  refine B_if (fun hag => Sat.pure (optRef_some fun env hU v hv => ?_)) (Sat.pure optRef_none)
  obtain ⟨x, y, hx, hy, rfl⟩ := hv
  rw [hag env hU x y hx hy, sub_self]; exact L.zero.symm

theorem B_sub372 (s : Expr K) : Sat (Sound M U) (sub372 s) (OptRef M U s) (fun _ => True) := by
  ruleB sub372
  have key : ∀ t, Refines M U s t := fun t env hU v hv => by
    obtain ⟨_, _, h, _⟩ := cast_val hc hv; exact h.elim
  split
  · exact (Sat.lift (Q := fun _ => True) (fun _ _ => trivial) (fun _ _ => trivial)).bind fun r _ =>
      Sat.pure (optRef_some (key _))
  · exact Sat.pure (optRef_some (key _))

include L rl in
theorem B_sub384 (o : SOpts) (s : Expr K) :
    Sat (Sound M U) (sub384 rec o s) (OptRef M U s) (fun _ => True) := by
  ruleB sub384
  refine B_if (fun hag => (rl.simp o _).bind fun r hr =>
    Sat.pure (optRef_some fun env hU v hv => ?_)) (Sat.pure optRef_none)
  obtain ⟨_, y, ⟨a, x, ha, hx, rfl⟩, hy, rfl⟩ := cast_val hc hv
  refine (hr env hU _ ⟨_, y, ⟨a, _, ha, rfl, rfl⟩, hy, ?_⟩).1
  rw [L.one, hag env hU x y hx hy]; ring

include L rl in
theorem B_sub392 (o : SOpts) (s : Expr K) :
    Sat (Sound M U) (sub392 rec o s) (OptRef M U s) (fun _ => True) := by
  ruleB sub392
  refine B_if (fun hag => (rl.simp o _).bind fun r hr =>
    Sat.pure (optRef_some fun env hU v hv => ?_)) (Sat.pure optRef_none)
  obtain ⟨x, _, hx, ⟨a, y, ha, hy, rfl⟩, rfl⟩ := cast_val hc hv
  refine (hr env hU _ ⟨_, x, ⟨_, a, rfl, ha, rfl⟩, hx, ?_⟩).1
  rw [L.one, hag env hU x y hx hy]; ring

include rl in
theorem B_sub400 (o : SOpts) (s : Expr K) :
    Sat (Sound M U) (sub400 rec o s) (OptRef M U s) (fun _ => True) := by
  ruleB sub400
  refine B_if (fun hag => (rl.simp o _).bind fun r hr =>
    Sat.pure (optRef_some fun env hU v hv => ?_)) (Sat.pure optRef_none)
  obtain ⟨_, _, ⟨a, x, ha, hx, rfl⟩, ⟨b, y, hb, hy, rfl⟩, rfl⟩ := cast_val hc hv
  refine (hr env hU _ ⟨_, y, ⟨a, b, ha, hb, rfl⟩, hy, ?_⟩).1
  rw [hag env hU x y hx hy]; ring

include L in
theorem B_sub408 (s : Expr K) : Sat (Sound M U) (sub408 s) (OptRef M U s) (fun _ => True) := by
  ruleB sub408
  refine B_if (fun hag => Sat.pure (optRef_some fun env hU v hv => ?_)) (Sat.pure optRef_none)
  obtain ⟨_, _, ⟨b, x, hb, hx, hl⟩, ⟨b', y, hb', hy, hl'⟩, rfl⟩ := cast_val hc hv
  rw [← hag env hU b b' hb hb'] at hl'
  have := L.log_sub hl hl'
  exact ⟨b, x / y, hb, ⟨x, y, hx, hy, this.1, rfl⟩, this.2⟩

include L in
theorem val_negMul {x : Expr K} {env v} (h : M.Val env x v) :
    M.Val env (Expr.mul (.real Num.negOne) x) (-v) := ⟨_, v, rfl, h, by rw [L.negOne]; ring⟩

include L rl in
theorem B_subAsAdd (o : SOpts) (a b : Expr K) :
    Sat (Sound M U) (subAsAdd rec o a b) (Refines M U (Expr.sub a b)) (fun _ => True) := by
  unfold subAsAdd
  split
  · refine (rl.simp o _).bind fun m hm => (rl.simp o _).bind fun l hl => (rl.simp o _).bind fun r hr =>
      (rl.simp o _).conseq fun t ht env hU v hv => ?_
    obtain ⟨x, _, hx, ⟨y, z, hy, hz, rfl⟩, rfl⟩ := hv
    refine (ht env hU _ ⟨x, _, hx, (hr env hU _ ⟨_, _, (hm env hU _ (val_negMul L hy)).1,
      (hl env hU _ (val_negMul L hz)).1, rfl⟩).1, ?_⟩).1
    ring
  · refine (rl.simp o _).bind fun m hm => (rl.simp o _).bind fun l hl => (rl.simp o _).bind fun r hr =>
      (rl.simp o _).conseq fun t ht env hU v hv => ?_
    obtain ⟨x, _, hx, ⟨y, z, hy, hz, rfl⟩, rfl⟩ := hv
    refine (ht env hU _ ⟨x, _, hx, (hr env hU _ ⟨_, _, (hm env hU _ (val_negMul L hy)).1,
      (hl env hU _ hz).1, rfl⟩).1, ?_⟩).1
    ring
  · refine (rl.simp o _).conseq fun t ht env hU v hv => ?_
    obtain ⟨x, y, hx, hy, rfl⟩ := hv
    exact (ht env hU _ ⟨x, _, hx, val_negMul L hy, by ring⟩).1

include L rl in
theorem B_simpSub (o : SOpts) (x y : Expr K) :
    Sat (Sound M U) (simpSub rec o x y) (Refines M U (Expr.sub x y)) (fun _ => True) := by
  unfold simpSub
  refine (B_simpBoth rl o x y).bind ?_
  rintro ⟨a, b⟩ ⟨ha, hb⟩
  have key : Refines M U (Expr.sub x y) (Expr.sub a b) := by
    rintro env hU _ ⟨u, w, hu, hw, rfl⟩
    exact ⟨u, w, (ha env hU u hu).1, (hb env hU w hw).1, rfl⟩
  refine Sat.conseq (Q' := Refines M U (Expr.sub a b)) ?_ fun r hr => key.trans hr
  exact B_orElse (B_sub360 L _) (B_orElse (B_sub368 L _ _) (B_orElse (B_sub372 _)
    (B_orElse (B_sub384 L rl o _) (B_orElse (B_sub392 L rl o _) (B_orElse (B_sub400 rl o _)
      (B_orElse (B_sub408 L _) (B_subAsAdd L rl o a b)))))))

/-! ### Multiply -/

include L rl in
theorem B_mul478 (o : SOpts) (s : Expr K) :
    Sat (Sound M U) (mul478 rec o s) (OptRef M U s) (fun _ => True) := by
  ruleB mul478
  split
  · refine B_note fun h0 => Sat.pure (optRef_some fun env hU v hv => ?_)
    obtain ⟨_, x, rfl, hx, rfl⟩ := cast_val hc hv
    rw [show M.ofK _ = 0 from h0, zero_mul]; exact L.zero.symm
  · split
    · rename_i h1
      refine (rl.simp o _).bind fun r hr => Sat.pure (optRef_some fun env hU v hv => ?_)
      obtain ⟨_, x, rfl, hx, rfl⟩ := cast_val hc hv
      rw [L.beq _ _ h1, L.one, one_mul]
      exact (hr env hU x hx).1
    · exact Sat.pure optRef_none

include L in
theorem B_mul488 (s : Expr K) : Sat (Sound M U) (mul488 s) (OptRef M U s) (fun _ => True) := by
  ruleB mul488
  refine Sat.pure (optRef_some fun env hU v hv => ?_)
  obtain ⟨_, _, rfl, rfl, rfl⟩ := cast_val hc hv
  exact (L.mul _ _).symm

include L in
theorem B_mul494 (s : Expr K) : Sat (Sound M U) (mul494 s) (OptRef M U s) (fun _ => True) := by
  ruleB mul494
  refine Sat.pure (optRef_some fun env hU v hv => ?_)
  obtain ⟨i, j, hi, hj, rfl⟩ := cast_val hc hv
  have e : i = j := Option.some.inj (Eq.trans (Eq.symm hi) hj)
  subst e
  rw [L.imag i hi]; exact L.negOne.symm

include rl in
theorem B_mul498 (o : SOpts) (s : Expr K) :
    Sat (Sound M U) (mul498 rec o s) (OptRef M U s) (fun _ => True) := by
  ruleB mul498
  refine (rl.simp o _).bind fun r hr => Sat.pure (optRef_some fun env hU v hv => ?_)
  obtain ⟨c, _, hc', ⟨p, q, hp, hq, h0, rfl⟩, rfl⟩ := cast_val hc hv
  exact ⟨_, q, (hr env hU _ ⟨c, p, hc', hp, rfl⟩).1, hq, h0, by ring⟩

include L in
theorem B_mul506 (s : Expr K) : Sat (Sound M U) (mul506 s) (OptRef M U s) (fun _ => True) := by
  ruleB mul506
  refine B_if (fun hag => Sat.pure (optRef_some fun env hU v hv => ?_)) (Sat.pure optRef_none)
  obtain ⟨x, y, hx, hy, rfl⟩ := cast_val hc hv
  refine ⟨x, _, hx, rfl, ?_⟩
  rw [← hag env hU x y hx hy]
  exact L.ptwo

theorem B_mul512 (s : Expr K) : Sat (Sound M U) (mul512 s) (OptRef M U s) (fun _ => True) := by
  ruleB mul512
  refine Sat.pure (optRef_some fun env hU v hv => ?_)
  obtain ⟨_, _, _, h, _⟩ := cast_val hc hv
  exact h.elim

theorem B_mul516 (s : Expr K) : Sat (Sound M U) (mul516 s) (OptRef M U s) (fun _ => True) := by
  ruleB mul516
  have key : ∀ t, Refines M U s t := fun t env hU v hv => by
    obtain ⟨_, _, h, _⟩ := cast_val hc hv; exact h.elim
  split
  · exact (Sat.lift (Q := fun _ => True) (fun _ _ => trivial) (fun _ _ => trivial)).bind fun r _ =>
      Sat.pure (optRef_some (key _))
  · exact Sat.pure (optRef_some (key _))

include rl in
theorem B_mul528 (o : SOpts) (s : Expr K) :
    Sat (Sound M U) (mul528 rec o s) (OptRef M U s) (fun _ => True) := by
  ruleB mul528
  refine (rl.simp o _).bind fun m hm => (rl.simp o _).bind fun r hr =>
    Sat.pure (optRef_some fun env hU v hv => ?_)
  obtain ⟨x, _, hx, ⟨p, q, hp, hq, h0, rfl⟩, rfl⟩ := cast_val hc hv
  exact (hr env hU _ ⟨_, q, (hm env hU _ ⟨x, p, hx, hp, rfl⟩).1, hq, h0, by ring⟩).1

include L in
/-- `x^n * x` has the value of `x^r` when `r` is a simplification of `n + 1` -/
theorem val_powSucc {x n r : Expr K} {env : Str → M.V} (hU : env ∈ U)
    (hr : SRef M U (Expr.add n (.real Num.one)) r) {a p u} (hx : M.Val env x a) (hn : M.Val env n p)
    (hp : M.pow (decide (n.vars = [])) a p = some u) : M.Val env (Expr.pow x r) (u * a) := by
  obtain ⟨h1, h2, -⟩ := hr env hU _ ⟨p, _, hn, rfl, rfl⟩
  refine ⟨a, _, hx, h1, L.padd (fun h _ => h2 ?_) hp L.pone⟩
  simp [vars, h]

include L in
/-- `x^n * x^m` has the value of `x^r` when `r` is a simplification of `n + m` -/
theorem val_powAdd {x n m r : Expr K} {env : Str → M.V} (hU : env ∈ U)
    (hr : SRef M U (Expr.add n m) r) {a p q u w} (hx : M.Val env x a) (hn : M.Val env n p)
    (hm : M.Val env m q) (hp : M.pow (decide (n.vars = [])) a p = some u)
    (hq : M.pow (decide (m.vars = [])) a q = some w) : M.Val env (Expr.pow x r) (u * w) := by
  obtain ⟨h1, h2, -⟩ := hr env hU _ ⟨p, _, hn, hm, rfl⟩
  refine ⟨a, _, hx, h1, L.padd (fun h h' => h2 ?_) hp hq⟩
  simp [vars, h, h']

theorem val_eq {e : Expr K} {env : Str → M.V} {v w} (h : M.Val env e v) (e' : v = w) : M.Val env e w :=
  e' ▸ h

include L rl in
theorem B_mul548 (o : SOpts) (s : Expr K) :
    Sat (Sound M U) (mul548 rec o s) (OptRef M U s) (fun _ => True) := by
  ruleB mul548
  refine B_if (fun hag => (rl.simp o _).bind fun r hr =>
    Sat.pure (optRef_some fun env hU v hv => ?_)) (Sat.pure optRef_none)
  obtain ⟨x, _, hx, ⟨y, n, hy, hn, hp⟩, rfl⟩ := cast_val hc hv
  have e := hag env hU x y hx hy; subst e
  exact val_eq (val_powSucc L hU hr hx hn hp) (mul_comm _ _)

include L rl in
theorem B_mul569 (o : SOpts) (s : Expr K) :
    Sat (Sound M U) (mul569 rec o s) (OptRef M U s) (fun _ => True) := by
  ruleB mul569
  refine B_if (fun hag => (rl.simp o _).bind fun r hr =>
    Sat.pure (optRef_some fun env hU v hv => ?_)) (Sat.pure optRef_none)
  obtain ⟨_, y, ⟨x, n, hx, hn, hp⟩, hy, rfl⟩ := cast_val hc hv
  have e := hag env hU y x hy hx; subst e
  exact val_powSucc L hU hr hy hn hp

include L rl in
theorem B_mul580 (o : SOpts) (s : Expr K) :
    Sat (Sound M U) (mul580 rec o s) (OptRef M U s) (fun _ => True) := by
  ruleB mul580
  refine B_if (fun hag => (rl.simp o _).bind fun r hr =>
    Sat.pure (optRef_some fun env hU v hv => ?_)) (Sat.pure optRef_none)
  obtain ⟨_, _, ⟨x, n, hx, hn, hp⟩, ⟨y, m, hy, hm, hq⟩, rfl⟩ := cast_val hc hv
  have e := hag env hU x y hx hy; subst e
  exact val_powAdd L hU hr hx hn hm hp hq

include L in
theorem B_mul591 (s : Expr K) : Sat (Sound M U) (mul591 s) (OptRef M U s) (fun _ => True) := by
  ruleB mul591
  refine B_if (fun hag => Sat.pure (optRef_some fun env hU v hv => ?_)) (Sat.pure optRef_none)
  obtain ⟨_, y, ⟨a, x, ha, hx, rfl⟩, hy, rfl⟩ := cast_val hc hv
  have e := hag env hU x y hx hy; subst e
  exact ⟨a, x * x, ha, ⟨x, _, hx, rfl, L.ptwo⟩, by ring⟩

include L rl in
theorem B_mul599 (o : SOpts) (s : Expr K) :
    Sat (Sound M U) (mul599 rec o s) (OptRef M U s) (fun _ => True) := by
  ruleB mul599
  refine B_if (fun hag => (rl.simp o _).bind fun m hm => (rl.simp o _).bind fun l hl =>
    Sat.pure (optRef_some fun env hU v hv => ?_)) (Sat.pure optRef_none)
  obtain ⟨_, _, ⟨a, x, ha, hx, rfl⟩, ⟨b, y, hb, hy, rfl⟩, rfl⟩ := cast_val hc hv
  have e := hag env hU x y hx hy; subst e
  exact ⟨a * b, x * x, (hm env hU _ ⟨a, b, ha, hb, rfl⟩).1,
    (hl env hU _ ⟨x, _, hx, rfl, L.ptwo⟩).1, by ring⟩

include L rl in
theorem B_mul614 (o : SOpts) (s : Expr K) :
    Sat (Sound M U) (mul614 rec o s) (OptRef M U s) (fun _ => True) := by
  ruleB mul614
  refine B_if (fun hag => (rl.simp o _).bind fun l hl =>
    Sat.pure (optRef_some fun env hU v hv => ?_)) (Sat.pure optRef_none)
  obtain ⟨_, y, ⟨a, u, ha, ⟨x, n, hx, hn, hp⟩, rfl⟩, hy, rfl⟩ := cast_val hc hv
  have e := hag env hU x y hx hy; subst e
  exact ⟨a, u * x, ha, val_powSucc L hU hl hx hn hp, by ring⟩

include L rl in
theorem B_mul626 (o : SOpts) (s : Expr K) :
    Sat (Sound M U) (mul626 rec o s) (OptRef M U s) (fun _ => True) := by
  ruleB mul626
  refine B_if (fun hag => (rl.simp o _).bind fun l hl =>
    Sat.pure (optRef_some fun env hU v hv => ?_)) (B_if (fun hag => (rl.simp o _).bind fun l hl =>
    Sat.pure (optRef_some fun env hU v hv => ?_)) (Sat.pure optRef_none))
  · obtain ⟨_, u, ⟨a, b, ha, hb, rfl⟩, ⟨y, n, hy, hn, hp⟩, rfl⟩ := cast_val hc hv
    have e := hag env hU b y hb hy; subst e
    exact ⟨a, u * b, ha, val_powSucc L hU hl hb hn hp, by ring⟩
  · obtain ⟨_, u, ⟨a, b, ha, hb, rfl⟩, ⟨y, n, hy, hn, hp⟩, rfl⟩ := cast_val hc hv
    have e := hag env hU a y ha hy; subst e
    exact ⟨b, u * a, hb, val_powSucc L hU hl ha hn hp, by ring⟩

include L rl in
theorem B_mul646 (o : SOpts) (s : Expr K) :
    Sat (Sound M U) (mul646 rec o s) (OptRef M U s) (fun _ => True) := by
  ruleB mul646
  refine B_if (fun hag => (rl.simp o _).bind fun m hm => (rl.simp o _).bind fun l hl =>
    Sat.pure (optRef_some fun env hU v hv => ?_)) (Sat.pure optRef_none)
  obtain ⟨_, _, ⟨a, x, ha, hx, rfl⟩, ⟨b, u, hb, ⟨y, n, hy, hn, hp⟩, rfl⟩, rfl⟩ := cast_val hc hv
  have e := hag env hU x y hx hy; subst e
  exact ⟨a * b, u * x, (hm env hU _ ⟨a, b, ha, hb, rfl⟩).1, val_powSucc L hU hl hx hn hp, by ring⟩

include L rl in
theorem B_mul661 (o : SOpts) (s : Expr K) :
    Sat (Sound M U) (mul661 rec o s) (OptRef M U s) (fun _ => True) := by
  ruleB mul661
  refine B_if (fun hag => (rl.simp o _).bind fun m hm => (rl.simp o _).bind fun l hl =>
    Sat.pure (optRef_some fun env hU v hv => ?_)) (Sat.pure optRef_none)
  obtain ⟨_, _, ⟨a, x, ha, hx, rfl⟩, ⟨u, b, ⟨y, n, hy, hn, hp⟩, hb, rfl⟩, rfl⟩ := cast_val hc hv
  have e := hag env hU x y hx hy; subst e
  exact ⟨a * b, u * x, (hm env hU _ ⟨a, b, ha, hb, rfl⟩).1, val_powSucc L hU hl hx hn hp, by ring⟩

include L in
/-- a simplified exponent can replace the exponent -/
theorem val_powExp {x n r : Expr K} {env : Str → M.V} (hU : env ∈ U) (hr : SRef M U n r) {v}
    (h : M.Val env (Expr.pow x n) v) : M.Val env (Expr.pow x r) v := by
  obtain ⟨a, p, hx, hn, hp⟩ := h
  obtain ⟨h1, h2, -⟩ := hr env hU p hn
  exact ⟨a, p, hx, h1, L.flag h2 hp⟩

include L rl in
theorem B_mul676 (o : SOpts) (s : Expr K) :
    Sat (Sound M U) (mul676 rec o s) (OptRef M U s) (fun _ => True) := by
  ruleB mul676
  refine B_if (fun hag => B_note fun hev => (rl.simp o _).bind fun m hm => (rl.simp o _).bind fun l hl =>
    Sat.pure (optRef_some fun env hU v hv => ?_)) (Sat.pure optRef_none)
  obtain ⟨a, b, ha, hb, rfl⟩ := hev env hU v (cast_val hc hv)
  exact ⟨a, b, (hm env hU a ha).1, val_powExp L hU hl hb, rfl⟩

include L rl in
theorem B_mul693 (o : SOpts) (s : Expr K) :
    Sat (Sound M U) (mul693 rec o s) (OptRef M U s) (fun _ => True) := by
  ruleB mul693
  refine B_if (fun hag => B_note fun hev => (rl.simp o _).bind fun l hl =>
    Sat.pure (optRef_some fun env hU v hv => ?_)) (Sat.pure optRef_none)
  obtain ⟨a, b, ha, hb, rfl⟩ := hev env hU v (cast_val hc hv)
  exact ⟨a, b, ha, val_powExp L hU hl hb, rfl⟩

include L rl in
theorem B_mul707 (o : SOpts) (s : Expr K) :
    Sat (Sound M U) (mul707 rec o s) (OptRef M U s) (fun _ => True) := by
  ruleB mul707
  refine B_if (fun hag => (rl.simp o _).bind fun m hm => (rl.simp o _).bind fun l hl =>
    Sat.pure (optRef_some fun env hU v hv => ?_)) (Sat.pure optRef_none)
  obtain ⟨_, _, ⟨a, u, ha, ⟨x, n, hx, hn, hp⟩, rfl⟩, ⟨b, w, hb, ⟨y, k, hy, hk, hq⟩, rfl⟩, rfl⟩ :=
    cast_val hc hv
  have e := hag env hU x y hx hy; subst e
  exact ⟨a * b, w * u, (hm env hU _ ⟨a, b, ha, hb, rfl⟩).1, val_powAdd L hU hl hx hk hn hq hp, by ring⟩

include rl in
theorem B_mul724 (o : SOpts) (s : Expr K) :
    Sat (Sound M U) (mul724 rec o s) (OptRef M U s) (fun _ => True) := by
  ruleB mul724
  split
  · refine (rl.simp o _).bind fun r hr => Sat.pure (optRef_some fun env hU v hv => ?_)
    obtain ⟨c, _, hc', ⟨p, q, hp, hq, rfl⟩, rfl⟩ := cast_val hc hv
    exact (hr env hU _ ⟨_, _, ⟨c, p, hc', hp, rfl⟩, ⟨c, q, hc', hq, rfl⟩, by ring⟩).1
  · exact Sat.pure optRef_none

include L in
theorem B_mulReal (v : K) (val : Expr K) : Sat (Sound M U) (mulReal v val)
    (OptJoins M U (fun _ => True) (· * ·) (.real v) val) (fun _ => True) := by
  unfold mulReal
  split
  · refine Sat.pure (optJoins_some ?_)
    rintro env hU _ _ rfl rfl -
    exact (L.mul _ _).symm
  · exact Sat.pure optJoins_none

include L rl in
theorem B_mulImag (o : SOpts) (n x val : Expr K)
    (hx : ∀ env ∈ U, ∀ v, M.Val env x v → M.Val env (Expr.pow .imag n) v) :
    Sat (Sound M U) (mulImag rec o n val)
    (OptJoins M U (fun _ => True) (· * ·) x val) (fun _ => True) := by
  unfold mulImag
  split
  · rename_i hc
    refine (rl.simp o _).bind fun r hr => Sat.pure (optJoins_some ?_)
    intro env hU v a hv ha _
    obtain ⟨i, m, hi, hm, hp⟩ := cast_val hc hv
    obtain ⟨i', k, hi', hk, hq⟩ := hx env hU a ha
    have e : i = i' := Option.some.inj (Eq.trans (Eq.symm hi) hi')
    subst e
    exact val_powAdd L hU hr hi hm hk hp hq
  · exact Sat.pure optJoins_none

include L rl in
theorem B_mulExp (o : SOpts) (y n val : Expr K) :
    Sat (Sound M U) (mulExp rec o y n val)
    (OptJoins M U (fun _ => True) (· * ·) (Expr.pow y n) val) (fun _ => True) := by
  unfold mulExp
  split
  · refine B_if (fun hag => (rl.simp o _).bind fun r hr => Sat.pure (optJoins_some ?_))
      (Sat.pure optJoins_none)
    intro env hU v a hv ha _
    obtain ⟨b, m, hb, hm, hp⟩ := hv
    obtain ⟨c, k, hc, hk, hq⟩ := ha
    have e := hag env hU b c hb hc; subst e
    exact val_powAdd L hU hr hb hm hk hp hq
  · exact Sat.pure optJoins_none

include L rl in
theorem B_mulOther (o : SOpts) (x val : Expr K) :
    Sat (Sound M U) (mulOther rec o x val)
    (OptJoins M U (fun _ => True) (· * ·) x val) (fun _ => True) := by
  unfold mulOther
  split
  · refine (rl.simp o _).bind fun r hr => B_if (fun hag => Sat.pure (optJoins_some ?_))
      (Sat.pure optJoins_none)
    intro env hU v a hv ha _
    obtain ⟨b, m, hb, hm, hp⟩ := hv
    have e := hag env hU b a hb ha; subst e
    exact val_powSucc L hU hr hb hm hp
  · exact Sat.pure optJoins_none

include L in
theorem val_powOne {x : Expr K} {env v} (h : M.Val env x v) :
    M.Val env (Expr.pow x (.real Num.one)) v := ⟨v, _, h, rfl, L.pone⟩

include L rl in
theorem B_mulStep (o : SOpts) (vals : List (Expr K)) (x : Expr K) :
    Sat (Sound M U) (mulStep rec o vals x) (JoinsProd M U (fun _ => True) (· * ·) x vals)
      (fun _ => True) := by
  have hg : ∀ u v a : M.V, (fun x1 x2 => x1 * x2) (u * v) a = u * (fun x1 x2 => x1 * x2) v a :=
    fun u v a => mul_assoc u v a
  have hp : ∀ x y : Expr K, (∀ env ∈ U, ∀ v, M.Val env x v → M.Val env y v) →
      Sat (Sound M U) (pure y : Oasis.M K _) (fun y => ∀ env ∈ U, ∀ a, M.Val env x a → True →
        M.Val env y ((fun x1 x2 => x1 * x2) 1 a)) (fun _ => True) := by
    intro x y h
    refine Sat.pure fun env hU a ha _ => ?_
    simp only [one_mul]
    exact h env hU a ha
  unfold mulStep
  split
  · exact updOrPush_prod hg (B_mulReal L _) (hp _ _ fun _ _ _ h => h) _
  · exact updOrPush_prod hg (fun val => B_mulImag L rl o _ _ val fun env hU v hv => val_powOne L hv)
      (hp _ _ fun env hU v hv => val_powOne L hv) _
  · exact updOrPush_prod hg (fun val => B_mulImag L rl o _ _ val fun env hU v hv => hv)
      (hp _ _ fun env hU v hv => hv) _
  · exact updOrPush_prod hg (fun val => B_mulExp L rl o _ _ val) (hp _ _ fun env hU v hv => hv) _
  · exact updOrPush_prod hg (fun val => B_mulOther L rl o _ val)
      (hp _ _ fun env hU v hv => val_powOne L hv) _

include L in
theorem val_dropPowOne {env : Str → M.V} (x : Expr K) (a) (h : M.Val env x a) :
    M.Val env (dropPowOne x) a := by
  unfold dropPowOne
  split
  · split
    · rename_i h1
      obtain ⟨b, _, hb, rfl, hp⟩ := h
      rw [L.beq _ _ h1, L.one] at hp
      rw [L.pow_one' hp]; exact hb
    · exact h
  · exact h

include L rl in
theorem B_mulCollect (o : SOpts) (a b : Expr K) :
    Sat (Sound M U) (mulCollect rec o a b) (Refines M U (Expr.mul a b)) (fun _ => True) := by
  unfold mulCollect
  refine (foldlM_prod (B_mulStep L rl o) _ []).bind fun vals hvals => ?_
  unfold notNull
  split
  · rename_i hb
    refine Sat.pure fun env hU v hv => ?_
    have := hvals env hU 1 v (vprod_nil.2 rfl) (flatten_prod hv)
    rw [one_mul] at this
    exact build_prod hb (vprod_map (fun x a h => val_dropUnit L _ _ (val_dropPowOne L _ _ h)) this)
  · exact Sat.fail trivial

include L rl in
theorem B_simpMul (o : SOpts) (x y : Expr K) :
    Sat (Sound M U) (simpMul rec o x y) (Refines M U (Expr.mul x y)) (fun _ => True) := by
  unfold simpMul
  refine (B_simpBoth rl o x y).bind ?_
  rintro ⟨a, b⟩ ⟨ha, hb⟩
  have key : Refines M U (Expr.mul x y) (Expr.mul a b) := by
    rintro env hU _ ⟨u, w, hu, hw, rfl⟩
    exact ⟨u, w, (ha env hU u hu).1, (hb env hU w hw).1, rfl⟩
  refine Sat.conseq (Q' := Refines M U (Expr.mul a b)) ?_ fun r hr => key.trans hr
  refine B_orElse (B_mul478 L rl o _) ?_
  refine B_orElse (B_mul488 L _) ?_
  refine B_orElse (B_mul494 L _) ?_
  refine B_orElse (B_mul498 rl o _) ?_
  refine B_orElse (B_mul506 L _) ?_
  refine B_orElse (B_mul512 _) ?_
  refine B_orElse (B_mul516 _) ?_
  refine B_orElse (B_mul528 rl o _) ?_
  refine B_orElse (B_mul548 L rl o _) ?_
  refine B_orElse (B_mul548 L rl o _) ?_
  refine B_orElse (B_mul569 L rl o _) ?_
  refine B_orElse (B_mul580 L rl o _) ?_
  refine B_orElse (B_mul591 L _) ?_
  refine B_orElse (B_mul599 L rl o _) ?_
  refine B_orElse (B_mul614 L rl o _) ?_
  refine B_orElse (B_mul626 L rl o _) ?_
  refine B_orElse (B_mul646 L rl o _) ?_
  refine B_orElse (B_mul661 L rl o _) ?_
  refine B_orElse (B_mul676 L rl o _) ?_
  refine B_orElse (B_mul693 L rl o _) ?_
  refine B_orElse (B_mul707 L rl o _) ?_
  refine B_orElse (B_mul724 rl o _) ?_
  exact B_mulCollect L rl o a b

/-! ### Divide -/

include L in
theorem B_div877 (s : Expr K) : Sat (Sound M U) (div877 s) (OptRef M U s) (fun _ => True) := by
  ruleB div877
  refine Sat.pure (optRef_some fun env hU v hv => ?_)
  obtain ⟨_, _, rfl, rfl, h0, rfl⟩ := cast_val hc hv
  exact (L.div _ _ h0).symm

include L in
theorem B_div884 (s : Expr K) : Sat (Sound M U) (div884 s) (OptRef M U s) (fun _ => True) := by
  ruleB div884
  refine B_if (fun hag => Sat.pure (optRef_some fun env hU v hv => ?_)) (Sat.pure optRef_none)
  obtain ⟨_, _, ⟨b, x, hb, hx, hl⟩, ⟨b', y, hb', hy, hl'⟩, h0, rfl⟩ := cast_val hc hv
  rw [← hag env hU b b' hb hb'] at hl'
  exact ⟨y, x, hy, hx, L.log_div hl hl' h0⟩

theorem factors_prod {e : Expr K} {env : Str → M.V} {v} (h : M.Val env e v) : VProd M env (factors e) v := by
  unfold factors
  split
  · exact flatten_prod h
  · exact vprod_single.2 h

theorem splitNum_prod {env : Str → M.V} : ∀ {l : List (Expr K)} {v}, VProd M env l v →
    ∃ n d, VProd M env (splitNum l).1 n ∧ VProd M env (splitNum l).2 d ∧ d ≠ 0 ∧ v = n / d
  | [], v, h => ⟨1, 1, vprod_nil.2 rfl, vprod_nil.2 rfl, one_ne_zero, by rw [vprod_nil.1 h]; simp⟩
  | x :: xs, v, h => by
    obtain ⟨a, b, ha, hb, rfl⟩ := vprod_cons.1 h
    obtain ⟨n, d, hn, hd, h0, rfl⟩ := splitNum_prod hb
    unfold splitNum
    split
    · rename_i heq; cases heq
    · rename_i heq
      cases heq
      obtain ⟨p, q, hp, hq, hq0, rfl⟩ := ha
      exact ⟨p * n, q * d, vprod_cons.2 ⟨p, n, hp, hn, rfl⟩, vprod_cons.2 ⟨q, d, hq, hd, rfl⟩,
        mul_ne_zero hq0 h0, by field_simp⟩
    · rename_i heq
      cases heq
      exact ⟨a * n, d, vprod_cons.2 ⟨a, n, ha, hn, rfl⟩, hd, h0, by field_simp⟩

include L in
theorem B_divReal (v : K) (val : Expr K) : Sat (Sound M U) (divReal v val)
    (OptJoins M U (· ≠ 0) (· / ·) (.real v) val) (fun _ => True) := by
  unfold divReal
  split
  · refine Sat.pure (optJoins_some ?_)
    rintro env hU _ _ rfl rfl h0
    exact (L.div _ _ h0).symm
  · exact Sat.pure optJoins_none

include L in
theorem B_divImag (val : Expr K) : Sat (Sound M U) (divImag val)
    (OptJoins M U (· ≠ 0) (· / ·) .imag val) (fun _ => True) := by
  unfold divImag
  split
  · refine Sat.pure (optJoins_some ?_)
    intro env hU i j hi hj h0
    have e : i = j := Option.some.inj (Eq.trans (Eq.symm hi) hj)
    subst e
    exact (div_self h0).trans L.one.symm
  · exact Sat.pure optJoins_none

include L in
/-- `x^n / x^m` has the value of `x^r` when `r` is a simplification of `n - m` -/
theorem val_powSub {x n m r : Expr K} {env : Str → M.V} (hU : env ∈ U)
    (hr : SRef M U (Expr.sub n m) r) {a p q u w} (hx : M.Val env x a) (hn : M.Val env n p)
    (hm : M.Val env m q) (hp : M.pow (decide (n.vars = [])) a p = some u)
    (hq : M.pow (decide (m.vars = [])) a q = some w) (h0 : w ≠ 0) : M.Val env (Expr.pow x r) (u / w) := by
  obtain ⟨h1, h2, -⟩ := hr env hU _ ⟨p, _, hn, hm, rfl⟩
  refine ⟨a, _, hx, h1, L.psub (fun h h' => h2 ?_) hp hq h0⟩
  simp [vars, h, h']

theorem pone' (L : Lawful M) {x : M.V} :
    M.pow (decide ((Expr.real (Num.one : K)).vars = [])) x (M.ofK Num.one) = some x := L.pone

include L rl in
theorem B_divVar (o : SOpts) (n : Str) (val : Expr K) : Sat (Sound M U) (divVar rec o n val)
    (OptJoins M U (· ≠ 0) (· / ·) (.var n) val) (fun _ => True) := by
  unfold divVar
  split
  · refine B_if (fun hag => (rl.simp o _).bind fun r hr => Sat.pure (optJoins_some ?_))
      (Sat.pure optJoins_none)
    rintro env hU v _ hv rfl h0
    obtain ⟨_, p, rfl, hp, hpw⟩ := hv
    have e := hag env hU _ _ rfl rfl
    rw [e] at hpw
    exact val_powSub (x := .var n) L hU hr rfl hp rfl hpw (pone' L) h0
  · refine B_if (fun hag => Sat.pure (optJoins_some ?_)) (Sat.pure optJoins_none)
    rintro env hU _ _ rfl rfl h0
    have e := hag env hU _ _ rfl rfl
    rw [e]
    exact (div_self h0).trans L.one.symm
  · exact Sat.pure optJoins_none

include L rl in
theorem B_divVarExp (o : SOpts) (n : Str) (p val : Expr K) :
    Sat (Sound M U) (divVarExp rec o n p val)
    (OptJoins M U (· ≠ 0) (· / ·) (Expr.pow (.var n) p) val) (fun _ => True) := by
  unfold divVarExp
  split
  · refine B_if (fun hag => (rl.simp o _).bind fun r hr => Sat.pure (optJoins_some ?_))
      (Sat.pure optJoins_none)
    rintro env hU v w hv hw h0
    obtain ⟨_, q, rfl, hq, hqw⟩ := hv
    obtain ⟨_, p, rfl, hp, hpw⟩ := hw
    have e := hag env hU _ _ rfl rfl
    rw [e] at hqw
    exact val_powSub (x := .var n) L hU hr rfl hq hp hqw hpw h0
  · exact Sat.pure optJoins_none

include L rl in
theorem B_divExp (o : SOpts) (b p val : Expr K) :
    Sat (Sound M U) (divExp rec o b p val)
    (OptJoins M U (· ≠ 0) (· / ·) (Expr.pow b p) val) (fun _ => True) := by
  unfold divExp
  split
  · refine B_if (fun hag => (rl.simp o _).bind fun l hl => (rl.simp o _).bind fun r hr =>
      Sat.pure (optJoins_some ?_)) (Sat.pure optJoins_none)
    rintro env hU v w hv hw h0
    obtain ⟨c, q, hc, hq, hqw⟩ := hv
    obtain ⟨b, p, hb, hp, hpw⟩ := hw
    have e := hag env hU b c hb hc; subst e
    exact (hr env hU _ (val_powSub L hU hl hb hq hp hqw hpw h0)).1
  · refine B_if (fun hag => (rl.simp o _).bind fun l hl => (rl.simp o _).bind fun r hr =>
      Sat.pure (optJoins_some ?_)) (Sat.pure optJoins_none)
    rintro env hU v w hv hw h0
    obtain ⟨b, p, hb, hp, hpw⟩ := hw
    have e := hag env hU v b hv hb; subst e
    exact (hr env hU _ (val_powSub L hU hl hb rfl hp (pone' L) hpw h0)).1

include L rl in
theorem B_divOther (o : SOpts) (x val : Expr K) :
    Sat (Sound M U) (divOther rec o x val)
    (OptJoins M U (· ≠ 0) (· / ·) x val) (fun _ => True) := by
  unfold divOther
  split
  · refine B_if (fun hag => (rl.simp o _).bind fun l hl => (rl.simp o _).bind fun r hr =>
      Sat.pure (optJoins_some ?_)) (Sat.pure optJoins_none)
    rintro env hU v w hv hw h0
    obtain ⟨c, q, hc, hq, hqw⟩ := hv
    have e := hag env hU w c hw hc; subst e
    exact (hr env hU _ (val_powSub L hU hl hw hq rfl hqw (pone' L) h0)).1
  · refine B_if (fun hag => Sat.pure (optJoins_some ?_)) (Sat.pure optJoins_none)
    rintro env hU v w hv hw h0
    rw [hag env hU v w hv hw]
    exact (div_self h0).trans L.one.symm

include L in
theorem val_recip {x : Expr K} {env : Str → M.V} {v} (h : M.Val env x v) (h0 : v ≠ 0) :
    M.Val env (Expr.pow x (.real Num.negOne)) (1 / v) := by
  refine ⟨v, _, h, rfl, ?_⟩
  rw [L.negOne, one_div]
  exact L.pow_neg (L.pow_one v) h0

include L in
theorem val_powNeg {b p : Expr K} {env : Str → M.V} {v} (h : M.Val env (Expr.pow b p) v) (h0 : v ≠ 0) :
    M.Val env (Expr.pow b (Expr.mul (.real Num.negOne) p)) (1 / v) := by
  obtain ⟨x, q, hx, hq, hp⟩ := h
  refine ⟨x, _, hx, val_negMul L hq, ?_⟩
  rw [one_div]
  refine L.flag (c := p.vars = []) (fun h => ?_) (L.pow_neg hp h0)
  simp [vars, h]

include L rl in
theorem B_divStep (o : SOpts) (vals : List (Expr K)) (x : Expr K) :
    Sat (Sound M U) (divStep rec o vals x) (JoinsProd M U (· ≠ 0) (· / ·) x vals)
      (fun _ => True) := by
  have hg : ∀ u v a : M.V, (fun x1 x2 => x1 / x2) (u * v) a = u * (fun x1 x2 => x1 / x2) v a :=
    fun u v a => mul_div_assoc u v a
  unfold divStep
  split
  · refine updOrPush_prod hg (B_divReal L _) (Sat.pure ?_) _
    rintro env hU _ rfl h0
    show (1 : M.V) / _ = _
    rw [L.div _ _ h0, L.one]
  · exact updOrPush_prod hg (B_divImag L) (Sat.pure fun env hU a ha h0 => val_recip L ha h0) _
  · exact updOrPush_prod hg (B_divVar L rl o _) (Sat.pure fun env hU a ha h0 => val_recip L ha h0) _
  · exact updOrPush_prod hg (B_divVarExp L rl o _ _) (Sat.pure fun env hU a ha h0 => val_powNeg L ha h0) _
  · exact updOrPush_prod hg (B_divExp L rl o _ _)
      ((rl.simp o _).conseq fun r hr env hU a ha h0 => (hr env hU _ (val_powNeg L ha h0)).1) _
  · exact updOrPush_prod hg (B_divOther L rl o _) (Sat.pure fun env hU a ha h0 => val_recip L ha h0) _

/-- what it means to send a factor to one side of a quotient -/
def SideRef (M : Sem K) (U : Set (Str → M.V)) (val : Expr K) : Side K → Prop
  | .drop => ∀ env ∈ U, ∀ v, M.Val env val v → v = 1
  | .num e => Refines M U val e
  | .den e => ∀ env ∈ U, ∀ v, M.Val env val v → ∃ w, M.Val env e w ∧ w ≠ 0 ∧ v = w⁻¹

include L in
theorem B_classify (val : Expr K) : Sat (Sound M U) (classify val) (SideRef M U val) (fun _ => True) := by
  unfold classify
  split
  · split
    · rename_i h1
      refine Sat.pure ?_
      rintro env hU _ rfl
      rw [L.beq _ _ h1, L.one]
    · exact Sat.pure (Refines.refl _)
  · split
    · rename_i hr
      refine Sat.pure ?_
      rintro env hU v ⟨b, _, hb, rfl, hp⟩
      have h0 := L.pow_ne hr hp
      refine ⟨v⁻¹, ⟨b, _, hb, rfl, ?_⟩, inv_ne_zero h0, by simp⟩
      rw [L.mul, L.negOne, mul_neg, mul_one]
      exact L.pow_neg hp h0
    · exact Sat.pure (Refines.refl _)
  · split
    · rename_i hc
      split
      · refine B_note fun hev => Sat.pure ?_
        intro env hU v hv
        obtain ⟨b, q, hb, hq, hp⟩ := hv
        have h1 := hev env hU v ⟨b, q, hb, cast_val hc hq,
          L.flag (fun h => (reordered_vars (cast_sound _ _ _ hc).2).1 h) hp⟩
        obtain ⟨_, w, rfl, hw, h0, rfl⟩ := h1
        exact ⟨w, hw, h0, by rw [L.one, one_div]⟩
      · exact Sat.pure (Refines.refl _)
    · exact Sat.pure (Refines.refl _)
  · exact Sat.pure (Refines.refl _)

include L in
theorem B_classifyAll (l : List (Expr K)) : Sat (Sound M U) (classifyAll l)
    (fun r => ∀ env ∈ U, ∀ v, VProd M env l v →
      ∃ n d, VProd M env r.1 n ∧ VProd M env r.2 d ∧ d ≠ 0 ∧ v = n / d) (fun _ => True) := by
  induction l with
  | nil =>
    refine Sat.pure fun env hU v hv => ?_
    exact ⟨1, 1, vprod_nil.2 rfl, vprod_nil.2 rfl, one_ne_zero, by rw [vprod_nil.1 hv]; simp⟩
  | cons x xs ih =>
    unfold classifyAll
    refine (B_classify L x).bind fun s hs => ih.bind fun r hr => ?_
    split
    · refine Sat.pure fun env hU v hv => ?_
      obtain ⟨a, b, ha, hb, rfl⟩ := vprod_cons.1 hv
      rw [hs env hU a ha, one_mul]
      exact hr env hU b hb
    · refine Sat.pure fun env hU v hv => ?_
      obtain ⟨a, b, ha, hb, rfl⟩ := vprod_cons.1 hv
      obtain ⟨n, d, hn, hd, h0, rfl⟩ := hr env hU b hb
      exact ⟨a * n, d, vprod_cons.2 ⟨a, n, hs env hU a ha, hn, rfl⟩, hd, h0, by field_simp⟩
    · refine Sat.pure fun env hU v hv => ?_
      obtain ⟨a, b, ha, hb, rfl⟩ := vprod_cons.1 hv
      obtain ⟨n, d, hn, hd, h0, rfl⟩ := hr env hU b hb
      obtain ⟨w, hw, hw0, rfl⟩ := hs env hU a ha
      exact ⟨n, w * d, hn, vprod_cons.2 ⟨w, d, hw, hd, rfl⟩, mul_ne_zero hw0 h0, by field_simp⟩

theorem single_some {l : List (Expr K)} {t} {env : Str → M.V} {v} (h : single l = some t)
    (hl : VProd M env l v) : M.Val env t v := by
  unfold single at h
  split at h
  · cases h; exact vprod_single.1 hl
  · exact build_prod h hl

theorem single_none {l : List (Expr K)} {env : Str → M.V} {v} (h : single l = none)
    (hl : VProd M env l v) : v = 1 := by
  unfold single at h
  split at h
  · cases h
  · rename_i hne
    have := (build_none_iff _ _).1 h
    match l, hne, this with
    | [], _, _ => exact vprod_nil.1 hl
    | [x], hne, _ => exact absurd rfl (hne x)

include L in
theorem divRebuild_val {p : List (Expr K) × List (Expr K)} {env : Str → M.V} {n d}
    (hn : VProd M env p.1 n) (hd : VProd M env p.2 d) (h0 : d ≠ 0) : M.Val env (divRebuild p) (n / d) := by
  have hn' := vprod_map (val_dropPowOne L) hn
  have hd' := vprod_map (val_dropPowOne L) hd
  unfold divRebuild
  split <;> rename_i h1 h2
  · rw [single_none h1 hn']
    exact ⟨_, d, rfl, single_some h2 hd', h0, by rw [L.one]⟩
  · rw [single_none h2 hd', div_one]; exact single_some h1 hn'
  · rw [single_none h1 hn', single_none h2 hd', div_one]; exact L.one.symm
  · exact ⟨n, d, single_some h1 hn', single_some h2 hd', h0, rfl⟩

include L rl in
theorem B_divCollect (o : SOpts) (a b : Expr K) :
    Sat (Sound M U) (divCollect rec o a b) (Refines M U (Expr.div a b)) (fun _ => True) := by
  unfold divCollect
  refine (foldlM_quot (B_divStep L rl o) _ _).bind fun res hres =>
    (B_classifyAll L res).bind fun p hp => Sat.pure ?_
  rintro env hU _ ⟨x, y, hx, hy, h0, rfl⟩
  obtain ⟨n, d, hn, hd, hd0, rfl⟩ := splitNum_prod (factors_prod hx)
  obtain ⟨n', d', hn', hd', hd0', e⟩ := hp env hU _ (hres env hU n (y * d) hn
    (vprod_append.2 ⟨y, d, factors_prod hy, hd, rfl⟩) (mul_ne_zero h0 hd0))
  have : n / d / y = n' / d' := by rw [← e]; field_simp
  rw [this]
  exact divRebuild_val L hn' hd' hd0'

include L rl in
theorem B_simpDiv (o : SOpts) (x y : Expr K) :
    Sat (Sound M U) (simpDiv rec o x y) (Refines M U (Expr.div x y)) (fun _ => True) := by
  unfold simpDiv
  refine (B_simpBoth rl o x y).bind ?_
  rintro ⟨a, b⟩ ⟨ha, hb⟩
  have key : Refines M U (Expr.div x y) (Expr.div a b) := by
    rintro env hU _ ⟨u, w, hu, hw, h0, rfl⟩
    exact ⟨u, w, (ha env hU u hu).1, (hb env hU w hw).1, h0, rfl⟩
  refine Sat.conseq (Q' := Refines M U (Expr.div a b)) ?_ fun r hr => key.trans hr
  exact B_orElse (B_div877 L _) (B_orElse (B_div884 L _) (B_divCollect L rl o a b))

/-! ### Exponent -/

include L in
theorem B_pow1138 (s : Expr K) : Sat (Sound M U) (pow1138 s) (OptRef M U s) (fun _ => True) := by
  ruleB pow1138
  split
  · rename_i h0
    refine Sat.pure (optRef_some fun env hU v hv => ?_)
    obtain ⟨x, _, hx, rfl, hp⟩ := cast_val hc hv
    rw [L.beq _ _ h0, L.zero] at hp
    rw [L.pow_zero hp]; exact L.one.symm
  · exact Sat.pure optRef_none

include L in
theorem B_pow1147 (s : Expr K) : Sat (Sound M U) (pow1147 s) (OptRef M U s) (fun _ => True) := by
  ruleB pow1147
  split
  · rename_i h0
    refine B_note fun hev => Sat.pure (optRef_some fun env hU v hv => ?_)
    obtain ⟨_, p, rfl, hp, hpw⟩ := cast_val hc hv
    rw [L.beq _ _ h0] at hpw
    exact hev env hU v ⟨_, p, rfl, hp, hpw⟩
  · exact Sat.pure optRef_none

theorem B_numPow (a b : K) : Sat (Sound M U) (numPow a b)
    (fun r => Refines M U (Expr.pow (.real a) (.real b)) (.real r)) (fun _ => True) := by
  unfold numPow
  exact B_note fun hev => Sat.pure hev

theorem B_pow1155 (s : Expr K) : Sat (Sound M U) (pow1155 s) (OptRef M U s) (fun _ => True) := by
  ruleB pow1155
  refine (B_numPow _ _).bind fun r hr => Sat.pure (optRef_some fun env hU v hv => ?_)
  exact hr env hU v (cast_val hc hv)

include L in
theorem B_pow1162 (s : Expr K) : Sat (Sound M U) (pow1162 s) (OptRef M U s) (fun _ => True) := by
  ruleB pow1162
  split
  · rename_i h0
    refine Sat.pure (optRef_some fun env hU v hv => ?_)
    obtain ⟨x, _, hx, rfl, hp⟩ := cast_val hc hv
    rw [L.beq _ _ h0, L.one] at hp
    rw [L.pow_one' hp]; exact hx
  · exact Sat.pure optRef_none

include L in
theorem B_pow1170 (s : Expr K) : Sat (Sound M U) (pow1170 s) (OptRef M U s) (fun _ => True) := by
  ruleB pow1170
  split
  · rename_i h0
    refine Sat.pure (optRef_some fun env hU v hv => ?_)
    obtain ⟨_, p, rfl, hp, hpw⟩ := cast_val hc hv
    rw [L.beq _ _ h0, L.one] at hpw
    rw [L.one_pow hpw]; exact L.one.symm
  · exact Sat.pure optRef_none

include L in
theorem B_pow1178 (s : Expr K) : Sat (Sound M U) (pow1178 s) (OptRef M U s) (fun _ => True) := by
  ruleB pow1178
  rename_i p
  refine B_note fun hev => ?_
  have key : ∀ env ∈ U, ∀ v, M.Val env s v →
      ∃ i, M.imag = some i ∧ (∀ k, Num.fmod4 p = some k → v = i ^ k) ∧ i * i = -1 := by
    intro env hU v hv
    obtain ⟨i, _, hi, rfl, hp⟩ := cast_val hc hv
    exact ⟨i, hi, fun k hk => hev k hk i hi v hp, L.imag i hi⟩
  split
  · exact Sat.fail trivial
  · rename_i h
    refine Sat.pure (optRef_some fun env hU v hv => ?_)
    obtain ⟨i, hi, hk, h2⟩ := key env hU v hv
    rw [hk _ h, zpow_zero]; exact L.one.symm
  · rename_i h
    refine Sat.pure (optRef_some fun env hU v hv => ?_)
    obtain ⟨i, hi, hk, h2⟩ := key env hU v hv
    rw [hk _ h, zpow_one]; exact hi
  · rename_i h
    refine Sat.pure (optRef_some fun env hU v hv => ?_)
    obtain ⟨i, hi, hk, h2⟩ := key env hU v hv
    rw [hk _ h, show i ^ (2 : ℤ) = i * i by rw [← sq]; norm_cast, h2]; exact L.negOne.symm
  · rename_i h
    refine Sat.pure (optRef_some fun env hU v hv => ?_)
    obtain ⟨i, hi, hk, h2⟩ := key env hU v hv
    refine ⟨i, hi, ?_⟩
    rw [hk _ h, show i ^ (3 : ℤ) = i * i * i by rw [← sq, ← pow_succ]; norm_cast, h2]; ring
  · exact Sat.fail trivial

include L in
theorem B_pow1194 (s : Expr K) : Sat (Sound M U) (pow1194 s) (OptRef M U s) (fun _ => True) := by
  ruleB pow1194
  split
  · rename_i h0
    refine B_note fun hev => (B_numPow _ _).bind fun r hr =>
      Sat.pure (optRef_some fun env hU v hv => ?_)
    obtain ⟨x, _, hx, rfl, hp⟩ := cast_val hc hv
    rw [L.beq _ _ (Bool.and_eq_true _ _ ▸ h0).2] at hp
    obtain ⟨_, i, ⟨a, b, ha, hb, rfl⟩, hi, rfl⟩ := hev env hU v ⟨x, _, hx, rfl, hp⟩
    exact ⟨_, i, ⟨a, b, hr env hU a ha, hb, rfl⟩, hi, rfl⟩
  · exact Sat.pure optRef_none

include L rl in
theorem B_pow1207 (o : SOpts) (s : Expr K) :
    Sat (Sound M U) (pow1207 rec o s) (OptRef M U s) (fun _ => True) := by
  ruleB pow1207
  refine B_note fun hev => (rl.simp o _).bind fun l hl =>
      Sat.pure (optRef_some fun env hU v hv => ?_)
  exact val_powExp L hU hl (hev env hU v (cast_val hc hv))

include L in
theorem B_pow1217 (s : Expr K) : Sat (Sound M U) (pow1217 s) (OptRef M U s) (fun _ => True) := by
  ruleB pow1217
  refine B_if (fun hag => Sat.pure (optRef_some fun env hU v hv => ?_)) (Sat.pure optRef_none)
  obtain ⟨b, _, hb, ⟨c, x, hc', hx, hl⟩, hp⟩ := cast_val hc hv
  rw [← hag env hU b c hb hc'] at hl
  rw [L.pow_log hl hp]; exact hx

include L rl in
theorem B_simpPow (o : SOpts) (x y : Expr K) :
    Sat (Sound M U) (simpPow rec o x y) (Refines M U (Expr.pow x y)) (fun _ => True) := by
  unfold simpPow
  refine (B_simpBoth rl o x y).bind ?_
  rintro ⟨a, b⟩ ⟨ha, hb⟩
  have key : Refines M U (Expr.pow x y) (Expr.pow a b) := by
    rintro env hU _ ⟨u, w, hu, hw, h0⟩
    exact val_powExp L hU hb ⟨u, w, (ha env hU u hu).1, hw, h0⟩
  refine Sat.conseq (Q' := Refines M U (Expr.pow a b)) (Sat.value ?_ trivial) fun r hr => key.trans hr
  refine B_orElse (B_pow1138 L _) ?_
  refine B_orElse (B_pow1147 L _) ?_
  refine B_orElse (B_pow1155 _) ?_
  refine B_orElse (B_pow1162 L _) ?_
  refine B_orElse (B_pow1170 L _) ?_
  refine B_orElse (B_pow1178 L _) ?_
  refine B_orElse (B_pow1194 L _) ?_
  refine B_orElse (B_pow1207 L rl o _) ?_
  refine B_orElse (B_pow1217 L _) ?_
  exact Sat.pure (Refines.refl _)

/-! ### Log -/

include L in
theorem B_log1279 (s : Expr K) : Sat (Sound M U) (log1279 s) (OptRef M U s) (fun _ => True) := by
  ruleB log1279
  split
  · rename_i h0
    refine Sat.pure (optRef_some fun env hU v hv => ?_)
    obtain ⟨_, x, rfl, hx, hl⟩ := cast_val hc hv
    rw [L.log_base h0] at hl; cases hl
  · exact Sat.pure optRef_none

include L in
theorem B_log1285 (s : Expr K) : Sat (Sound M U) (log1285 s) (OptRef M U s) (fun _ => True) := by
  ruleB log1285
  split
  · rename_i h0
    refine Sat.pure (optRef_some fun env hU v hv => ?_)
    obtain ⟨b, _, hb, rfl, hl⟩ := cast_val hc hv
    rw [L.log_arg (.inl h0)] at hl; cases hl
  · split
    · rename_i h1
      refine Sat.pure (optRef_some fun env hU v hv => ?_)
      obtain ⟨b, _, hb, rfl, hl⟩ := cast_val hc hv
      rw [L.beq _ _ h1, L.one] at hl
      rw [L.log_one hl]; exact L.zero.symm
    · exact Sat.pure optRef_none

theorem B_log1297 (s : Expr K) : Sat (Sound M U) (log1297 s) (OptRef M U s) (fun _ => True) := by
  ruleB log1297
  exact B_note fun hev => Sat.pure (optRef_some fun env hU v hv => hev env hU v (cast_val hc hv))

include L in
theorem B_log1305 (s : Expr K) : Sat (Sound M U) (log1305 s) (OptRef M U s) (fun _ => True) := by
  ruleB log1305
  split
  · rename_i h0
    refine Sat.pure (optRef_some fun env hU v hv => ?_)
    obtain ⟨b, _, hb, rfl, hl⟩ := cast_val hc hv
    rw [L.log_arg (.inr h0)] at hl; cases hl
  · exact Sat.pure optRef_none

include L in
theorem B_log1312 (s : Expr K) : Sat (Sound M U) (log1312 s) (OptRef M U s) (fun _ => True) := by
  ruleB log1312
  refine B_if (fun hag => Sat.pure (optRef_some fun env hU v hv => ?_)) (Sat.pure optRef_none)
  obtain ⟨b, a, hb, ha, hl⟩ := cast_val hc hv
  rw [hag env hU a b ha hb] at hl
  rw [L.log_self hl]; exact L.one.symm

include rl in
theorem B_log1319 (o : SOpts) (s : Expr K) :
    Sat (Sound M U) (log1319 rec o s) (OptRef M U s) (fun _ => True) := by
  ruleB log1319
  exact B_note fun hev => (rl.simp o _).bind fun r hr =>
    Sat.pure (optRef_some fun env hU v hv => (hr env hU v (hev env hU v (cast_val hc hv))).1)

include L rl in
theorem B_simpLog (o : SOpts) (x y : Expr K) :
    Sat (Sound M U) (simpLog rec o x y) (Refines M U (Expr.log x y)) (fun _ => True) := by
  unfold simpLog
  refine (B_simpBoth rl o x y).bind ?_
  rintro ⟨a, b⟩ ⟨ha, hb⟩
  have key : Refines M U (Expr.log x y) (Expr.log a b) := by
    rintro env hU _ ⟨u, w, hu, hw, h0⟩
    exact ⟨u, w, (ha env hU u hu).1, (hb env hU w hw).1, h0⟩
  refine Sat.conseq (Q' := Refines M U (Expr.log a b)) ?_ fun r hr => key.trans hr
  exact B_orElse (B_log1279 L _) (B_orElse (B_log1285 L _) (B_orElse (B_log1297 _)
    (B_orElse (B_log1305 L _) (B_orElse (B_log1312 L _) (B_orElse (B_log1319 rl o _)
      (Sat.pure (Refines.refl _)))))))

/-! ### Unary nodes and derivatives -/

theorem B_present (e : Expr K) : Sat (Sound M U) (present e) (fun _ => True) (fun _ => True) := by
  unfold present; split
  · exact Sat.fail trivial
  · exact Sat.pure trivial

include L rl in
theorem B_simpNeg (o : SOpts) (x : Expr K) :
    Sat (Sound M U) (simpNeg rec o x) (Refines M U (Expr.neg x)) (fun _ => True) := by
  unfold simpNeg
  refine (B_present x).bind fun _ _ => (rl.simp o x).bind fun a ha => Sat.value ?_ trivial
  refine (rl.simp o _).conseq fun r hr env hU v hv => ?_
  obtain ⟨y, hy, rfl⟩ := hv
  exact (hr env hU _ (val_negMul L (ha env hU y hy).1)).1

include rl in
theorem B_simpSine (o : SOpts) (x : Expr K) :
    Sat (Sound M U) (simpSine rec o x) (Refines M U (Expr.sine x)) (fun _ => True) := by
  unfold simpSine
  refine (B_present x).bind fun _ _ => (rl.simp o x).bind fun a ha => B_note fun hev => ?_
  refine (rl.simp o _).conseq fun r hr env hU v hv => ?_
  exact (hr env hU _ (ha env hU _ (hev env hU v hv)).1).1

include L rl in
theorem B_simpMag (o : SOpts) (x : Expr K) :
    Sat (Sound M U) (simpMag rec o x) (Refines M U (Expr.mag x)) (fun _ => True) := by
  unfold simpMag
  refine (B_present x).bind fun _ _ => (rl.simp o x).bind fun a ha => ?_
  have key : Refines M U (Expr.mag x) (Expr.mag a) := by
    rintro env hU _ ⟨u, hu, h0⟩
    exact ⟨u, (ha env hU u hu).1, h0⟩
  refine B_orElse ?_ (B_orElse ?_ (B_orElse ?_ (B_orElse ?_ (B_orElse ?_ (B_orElse ?_
    (Sat.pure (Refines.refl _)))))))
  · unfold mag1446
    split
    · refine Sat.pure (optRef_some fun env hU v hv => ?_)
      obtain ⟨_, rfl, h⟩ := key env hU v hv
      have := L.mag_real h
      split
      · rename_i hle; rw [if_pos hle] at this; exact this
      · rename_i hle; rw [if_neg hle] at this; exact this
    · exact Sat.pure optRef_none
  · unfold mag1450
    split
    · refine Sat.pure (optRef_some fun env hU v hv => ?_)
      obtain ⟨i, hi, h⟩ := key env hU v hv
      rw [L.mag_imag hi h]; exact L.one.symm
    · exact Sat.pure optRef_none
  · unfold mag1453
    split
    · rename_i hc
      refine (rl.simp o _).bind fun r hr => Sat.pure (optRef_some fun env hU v hv => ?_)
      obtain ⟨_, hm, h⟩ := key env hU v hv
      obtain ⟨y, i, hy, hi, rfl⟩ := cast_val hc hm
      exact (hr env hU v ⟨y, hy, L.mag_mul hi h⟩).1
    · exact Sat.pure optRef_none
  · unfold mag1456
    split
    · rename_i hc
      refine B_note fun hev => (rl.simp o _).bind fun r hr =>
        Sat.pure (optRef_some fun env hU v hv => ?_)
      obtain ⟨_, hm, h⟩ := key env hU v hv
      obtain ⟨y, i, hy, hi, rfl⟩ := cast_val hc hm
      obtain ⟨_, p, ⟨a, b, ha, hb, rfl⟩, hp, hpw⟩ :=
        hev env hU v ⟨_, ⟨y, i, hy, val_oneMul L hi, rfl⟩, h⟩
      refine (hr env hU v ⟨a + b, p, ⟨a, b, ha, ?_, rfl⟩, hp, hpw⟩).1
      obtain ⟨_, _, rfl, rfl, hb⟩ := hb
      rw [L.one] at hb
      rw [L.one_pow hb]; exact L.one.symm
    · exact Sat.pure optRef_none
  · unfold mag1462
    split
    · rename_i hc
      refine B_note fun hev => (rl.simp o _).bind fun r hr =>
        Sat.pure (optRef_some fun env hU v hv => ?_)
      obtain ⟨y, hi, h⟩ := key env hU v hv
      exact (hr env hU v (hev env hU v ⟨y, cast_val hc hi, h⟩)).1
    · exact Sat.pure optRef_none
  · unfold mag1468
    split
    · refine (rl.simp o _).bind fun r hr => Sat.pure (optRef_some fun env hU v hv => ?_)
      obtain ⟨y, hi, h⟩ := key env hU v hv
      exact hi.elim
    · exact Sat.pure optRef_none

include rl in
theorem B_differentiate (n : Str) (e : Expr K) (he : e.derivFree) :
    Sat (Sound M U) (differentiate rec (.var n) e) (Refines M U (deriv e (.var n))) (fun _ => True) := by
  unfold differentiate
  refine (Sat.attempt (rl.diff _ n e he)).bind fun r hr => ?_
  split
  · exact Sat.pure (hr.1 _ rfl)
  · exact Sat.pure (Refines.refl _)

theorem B_vac {m : Oasis.M K (Expr K)} {e : Expr K} (h : ∀ env ∈ U, ∀ v, ¬ M.Val env e v) :
    Sat (Sound M U) m (Refines M U e) (fun _ => True) := by
  intro r l _ _
  cases r with
  | ok r => exact fun env hU v hv => absurd hv (h env hU v)
  | error f => trivial

include rl in
theorem B_simpDeriv (hD : DCong M U) (o : SOpts) (x y : Expr K) :
    Sat (Sound M U) (simpDeriv rec o x y) (Refines M U (deriv x y)) (fun _ => True) := by
  by_cases hv : ∃ env ∈ U, ∃ v, M.Val env (deriv x y) v
  · obtain ⟨env, hU, v, n, rfl, hx, ⟨w, hw⟩, _⟩ := hv
    unfold simpDeriv
    have hb : Sat (Sound M U) (simpBoth rec o x (.var n))
        (fun r => SRef M U x r.1 ∧ r.2 = .var n) (fun _ => True) := by
      unfold simpBoth
      exact (B_present x).bind fun _ _ => (B_present _).bind fun _ _ =>
        Sat.both (fun _ => trivial) (rl.simp o x) (rl.var o n)
    refine hb.bind ?_
    rintro ⟨a, _⟩ ⟨ha, rfl⟩
    have ha' : a.derivFree := (ha env hU w hw).2.2 hx
    refine (B_differentiate rl n a ha').bind fun d hd => (rl.simp o d).bind fun s hs =>
      Sat.value ((rl.simp o s).conseq fun r hr => ?_) trivial
    exact (hD x a n hx ha' ha.ref).trans (hd.trans (hs.ref.trans hr.ref))
  · exact B_vac fun env hU v h => hv ⟨env, hU, v, h⟩

include L rl in
/-- one visitor call preserves the value -/
theorem B_simpStep (hD : DCong M U) (o : SOpts) (e : Expr K) :
    Sat (Sound M U) (simpStep rec o e) (Refines M U e) (fun _ => True) := by
  unfold simpStep
  split
  · exact Sat.fail trivial
  · exact B_simpAdd L rl o _ _
  · exact B_simpSub L rl o _ _
  · exact B_simpMul L rl o _ _
  · exact B_simpDiv L rl o _ _
  · exact B_simpPow L rl o _ _
  · exact B_simpLog L rl o _ _
  · exact B_simpDeriv rl hD o _ _
  · exact B_vac fun env hU v h => h
  · exact B_simpNeg L rl o _
  · exact B_simpSine rl o _
  · exact B_simpMag L rl o _
  · exact Sat.pure (Refines.refl _)

end
end Oasis
