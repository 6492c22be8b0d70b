import Verif.Proofs.Serialize
import Verif.Proofs.MatText
import Verif.Spec.MathML

/-! # The MathML element determines the expression up to grouping -/

namespace Oasis
variable {K : Type} [Num K] [NumText K]

namespace ML

theorem mapM_attach {α β : Type} (f : α → Except Fail β) (l : List α) : (l.attach.mapM fun x => f x.1) = l.mapM f := by
  have := List.mapM_subtype (l := l.attach) (f := fun x => f x.1) (g := f) (fun _ _ => rfl)
  rw [this, List.unattach_attach]

theorem mathML_add (a b : Expr K) : mathML (.bin .add a b) = (flatten .add a b).mapM mathML >>= xmlSum := by
  rw [mathML, mapM_attach]

theorem mathML_mul (a b : Expr K) : mathML (.bin .mul a b) =
    ((flatten .mul a b).mapM fun x => (do let y ← mathML x; return (x, y) : Except Fail (Expr K × Xml))) >>= xmlProduct := by
  rw [mathML, mapM_attach fun x => (do let y ← mathML x; return (x, y) : Except Fail (Expr K × Xml))]

theorem mathML_bin {op : BinOp} (h1 : op ≠ .add) (h2 : op ≠ .mul) (a b : Expr K) : mathML (.bin op a b) = (do
    let l ← mathML a
    let r ← mathML b
    return xmlBin op a b l r) := by
  cases op <;> first | exact absurd rfl h1 | exact absurd rfl h2 | rw [mathML] <;> simp

/-! ## Expressions that look the same have the same element -/

/-- the element and everything the contexts look at -/
structure Like (e f : Expr K) : Prop where
  ml : mathML e = mathML f
  sub : ∀ x, xmlSubtrahend e x = xmlSubtrahend f x
  bare : bareFactor e = bareFactor f
  real : isReal e = isReal f
  isv : isVar e = isVar f

theorem Like.rfl {e : Expr K} : Like e e := ⟨_root_.rfl, fun _ => _root_.rfl, _root_.rfl, _root_.rfl, _root_.rfl⟩
theorem Like.symm {e f : Expr K} (h : Like e f) : Like f e :=
  ⟨h.ml.symm, fun x => (h.sub x).symm, h.bare.symm, h.real.symm, h.isv.symm⟩
theorem Like.trans {e f g : Expr K} (h : Like e f) (h' : Like f g) : Like e g :=
  ⟨h.ml.trans h'.ml, fun x => (h.sub x).trans (h'.sub x), h.bare.trans h'.bare, h.real.trans h'.real, h.isv.trans h'.isv⟩

/-- also for the operands of sums and products -/
structure Likes (e f : Expr K) : Prop where
  like : Like e f
  flat : ∀ op, List.Forall₂ Like (flatOp op e) (flatOp op f)

theorem mapM_like {f : Expr K → Except Fail Xml} {l l' : List (Expr K)} (h : List.Forall₂ (fun x y => f x = f y) l l') :
    l.mapM f = l'.mapM f := by
  induction h with
  | nil => rfl
  | cons h _ ih => simp only [List.mapM_cons, h, ih]

/-- pairs with the same elements that are put in parentheses in the same cases -/
def PairLike (p q : Expr K × Xml) : Prop := p.2 = q.2 ∧ bareFactor p.1 = bareFactor q.1 ∧ isReal p.1 = isReal q.1

theorem mapM_pairs {l l' : List (Expr K)} (h : List.Forall₂ Like l l') :
    (∃ err, (l.mapM fun x => (do let y ← mathML x; return (x, y) : Except Fail (Expr K × Xml))) = .error err ∧
      (l'.mapM fun x => (do let y ← mathML x; return (x, y) : Except Fail (Expr K × Xml))) = .error err) ∨
    ∃ ps ps', (l.mapM fun x => (do let y ← mathML x; return (x, y) : Except Fail (Expr K × Xml))) = .ok ps ∧
      (l'.mapM fun x => (do let y ← mathML x; return (x, y) : Except Fail (Expr K × Xml))) = .ok ps' ∧ List.Forall₂ PairLike ps ps' := by
  induction h with
  | nil => exact .inr ⟨[], [], rfl, rfl, .nil⟩
  | @cons x y l l' h _ ih =>
    have hm := h.ml
    cases hx : mathML x with
    | error err => exact .inl ⟨err, by simp only [List.mapM_cons, hx]; rfl, by simp only [List.mapM_cons, ← hm, hx]; rfl⟩
    | ok v =>
      rcases ih with ⟨err, h1, h2⟩ | ⟨ps, ps', h1, h2, h3⟩
      · exact .inl ⟨err, by simp only [List.mapM_cons, hx, h1]; rfl, by simp only [List.mapM_cons, ← hm, hx, h2]; rfl⟩
      · exact .inr ⟨(x, v) :: ps, (y, v) :: ps', by simp only [List.mapM_cons, hx, h1]; rfl,
          by simp only [List.mapM_cons, ← hm, hx, h2]; rfl, .cons ⟨rfl, h.bare, h.real⟩ h3⟩

theorem factor_like {p q : Expr K × Xml} (h : PairLike p q) : xmlFactor p = xmlFactor q := by
  simp only [xmlFactor, h.1, h.2.1]

theorem factors_like {ps ps' : List (Expr K × Xml)} (h : List.Forall₂ PairLike ps ps') : ∀ {x y : Expr K},
    isReal x = isReal y → xmlFactors x ps = xmlFactors y ps' := by
  induction h with
  | nil => intros; rfl
  | cons h _ ih => intro x y hxy; simp only [xmlFactors, hxy, h.2.2, factor_like h, ih h.2.2]

theorem product_like {ps ps' : List (Expr K × Xml)} (h : List.Forall₂ PairLike ps ps') : xmlProduct ps = xmlProduct ps' := by
  cases h with
  | nil => rfl
  | cons h hs => simp only [xmlProduct, factor_like h, factors_like hs h.2.2]

theorem sub_of_not_real {e : Expr K} (h : isReal e = false) (x : Xml) : xmlSubtrahend e x = inParens x := by
  cases e <;> simp [isReal] at h <;> rfl

theorem ml_sum {a b c d : Expr K} (h : List.Forall₂ Like (flatten .add a b) (flatten .add c d)) :
    mathML (.bin .add a b) = mathML (.bin .add c d) := by
  rw [mathML_add, mathML_add, mapM_like (h.imp fun x y h => h.ml)]

theorem ml_product {a b c d : Expr K} (h : List.Forall₂ Like (flatten .mul a b) (flatten .mul c d)) :
    mathML (.bin .mul a b) = mathML (.bin .mul c d) := by
  rw [mathML_mul, mathML_mul]
  rcases mapM_pairs h with ⟨err, h1, h2⟩ | ⟨ps, ps', h1, h2, h3⟩
  · rw [h1, h2]
  · rw [h1, h2]; exact product_like h3

theorem like_un {op : UnOp} {a b : Expr K} (h : mathML (.un op a) = mathML (.un op b)) : Likes (.un op a) (.un op b) := by
  have : Like (.un op a) (.un op b) := ⟨h, fun _ => rfl, rfl, rfl, rfl⟩
  exact ⟨this, fun op' => .cons this .nil⟩

theorem like_bin {op : BinOp} {a b c d : Expr K} (h : mathML (.bin op a b) = mathML (.bin op c d))
    (hf : List.Forall₂ Like (flatten op a b) (flatten op c d)) : Likes (.bin op a b) (.bin op c d) := by
  have h' : Like (.bin op a b) (.bin op c d) := ⟨h, fun _ => rfl, by cases op <;> rfl, rfl, rfl⟩
  refine ⟨h', fun op' => ?_⟩
  simp only [flatOp]
  split
  · rename_i ho; subst ho; exact hf
  · exact .cons h' .nil

theorem likes {e f : Expr K} (h : SameLook e f) : Likes e f := by
  induction h with
  | refl e => exact ⟨.rfl, fun op => List.forall₂_same.2 fun x _ => .rfl⟩
  | symm _ ih => exact ⟨ih.like.symm, fun op => (List.Forall₂.flip (ih.flat op)).imp fun _ _ h => h.symm⟩
  | trans _ _ ih ih' =>
    refine ⟨ih.like.trans ih'.like, fun op => ?_⟩
    have tr : ∀ {l m n : List (Expr K)}, List.Forall₂ Like l m → List.Forall₂ Like m n → List.Forall₂ Like l n := by
      intro l m n h h'
      induction h generalizing n with
      | nil => cases h'; exact .nil
      | cons h _ ih => cases h' with | cons h2 h3 => exact .cons (h.trans h2) (ih h3)
    exact tr (ih.flat op) (ih'.flat op)
  | un op _ ih =>
    refine like_un ?_
    cases op with
    | neg => rw [mathML, mathML, ih.like.ml]
    | sine => rw [mathML, mathML]
    | mag => rw [mathML, mathML, ih.like.ml]
  | @bin op a b c d _ _ iha ihb =>
    have hf : ∀ op, List.Forall₂ Like (flatten op a b) (flatten op c d) := fun op => List.rel_append (iha.flat op) (ihb.flat op)
    refine like_bin ?_ (hf op)
    by_cases h1 : op = .add
    · subst h1; exact ml_sum (hf _)
    by_cases h2 : op = .mul
    · subst h2; exact ml_product (hf _)
    rw [mathML_bin h1 h2, mathML_bin h1 h2, iha.like.ml, ihb.like.ml]
    have : ∀ l r, xmlBin op a b l r = xmlBin op c d l r := fun l r => by
      cases op <;> first | rfl | skip
      · exact congrArg (fun t => mrow ([l, mo ['-']] ++ t)) (ihb.like.sub r)
      · simp only [xmlBin, xmlBase, iha.like.real, iha.like.isv]
    simp only [this]
  | sums a b c =>
    have : flatten .add (.add a b) c = flatten .add a (.add b c) := by simp [flatten, flatOp, Expr.add]
    have hf : List.Forall₂ Like (flatten .add (.add a b) c) (flatten .add a (.add b c)) := by
      rw [this]; exact List.forall₂_same.2 fun x _ => .rfl
    exact like_bin (ml_sum hf) hf
  | products a b c =>
    have : flatten .mul (.mul a b) c = flatten .mul a (.mul b c) := by simp [flatten, flatOp, Expr.mul]
    have hf : List.Forall₂ Like (flatten .mul (.mul a b) c) (flatten .mul a (.mul b c)) := by
      rw [this]; exact List.forall₂_same.2 fun x _ => .rfl
    exact like_bin (ml_product hf) hf
  | sines a b => exact like_un (by rw [mathML, mathML])

/-! ## The element of an expression -/

/-- the element, if there is no failure -/
def xml (e : Expr K) : Xml := match mathML e with
  | .ok x => x
  | .error _ => mo []

/-- the expressions looked at -/
def Good (e : Expr K) : Prop := e.Complete ∧ FullMats (fun _ => True) e

theorem Good.un {op : UnOp} {a : Expr K} (h : Good (.un op a)) : Good a := ⟨h.1.2, h.2.2⟩
theorem Good.left {op : BinOp} {a b : Expr K} (h : Good (.bin op a b)) : Good a := ⟨h.1.2.1, h.2.2.1⟩
theorem Good.right {op : BinOp} {a b : Expr K} (h : Good (.bin op a b)) : Good b := ⟨h.1.2.2, h.2.2.2⟩

theorem Good.flat {op op' : BinOp} {a b : Expr K} (h : Good (.bin op a b)) : ∀ x ∈ flatten op' a b, Good x := fun x hx =>
  ⟨flatten_everywhere op' h.1.2.1 h.1.2.2 x hx, flatten_everywhere op' h.2.2.1 h.2.2.2 x hx⟩

theorem xml_ok {e : Expr K} (h : Good e) : mathML e = .ok (xml e) := by
  have hf : FilledMats e := by
    have := h.2
    clear h
    induction e with
    | mat m => intro m' hm'; cases hm'; exact (this m rfl).2.1
    | un op a ih => exact ⟨by simp, ih this.2⟩
    | bin op a b iha ihb => exact ⟨by simp, iha this.2.1, ihb this.2.2⟩
    | _ => simp [FilledMats, Expr.Everywhere]
  obtain ⟨x, hx, _⟩ := mathML_labels e.size e (Nat.le_refl _) h.1 hf
  simp only [xml, hx]

theorem xml_eq {e : Expr K} {x : Xml} (h : mathML e = .ok x) : xml e = x := by simp only [xml, h]

theorem xml_neg {a : Expr K} (h : Good a) : xml (.un .neg a) = mrow ([mo ['-']] ++ inParens (xml a)) :=
  xml_eq (by rw [mathML, xml_ok h]; rfl)
theorem xml_mag {a : Expr K} (h : Good a) : xml (.un .mag a) = mrow [mo ['|'], xml a, mo ['|']] :=
  xml_eq (by rw [mathML, xml_ok h]; rfl)
theorem xml_sine (a : Expr K) : xml (.un .sine a) = mrow [] := xml_eq (by rw [mathML])

theorem xml_bin {op : BinOp} (h1 : op ≠ .add) (h2 : op ≠ .mul) {a b : Expr K} (h : Good (.bin op a b)) :
    xml (.bin op a b) = xmlBin op a b (xml a) (xml b) :=
  xml_eq (by rw [mathML_bin h1 h2, xml_ok h.left, xml_ok h.right]; rfl)

/-- the summands with signs between them -/
def sumRow : List Xml → List Xml
  | [] => []
  | x :: l => x :: l.flatMap fun y => [mo ['+'], y]

theorem dropLast_sum (x : Xml) (l : List Xml) :
    (([x, mo ['+']] ++ l.flatMap fun x => [x, mo ['+']]).dropLast) = x :: l.flatMap fun y => [mo ['+'], y] := by
  induction l generalizing x with
  | nil => rfl
  | cons y l ih =>
    have := ih y
    simp only [List.flatMap_cons, List.cons_append, List.nil_append] at *
    rw [List.dropLast_cons_of_ne_nil (by simp), List.dropLast_cons_of_ne_nil (by simp), this]

theorem mapM_ok {α β : Type} {f : α → Except Fail β} {g : α → β} {l : List α} (h : ∀ x ∈ l, f x = .ok (g x)) :
    l.mapM f = .ok (l.map g) := by
  induction l with
  | nil => rfl
  | cons x l ih => simp only [List.mapM_cons, h x (by simp), ih fun y hy => h y (by simp [hy])]; rfl

theorem flat_cons {op : BinOp} {a b : Expr K} (h : Good (.bin op a b)) : ∃ x y l, flatten op a b = x :: y :: l := by
  have h1 := flatOp_cons_ne (op := op) h.1.2.1
  have h2 := flatOp_cons_ne (op := op) h.1.2.2
  unfold flatten
  cases h3 : flatOp op a with
  | nil => exact absurd h3 h1
  | cons x l =>
    cases l with
    | cons y l => exact ⟨x, y, l ++ flatOp op b, rfl⟩
    | nil =>
      cases h4 : flatOp op b with
      | nil => exact absurd h4 h2
      | cons y l => exact ⟨x, y, l, rfl⟩

theorem xml_add {a b : Expr K} (h : Good (.bin .add a b)) : xml (.bin .add a b) = mrow (sumRow ((flatten .add a b).map xml)) := by
  refine xml_eq ?_
  rw [mathML_add, mapM_ok fun x hx => xml_ok (h.flat x hx)]
  obtain ⟨x, y, l, hl⟩ := flat_cons h
  rw [hl]
  exact congrArg (fun t => Except.ok (mrow t)) (dropLast_sum (xml x) ((y :: l).map xml))

theorem xml_mul {a b : Expr K} (h : Good (.bin .mul a b)) {x : Expr K} {l : List (Expr K)} (hl : flatten .mul a b = x :: l) :
    xml (.bin .mul a b) = mrow (xmlFactor (x, xml x) ++ xmlFactors x (l.map fun y => (y, xml y))) := by
  refine xml_eq ?_
  rw [mathML_mul, mapM_ok (g := fun x => (x, xml x)) fun x hx => by rw [xml_ok (h.flat x hx)]; rfl, hl]
  rfl

/-! ## Kinds of elements -/

/-- elements of expressions: not an operator, a `msub` or the sign of a derivative -/
def Plain : Xml → Prop
  | .text tag _ => tag ≠ chars! "mo"
  | .node tag kids => tag ≠ chars! "msub" ∧ ∀ s l, kids = mo s :: l → tag ≠ chars! "mfrac"

/-- the kind, from the constructor -/
def kind : Expr K → Nat
  | .real _ => 1
  | .undef => 3
  | .un .neg _ => 7
  | .un .sine _ => 6
  | .un .mag _ => 8
  | .bin .div _ _ => 4
  | .bin .pow _ _ => 5
  | .bin .integ _ _ => 9
  | .bin .mul _ _ => 10
  | .bin .log _ _ => 11
  | .bin .deriv _ _ => 12
  | .bin .add _ _ => 13
  | .bin .sub _ _ => 14
  | .mat _ => 15
  | _ => 2

theorem plain {e : Expr K} (h : Good e) : Plain (xml e) := by
  have row : ∀ l, Plain (mrow l) := fun l => ⟨by decide, fun _ _ _ => by decide⟩
  induction e with
  | real v => rw [xml_eq (mathML.eq_1 v)]; show _ ≠ _; decide
  | imag => rw [xml_eq mathML.eq_2]; show _ ≠ _; decide
  | mat m => rw [xml_eq (mathML.eq_3 m)]; exact row _
  | pi => rw [xml_eq mathML.eq_4]; show _ ≠ _; decide
  | euler => rw [xml_eq mathML.eq_5]; show _ ≠ _; decide
  | var n => rw [xml_eq (mathML.eq_6 n)]; show _ ≠ _; decide
  | undef => rw [xml_eq mathML.eq_7]; show _ ≠ _; decide
  | absent => exact absurd rfl h.1
  | un op a _ => cases op with
    | neg => rw [xml_neg h.un]; exact row _
    | sine => rw [xml_sine]; exact row _
    | mag => rw [xml_mag h.un]; exact row _
  | bin op a b iha _ =>
    cases op with
    | add => rw [xml_add h]; exact row _
    | mul => obtain ⟨x, y, l, hl⟩ := flat_cons h; rw [xml_mul h hl]; exact row _
    | sub => rw [xml_bin (by decide) (by decide) h]; exact row _
    | log => rw [xml_bin (by decide) (by decide) h]; exact row _
    | deriv => rw [xml_bin (by decide) (by decide) h]; exact row _
    | integ => rw [xml_bin (by decide) (by decide) h]; exact row _
    | div =>
      rw [xml_bin (by decide) (by decide) h]
      refine ⟨by decide, fun s l hl => ?_⟩
      have := iha h.left
      simp only [List.cons.injEq] at hl
      rw [hl.1] at this
      exact absurd rfl this
    | pow => rw [xml_bin (by decide) (by decide) h]; exact ⟨by decide, fun _ _ _ => by decide⟩

/-- the kind of a row, from its elements -/
def kindRow : List Xml → Nat
  | [] => 6
  | .text ['m', 'o'] s :: _ => if s = ['-'] then 7 else if s = ['|'] then 8 else if s = ['['] then 15 else if s = ['('] then 10 else 9
  | .node ['m', 's', 'u', 'b'] _ :: _ => 11
  | .node ['m', 'f', 'r', 'a', 'c'] (.text ['m', 'o'] _ :: _) :: _ => 12
  | _ :: .text ['m', 'o'] s :: _ => if s = ['+'] then 13 else if s = ['-'] then 14 else 10
  | _ => 10

/-- the kind, from the element -/
def kindX : Xml → Nat
  | .text tag _ => if tag = chars! "mn" then 1 else if tag = chars! "mi" then 2 else 3
  | .node tag kids => if tag = chars! "mfrac" then 4 else if tag = chars! "msup" then 5 else kindRow kids

theorem kindX_row (l : List Xml) : kindX (mrow l) = kindRow l := by
  simp only [kindX, mrow]; rw [if_neg (by decide), if_neg (by decide)]

theorem kindRow_plain {x : Xml} (h : Plain x) (l : List Xml) : kindRow (x :: l) = match l with
    | .text ['m', 'o'] s :: _ => if s = ['+'] then 13 else if s = ['-'] then 14 else 10
    | _ => 10 := by
  unfold kindRow
  split
  · rename_i h'; cases h'
  · rename_i h'; cases h'; exact absurd rfl h
  · rename_i h'; cases h'; exact absurd rfl h.1
  · rename_i h'; cases h'; exact absurd rfl (h.2 _ _ rfl)
  · rename_i h'; cases h'; rfl
  · rename_i h1 h2 h3 h4 h'
    split
    · exact absurd rfl (h' _ _ _)
    · rfl

theorem kind_xml {e : Expr K} (h : Good e) : kindX (xml e) = kind e := by
  cases e with
  | real v => rw [xml_eq (mathML.eq_1 v)]; rfl
  | imag => rw [xml_eq mathML.eq_2]; rfl
  | mat m => rw [xml_eq (mathML.eq_3 m)]; rfl
  | pi => rw [xml_eq mathML.eq_4]; rfl
  | euler => rw [xml_eq mathML.eq_5]; rfl
  | var n => rw [xml_eq (mathML.eq_6 n)]; rfl
  | undef => rw [xml_eq mathML.eq_7]; rfl
  | absent => exact absurd rfl h.1
  | un op a => cases op with
    | neg => rw [xml_neg h.un]; rfl
    | sine => rw [xml_sine]; rfl
    | mag => rw [xml_mag h.un]; rfl
  | bin op a b =>
    cases op with
    | add =>
      rw [xml_add h, kindX_row]
      obtain ⟨x, y, l, hl⟩ := flat_cons h
      have hx : Good x := h.flat x (by rw [hl]; simp)
      simp only [hl, List.map_cons, sumRow, List.flatMap_cons, List.cons_append]
      rw [kindRow_plain (plain hx)]
      rfl
    | mul =>
      obtain ⟨x, y, l, hl⟩ := flat_cons h
      have hx : Good x := h.flat x (by rw [hl]; simp)
      have hy : Good y := h.flat y (by rw [hl]; simp)
      rw [xml_mul h hl, kindX_row]
      unfold xmlFactor
      split
      · simp only [List.cons_append, List.nil_append]
        rw [kindRow_plain (plain hx)]
        simp only [List.map_cons, xmlFactors]
        split
        · rename_i s t ht
          split at ht
          · cases ht; rfl
          · simp only [List.nil_append, xmlFactor] at ht
            split at ht
            · simp only [List.cons_append, List.nil_append, List.cons.injEq] at ht
              have := plain hy
              rw [ht.1] at this
              exact absurd rfl this
            · cases ht; rfl
        · rfl
      · rfl
    | sub =>
      rw [xml_bin (by decide) (by decide) h]
      simp only [xmlBin, kindX_row, List.cons_append]
      rw [kindRow_plain (plain h.left)]; rfl
    | log => rw [xml_bin (by decide) (by decide) h]; rfl
    | deriv => rw [xml_bin (by decide) (by decide) h]; rfl
    | integ => rw [xml_bin (by decide) (by decide) h]; rfl
    | div => rw [xml_bin (by decide) (by decide) h]; rfl
    | pow => rw [xml_bin (by decide) (by decide) h]; rfl

/-! ## Rows determine their operands -/

theorem sumRow_inj {l l' : List Xml} (h : sumRow l = sumRow l') : l = l' := by
  have key : ∀ {l l' : List Xml}, (l.flatMap fun y => [mo ['+'], y]) = (l'.flatMap fun y => [mo ['+'], y]) → l = l' := by
    intro l
    induction l with
    | nil => intro l' h; cases l' with
      | nil => rfl
      | cons y l' => simp at h
    | cons x l ih => intro l' h; cases l' with
      | nil => simp at h
      | cons y l' =>
        simp only [List.flatMap_cons, List.cons_append, List.nil_append, List.cons.injEq, true_and] at h
        rw [h.1, ih h.2]
  cases l with
  | nil => cases l' with
    | nil => rfl
    | cons y l' => simp [sumRow] at h
  | cons x l => cases l' with
    | nil => simp [sumRow] at h
    | cons y l' =>
      simp only [sumRow, List.cons.injEq] at h
      rw [h.1, key h.2]

theorem not_mo {e : Expr K} (h : Good e) (s : Str) : xml e ≠ mo s := fun h' => by
  have := plain h
  rw [h'] at this
  exact absurd rfl this

theorem factor_inj {x y : Expr K} (hx : Good x) (hy : Good y) {l l' : List Xml}
    (h : xmlFactor (x, xml x) ++ l = xmlFactor (y, xml y) ++ l') : xml x = xml y ∧ bareFactor x = bareFactor y ∧ l = l' := by
  unfold xmlFactor inParens at h
  cases h1 : bareFactor x <;> cases h2 : bareFactor y
  all_goals simp only [h1, h2, if_true, Bool.false_eq_true, if_false, List.cons_append, List.nil_append, List.cons.injEq, true_and] at h
  · exact ⟨h.1, rfl, h.2⟩
  · exact absurd h.1.symm (not_mo hy _)
  · exact absurd h.1 (not_mo hx _)
  · exact ⟨h.1, rfl, h.2⟩

theorem isReal_kind (e : Expr K) : isReal e = (kind e == 1) := by
  cases e with
  | un op a => cases op <;> rfl
  | bin op a b => cases op <;> rfl
  | _ => rfl

theorem isReal_of_xml {x y : Expr K} (hx : Good x) (hy : Good y) (h : xml x = xml y) : isReal x = isReal y := by
  rw [isReal_kind, isReal_kind, ← kind_xml hx, ← kind_xml hy, h]

theorem factor_head {x : Expr K} (hx : Good x) (l : List Xml) {s : Str} (hs : s ≠ ['(']) (t : List Xml) :
    xmlFactor (x, xml x) ++ l ≠ mo s :: t := by
  intro h
  unfold xmlFactor inParens at h
  split at h
  · simp only [List.cons_append, List.nil_append, List.cons.injEq] at h
    exact not_mo hx _ h.1
  · simp only [List.cons_append, List.nil_append, List.cons.injEq] at h
    have := h.1
    simp only [mo, Xml.text.injEq, true_and] at this
    exact hs this.symm

theorem factors_inj {l : List (Expr K)} : ∀ {l' : List (Expr K)} {x y : Expr K}, (∀ z ∈ l, Good z) → (∀ z ∈ l', Good z) →
    isReal x = isReal y →
    xmlFactors x (l.map fun y => (y, xml y)) = xmlFactors y (l'.map fun y => (y, xml y)) →
    List.Forall₂ (fun a b => xml a = xml b) l l' := by
  have cons_ne : ∀ (b : Bool) {z : Expr K} (t : List Xml), (if b then [mo ['×']] else []) ++ xmlFactor (z, xml z) ++ t ≠ [] := by
    intro b z t h
    unfold xmlFactor inParens at h
    simp at h
    split at h <;> simp at h
  induction l with
  | nil =>
    intro l' x y _ _ _ h
    cases l' with
    | nil => exact .nil
    | cons z l' => exact absurd h.symm (cons_ne _ _)
  | cons z l ih =>
    intro l' x y hl hl' hxy h
    cases l' with
    | nil => exact absurd h (cons_ne _ _)
    | cons z' l' =>
      have gz := hl z (by simp)
      have gz' := hl' z' (by simp)
      simp only [List.map_cons, xmlFactors, hxy] at h
      have key : xmlFactor (z, xml z) ++ xmlFactors z (l.map fun y => (y, xml y)) =
          xmlFactor (z', xml z') ++ xmlFactors z' (l'.map fun y => (y, xml y)) := by
        split at h <;> split at h
        · simpa using h
        · simp only [List.cons_append, List.nil_append] at h
          exact absurd h.symm (factor_head gz' _ (by decide) _)
        · simp only [List.cons_append, List.nil_append] at h
          exact absurd h (factor_head gz _ (by decide) _)
        · simpa using h
      obtain ⟨h1, h2, h3⟩ := factor_inj gz gz' key
      exact .cons h1 (ih (fun w hw => hl w (by simp [hw])) (fun w hw => hl' w (by simp [hw])) (isReal_of_xml gz gz' h1) h3)

/-! ## Regrouping -/

/-- the operands from the right -/
def comb (op : BinOp) : List (Expr K) → Expr K
  | [] => .absent
  | [x] => x
  | x :: l => .bin op x (comb op l)

theorem assoc_look {op : BinOp} (h : op = .add ∨ op = .mul) (a b c : Expr K) :
    SameLook (.bin op (.bin op a b) c) (.bin op a (.bin op b c)) := by
  rcases h with rfl | rfl
  · exact .sums a b c
  · exact .products a b c

theorem comb_append {op : BinOp} (h : op = .add ∨ op = .mul) {l l' : List (Expr K)} (hl : l ≠ []) (hl' : l' ≠ []) :
    SameLook (.bin op (comb op l) (comb op l')) (comb op (l ++ l')) := by
  induction l with
  | nil => exact absurd rfl hl
  | cons x l ih =>
    cases l with
    | nil =>
      cases l' with
      | nil => exact absurd rfl hl'
      | cons y l' => exact .refl _
    | cons y l =>
      exact (assoc_look h _ _ _).trans (.bin op (.refl _) (ih (by simp)))

theorem comb_flat {op : BinOp} (h : op = .add ∨ op = .mul) {e : Expr K} (hc : e.Complete) : SameLook e (comb op (flatOp op e)) := by
  induction e with
  | absent => exact absurd rfl hc
  | bin op' a b iha ihb =>
    simp only [flatOp]
    split
    · rename_i ho; subst ho
      exact (SameLook.bin _ (iha hc.2.1) (ihb hc.2.2)).trans (comb_append h (flatOp_cons_ne hc.2.1) (flatOp_cons_ne hc.2.2))
    · exact .refl _
  | _ => exact .refl _

theorem comb_congr {op : BinOp} {l l' : List (Expr K)} (h : List.Forall₂ SameLook l l') : SameLook (comb op l) (comb op l') := by
  induction h with
  | nil => exact .refl _
  | @cons x y l l' h1 h2 ih =>
    cases h2 with
    | nil => exact h1
    | cons h3 h4 => exact .bin op h1 ih

theorem regroup {op : BinOp} (h : op = .add ∨ op = .mul) {a b c d : Expr K} (he : (Expr.bin op a b).Complete)
    (hf : (Expr.bin op c d).Complete) (hl : List.Forall₂ SameLook (flatten op a b) (flatten op c d)) :
    SameLook (.bin op a b) (.bin op c d) := by
  have e1 := comb_flat h he
  have e2 := comb_flat h hf
  simp only [flatOp, if_true] at e1 e2
  exact e1.trans ((comb_congr hl).trans e2.symm)

/-! ## The element determines the expression -/

/-- conditions on the leaves -/
def Leaves (P R : K → Prop) (e : Expr K) : Prop := e.Everywhere fun x => match x with
  | .real v => P v
  | .mat m => ∀ v ∈ m.data, R v
  | .var n => n ∉ [['i'], ['e'], chars! "&pi;"]
  | _ => True

theorem forall₂_of {l l' : List (Expr K)} {R : Expr K → Expr K → Prop} (h : List.Forall₂ (fun a b => xml a = xml b) l l') :
    (∀ x ∈ l, ∀ y ∈ l', xml x = xml y → R x y) → List.Forall₂ R l l' := by
  induction h with
  | nil => intro _; exact .nil
  | cons h _ ih =>
    intro hr
    exact .cons (hr _ (by simp) _ (by simp) h) (ih fun x hx y hy => hr x (by simp [hx]) y (by simp [hy]))

theorem forall₂_map {l : List (Expr K)} : ∀ {l' : List (Expr K)}, l.map xml = l'.map xml →
    List.Forall₂ (fun a b => xml a = xml b) l l' := by
  induction l with
  | nil => intro l' h; cases l' with
    | nil => exact .nil
    | cons => simp at h
  | cons x l ih => intro l' h; cases l' with
    | nil => simp at h
    | cons y l' => simp only [List.map_cons, List.cons.injEq] at h; exact .cons h.1 (ih h.2)

theorem subtrahend_inj {b d : Expr K} {x y : Xml} (h : xmlSubtrahend b x = xmlSubtrahend d y) : x = y := by
  unfold xmlSubtrahend inParens at h
  split at h <;> split at h
  all_goals (try split at h) <;> (try split at h) <;> simp at h <;> exact h

theorem base_cases (a : Expr K) (x : Xml) : (xmlBase a x = x ∧ (isReal a || isVar a) = true) ∨
    (xmlBase a x = mrow (inParens x) ∧ (isReal a || isVar a) = false) := by
  unfold xmlBase
  split
  · exact .inl ⟨rfl, by assumption⟩
  · rename_i h; exact .inr ⟨rfl, by simpa using h⟩

theorem leaf_text {e : Expr K} (h : (isReal e || isVar e) = true) : ∃ t s, xml e = .text t s := by
  cases e with
  | real v => exact ⟨_, _, xml_eq (mathML.eq_1 v)⟩
  | var n => exact ⟨_, _, xml_eq (mathML.eq_6 n)⟩
  | _ => simp [isReal, isVar] at h

theorem base_inj {a c : Expr K} (h : xmlBase a (xml a) = xmlBase c (xml c)) : xml a = xml c := by
  rcases base_cases a (xml a) with ⟨h1, h2⟩ | ⟨h1, h2⟩ <;> rcases base_cases c (xml c) with ⟨h3, h4⟩ | ⟨h3, h4⟩
  · rw [← h1, h, h3]
  · rw [h1, h3] at h
    obtain ⟨t, s, hx⟩ := leaf_text h2
    rw [hx] at h; cases h
  · rw [h1, h3] at h
    obtain ⟨t, s, hx⟩ := leaf_text h4
    rw [hx] at h; cases h
  · rw [h1, h3] at h
    simp [mrow, inParens] at h
    exact h

/-- the element of a matrix determines the matrix -/
theorem mat_inj {m n : Mat K} (hm : 0 < m.rows ∧ m.data.length = m.rows * m.cols ∧ ∀ v ∈ m.data, True)
    (hn : 0 < n.rows ∧ n.data.length = n.rows * n.cols ∧ ∀ v ∈ n.data, True)
    (hd : ∀ v ∈ m.data, ∀ w ∈ n.data, (NumText.fmt17 v : Str) = NumText.fmt17 w → v = w)
    (h : xmlMatrix m = xmlMatrix n) : m = n := by
  have grid : ∀ m : Mat K, xmlMatrix m = mrow [mo ['['], .node (chars! "mtable") ((MatText.grid m).map fun row =>
      .node (chars! "mtr") (row.map fun v => .node (chars! "mtd") [mn (NumText.fmt17 v)])), mo [']']] := by
    intro m
    simp only [xmlMatrix, MatText.grid, List.map_map, Function.comp_def]
  have mem : ∀ {m : Mat K}, m.data.length = m.rows * m.cols → ∀ row ∈ MatText.grid m, ∀ v ∈ row, v ∈ m.data := by
    intro m h row h1 v h2
    rw [← MatText.grid_flatten h]
    exact List.mem_flatten.2 ⟨row, h1, h2⟩
  rw [grid, grid] at h
  simp only [mrow, Xml.node.injEq, true_and, List.cons.injEq, and_true] at h
  refine MatText.grid_inj hm.2.1 hn.2.1 hm.1 (MatText.map_inj (fun row h1 row' h2 h3 => ?_) h)
  simp only [Xml.node.injEq, true_and] at h3
  refine MatText.map_inj (fun v hv w hw h4 => ?_) h3
  simp only [Xml.node.injEq, true_and, List.cons.injEq, and_true, mn, Xml.text.injEq] at h4
  exact hd v (mem hm.2.1 row h1 v hv) w (mem hn.2.1 row' h2 w hw) h4

theorem look {P Q R S : K → Prop} (hn : ∀ v w, P v → Q w → (NumText.fmt 5 v : Str) = NumText.fmt 5 w → v = w)
    (hr : ∀ v w, R v → S w → (NumText.fmt17 v : Str) = NumText.fmt17 w → v = w) (n : Nat) :
    ∀ e f : Expr K, e.size ≤ n → Good e → Good f → Leaves P R e → Leaves Q S f → xml e = xml f → SameLook e f := by
  induction n with
  | zero => intro e f h; have : 0 < e.size := by cases e <;> simp [Expr.size]
            omega
  | succ n ih =>
    intro e f hs he hf pe qf h
    have hk : kind e = kind f := by rw [← kind_xml he, h, kind_xml hf]
    have leaf : ∀ {x y : Str}, xml e = mi x → xml f = mi y → x = y := by
      intro x y h1 h2
      rw [h1, h2] at h
      simpa [mi] using h
    have x2 : xml (.imag : Expr K) = mi ['i'] := xml_eq mathML.eq_2
    have x4 : xml (.pi : Expr K) = mi (chars! "&pi;") := xml_eq mathML.eq_4
    have x5 : xml (.euler : Expr K) = mi ['e'] := xml_eq mathML.eq_5
    have x6 : ∀ n, xml (.var n : Expr K) = mi n := fun n => xml_eq (mathML.eq_6 n)
    cases e with
    | mat m =>
      cases f with
      | mat m' =>
        rw [xml_eq (mathML.eq_3 m), xml_eq (mathML.eq_3 m')] at h
        rw [mat_inj (he.2 m rfl) (hf.2 m' rfl) (fun v hv w hw => hr v w (pe v hv) (qf w hw)) h]
        exact .refl _
      | un op a => cases op <;> simp [kind] at hk
      | bin op a b => cases op <;> simp [kind] at hk
      | _ => simp [kind] at hk
    | absent => exact absurd rfl he.1
    | real v =>
      cases f with
      | real w =>
        rw [xml_eq (mathML.eq_1 v), xml_eq (mathML.eq_1 w)] at h
        rw [hn v w pe qf (by simpa [mn] using h)]
        exact .refl _
      | un op a => cases op <;> simp [kind] at hk
      | bin op a b => cases op <;> simp [kind] at hk
      | _ => simp [kind] at hk
    | undef =>
      cases f with
      | undef => exact .refl _
      | un op a => cases op <;> simp [kind] at hk
      | bin op a b => cases op <;> simp [kind] at hk
      | _ => simp [kind] at hk
    | imag =>
      cases f with
      | imag => exact .refl _
      | pi => exact absurd (leaf x2 x4) (by decide)
      | euler => exact absurd (leaf x2 x5) (by decide)
      | var m => exact absurd (leaf x2 (x6 m)) (by rintro rfl; exact (show _ ∉ _ from qf) (by simp))
      | absent => exact absurd rfl hf.1
      | un op a => cases op <;> simp [kind] at hk
      | bin op a b => cases op <;> simp [kind] at hk
      | _ => simp [kind] at hk
    | pi =>
      cases f with
      | pi => exact .refl _
      | imag => exact absurd (leaf x4 x2) (by decide)
      | euler => exact absurd (leaf x4 x5) (by decide)
      | var m => exact absurd (leaf x4 (x6 m)) (by rintro rfl; exact (show _ ∉ _ from qf) (by simp))
      | absent => exact absurd rfl hf.1
      | un op a => cases op <;> simp [kind] at hk
      | bin op a b => cases op <;> simp [kind] at hk
      | _ => simp [kind] at hk
    | euler =>
      cases f with
      | euler => exact .refl _
      | imag => exact absurd (leaf x5 x2) (by decide)
      | pi => exact absurd (leaf x5 x4) (by decide)
      | var m => exact absurd (leaf x5 (x6 m)) (by rintro rfl; exact (show _ ∉ _ from qf) (by simp))
      | absent => exact absurd rfl hf.1
      | un op a => cases op <;> simp [kind] at hk
      | bin op a b => cases op <;> simp [kind] at hk
      | _ => simp [kind] at hk
    | var m =>
      cases f with
      | var m' => rw [leaf (x6 m) (x6 m')]; exact .refl _
      | imag => exact absurd (leaf (x6 m) x2) (by rintro rfl; exact (show _ ∉ _ from pe) (by simp))
      | pi => exact absurd (leaf (x6 m) x4) (by rintro rfl; exact (show _ ∉ _ from pe) (by simp))
      | euler => exact absurd (leaf (x6 m) x5) (by rintro rfl; exact (show _ ∉ _ from pe) (by simp))
      | absent => exact absurd rfl hf.1
      | un op a => cases op <;> simp [kind] at hk
      | bin op a b => cases op <;> simp [kind] at hk
      | _ => simp [kind] at hk
    | un op a =>
      simp only [Expr.size] at hs
      cases f with
      | un op' b =>
        have hop : op = op' := by cases op <;> cases op' <;> simp [kind] at hk <;> rfl
        subst hop
        cases op with
        | sine => exact .sines a b
        | neg =>
          rw [xml_neg he.un, xml_neg hf.un] at h
          exact .un _ (ih a b (by omega) he.un hf.un pe.2 qf.2 (by simpa [mrow, inParens] using h))
        | mag =>
          rw [xml_mag he.un, xml_mag hf.un] at h
          exact .un _ (ih a b (by omega) he.un hf.un pe.2 qf.2 (by simpa [mrow, inParens] using h))
      | bin op' c d => cases op <;> cases op' <;> simp [kind] at hk
      | _ => cases op <;> simp [kind] at hk
    | bin op a b =>
      have hs' := hs
      simp only [Expr.size] at hs
      cases f with
      | bin op' c d =>
        have hop : op = op' := by cases op <;> cases op' <;> simp [kind] at hk <;> rfl
        subst hop
        have two : xml a = xml c → xml b = xml d → SameLook (.bin op a b) (.bin op c d) := fun h1 h2 =>
          .bin op (ih a c (by omega) he.left hf.left pe.2.1 qf.2.1 h1) (ih b d (by omega) he.right hf.right pe.2.2 qf.2.2 h2)
        have flat : ∀ {l l' : List (Expr K)}, (∀ x ∈ l, x ∈ flatten op a b) → (∀ x ∈ l', x ∈ flatten op c d) →
            List.Forall₂ (fun a b => xml a = xml b) l l' → List.Forall₂ SameLook l l' := by
          intro l l' hl hl' h
          refine forall₂_of h fun x hx y hy hxy => ?_
          have := flatten_size op a b x (hl x hx)
          exact ih x y (by omega) (he.flat x (hl x hx)) (hf.flat y (hl' y hy))
            (flatten_everywhere op pe.2.1 pe.2.2 x (hl x hx)) (flatten_everywhere op qf.2.1 qf.2.2 y (hl' y hy)) hxy
        cases op with
        | add =>
          rw [xml_add he, xml_add hf] at h
          have h1 := sumRow_inj (by simpa [mrow] using h)
          exact regroup (.inl rfl) he.1 hf.1 (flat (fun x hx => hx) (fun x hx => hx) (forall₂_map h1))
        | mul =>
          obtain ⟨x, x', l, hl⟩ := flat_cons he
          obtain ⟨y, y', l', hl'⟩ := flat_cons hf
          rw [xml_mul he hl, xml_mul hf hl'] at h
          have gx : ∀ z ∈ x :: x' :: l, Good z := fun z hz => he.flat z (by rw [hl]; exact hz)
          have gy : ∀ z ∈ y :: y' :: l', Good z := fun z hz => hf.flat z (by rw [hl']; exact hz)
          simp only [mrow, Xml.node.injEq, true_and] at h
          obtain ⟨h1, _, h3⟩ := factor_inj (gx x (by simp)) (gy y (by simp)) h
          have h4 := factors_inj (fun z hz => gx z (.tail _ hz)) (fun z hz => gy z (.tail _ hz))
            (isReal_of_xml (gx x (by simp)) (gy y (by simp)) h1) h3
          refine regroup (.inr rfl) he.1 hf.1 (flat (fun x hx => hx) (fun x hx => hx) ?_)
          rw [hl, hl']
          exact .cons h1 h4
        | sub =>
          rw [xml_bin (by decide) (by decide) he, xml_bin (by decide) (by decide) hf] at h
          simp only [xmlBin, mrow, Xml.node.injEq, true_and, List.cons_append, List.nil_append, List.cons.injEq] at h
          exact two h.1 (subtrahend_inj h.2)
        | div =>
          rw [xml_bin (by decide) (by decide) he, xml_bin (by decide) (by decide) hf] at h
          simp [xmlBin] at h
          exact two h.1 h.2
        | pow =>
          rw [xml_bin (by decide) (by decide) he, xml_bin (by decide) (by decide) hf] at h
          simp [xmlBin] at h
          exact two (base_inj h.1) h.2
        | log =>
          rw [xml_bin (by decide) (by decide) he, xml_bin (by decide) (by decide) hf] at h
          simp [xmlBin, mrow, inParens] at h
          exact two h.1 h.2
        | deriv =>
          rw [xml_bin (by decide) (by decide) he, xml_bin (by decide) (by decide) hf] at h
          simp [xmlBin, mrow, inParens] at h
          exact two h.2 h.1
        | integ =>
          rw [xml_bin (by decide) (by decide) he, xml_bin (by decide) (by decide) hf] at h
          simp [xmlBin, mrow, inParens] at h
          exact two h.1 h.2
      | un op' c => cases op <;> cases op' <;> simp [kind] at hk
      | absent => exact absurd rfl hf.1
      | _ => cases op <;> simp [kind] at hk

end ML
end Oasis
