import Mathlib.Tactic.ByContra
import Verif.Model.Tree
import Verif.Spec.Tree

/-! # Lemmas about `equals` -/

namespace Oasis
variable {K : Type}

namespace Expr

theorem Everywhere.here {p : Expr K → Prop} {e : Expr K} (h : e.Everywhere p) : p e := by
  cases e <;> simp only [Everywhere] at h <;> first | exact h | exact h.1

theorem Everywhere.imp {p q : Expr K → Prop} (hpq : ∀ x, p x → q x) {e : Expr K}
    (h : e.Everywhere p) : e.Everywhere q := by
  induction e with
  | un op a ih => exact ⟨hpq _ h.1, ih h.2⟩
  | bin op a b iha ihb => exact ⟨hpq _ h.1, iha h.2.1, ihb h.2.2⟩
  | _ => exact hpq _ h

theorem Everywhere.notAbsent {e : Expr K} (h : e.Everywhere (fun x => x ≠ .absent)) :
    e.isAbsent = false := by
  have := h.here
  cases e <;> simp_all [isAbsent]

theorem complete_iff (e : Expr K) : e.Complete ↔ e.complete = true := by
  induction e with
  | un op a ih => simp only [Complete, Everywhere, complete] at *; rw [← ih]; simp
  | bin op a b iha ihb =>
    simp only [Complete, Everywhere, complete, Bool.and_eq_true] at *; rw [← iha, ← ihb]; simp
  | _ => simp [Complete, Everywhere, complete]

end Expr

theorem flatOp_everywhere {p : Expr K → Prop} (op : BinOp) {e : Expr K} (h : e.Everywhere p) :
    ∀ x ∈ flatOp op e, x.Everywhere p := by
  induction e with
  | bin op' a b iha ihb =>
    intro x hx
    simp only [flatOp] at hx
    split at hx
    · rcases List.mem_append.1 hx with hx | hx
      · exact iha h.2.1 x hx
      · exact ihb h.2.2 x hx
    · simp at hx; subst hx; exact h
  | absent => intro x hx; simp [flatOp] at hx
  | _ => intro x hx; simp [flatOp] at hx; subst hx; exact h

theorem flatten_everywhere {p : Expr K → Prop} (op : BinOp) {a b : Expr K} (ha : a.Everywhere p)
    (hb : b.Everywhere p) : ∀ x ∈ flatten op a b, x.Everywhere p := by
  intro x hx
  rcases List.mem_append.1 hx with hx | hx
  · exact flatOp_everywhere op ha x hx
  · exact flatOp_everywhere op hb x hx

theorem flatOp_ne_bin (op : BinOp) {e : Expr K} : ∀ x ∈ flatOp op e, ∀ a b, x ≠ .bin op a b := by
  induction e with
  | bin op' a b iha ihb =>
    intro x hx
    simp only [flatOp] at hx
    split at hx
    · rcases List.mem_append.1 hx with hx | hx
      · exact iha x hx
      · exact ihb x hx
    · simp at hx; subst hx; intro a b; simp_all
  | absent => intro x hx; simp [flatOp] at hx
  | _ => intro x hx; simp [flatOp] at hx; subst hx; simp

theorem flatOp_ne_absent (op : BinOp) {e : Expr K} : ∀ x ∈ flatOp op e, x ≠ .absent := by
  induction e with
  | bin op' a b iha ihb =>
    intro x hx
    simp only [flatOp] at hx
    split at hx
    · rcases List.mem_append.1 hx with hx | hx
      · exact iha x hx
      · exact ihb x hx
    · simp at hx; subst hx; simp
  | absent => intro x hx; simp [flatOp] at hx
  | _ => intro x hx; simp [flatOp] at hx; subst hx; simp

theorem flatOp_self (op : BinOp) {e : Expr K} (h : ∀ a b, e ≠ .bin op a b) (h' : e ≠ .absent) :
    flatOp op e = [e] := by
  cases e with
  | bin op' a b =>
    simp only [flatOp]; rw [if_neg]; intro hh; subst hh; exact h _ _ rfl
  | absent => exact absurd rfl h'
  | _ => rfl

/-! ### `anyE` and `allE` -/

theorem anyE_ok {α : Type} {p : α → Except Fail Bool} {l : List α} (h : ∀ x ∈ l, ∃ b, p x = .ok b) :
    ∃ b, anyE p l = .ok b ∧ (b = true ↔ ∃ x ∈ l, p x = .ok true) := by
  induction l with
  | nil => exact ⟨false, rfl, by simp⟩
  | cons x xs ih =>
    obtain ⟨b, hb⟩ := h x (by simp)
    obtain ⟨c, hc, hc'⟩ := ih (fun y hy => h y (by simp [hy]))
    cases b with
    | true => exact ⟨true, by simp [anyE, hb, bind, Except.bind, pure, Except.pure], by simp [hb]⟩
    | false =>
      refine ⟨c, by simp [anyE, hb, bind, Except.bind, hc], ?_⟩
      simp [hb, hc']

theorem allE_ok {α : Type} {p : α → Except Fail Bool} {l : List α} (h : ∀ x ∈ l, ∃ b, p x = .ok b) :
    ∃ b, allE p l = .ok b ∧ (b = true ↔ ∀ x ∈ l, p x = .ok true) := by
  induction l with
  | nil => exact ⟨true, rfl, by simp⟩
  | cons x xs ih =>
    obtain ⟨b, hb⟩ := h x (by simp)
    obtain ⟨c, hc, hc'⟩ := ih (fun y hy => h y (by simp [hy]))
    cases b with
    | true =>
      refine ⟨c, by simp [allE, hb, bind, Except.bind, hc], ?_⟩
      simp [hb, hc']
    | false => exact ⟨false, by simp [allE, hb, bind, Except.bind, pure, Except.pure], by simp [hb]⟩

theorem anyE_true {α : Type} {p : α → Except Fail Bool} {l : List α} (h : anyE p l = .ok true) :
    ∃ x ∈ l, p x = .ok true := by
  induction l with
  | nil => simp [anyE] at h
  | cons x xs ih =>
    simp only [anyE, bind, Except.bind, pure, Except.pure] at h
    cases hp : p x with
    | error f => simp [hp] at h
    | ok b =>
      cases b with
      | true => exact ⟨x, by simp, hp⟩
      | false =>
        simp [hp] at h
        obtain ⟨y, hy, hy'⟩ := ih h
        exact ⟨y, by simp [hy], hy'⟩

theorem allE_true {α : Type} {p : α → Except Fail Bool} {l : List α} (h : allE p l = .ok true) :
    ∀ x ∈ l, p x = .ok true := by
  induction l with
  | nil => simp
  | cons x xs ih =>
    simp only [allE, bind, Except.bind, pure, Except.pure] at h
    cases hp : p x with
    | error f => simp [hp] at h
    | ok b =>
      cases b with
      | true =>
        simp [hp] at h
        simp [hp]
        exact ih h
      | false => simp [hp] at h

theorem allE_attach {α : Type} (p : α → Except Fail Bool) (l : List α) :
    allE (fun x : {y // y ∈ l} => p x.1) l.attach = allE p l := by
  have : ∀ m : List {y // y ∈ l}, allE (fun x : {y // y ∈ l} => p x.1) m = allE p (m.map (·.1)) := by
    intro m
    induction m with
    | nil => rfl
    | cons x xs ih => simp [allE, ih]
  rw [this, List.attach_map_subtype_val]

/-! ### Equations of `equals` -/

variable [Num K]

theorem equals_un {op op' : UnOp} {a b : Expr K} :
    equals (.un op a) (.un op' b) = if op = op' then equals a b else .ok false := by
  rw [equals]; simp [Expr.isAbsent]

theorem equals_bin_ne {op op' : BinOp} {a b c d : Expr K} (h : op ≠ op') :
    equals (.bin op a b) (.bin op' c d) = .ok false := by
  rw [equals]; simp [Expr.isAbsent, h]

/-- the associative fallback of `Equals` -/
def operandsIncluded (op : BinOp) (a b c d : Expr K) : Except Fail Bool :=
  allE (fun x => anyE (fun y => equals x y) (flatten op c d)) (flatten op a b)

theorem equals_bin {op : BinOp} {a b c d : Expr K} (ha : a.isAbsent = false)
    (hb : b.isAbsent = false) (hc : c.isAbsent = false) (hd : d.isAbsent = false) :
    equals (.bin op a b) (.bin op c d) = (do
      let most ← equals a c
      let least ← equals b d
      if most && least then pure true
      else if !op.assoc then pure false
      else operandsIncluded op a b c d) := by
  have hx : (Expr.bin op a b).isAbsent = false := rfl
  have hy : (Expr.bin op c d).isAbsent = false := rfl
  rw [equals]
  simp only [hx, hy, ha, hb, hc, hd, Bool.or_self, Bool.false_eq_true, if_false, if_true,
    Bool.and_self, operandEq]
  have := allE_attach (fun x => anyE (fun y => equals x y) (flatten op c d)) (flatten op a b)
  simp only [operandsIncluded, ← this]

/-! ### Normal return -/

theorem equals_ok : ∀ (n : Nat) (e f : Expr K), e.size ≤ n → e.Complete → e.NoPi → f.Complete →
    ∃ b, equals e f = .ok b := by
  intro n
  induction n with
  | zero => intro e f h; cases e <;> simp [Expr.size] at h
  | succ n ih =>
    intro e f hn he hp hf
    cases e with
    | absent => exact absurd rfl he.here
    | pi => exact absurd rfl hp.here
    | un op a =>
      cases f with
      | absent => exact absurd rfl hf.here
      | un op' b =>
        rw [equals_un]
        split
        · exact ih a b (by simp only [Expr.size] at hn; omega) he.2 hp.2 hf.2
        · exact ⟨_, rfl⟩
      | _ => rw [equals.eq_def]; simp [Expr.isAbsent]
    | bin op a b =>
      cases f with
      | absent => exact absurd rfl hf.here
      | bin op' c d =>
        by_cases h : op = op'
        · subst h
          simp only [Expr.size] at hn
          rw [equals_bin he.2.1.notAbsent he.2.2.notAbsent hf.2.1.notAbsent hf.2.2.notAbsent]
          obtain ⟨x, hx⟩ := ih a c (by omega) he.2.1 hp.2.1 hf.2.1
          obtain ⟨y, hy⟩ := ih b d (by omega) he.2.2 hp.2.2 hf.2.2
          have hany : ∀ x ∈ flatten op a b,
              ∃ r, anyE (fun y => equals x y) (flatten op c d) = .ok r := by
            intro x hx
            have := flatten_size op a b x hx
            simp only [Expr.size] at this
            obtain ⟨r, hr, _⟩ := anyE_ok (p := fun y => equals x y) (l := flatten op c d)
              (fun y hy => ih x y (by omega) (flatten_everywhere op he.2.1 he.2.2 x hx)
                (flatten_everywhere op hp.2.1 hp.2.2 x hx)
                (flatten_everywhere op hf.2.1 hf.2.2 y hy))
            exact ⟨r, hr⟩
          obtain ⟨z, hz, _⟩ := allE_ok hany
          rw [hx, hy]
          simp only [bind, Except.bind, pure, Except.pure, operandsIncluded, hz]
          split
          · exact ⟨_, rfl⟩
          · split
            · exact ⟨_, rfl⟩
            · exact ⟨_, rfl⟩
        · rw [equals_bin_ne h]; exact ⟨_, rfl⟩
      | _ => rw [equals.eq_def]; simp [Expr.isAbsent]
    | _ =>
      cases f with
      | absent => exact absurd rfl hf.here
      | _ => rw [equals.eq_def]; simp [Expr.isAbsent]

/-- what a true answer on two binary nodes means -/
theorem equals_bin_true {op : BinOp} {a b c d : Expr K} (ha : a.isAbsent = false)
    (hb : b.isAbsent = false) (hc : c.isAbsent = false) (hd : d.isAbsent = false)
    (h : equals (.bin op a b) (.bin op c d) = .ok true) :
    (equals a c = .ok true ∧ equals b d = .ok true) ∨
      (op.assoc = true ∧ ∀ x ∈ flatten op a b, ∃ y ∈ flatten op c d, equals x y = .ok true) := by
  rw [equals_bin ha hb hc hd] at h
  simp only [bind, Except.bind, pure, Except.pure] at h
  cases hx : equals a c with
  | error f => simp [hx] at h
  | ok x =>
    cases hy : equals b d with
    | error f => simp [hx, hy] at h
    | ok y =>
      simp only [hx, hy] at h
      split at h
      · rename_i hxy; left; simp at hxy; simp [hxy]
      · split at h
        · simp at h
        · rename_i hs
          right
          refine ⟨by simpa using hs, fun x hx => ?_⟩
          exact anyE_true (allE_true h x hx)

theorem equals_same_bin {op op' : BinOp} {a b c d : Expr K}
    (h : equals (.bin op a b) (.bin op' c d) = .ok true) : op = op' := by
  by_contra hne
  rw [equals_bin_ne hne] at h; simp at h

/-- a true answer implies the same dynamic type -/
theorem equals_ty {e f : Expr K} (h : equals e f = .ok true) : e.ty = f.ty := by
  rw [equals.eq_def] at h
  split at h
  · simp at h
  · split at h <;> simp_all [Expr.ty]
    all_goals (split at h <;> simp_all)

/-! ### Inclusion of operand lists -/

theorem equals_flatOp {op : BinOp} : ∀ {a c : Expr K}, a.Complete → c.Complete →
    equals a c = .ok true → ∀ x ∈ flatOp op a, ∃ y ∈ flatOp op c, equals x y = .ok true := by
  intro a
  induction a with
  | bin op' a b iha ihb =>
    intro c ha hc h x hx
    have hty := equals_ty h
    cases c <;> simp only [Expr.ty, reduceCtorEq, Ty.bin.injEq] at hty
    rename_i c d
    subst hty
    by_cases ho : op' = op
    · subst ho
      simp only [flatOp, if_true] at hx ⊢
      rcases equals_bin_true ha.2.1.notAbsent ha.2.2.notAbsent hc.2.1.notAbsent hc.2.2.notAbsent h
        with ⟨h1, h2⟩ | ⟨_, h2⟩
      · rcases List.mem_append.1 hx with hx | hx
        · obtain ⟨y, hy, hxy⟩ := iha ha.2.1 hc.2.1 h1 x hx
          exact ⟨y, List.mem_append.2 (.inl hy), hxy⟩
        · obtain ⟨y, hy, hxy⟩ := ihb ha.2.2 hc.2.2 h2 x hx
          exact ⟨y, List.mem_append.2 (.inr hy), hxy⟩
      · exact h2 x hx
    · simp only [flatOp, if_neg ho, List.mem_singleton] at hx ⊢
      subst hx; exact ⟨_, rfl, h⟩
  | absent => intro c ha; exact absurd rfl ha.here
  | _ =>
    intro c ha hc h x hx
    have hty := equals_ty h
    cases c <;> simp only [Expr.ty, reduceCtorEq, Ty.un.injEq] at hty <;>
      first
      | (simp only [flatOp, List.mem_singleton] at hx ⊢; subst hx; exact ⟨_, rfl, h⟩)
      | exact absurd rfl hc.here

theorem equals_assoc_iff {op : BinOp} (ho : op.assoc = true) {a b c d : Expr K}
    (hac : a.Complete) (hbc : b.Complete) (hap : a.NoPi) (hbp : b.NoPi) (hcc : c.Complete)
    (hdc : d.Complete) :
    equals (.bin op a b) (.bin op c d) = .ok true ↔
      ∀ x ∈ flatten op a b, ∃ y ∈ flatten op c d, equals x y = .ok true := by
  constructor
  · intro h x hx
    have := equals_flatOp (op := op) (a := .bin op a b) (c := .bin op c d)
      ⟨by simp, hac, hbc⟩ ⟨by simp, hcc, hdc⟩ h x (by simpa [flatOp, flatten] using hx)
    simpa [flatOp, flatten] using this
  · intro h
    rw [equals_bin hac.notAbsent hbc.notAbsent hcc.notAbsent hdc.notAbsent]
    obtain ⟨x, hx⟩ := equals_ok _ a c (Nat.le_refl _) hac hap hcc
    obtain ⟨y, hy⟩ := equals_ok _ b d (Nat.le_refl _) hbc hbp hdc
    have hok : ∀ x ∈ flatten op a b, ∀ y ∈ flatten op c d, ∃ r, equals x y = .ok r :=
      fun x hx y hy => equals_ok _ x y (Nat.le_refl _) (flatten_everywhere op hac hbc x hx)
        (flatten_everywhere op hap hbp x hx) (flatten_everywhere op hcc hdc y hy)
    have hany : ∀ x ∈ flatten op a b, anyE (fun y => equals x y) (flatten op c d) = .ok true := by
      intro x hx
      obtain ⟨r, hr, hr'⟩ := anyE_ok (hok x hx)
      rw [hr, hr'.2 (h x hx)]
    obtain ⟨z, hz, hz'⟩ := allE_ok (fun x hx => ⟨true, hany x hx⟩)
    have hzt := hz'.2 hany
    subst hzt
    rw [hx, hy]
    simp only [bind, Except.bind, pure, Except.pure, operandsIncluded, hz, ho]
    split <;> rfl

theorem equals_nonassoc_iff {op : BinOp} (ho : op.assoc = false) {a b c d : Expr K}
    (hac : a.Complete) (hbc : b.Complete) (hcc : c.Complete) (hdc : d.Complete) :
    equals (.bin op a b) (.bin op c d) = .ok true ↔
      equals a c = .ok true ∧ equals b d = .ok true := by
  constructor
  · intro h
    rcases equals_bin_true hac.notAbsent hbc.notAbsent hcc.notAbsent hdc.notAbsent h with h | ⟨h, _⟩
    · exact h
    · simp [ho] at h
  · rintro ⟨h1, h2⟩
    rw [equals_bin hac.notAbsent hbc.notAbsent hcc.notAbsent hdc.notAbsent]
    simp [h1, h2, bind, Except.bind, pure, Except.pure]

theorem matEq_refl {m : Mat K} (h : ∀ v ∈ m.data, Num.beq v v = true) : matEq m m = true := by
  simp only [matEq, beq_self_eq_true, Bool.and_true, Bool.true_and]
  rw [List.all_eq_true]
  intro p hp
  have : ∀ (l : List K), (∀ v ∈ l, Num.beq v v = true) → ∀ p ∈ l.zip l, Num.beq p.1 p.2 = true := by
    intro l
    induction l with
    | nil => simp
    | cons a l ih =>
      intro hl p hp
      simp only [List.zip_cons_cons, List.mem_cons] at hp
      rcases hp with rfl | hp
      · exact hl a (by simp)
      · exact ih (fun v hv => hl v (by simp [hv])) p hp
  exact this _ h p hp

omit [Num K] in
theorem zip_all_trans {r : K → K → Bool} (hr : ∀ a b c, r a b = true → r b c = true → r a c = true) :
    ∀ (l m n : List K), l.length = m.length → m.length = n.length →
      (l.zip m).all (fun p => r p.1 p.2) = true → (m.zip n).all (fun p => r p.1 p.2) = true →
      (l.zip n).all (fun p => r p.1 p.2) = true
  | [], _, _, _, _, _, _ => by simp
  | a :: l, b :: m, c :: n, h1, h2, h3, h4 => by
    simp only [List.zip_cons_cons, List.all_cons, Bool.and_eq_true] at *
    exact ⟨hr _ _ _ h3.1 h4.1, zip_all_trans hr l m n (by simpa using h1) (by simpa using h2) h3.2 h4.2⟩
  | _ :: _, [], _, h1, _, _, _ => by simp at h1
  | _ :: _, _ :: _, [], _, h2, _, _ => by simp at h2

omit [Num K] in
theorem zip_all_symm {r : K → K → Bool} (hr : ∀ a b, r a b = true → r b a = true) :
    ∀ (l m : List K), (l.zip m).all (fun p => r p.1 p.2) = true →
      (m.zip l).all (fun p => r p.1 p.2) = true
  | [], _, _ => by simp
  | _ :: _, [], _ => by simp
  | a :: l, b :: m, h => by
    simp only [List.zip_cons_cons, List.all_cons, Bool.and_eq_true] at *
    exact ⟨hr _ _ h.1, zip_all_symm hr l m h.2⟩

theorem matEq_trans (hr : ∀ a b c : K, Num.beq a b = true → Num.beq b c = true → Num.beq a c = true)
    {m n k : Mat K} (h1 : matEq m n = true) (h2 : matEq n k = true) : matEq m k = true := by
  simp only [matEq, Bool.and_eq_true, beq_iff_eq] at *
  exact ⟨⟨⟨h1.1.1.1.trans h2.1.1.1, h1.1.1.2.trans h2.1.1.2⟩, h1.1.2.trans h2.1.2⟩,
    zip_all_trans hr _ _ _ h1.1.2 h2.1.2 h1.2 h2.2⟩

theorem matEq_symm (hr : ∀ a b : K, Num.beq a b = true → Num.beq b a = true)
    {m n : Mat K} (h1 : matEq m n = true) : matEq n m = true := by
  simp only [matEq, Bool.and_eq_true, beq_iff_eq] at *
  exact ⟨⟨⟨h1.1.1.1.symm, h1.1.1.2.symm⟩, h1.1.2.symm⟩, zip_all_symm hr _ _ h1.2⟩

theorem equals_refl' {e : Expr K} (hc : e.Complete) (hu : e.NoUndef)
    (hn : e.AllNums (fun v => Num.beq v v = true)) : equals e e = .ok true := by
  induction e with
  | absent => exact absurd rfl hc.here
  | undef => exact absurd rfl hu.here
  | un op a ih => rw [equals_un, if_pos rfl]; exact ih hc.2 hu.2 hn.2
  | bin op a b iha ihb =>
    rw [equals_bin hc.2.1.notAbsent hc.2.2.notAbsent hc.2.1.notAbsent hc.2.2.notAbsent]
    rw [iha hc.2.1 hu.2.1 hn.2.1, ihb hc.2.2 hu.2.2 hn.2.2]
    rfl
  | real v =>
    have := hn.here
    rw [equals.eq_def]; simp [Expr.isAbsent]; exact this
  | mat m =>
    have := hn.here
    rw [equals.eq_def]; simp [Expr.isAbsent]; exact matEq_refl this
  | _ => rw [equals.eq_def]; simp [Expr.isAbsent]

theorem equals_trans' (hr : ∀ a b c : K, Num.beq a b = true → Num.beq b c = true → Num.beq a c = true) :
    ∀ (n : Nat) (e f g : Expr K), e.size ≤ n → e.Complete → f.Complete → g.Complete → e.NoPi →
      f.NoPi → equals e f = .ok true → equals f g = .ok true → equals e g = .ok true := by
  intro n
  induction n with
  | zero => intro e f g h; cases e <;> simp [Expr.size] at h
  | succ n ih =>
    intro e f g hn he hf hg hep hfp h1 h2
    have t1 := equals_ty h1
    have t2 := equals_ty h2
    cases e <;> cases f <;> simp only [Expr.ty, reduceCtorEq, Ty.un.injEq, Ty.bin.injEq] at t1 <;>
      cases g <;> simp only [Expr.ty, reduceCtorEq, Ty.un.injEq, Ty.bin.injEq] at t2
    case un.un.un op a op' b op'' c =>
      subst t1; subst t2
      rw [equals_un, if_pos rfl] at *
      exact ih a b c (by simp only [Expr.size] at hn; omega) he.2 hf.2 hg.2 hep.2 hfp.2 h1 h2
    case bin.bin.bin op a b op' c d op'' p q =>
      subst t1; subst t2
      simp only [Expr.size] at hn
      cases ho : op.assoc with
      | true =>
        rw [equals_assoc_iff ho he.2.1 he.2.2 hep.2.1 hep.2.2 hf.2.1 hf.2.2] at h1
        rw [equals_assoc_iff ho hf.2.1 hf.2.2 hfp.2.1 hfp.2.2 hg.2.1 hg.2.2] at h2
        rw [equals_assoc_iff ho he.2.1 he.2.2 hep.2.1 hep.2.2 hg.2.1 hg.2.2]
        intro x hx
        obtain ⟨y, hy, hxy⟩ := h1 x hx
        obtain ⟨z, hz, hyz⟩ := h2 y hy
        have := flatten_size op a b x hx
        simp only [Expr.size] at this
        exact ⟨z, hz, ih x y z (by omega) (flatten_everywhere op he.2.1 he.2.2 x hx)
          (flatten_everywhere op hf.2.1 hf.2.2 y hy) (flatten_everywhere op hg.2.1 hg.2.2 z hz)
          (flatten_everywhere op hep.2.1 hep.2.2 x hx) (flatten_everywhere op hfp.2.1 hfp.2.2 y hy)
          hxy hyz⟩
      | false =>
        rw [equals_nonassoc_iff ho he.2.1 he.2.2 hf.2.1 hf.2.2] at h1
        rw [equals_nonassoc_iff ho hf.2.1 hf.2.2 hg.2.1 hg.2.2] at h2
        rw [equals_nonassoc_iff ho he.2.1 he.2.2 hg.2.1 hg.2.2]
        exact ⟨ih a c p (by omega) he.2.1 hf.2.1 hg.2.1 hep.2.1 hfp.2.1 h1.1 h2.1,
          ih b d q (by omega) he.2.2 hf.2.2 hg.2.2 hep.2.2 hfp.2.2 h1.2 h2.2⟩
    case pi.pi.pi => exact absurd rfl hep.here
    all_goals first
      | exact absurd rfl he.here
      | exact absurd rfl hf.here
      | exact absurd rfl hg.here
      | (rw [equals.eq_def] at *; simp [Expr.isAbsent] at *; done)
      | (rw [equals.eq_def] at *; simp [Expr.isAbsent] at *; first
          | exact hr _ _ _ h1 h2
          | exact matEq_trans hr h1 h2
          | exact h1.trans h2)

/-! ### Rearrangements -/

omit [Num K] in
theorem ACEq.everywhere {p : Expr K → Prop} (hu : ∀ op a, p (.un op a))
    (hb : ∀ op a b, p (.bin op a b)) {e f : Expr K} (h : ACEq e f) :
    e.Everywhere p ↔ f.Everywhere p := by
  induction h with
  | refl e => rfl
  | symm _ ih => exact ih.symm
  | trans _ _ ih1 ih2 => exact ih1.trans ih2
  | un op _ ih => simp only [Expr.Everywhere, hu, true_and, ih]
  | bin op _ _ ih1 ih2 => simp only [Expr.Everywhere, hb, true_and, ih1, ih2]
  | comm op a b _ => simp only [Expr.Everywhere, hb, true_and]; exact and_comm
  | assoc op a b c _ => simp only [Expr.Everywhere, hb, true_and]; exact and_assoc

theorem equals_of_ACEq
    (hr : ∀ a b c : K, Num.beq a b = true → Num.beq b c = true → Num.beq a c = true)
    {e f : Expr K} (h : ACEq e f) :
    e.Complete → e.NoPi → e.NoUndef → e.AllNums (fun v => Num.beq v v = true) →
      equals e f = .ok true ∧ equals f e = .ok true := by
  have EC : ∀ {e f : Expr K}, ACEq e f → (e.Complete ↔ f.Complete) :=
    fun h => h.everywhere (by simp) (by simp)
  have EP : ∀ {e f : Expr K}, ACEq e f → (e.NoPi ↔ f.NoPi) :=
    fun h => h.everywhere (by simp) (by simp)
  have EU : ∀ {e f : Expr K}, ACEq e f → (e.NoUndef ↔ f.NoUndef) :=
    fun h => h.everywhere (by simp) (by simp)
  have EN : ∀ {e f : Expr K}, ACEq e f →
      (e.AllNums (fun v => Num.beq v v = true) ↔ f.AllNums (fun v => Num.beq v v = true)) :=
    fun h => h.everywhere (by simp) (by simp)
  induction h with
  | refl e => intro hc hp hu hn; exact ⟨equals_refl' hc hu hn, equals_refl' hc hu hn⟩
  | symm h ih =>
    intro hc hp hu hn
    exact (ih ((EC h).2 hc) ((EP h).2 hp) ((EU h).2 hu) ((EN h).2 hn)).symm
  | trans h1 h2 ih1 ih2 =>
    intro hc hp hu hn
    have a := ih1 hc hp hu hn
    have hc' := (EC h1).1 hc
    have hp' := (EP h1).1 hp
    have b := ih2 hc' hp' ((EU h1).1 hu) ((EN h1).1 hn)
    exact ⟨equals_trans' hr _ _ _ _ (Nat.le_refl _) hc hc' ((EC h2).1 hc') hp hp' a.1 b.1,
      equals_trans' hr _ _ _ _ (Nat.le_refl _) ((EC h2).1 hc') hc' hc ((EP h2).1 hp') hp' b.2 a.2⟩
  | un op h ih =>
    intro hc hp hu hn
    rw [equals_un, equals_un, if_pos rfl, if_pos rfl]
    exact ih hc.2 hp.2 hu.2 hn.2
  | bin op h1 h2 ih1 ih2 =>
    intro hc hp hu hn
    have a := ih1 hc.2.1 hp.2.1 hu.2.1 hn.2.1
    have b := ih2 hc.2.2 hp.2.2 hu.2.2 hn.2.2
    have c1 := (EC h1).1 hc.2.1
    have c2 := (EC h2).1 hc.2.2
    rw [equals_bin hc.2.1.notAbsent hc.2.2.notAbsent c1.notAbsent c2.notAbsent,
      equals_bin c1.notAbsent c2.notAbsent hc.2.1.notAbsent hc.2.2.notAbsent]
    simp [a.1, a.2, b.1, b.2, bind, Except.bind, pure, Except.pure]
  | comm op a b ho =>
    intro hc hp hu hn
    have ho' : op.assoc = true := by rcases ho with rfl | rfl <;> rfl
    have rf : ∀ x ∈ flatten op a b, equals x x = .ok true := fun x hx =>
      equals_refl' (flatten_everywhere op hc.2.1 hc.2.2 x hx) (flatten_everywhere op hu.2.1 hu.2.2 x hx)
        (flatten_everywhere op hn.2.1 hn.2.2 x hx)
    have hsw : ∀ x, x ∈ flatten op a b ↔ x ∈ flatten op b a := fun x => by
      simp [flatten, or_comm]
    rw [equals_assoc_iff ho' hc.2.1 hc.2.2 hp.2.1 hp.2.2 hc.2.2 hc.2.1,
      equals_assoc_iff ho' hc.2.2 hc.2.1 hp.2.2 hp.2.1 hc.2.1 hc.2.2]
    exact ⟨fun x hx => ⟨x, (hsw x).1 hx, rf x hx⟩, fun x hx => ⟨x, (hsw x).2 hx, rf x ((hsw x).2 hx)⟩⟩
  | assoc op a b c ho =>
    intro hc hp hu hn
    have ho' : op.assoc = true := by rcases ho with rfl | rfl <;> rfl
    have rf : ∀ x ∈ flatten op (.bin op a b) c, equals x x = .ok true := fun x hx =>
      equals_refl' (flatten_everywhere op hc.2.1 hc.2.2 x hx) (flatten_everywhere op hu.2.1 hu.2.2 x hx)
        (flatten_everywhere op hn.2.1 hn.2.2 x hx)
    have hsw : flatten op (.bin op a b) c = flatten op a (.bin op b c) := by
      simp [flatten, flatOp]
    have hcb : (Expr.bin op b c).Complete := ⟨by simp, hc.2.1.2.2, hc.2.2⟩
    have hpb : (Expr.bin op b c).NoPi := ⟨by simp, hp.2.1.2.2, hp.2.2⟩
    rw [equals_assoc_iff ho' hc.2.1 hc.2.2 hp.2.1 hp.2.2 hc.2.1.2.1 hcb,
      equals_assoc_iff ho' hc.2.1.2.1 hcb hp.2.1.2.1 hpb hc.2.1 hc.2.2, ← hsw]
    exact ⟨fun x hx => ⟨x, hx, rf x hx⟩, fun x hx => ⟨x, hx, rf x hx⟩⟩

/-! ### Variables -/

omit [Num K] in
theorem vars_flatOp (op : BinOp) (e : Expr K) :
    ∀ n ∈ e.vars, ∃ x ∈ flatOp op e, n ∈ x.vars := by
  induction e with
  | bin op' a b iha ihb =>
    intro n hn
    simp only [flatOp]
    split
    · rcases List.mem_append.1 hn with h | h
      · obtain ⟨x, hx, hx'⟩ := iha n h; exact ⟨x, by simp [hx], hx'⟩
      · obtain ⟨x, hx, hx'⟩ := ihb n h; exact ⟨x, by simp [hx], hx'⟩
    · exact ⟨_, by simp, hn⟩
  | absent => intro n hn; simp [Expr.vars] at hn
  | _ => intro n hn; exact ⟨_, by simp [flatOp], hn⟩

omit [Num K] in
theorem vars_of_flatOp (op : BinOp) (e : Expr K) :
    ∀ x ∈ flatOp op e, ∀ n ∈ x.vars, n ∈ e.vars := by
  induction e with
  | bin op' a b iha ihb =>
    intro x hx n hn
    simp only [flatOp] at hx
    split at hx
    · rcases List.mem_append.1 hx with h | h
      · exact List.mem_append.2 (.inl (iha x h n hn))
      · exact List.mem_append.2 (.inr (ihb x h n hn))
    · simp at hx; subst hx; exact hn
  | absent => intro x hx; simp [flatOp] at hx
  | _ => intro x hx n hn; simp [flatOp] at hx; subst hx; exact hn

theorem equals_vars' : ∀ (n : Nat) (e f : Expr K), e.size ≤ n → equals e f = .ok true →
    ∀ v ∈ e.vars, v ∈ f.vars := by
  intro n
  induction n with
  | zero => intro e f h; cases e <;> simp [Expr.size] at h
  | succ n ih =>
    intro e f hn h v hv
    have t := equals_ty h
    cases e <;> cases f <;> simp only [Expr.ty, reduceCtorEq, Ty.un.injEq, Ty.bin.injEq] at t <;>
      try (simp [Expr.vars] at hv; done)
    case var.var a b =>
      rw [equals.eq_def] at h; simp [Expr.isAbsent] at h; subst h; exact hv
    case un.un op a op' b =>
      subst t
      rw [equals_un, if_pos rfl] at h
      exact ih a b (by simp only [Expr.size] at hn; omega) h v hv
    case bin.bin op a b op' c d =>
      subst t
      simp only [Expr.size] at hn
      have hx : (Expr.bin op a b).isAbsent = false := rfl
      have hy : (Expr.bin op c d).isAbsent = false := rfl
      rw [equals.eq_def] at h
      simp only [hx, hy, Bool.or_self, Bool.false_eq_true, if_false, if_true, bind, Except.bind,
        pure, Except.pure] at h
      have key : ∀ (p q : Expr K) (r : Bool), p.size ≤ n →
          operandEq p q (equals p q) = (Except.ok r : Except Fail Bool) → r = true → ∀ v ∈ p.vars, v ∈ q.vars := by
        intro p q r hp hh hr v hv
        subst hr
        simp only [operandEq] at hh
        split at hh
        · rename_i hab; cases p <;> simp [Expr.isAbsent] at hab; simp [Expr.vars] at hv
        · split at hh
          · simp at hh
          · exact ih p q hp hh v hv
      generalize hm : operandEq a c (equals a c) = m at h
      generalize hl : operandEq b d (equals b d) = l at h
      cases m with
      | error f => simp at h
      | ok m =>
        cases l with
        | error f => simp at h
        | ok l =>
          simp only at h
          split at h
          · rename_i hml
            simp only [Bool.and_eq_true] at hml
            rcases List.mem_append.1 hv with hv | hv
            · exact List.mem_append.2 (.inl (key a c m (by omega) hm hml.1 v hv))
            · exact List.mem_append.2 (.inr (key b d l (by omega) hl hml.2 v hv))
          · split at h
            · simp at h
            · rename_i ho
              have hcd : ∀ y ∈ flatten op c d, ∀ v ∈ y.vars, v ∈ (Expr.bin op c d).vars := by
                intro y hy v hv
                rcases List.mem_append.1 hy with hy | hy
                · exact List.mem_append.2 (.inl (vars_of_flatOp op c y hy v hv))
                · exact List.mem_append.2 (.inr (vars_of_flatOp op d y hy v hv))
              obtain ⟨x, hx, hvx⟩ : ∃ x ∈ flatten op a b, v ∈ x.vars := by
                rcases List.mem_append.1 hv with hv | hv
                · obtain ⟨x, hx, hvx⟩ := vars_flatOp op a v hv
                  exact ⟨x, List.mem_append.2 (.inl hx), hvx⟩
                · obtain ⟨x, hx, hvx⟩ := vars_flatOp op b v hv
                  exact ⟨x, List.mem_append.2 (.inr hx), hvx⟩
              obtain ⟨y, hy, hxy⟩ := anyE_true (allE_true h ⟨x, hx⟩ (by simp))
              have hs := flatten_size op a b x hx
              simp only [Expr.size] at hs
              exact hcd y hy v (ih x y (by omega) hxy v hvx)

/-! ### Trees without associative nodes -/

omit [Num K] in
theorem zip_all_forall₂ {r : K → K → Bool} : ∀ (l m : List K), l.length = m.length →
    ((l.zip m).all (fun p => r p.1 p.2) = true ↔ List.Forall₂ (fun a b => r a b = true) l m)
  | [], [], _ => by simp
  | a :: l, b :: m, h => by
    simp only [List.zip_cons_cons, List.all_cons, Bool.and_eq_true, List.forall₂_cons]
    rw [zip_all_forall₂ l m (by simpa using h)]
  | [], _ :: _, h => by simp at h
  | _ :: _, [], h => by simp at h

omit [Num K] in
theorem noAssoc_op {op : BinOp} {a b : Expr K} (h : (Expr.bin op a b).NoAssoc) :
    op.assoc = false := by
  have := h.1 a b
  cases op <;> simp_all [BinOp.assoc]

theorem equals_noAssoc_iff {e f : Expr K} (hc : e.Complete) (hf : f.Complete) (hp : e.NoPi)
    (hu : e.NoUndef) (ha : e.NoAssoc) :
    equals e f = .ok true ↔ e.SameUpTo (fun v w => Num.beq v w = true) f := by
  induction e generalizing f with
  | absent => exact absurd rfl hc.here
  | undef => exact absurd rfl hu.here
  | pi => exact absurd rfl hp.here
  | un op a ih =>
    constructor
    · intro h
      have t := equals_ty h
      cases f <;> simp only [Expr.ty, reduceCtorEq, Ty.un.injEq] at t
      subst t
      rw [equals_un, if_pos rfl] at h
      exact .un _ ((ih hc.2 hf.2 hp.2 hu.2 ha.2).1 h)
    · intro h
      cases h with
      | un _ h => rw [equals_un, if_pos rfl]; exact (ih hc.2 hf.2 hp.2 hu.2 ha.2).2 h
  | bin op a b iha ihb =>
    constructor
    · intro h
      have t := equals_ty h
      cases f <;> simp only [Expr.ty, reduceCtorEq, Ty.bin.injEq] at t
      subst t
      rw [equals_nonassoc_iff (noAssoc_op ha) hc.2.1 hc.2.2 hf.2.1 hf.2.2] at h
      exact .bin _ ((iha hc.2.1 hf.2.1 hp.2.1 hu.2.1 ha.2.1).1 h.1)
        ((ihb hc.2.2 hf.2.2 hp.2.2 hu.2.2 ha.2.2).1 h.2)
    · intro h
      cases h with
      | bin _ h1 h2 =>
        rw [equals_nonassoc_iff (noAssoc_op ha) hc.2.1 hc.2.2 hf.2.1 hf.2.2]
        exact ⟨(iha hc.2.1 hf.2.1 hp.2.1 hu.2.1 ha.2.1).2 h1,
          (ihb hc.2.2 hf.2.2 hp.2.2 hu.2.2 ha.2.2).2 h2⟩
  | mat m =>
    obtain ⟨r, c, l⟩ := m
    constructor
    · intro h
      have t := equals_ty h
      cases f <;> simp only [Expr.ty, reduceCtorEq] at t
      rename_i n
      obtain ⟨r', c', l'⟩ := n
      rw [equals.eq_def] at h
      simp [Expr.isAbsent, matEq] at h
      obtain ⟨⟨⟨rfl, rfl⟩, hl⟩, h⟩ := h
      refine .mat ((zip_all_forall₂ l l' hl).1 ?_)
      rw [List.all_eq_true]; exact fun p hp => h p.1 p.2 hp
    · intro h
      cases h with
      | mat h =>
        rename_i l'
        rw [equals.eq_def]
        have := (zip_all_forall₂ (r := Num.beq) l l' h.length_eq).2 h
        simp only [List.all_eq_true] at this
        simp [Expr.isAbsent, matEq, h.length_eq]
        exact fun a b hab => this (a, b) hab
  | _ =>
    constructor
    · intro h
      have t := equals_ty h
      cases f <;> simp only [Expr.ty, reduceCtorEq] at t <;> first
        | (rw [equals.eq_def] at h; simp [Expr.isAbsent] at h; first
            | (subst h; constructor)
            | exact .real h)
        | constructor
        | exact absurd rfl hf.here
    · intro h
      cases h <;> rw [equals.eq_def] <;> simp_all [Expr.isAbsent]

end Oasis
