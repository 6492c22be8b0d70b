import Verif.Proofs.Equality
import Verif.Proofs.Build
import Verif.Spec.Equality

/-! # What `Equals` decides -/

namespace Oasis
open Expr
variable {K : Type} [Num K]

/-- equality of numbers in the code -/
abbrev beqK : K → K → Prop := fun v w => Num.beq v w = true

theorem matEq_iff {m n : Mat K} : matEq m n = true ↔ m.rows = n.rows ∧ m.cols = n.cols ∧ List.Forall₂ beqK m.data n.data := by
  simp only [matEq, Bool.and_eq_true, beq_iff_eq]
  constructor
  · rintro ⟨⟨⟨h1, h2⟩, h3⟩, h4⟩
    exact ⟨h1, h2, (zip_all_forall₂ _ _ h3).1 h4⟩
  · rintro ⟨h1, h2, h3⟩
    exact ⟨⟨⟨h1, h2⟩, h3.length_eq⟩, (zip_all_forall₂ _ _ h3.length_eq).2 h3⟩

theorem covered_of_equals (n : Nat) : ∀ e f : Expr K, e.size ≤ n → e.Complete → e.NoPi → f.Complete → equals e f = .ok true →
    Covered beqK e f := by
  induction n with
  | zero => intro e f h; cases e <;> simp [Expr.size] at h
  | succ n ih =>
    intro e f hs he hp hf h
    have t := equals_ty h
    cases e <;> cases f <;> simp only [Expr.ty, reduceCtorEq, Ty.un.injEq, Ty.bin.injEq] at t
    case un.un op a op' b =>
      subst t
      rw [equals_un, if_pos rfl] at h
      exact .un op (ih a b (by simp only [Expr.size] at hs; omega) he.2 hp.2 hf.2 h)
    case bin.bin op a b op' c d =>
      subst t
      simp only [Expr.size] at hs
      cases ho : op.assoc with
      | true =>
        rw [equals_assoc_iff ho he.2.1 he.2.2 hp.2.1 hp.2.2 hf.2.1 hf.2.2] at h
        classical
        refine .chain op (by cases op <;> simp [BinOp.assoc] at ho ⊢)
          (fun x => if hx : x ∈ flatten op a b then (h x hx).choose else x)
          (l := flatten op a b) (m := flatten op c d) ?_ ?_ ?_ ?_
        · simpa [flatOp, flatten] using operands_flatOp op (.bin op a b)
        · simpa [flatOp, flatten] using operands_flatOp op (.bin op c d)
        · intro x hx
          simp only [hx, dite_true]
          exact (h x hx).choose_spec.1
        · intro x hx
          simp only [hx, dite_true]
          have hsz := flatten_size op a b x hx
          simp only [Expr.size] at hsz
          exact ih _ _ (by omega) (flatten_everywhere op he.2.1 he.2.2 x hx) (flatten_everywhere op hp.2.1 hp.2.2 x hx)
            (flatten_everywhere op hf.2.1 hf.2.2 _ (h x hx).choose_spec.1) (h x hx).choose_spec.2
      | false =>
        rw [equals_nonassoc_iff ho he.2.1 he.2.2 hf.2.1 hf.2.2] at h
        exact .bin op (by cases op <;> simp [BinOp.assoc] at ho ⊢)
          (ih a c (by omega) he.2.1 hp.2.1 hf.2.1 h.1) (ih b d (by omega) he.2.2 hp.2.2 hf.2.2 h.2)
    case real.real v w => rw [equals.eq_def] at h; simp [Expr.isAbsent] at h; exact .real h
    case var.var x y => rw [equals.eq_def] at h; simp [Expr.isAbsent] at h; subst h; exact .var _
    case imag.imag => exact .imag
    case euler.euler => exact .euler
    case pi.pi => exact absurd rfl hp.here
    case absent.absent => exact absurd rfl he.here
    case absent.undef => exact absurd rfl he.here
    case undef.absent => exact absurd rfl hf.here
    case undef.undef => rw [equals.eq_def] at h; simp [Expr.isAbsent] at h
    case mat.mat m m' =>
      rw [equals.eq_def] at h
      simp [Expr.isAbsent] at h
      obtain ⟨h1, h2, h3⟩ := matEq_iff.1 h
      obtain ⟨r, c, l⟩ := m
      obtain ⟨r', c', l'⟩ := m'
      simp only at h1 h2 h3
      subst h1; subst h2
      exact .mat h3

theorem equals_of_covered {e f : Expr K} (h : Covered beqK e f) : e.Complete → e.NoPi → f.Complete → equals e f = .ok true := by
  induction h with
  | real h => intro _ _ _; rw [equals.eq_def]; simp [Expr.isAbsent]; exact h
  | imag => intro _ _ _; rw [equals.eq_def]; simp [Expr.isAbsent]
  | var => intro _ _ _; rw [equals.eq_def]; simp [Expr.isAbsent]
  | euler => intro _ _ _; rw [equals.eq_def]; simp [Expr.isAbsent]
  | mat h => intro _ _ _; rw [equals.eq_def]; simp [Expr.isAbsent]; exact matEq_iff.2 ⟨rfl, rfl, h⟩
  | un op _ ih => intro he hp hf; rw [equals_un, if_pos rfl]; exact ih he.2 hp.2 hf.2
  | bin op h _ _ ih1 ih2 =>
    intro he hp hf
    rw [equals_nonassoc_iff (by cases op <;> simp [BinOp.assoc] at h ⊢) he.2.1 he.2.2 hf.2.1 hf.2.2]
    exact ⟨ih1 he.2.1 hp.2.1 hf.2.1, ih2 he.2.2 hp.2.2 hf.2.2⟩
  | @chain op a b c d l m h g hl hm hg _ ih =>
    intro he hp hf
    have h1 := hl.eq_flatOp
    have h2 := hm.eq_flatOp
    simp only [flatOp, if_true] at h1 h2
    subst h1; subst h2
    rw [equals_assoc_iff (by rcases h with rfl | rfl | rfl <;> rfl) he.2.1 he.2.2 hp.2.1 hp.2.2 hf.2.1 hf.2.2]
    intro x hx
    exact ⟨g x, hg x hx, ih x hx (flatten_everywhere op he.2.1 he.2.2 x hx) (flatten_everywhere op hp.2.1 hp.2.2 x hx)
      (flatten_everywhere op hf.2.1 hf.2.2 _ (hg x hx))⟩

/-! ## Both directions -/

/-- lists without related elements that cover each other are permutations up to the relation -/
theorem match_up {α : Type} {R : α → α → Prop} : ∀ {l m : List α},
    (∀ x ∈ l ++ m, ∀ y ∈ l ++ m, ∀ z ∈ l ++ m, R x y → R y z → R x z) →
    l.Pairwise (fun u v => ¬ R u v ∧ ¬ R v u) → m.Pairwise (fun u v => ¬ R u v ∧ ¬ R v u) →
    (∀ x ∈ l, ∃ y ∈ m, R x y) → (∀ y ∈ m, ∃ x ∈ l, R y x) →
    ∃ m', m'.Perm m ∧ List.Forall₂ (fun x y => R x y ∧ R y x) l m'
  | [], m, _, _, _, _, h2 => by
    cases m with
    | nil => exact ⟨[], .refl _, .nil⟩
    | cons y m => obtain ⟨x, hx, _⟩ := h2 y (by simp); cases hx
  | x :: l, m, tr, pl, pm, h1, h2 => by
    rw [List.pairwise_cons] at pl
    obtain ⟨y, hy, hxy⟩ := h1 x (by simp)
    obtain ⟨x', hx', hyx⟩ := h2 y hy
    have hxx : R x x' := tr x (by simp) y (by simp [hy]) x' (List.mem_append_left _ hx') hxy hyx
    have hyx : R y x := by
      rcases List.mem_cons.1 hx' with rfl | hl
      · exact hyx
      · exact absurd hxx (pl.1 x' hl).1
    obtain ⟨s, t, rfl⟩ := List.append_of_mem hy
    have pm' := pm
    rw [List.pairwise_append, List.pairwise_cons] at pm'
    have other : ∀ w ∈ s ++ t, ¬ R w y ∧ ¬ R y w := by
      intro w hw
      rcases List.mem_append.1 hw with hw | hw
      · exact pm'.2.2 w hw y (by simp)
      · exact ⟨(pm'.2.1.1 w hw).2, (pm'.2.1.1 w hw).1⟩
    have sub : ∀ z, z ∈ l ++ (s ++ t) → z ∈ (x :: l) ++ (s ++ y :: t) := by
      intro z hz
      simp only [List.mem_append, List.mem_cons] at hz ⊢
      rcases hz with h | h | h
      · exact .inl (.inr h)
      · exact .inr (.inl h)
      · exact .inr (.inr (.inr h))
    obtain ⟨m', hm', hf⟩ := match_up (l := l) (m := s ++ t) (fun a ha b hb c hc => tr a (sub a ha) b (sub b hb) c (sub c hc)) pl.2
      (by
        rw [List.pairwise_append]
        exact ⟨pm'.1, pm'.2.1.2, fun a ha b hb => pm'.2.2 a ha b (by simp [hb])⟩)
      (by
        intro z hz
        obtain ⟨w, hw, hzw⟩ := h1 z (by simp [hz])
        by_cases e : w = y
        · subst e
          exact absurd (tr z (by simp [hz]) w (by simp) x (by simp) hzw hyx) (pl.1 z hz).2
        · refine ⟨w, ?_, hzw⟩
          simp only [List.mem_append, List.mem_cons] at hw ⊢
          rcases hw with h | h | h
          · exact .inl h
          · exact absurd h e
          · exact .inr h)
      (by
        intro w hw
        obtain ⟨z, hz, hwz⟩ := h2 w (by
          simp only [List.mem_append, List.mem_cons] at hw ⊢
          rcases hw with h | h
          · exact .inl h
          · exact .inr (.inr h))
        rcases List.mem_cons.1 hz with rfl | hz
        · exact absurd (tr w (sub w (List.mem_append_right _ hw)) z (by simp) y (by simp) hwz hxy) (other w hw).1
        · exact ⟨z, hz, hwz⟩)
    exact ⟨y :: m', (hm'.cons y).trans List.perm_middle.symm, .cons ⟨hxy, hyx⟩ hf⟩

/-- the operands from the right -/
def combR (op : BinOp) : List (Expr K) → Expr K
  | [] => .absent
  | [x] => x
  | x :: l => .bin op x (combR op l)

section
omit [Num K]

theorem combR_append {op : BinOp} (h : op = .add ∨ op = .mul) {l l' : List (Expr K)} (hl : l ≠ []) (hl' : l' ≠ []) :
    ACEq (.bin op (combR op l) (combR op l')) (combR op (l ++ l')) := by
  induction l with
  | nil => exact absurd rfl hl
  | cons x l ih =>
    cases l with
    | nil =>
      cases l' with
      | nil => exact absurd rfl hl'
      | cons y l' => exact .refl _
    | cons y l => exact (ACEq.assoc op _ _ _ h).trans (.bin op (.refl _) (ih (by simp)))

theorem combR_flat {op : BinOp} (h : op = .add ∨ op = .mul) {e : Expr K} (hc : e.Complete) :
    flatOp op e ≠ [] ∧ ACEq e (combR op (flatOp op e)) := by
  induction e with
  | absent => exact absurd rfl hc.here
  | bin op' a b iha ihb =>
    simp only [flatOp]
    split
    · rename_i ho; subst ho
      obtain ⟨ha, ha'⟩ := iha hc.2.1
      obtain ⟨hb, hb'⟩ := ihb hc.2.2
      exact ⟨by simp [ha], (ACEq.bin _ ha' hb').trans (combR_append h ha hb)⟩
    · exact ⟨by simp, .refl _⟩
  | _ => exact ⟨by simp [flatOp], .refl _⟩

theorem combR_congr {op : BinOp} {l l' : List (Expr K)} (h : List.Forall₂ ACEq l l') : ACEq (combR op l) (combR op l') := by
  induction h with
  | nil => exact .refl _
  | @cons x y l l' h1 h2 ih =>
    cases h2 with
    | nil => exact h1
    | cons h3 h4 => exact .bin op h1 ih

theorem combR_perm {op : BinOp} (h : op = .add ∨ op = .mul) {l l' : List (Expr K)} (hp : l.Perm l') :
    ACEq (combR op l) (combR op l') := by
  induction hp with
  | nil => exact .refl _
  | @cons x l l' hp ih =>
    cases l with
    | nil => rw [List.nil_perm.1 hp]; exact .refl _
    | cons y l =>
      cases l' with
      | nil => exact absurd hp.length_eq (by simp)
      | cons z l' => exact .bin op (.refl _) ih
  | swap x y l =>
    cases l with
    | nil => exact .comm op _ _ h
    | cons z l => exact ((ACEq.assoc op y x _ h).symm.trans (.bin op (.comm op _ _ h) (.refl _))).trans (.assoc op x y _ h)
  | trans _ _ ih1 ih2 => exact ih1.trans ih2

end

theorem rearranged (hb : ∀ v w : K, Num.beq v w = true ↔ v = w) (n : Nat) : ∀ e f : Expr K, e.size ≤ n → e.Complete → f.Complete →
    e.NoPi → f.NoPi → e.NoInteg → f.NoInteg → Distinct beqK e → Distinct beqK f → equals e f = .ok true → equals f e = .ok true →
    ACEq e f := by
  have hr : ∀ a b c : K, Num.beq a b = true → Num.beq b c = true → Num.beq a c = true := by
    intro a b c h1 h2
    rw [hb] at *
    exact h1.trans h2
  induction n with
  | zero => intro e f h; cases e <;> simp [Expr.size] at h
  | succ n ih =>
    intro e f hs he hf hep hfp hei hfi de df h h'
    have t := equals_ty h
    cases e <;> cases f <;> simp only [Expr.ty, reduceCtorEq, Ty.un.injEq, Ty.bin.injEq] at t
    case un.un op a op' b =>
      subst t
      rw [equals_un, if_pos rfl] at h h'
      exact .un op (ih a b (by simp only [Expr.size] at hs; omega) he.2 hf.2 hep.2 hfp.2 hei.2 hfi.2 de.2 df.2 h h')
    case bin.bin op a b op' c d =>
      subst t
      have hs' := hs
      simp only [Expr.size] at hs
      cases ho : op.assoc with
      | true =>
        have hop : op = .add ∨ op = .mul := by
          cases op <;> simp [BinOp.assoc] at ho ⊢
          exact absurd rfl (hei.1 a b)
        rw [equals_assoc_iff ho he.2.1 he.2.2 hep.2.1 hep.2.2 hf.2.1 hf.2.2] at h
        rw [equals_assoc_iff ho hf.2.1 hf.2.2 hfp.2.1 hfp.2.2 he.2.1 he.2.2] at h'
        have fe : ∀ {a b : Expr K}, flatOp op (.bin op a b) = flatten op a b := by intro a b; simp [flatOp, flatten]
        have ce : ∀ x ∈ flatten op a b, x.Complete ∧ x.NoPi ∧ x.NoInteg ∧ Distinct beqK x := fun x hx =>
          ⟨flatten_everywhere op he.2.1 he.2.2 x hx, flatten_everywhere op hep.2.1 hep.2.2 x hx,
            flatten_everywhere op hei.2.1 hei.2.2 x hx, flatten_everywhere op de.2.1 de.2.2 x hx⟩
        have cf : ∀ x ∈ flatten op c d, x.Complete ∧ x.NoPi ∧ x.NoInteg ∧ Distinct beqK x := fun x hx =>
          ⟨flatten_everywhere op hf.2.1 hf.2.2 x hx, flatten_everywhere op hfp.2.1 hfp.2.2 x hx,
            flatten_everywhere op hfi.2.1 hfi.2.2 x hx, flatten_everywhere op df.2.1 df.2.2 x hx⟩
        have call : ∀ x ∈ flatten op a b ++ flatten op c d, x.Complete ∧ x.NoPi := by
          intro x hx
          rcases List.mem_append.1 hx with hx | hx
          · exact ⟨(ce x hx).1, (ce x hx).2.1⟩
          · exact ⟨(cf x hx).1, (cf x hx).2.1⟩
        have pair : ∀ {a b : Expr K}, (Expr.bin op a b).Complete → (Expr.bin op a b).NoPi → Distinct beqK (.bin op a b) →
            (flatten op a b).Pairwise fun u v => ¬ equals u v = .ok true ∧ ¬ equals v u = .ok true := by
          intro a b hc hp hd
          have h1 : ∀ x ∈ flatten op a b, x.Complete ∧ x.NoPi := fun x hx =>
            ⟨flatten_everywhere op hc.2.1 hc.2.2 x hx, flatten_everywhere op hp.2.1 hp.2.2 x hx⟩
          have h2 := hd.1 op a b (flatten op a b) rfl hop (by rw [← fe]; exact operands_flatOp op _)
          refine h2.imp_of_mem fun {u v} hu hv huv => ⟨fun he => huv.1 ?_, fun he => huv.2 ?_⟩
          · exact covered_of_equals _ _ _ (Nat.le_refl _) (h1 u hu).1 (h1 u hu).2 (h1 v hv).1 he
          · exact covered_of_equals _ _ _ (Nat.le_refl _) (h1 v hv).1 (h1 v hv).2 (h1 u hu).1 he
        obtain ⟨m', hm', hfa⟩ := match_up (R := fun x y : Expr K => equals x y = .ok true) (l := flatten op a b) (m := flatten op c d)
          (fun x hx y hy z hz h1 h2 => equals_trans' hr _ x y z (Nat.le_refl _) (call x hx).1 (call y hy).1 (call z hz).1
            (call x hx).2 (call y hy).2 h1 h2) (pair he hep de) (pair hf hfp df) h h'
        have hfa' : List.Forall₂ ACEq (flatten op a b) m' := by
          have key : ∀ {l m' : List (Expr K)}, List.Forall₂ (fun x y => equals x y = .ok true ∧ equals y x = .ok true) l m' →
              (∀ x ∈ l, x ∈ flatten op a b) → (∀ y ∈ m', y ∈ flatten op c d) → List.Forall₂ ACEq l m' := by
            intro l m' h
            induction h with
            | nil => intro _ _; exact .nil
            | @cons x y l m' h1 _ ih' =>
              intro hl hm
              have hx := hl x (by simp)
              have hy := hm y (by simp)
              have hsz := flatten_size op a b x hx
              simp only [Expr.size] at hsz
              exact .cons (ih x y (by omega) (ce x hx).1 (cf y hy).1 (ce x hx).2.1 (cf y hy).2.1 (ce x hx).2.2.1 (cf y hy).2.2.1
                (ce x hx).2.2.2 (cf y hy).2.2.2 h1.1 h1.2) (ih' (fun z hz => hl z (by simp [hz])) fun z hz => hm z (by simp [hz]))
          exact key hfa (fun x hx => hx) fun y hy => hm'.subset hy
        have e1 := (combR_flat hop he).2
        have e2 := (combR_flat hop hf).2
        rw [fe] at e1 e2
        exact e1.trans ((combR_congr hfa').trans ((combR_perm hop hm').trans e2.symm))
      | false =>
        rw [equals_nonassoc_iff ho he.2.1 he.2.2 hf.2.1 hf.2.2] at h
        rw [equals_nonassoc_iff ho hf.2.1 hf.2.2 he.2.1 he.2.2] at h'
        exact .bin op (ih a c (by omega) he.2.1 hf.2.1 hep.2.1 hfp.2.1 hei.2.1 hfi.2.1 de.2.1 df.2.1 h.1 h'.1)
          (ih b d (by omega) he.2.2 hf.2.2 hep.2.2 hfp.2.2 hei.2.2 hfi.2.2 de.2.2 df.2.2 h.2 h'.2)
    case real.real v w =>
      rw [equals.eq_def] at h; simp [Expr.isAbsent] at h
      rw [(hb v w).1 h]; exact .refl _
    case var.var x y => rw [equals.eq_def] at h; simp [Expr.isAbsent] at h; subst h; exact .refl _
    case imag.imag => exact .refl _
    case euler.euler => exact .refl _
    case pi.pi => exact absurd rfl hep.here
    case absent.absent => exact absurd rfl he.here
    case absent.undef => exact absurd rfl he.here
    case undef.absent => exact absurd rfl hf.here
    case undef.undef => exact .refl _
    case mat.mat m m' =>
      rw [equals.eq_def] at h
      simp [Expr.isAbsent] at h
      obtain ⟨h1, h2, h3⟩ := matEq_iff.1 h
      obtain ⟨r, c, l⟩ := m
      obtain ⟨r', c', l'⟩ := m'
      simp only at h1 h2 h3
      subst h1; subst h2
      have : l = l' := by
        have h4 : List.Forall₂ (fun v w : K => v = w) l l' := h3.imp fun v w h => (hb v w).1 h
        rwa [List.forall₂_eq_eq_eq] at h4
      subst this
      exact .refl _

end Oasis
