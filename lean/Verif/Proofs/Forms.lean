import Verif.Spec.Forms
import Verif.Proofs.Like

/-! # Sums of multiples of different expressions -/

namespace Oasis
namespace Forms
variable {K : Type} [Num K] {ι : Type} [DecidableEq ι] {atom : ι → Expr K} {P : K → Prop} {o : SOpts}
open Expr Like

/-! ### Comparisons -/

theorem eq_real_collectable {c : K} {u : Expr K} (h : Collectable u) : equals (.real c) u = .ok false := by
  cases u <;> simp [Collectable] at h <;> rw [equals.eq_def] <;> simp [isAbsent]

theorem eq_collectable_real {c : K} {u : Expr K} (h : Collectable u) : equals u (.real c) = .ok false := by
  cases u <;> simp [Collectable] at h <;> rw [equals.eq_def] <;> simp [isAbsent]

theorem eq_collectable_bin {op : BinOp} {p q u : Expr K} (h : Collectable u) (ho : op ≠ .pow) : equals u (.bin op p q) = .ok false := by
  cases u with
  | bin op' a b => cases op' <;> simp [Collectable] at h <;> exact equals_bin_ne (Ne.symm ho)
  | _ => simp [Collectable] at h <;> rw [equals.eq_def] <;> simp [isAbsent]

theorem eq_bin_collectable {op : BinOp} {p q u : Expr K} (h : Collectable u) (ho : op ≠ .pow) : equals (.bin op p q) u = .ok false := by
  cases u with
  | bin op' a b => cases op' <;> simp [Collectable] at h <;> exact equals_bin_ne ho
  | _ => simp [Collectable] at h <;> rw [equals.eq_def] <;> simp [isAbsent]

theorem eq_real_bin {op : BinOp} {c : K} {p q : Expr K} : equals (.real c) (.bin op p q) = .ok false := by
  rw [equals.eq_def]; simp [isAbsent]

theorem eq_bin_real {op : BinOp} {c : K} {p q : Expr K} : equals (.bin op p q) (.real c) = .ok false := by
  rw [equals.eq_def]; simp [isAbsent]

theorem flat_collectable {u : Expr K} {op : BinOp} (h : Collectable u) (ho : op ≠ .pow) : flatOp op u = [u] := by
  cases u with
  | bin op' a b =>
    cases op' <;> simp [Collectable] at h
    simp [flatOp, Ne.symm ho]
  | _ => simp [Collectable] at h <;> rfl

theorem summand_complete (A : Atoms atom) (t : Option ι × K) : (summand atom t).Complete := by
  obtain ⟨_ | i, c⟩ := t
  · simp [summand, Complete, Everywhere]
  · simp only [summand]
    split
    · exact A.complete i
    · exact ⟨by simp, by simp [Everywhere], A.complete i⟩

theorem summand_noPi (A : Atoms atom) (t : Option ι × K) : (summand atom t).NoPi := by
  obtain ⟨_ | i, c⟩ := t
  · simp [summand, NoPi, Everywhere]
  · simp only [summand]
    split
    · exact A.noPi i
    · exact ⟨by simp, by simp [Everywhere], A.noPi i⟩

theorem summand_ne_add (A : Atoms atom) (t : Option ι × K) : ∀ a b, summand atom t ≠ .bin .add a b := by
  intro a b h
  obtain ⟨_ | i, c⟩ := t
  · cases h
  · simp only [summand] at h
    split at h
    · have := A.collectable i; rw [h] at this; exact this
    · cases h

theorem flat_summand (A : Atoms atom) (t : Option ι × K) : flatOp .add (summand atom t) = [summand atom t] :=
  flatOp_self .add (summand_ne_add A t) (summand_complete A t).here

/-- equal summands are the same multiple -/
theorem eq_summands (A : Atoms atom) (B : Behaved P) {t u : Option ι × K} (ht : P t.2) (hu : P u.2)
    (h : equals (summand atom t) (summand atom u) = .ok true) : t.1 = u.1 ∧ Num.beq t.2 u.2 = true := by
  obtain ⟨_ | i, c⟩ := t <;> obtain ⟨_ | j, d⟩ := u
  · simp only [summand] at h
    rw [equals.eq_def] at h
    simpa [isAbsent] using h
  · simp only [summand] at h
    split at h
    · rw [eq_real_collectable (A.collectable j)] at h; simp at h
    · rw [eq_real_bin] at h; simp at h
  · simp only [summand] at h
    split at h
    · rw [eq_collectable_real (A.collectable i)] at h; simp at h
    · rw [eq_bin_real] at h; simp at h
  · simp only [summand] at h
    split at h <;> split at h
    · rename_i h1 h2
      rw [A.apart] at h
      simp only [Except.ok.injEq, decide_eq_true_eq] at h
      refine ⟨congrArg some h, ?_⟩
      rw [B.unit _ ht h1, B.unit _ hu h2]; exact B.one_self
    · rw [eq_collectable_bin (A.collectable i) (by simp)] at h; simp at h
    · rw [eq_bin_collectable (A.collectable j) (by simp)] at h; simp at h
    · rw [equals_assoc_iff rfl (by simp [Complete, Everywhere]) (A.complete i) (by simp [NoPi, Everywhere]) (A.noPi i)
        (by simp [Complete, Everywhere]) (A.complete j)] at h
      simp only [flatten, flat_collectable (A.collectable _) (show BinOp.mul ≠ .pow by simp), flatOp, List.singleton_append, List.mem_cons,
        List.not_mem_nil, or_false, forall_eq_or_imp, forall_eq, exists_eq_or_imp, exists_eq_left] at h
      obtain ⟨h1, h2⟩ := h
      rw [eq_real_collectable (A.collectable j), eq_collectable_real (A.collectable i)] at *
      simp only [Except.ok.injEq, Bool.false_eq_true, or_false, false_or, A.apart, decide_eq_true_eq] at h1 h2
      refine ⟨congrArg some h2, ?_⟩
      rw [equals.eq_def] at h1
      simpa [isAbsent] using h1

/-! ### The collecting loop -/

/-- a multiple as the loop keeps it -/
def raw (atom : ι → Expr K) : Option ι × K → Expr K
  | (none, c) => .real c
  | (some i, c) => .bin .mul (.real c) (atom i)

/-- the loops over the multiples found so far -/
theorem upd_raw {f : Expr K → M K (Option (Expr K))} {t : Option ι × K} {push : M K (Expr K)} (hp : Gives push (raw atom t))
    (h1 : ∀ s : Option ι × K, s.1 = t.1 → Gives (f (raw atom s)) (some (raw atom (s.1, Num.add s.2 t.2))))
    (h2 : ∀ s : Option ι × K, s.1 ≠ t.1 → Gives (f (raw atom s)) none) (l : Parts ι K) :
    Gives (updOrPush f push (l.map (raw atom))) ((joinTerm t l).map (raw atom)) := by
  have key : ∀ l : Parts ι K, ((∀ s ∈ l, s.1 ≠ t.1) → Gives (updFirst f (l.map (raw atom))) none) ∧
      ((∃ s ∈ l, s.1 = t.1) → Gives (updFirst f (l.map (raw atom))) (some ((joinTerm t l).map (raw atom)))) := by
    intro l
    induction l with
    | nil => exact ⟨fun _ => .pure _, fun ⟨s, hs, _⟩ => by simp at hs⟩
    | cons s l ih =>
      constructor
      · intro h
        exact (h2 s (h s (by simp))).bind ((ih.1 fun w hw => h w (by simp [hw])).bind (.pure _))
      · rintro ⟨w, hw, hwt⟩
        by_cases hs : s.1 = t.1
        · refine (h1 s hs).bind ?_
          simp only [joinTerm, hs, if_true, List.map_cons]
          exact .pure _
        · have hw' : w ∈ l := by
            rcases List.mem_cons.1 hw with rfl | h
            · exact absurd hwt hs
            · exact h
          refine (h2 s hs).bind ((ih.2 ⟨w, hw', hwt⟩).bind ?_)
          simp only [joinTerm, hs, if_false, List.map_cons]
          exact .pure _
  have new : ∀ l : Parts ι K, (∀ s ∈ l, s.1 ≠ t.1) → joinTerm t l = l ++ [t] := by
    intro l
    induction l with
    | nil => intro _; rfl
    | cons s l ih =>
      intro h
      simp only [joinTerm, h s (by simp), if_false, List.cons_append, ih fun w hw => h w (by simp [hw])]
  by_cases h : ∃ s ∈ l, s.1 = t.1
  · exact ((key l).2 h).bind (.pure _)
  · have h' : ∀ s ∈ l, s.1 ≠ t.1 := fun s hs e => h ⟨s, hs, e⟩
    refine ((key l).1 h').bind (hp.bind ?_)
    rw [new l h', List.map_append]
    exact .pure _

variable {n : ℕ}

theorem add_imag_self (s : Option ι × K) {i : ι} (c : K) (hi : atom i = .imag) (h : s.1 = some i) :
    Gives (addImag (run (n + 2)) o (.real c) (raw atom s)) (some (raw atom (s.1, Num.add s.2 c))) := by
  obtain ⟨k, d⟩ := s
  cases h
  simp only [raw, hi]
  exact (rec_add (o := o) n d c).bind (.pure _)

theorem add_step (A : Atoms atom) (B : Behaved P) (t : Option ι × K) (ht : P t.2) (l : Parts ι K) :
    Gives (addStep (run (n + 2)) o (l.map (raw atom)) (summand atom t)) ((joinTerm t l).map (raw atom)) := by
  obtain ⟨_ | i, c⟩ := t
  · refine upd_raw (atom := atom) (t := (none, c)) (f := addReal c) (push := pure (.real c)) (.pure _) ?_ ?_ l
    · rintro ⟨_ | i, d⟩ h
      · exact .pure _
      · cases h
    · rintro ⟨_ | i, d⟩ h
      · exact absurd rfl h
      · exact .pure _
  · have hc : ∀ h : Num.beq c Num.one = true, c = Num.one := B.unit c ht
    have ha := A.collectable i
    have app := A.apart
    have other : ∀ s : Option ι × K, s.1 ≠ (some i, c).1 → (∃ d, raw atom s = .real d) ∨
        ∃ d j, j ≠ i ∧ Collectable (atom j) ∧ raw atom s = .bin .mul (.real d) (atom j) := by
      rintro ⟨_ | j, d⟩ h
      · exact .inl ⟨d, rfl⟩
      · exact .inr ⟨d, j, fun e => h (by rw [e]), A.collectable j, rfl⟩
    cases hu : atom i with
    | imag =>
      have key : Gives (updOrPush (addImag (run (n + 2)) o (.real c)) (pure (raw atom (some i, c))) (l.map (raw atom)))
          ((joinTerm (some i, c) l).map (raw atom)) := by
        refine upd_raw (.pure _) (fun s hs => ?_) (fun s hs => ?_) l
        · obtain ⟨k, d⟩ := s
          cases hs
          simp only [raw, hu]
          exact (rec_add (o := o) n d c).bind (.pure _)
        · rcases other s hs with ⟨d, h⟩ | ⟨d, j, hj, hcj, h⟩
          · rw [h]; exact .pure _
          · rw [h]
            have hne := app j i
            rw [hu] at hne
            cases hv : atom j with
            | imag => rw [hv] at hne; simp [equals, hj, isAbsent] at hne
            | bin op a b => rw [hv] at hcj; cases op <;> simp [Collectable] at hcj; exact .pure _
            | var y => exact .pure _
            | _ => rw [hv] at hcj; simp [Collectable] at hcj
      simp only [raw, hu] at key
      simp only [summand, hu]
      split
      · rename_i h
        cases hc h
        exact key
      · exact key
    | var x =>
      have key : Gives (updOrPush (addVar (run (n + 2)) o (.real c) x) (pure (raw atom (some i, c))) (l.map (raw atom)))
          ((joinTerm (some i, c) l).map (raw atom)) := by
        refine upd_raw (.pure _) (fun s hs => ?_) (fun s hs => ?_) l
        · obtain ⟨k, d⟩ := s
          cases hs
          simp only [raw, hu, addVar, cast, if_true]
          exact (rec_add (o := o) n d c).bind (.pure _)
        · rcases other s hs with ⟨d, h⟩ | ⟨d, j, hj, hcj, h⟩
          · rw [h]; exact .pure _
          · rw [h]
            have hne := app j i
            rw [hu] at hne
            cases hv : atom j with
            | imag => exact .pure _
            | bin op a b => rw [hv] at hcj; cases op <;> simp [Collectable] at hcj; exact .pure _
            | var y =>
              rw [hv] at hne
              have : y ≠ x := by
                rintro rfl
                rw [eq_var] at hne
                simp [hj] at hne
              simp only [addVar, cast, if_true, this, if_false]
              exact .pure _
            | _ => rw [hv] at hcj; simp [Collectable] at hcj
      simp only [raw, hu] at key
      simp only [summand, hu]
      split
      · rename_i h
        cases hc h
        exact key
      · exact key
    | bin op b p =>
      rw [hu] at ha
      cases op <;> simp [Collectable] at ha
      have self : equals (.bin .pow b p) (.bin .pow b p) = .ok true := by
        have := app i i
        rwa [hu, decide_eq_true rfl] at this
      have none' : ∀ f : Expr K → M K (Option (Expr K)), (∀ d, f (.real d) = pure none) → (∀ d, f (.bin .mul (.real d) .imag) = pure none) →
          (∀ d y, f (.bin .mul (.real d) (.var y)) = pure none) →
          (∀ d a q, equals (.bin .pow a q) (.bin .pow b p) = .ok false → Gives (f (.bin .mul (.real d) (.bin .pow a q))) none) →
          ∀ s : Option ι × K, s.1 ≠ (some i, c).1 → Gives (f (raw atom s)) none := by
        intro f f1 f2 f3 f4 s hs
        rcases other s hs with ⟨d, h⟩ | ⟨d, j, hj, hcj, h⟩
        · rw [h, f1]; exact .pure _
        · rw [h]
          have hne := app j i
          rw [hu] at hne
          cases hv : atom j with
          | imag => rw [f2]; exact .pure _
          | var y => rw [f3]; exact .pure _
          | bin op' a q =>
            rw [hv] at hcj hne
            cases op' <;> simp [Collectable] at hcj
            exact f4 d a q (by rw [hne, decide_eq_false hj])
          | _ => rw [hv] at hcj; simp [Collectable] at hcj
      by_cases h : Num.beq c Num.one = true
      · cases hc h
        have key : Gives (updOrPush (addExp1 (run (n + 2)) o (.bin .pow b p)) (pure (raw atom (some i, Num.one))) (l.map (raw atom)))
            ((joinTerm (some i, Num.one) l).map (raw atom)) := by
          refine upd_raw (.pure _) (fun s hs => ?_) (none' _ (fun _ => rfl) (fun _ => rfl) (fun _ _ => rfl) fun d a q hq => ?_) l
          · obtain ⟨k, d⟩ := s
            cases hs
            simp only [raw, hu, addExp1, cast, if_true]
            exact (eqv_yes self).bind ((rec_add (o := o) n d Num.one).bind (.pure _))
          · simp only [addExp1, cast, if_true, pow, eqv_false hq, M.pure_bind', Bool.false_eq_true, if_false]
            exact .pure _
        simp only [raw, hu] at key
        simp only [summand, hu, h, if_true]
        exact key
      · have key : Gives (updOrPush (addExp (run (n + 2)) o (.real c) (.bin .pow b p)) (pure (raw atom (some i, c))) (l.map (raw atom)))
            ((joinTerm (some i, c) l).map (raw atom)) := by
          refine upd_raw (.pure _) (fun s hs => ?_) (none' _ (fun _ => rfl) (fun _ => rfl) (fun _ _ => rfl) fun d a q hq => ?_) l
          · obtain ⟨k, d⟩ := s
            cases hs
            simp only [raw, hu, addExp, cast, if_true]
            exact (eqv_yes self).bind ((rec_add (o := o) n d c).bind (.pure _))
          · simp only [addExp, cast, if_true, pow, eqv_false hq, M.pure_bind', Bool.false_eq_true, if_false]
            exact .pure _
        simp only [raw, hu] at key
        simp only [summand, hu, h, Bool.false_eq_true, if_false]
        exact key
    | _ => rw [hu] at ha; simp [Collectable] at ha

/-- the whole loop -/
theorem add_loop (A : Atoms atom) (B : Behaved P) (m : Parts ι K) (hm : ∀ t ∈ m, P t.2) : ∀ l : Parts ι K,
    Gives ((m.map (summand atom)).foldlM (addStep (run (n + 2)) o) (l.map (raw atom)))
      ((m.foldl (fun s t => joinTerm t s) l).map (raw atom)) := by
  induction m with
  | nil => exact fun l => .pure _
  | cons t m ih =>
    intro l
    simp only [List.map_cons, List.foldlM_cons, List.foldl_cons]
    exact (add_step A B t (hm t (by simp)) l).bind (ih (fun u hu => hm u (by simp [hu])) _)

/-! ### Keys -/

theorem join_keys (t : Option ι × K) : ∀ l : Parts ι K, (joinTerm t l).map Prod.fst =
    if t.1 ∈ l.map Prod.fst then l.map Prod.fst else l.map Prod.fst ++ [t.1]
  | [] => by simp [joinTerm]
  | s :: l => by
    by_cases h : s.1 = t.1
    · simp [joinTerm, h]
    · simp only [joinTerm, h, if_false, List.map_cons, join_keys t l, List.mem_cons]
      by_cases h' : t.1 ∈ l.map Prod.fst
      · simp [h']
      · simp [h', Ne.symm h]

theorem join_nodup (t : Option ι × K) {l : Parts ι K} (h : (l.map Prod.fst).Nodup) : ((joinTerm t l).map Prod.fst).Nodup := by
  rw [join_keys]
  split
  · exact h
  · rename_i ht
    rw [List.nodup_append]
    refine ⟨h, by simp, fun a ha b hb => ?_⟩
    simp only [List.mem_singleton] at hb
    subst hb
    rintro rfl
    exact ht ha

theorem joins_nodup (m : Parts ι K) : ∀ l : Parts ι K, (l.map Prod.fst).Nodup →
    ((m.foldl (fun s t => joinTerm t s) l).map Prod.fst).Nodup := by
  induction m with
  | nil => exact fun l h => h
  | cons t m ih => exact fun l h => ih _ (join_nodup t h)

theorem collect_nodup {l m : Parts ι K} (h : (l.map Prod.fst).Nodup) : ((collect l m).map Prod.fst).Nodup :=
  (joins_nodup m l h).sublist (List.Sublist.map _ List.filter_sublist)

theorem join_new {t : Option ι × K} : ∀ {l : Parts ι K}, t.1 ∉ l.map Prod.fst → joinTerm t l = l ++ [t]
  | [], _ => rfl
  | s :: l, h => by
    simp only [List.map_cons, List.mem_cons, not_or] at h
    simp only [joinTerm, Ne.symm h.1, if_false, List.cons_append, join_new h.2]

theorem joins_new (m : Parts ι K) : ∀ l : Parts ι K, ((l ++ m).map Prod.fst).Nodup → m.foldl (fun s t => joinTerm t s) l = l ++ m := by
  induction m with
  | nil => intro l _; simp
  | cons t m ih =>
    intro l h
    have ht : t.1 ∉ l.map Prod.fst := by
      rw [List.map_append, List.nodup_append] at h
      intro hm
      exact h.2.2 _ hm t.1 (by simp) rfl
    rw [List.foldl_cons, join_new ht, ih _ (by simpa using h)]
    simp

theorem join_all (B : Behaved P) {t : Option ι × K} (ht : P t.2) : ∀ {l : Parts ι K}, (∀ s ∈ l, P s.2) → ∀ s ∈ joinTerm t l, P s.2
  | [], _, s, hs => by simp only [joinTerm, List.mem_singleton] at hs; subst hs; exact ht
  | r :: l, h, s, hs => by
    by_cases hr : r.1 = t.1
    · simp only [joinTerm, hr, if_true, List.mem_cons] at hs
      rcases hs with rfl | hs
      · exact B.add _ _ (h r (by simp)) ht
      · exact h s (by simp [hs])
    · simp only [joinTerm, hr, if_false, List.mem_cons] at hs
      rcases hs with rfl | hs
      · exact h _ (by simp)
      · exact join_all B ht (fun s hs => h s (by simp [hs])) s hs

theorem joins_all (B : Behaved P) (m : Parts ι K) : ∀ l : Parts ι K, (∀ s ∈ l, P s.2) → (∀ s ∈ m, P s.2) →
    ∀ s ∈ m.foldl (fun s t => joinTerm t s) l, P s.2 := by
  induction m with
  | nil => exact fun l h _ => h
  | cons t m ih => exact fun l h h' => ih _ (join_all B (h' t (by simp)) h) fun s hs => h' s (by simp [hs])

/-! ### Rebuilding -/

theorem drop_raw (t : Option ι × K) : dropUnit (raw atom t) = summand atom t := by
  obtain ⟨_ | i, c⟩ := t
  · rfl
  · rfl

theorem cast_collectable {u : Expr K} (h : Collectable u) : cast .real u = none ∧ cast .mat u = none ∧
    (∀ p q, cast (.bin .mul p q) u = none) ∧ (∀ p q, cast (.bin .log p q) u = none) := by
  cases u with
  | bin op a b => cases op <;> simp [Collectable] at h; simp [cast]
  | _ => simp [Collectable] at h <;> simp [cast]

theorem tiny_summand (A : Atoms atom) (B : Behaved P) {t : Option ι × K} (ht : P t.2) :
    (tinyCoeff (summand atom t)).isNone = !Num.tiny t.2 := by
  obtain ⟨_ | i, c⟩ := t
  · simp only [summand, tinyCoeff]
    cases Num.tiny c <;> rfl
  · have hu := A.collectable i
    simp only [summand]
    split
    · rename_i h
      rw [B.unit c ht h, B.one_seen]
      have := (cast_collectable hu).2.2.1
      cases hv : atom i with
      | bin op a b => rw [hv] at this; simp [tinyCoeff, this]
      | real v => rw [hv] at hu; simp [Collectable] at hu
      | _ => simp [tinyCoeff, cast]
    · simp only [tinyCoeff, cast, if_true]
      cases Num.tiny c <;> rfl

/-- the tree of a list of multiples -/
structure Shape (atom : ι → Expr K) (P : K → Prop) (a : Expr K) (l : Parts ι K) : Prop where
  complete : a.Complete
  noPi : a.NoPi
  flat : flatOp .add a = l.map (summand atom)
  single : ∀ t, l = [t] → a = summand atom t
  tree : l.length ≠ 1 → build .add (l.map (summand atom)) = some a
  nodup : (l.map Prod.fst).Nodup
  good : ∀ t ∈ l, P t.2 ∧ Num.tiny t.2 = false

theorem Shape.several {a : Expr K} {l : Parts ι K} (h : Shape atom P a l) (hl : l.length ≠ 1) : ∃ p q, a = .bin .add p q :=
  build_isBin (h.tree hl)

theorem forM_gives {α : Type} {f : α → M K Unit} (h : ∀ a, Gives (f a) ()) : ∀ l : List α, Gives (l.forM f) ()
  | [] => .pure _
  | a :: l => (h a).bind (forM_gives h l)

theorem build_everywhere {op : BinOp} {p : Expr K → Prop} (hp : ∀ a b, p (.bin op a b)) {l : List (Expr K)} {t : Expr K} (h : build op l = some t)
    (hl : ∀ x ∈ l, x.Everywhere p) : t.Everywhere p := by
  have pair : ∀ l : List (Expr K), (∀ x ∈ l, x.Everywhere p) → ∀ x ∈ pairUp op l, x.Everywhere p := by
    intro l
    induction l using pairUp.induct with
    | case2 l hl => intro h; rw [pairUp]; exact h; exact hl
    | case1 a b rest ih =>
      intro h x hx
      simp only [pairUp, List.mem_cons] at hx
      rcases hx with rfl | hx
      · exact ⟨hp a b, h a (by simp), h b (by simp)⟩
      · exact ih (fun y hy => h y (by simp [hy])) x hx
  have := build_induct (op := op) (t := t) (fun l' => ∀ x ∈ l', x.Everywhere p) (fun a b rest h => pair _ h) h hl
  exact this t (by simp)

theorem build_flat {op : BinOp} {l : List (Expr K)} {t : Expr K} (h : build op l = some t) : flatOp op t = l.flatMap (flatOp op) := by
  have := build_induct (op := op) (t := t) (fun l' => l'.flatMap (flatOp op) = l.flatMap (flatOp op))
    (fun a b rest h => by rw [pairUp_flat]; exact h) h rfl
  simpa using this

theorem flatMap_summand (A : Atoms atom) (l : Parts ι K) : (l.map (summand atom)).flatMap (flatOp .add) = l.map (summand atom) := by
  induction l with
  | nil => rfl
  | cons t l ih => simp only [List.map_cons, List.flatMap_cons, ih, flat_summand A]; rfl

theorem rebuild (A : Atoms atom) (B : Behaved P) (s : Expr K) {l : Parts ι K} (hl : ∀ t ∈ l, P t.2) (hn : (l.map Prod.fst).Nodup)
    (h2 : 2 ≤ (l.filter fun t => !Num.tiny t.2).length) :
    ∃ r, Gives (addRebuild s (l.map (raw atom))) r ∧ Shape atom P r (l.filter fun t => !Num.tiny t.2) := by
  have e1 : (l.map (raw atom)).map dropUnit = l.map (summand atom) := by
    rw [List.map_map]; exact List.map_congr_left fun t _ => drop_raw t
  have e2 : (l.map (summand atom)).filter (fun v => (tinyCoeff v).isNone) = (l.filter fun t => !Num.tiny t.2).map (summand atom) := by
    rw [List.filter_map]
    congr 1
    exact List.filter_congr fun t ht => tiny_summand A B (hl t ht)
  obtain ⟨r, hr⟩ : ∃ r, build .add ((l.filter fun t => !Num.tiny t.2).map (summand atom)) = some r := by
    rw [← Option.ne_none_iff_exists']
    intro h
    rw [build_none_iff, List.length_map] at h
    omega
  refine ⟨r, ?_, ?_, ?_, ?_, ?_, ?_, ?_, ?_⟩
  · unfold addRebuild
    simp only [e1, e2, hr]
    exact (forM_gives (fun c => ⟨_, rfl⟩) _).bind (.pure _)
  · exact build_everywhere (fun a b => by simp) hr fun x hx => by
      obtain ⟨t, _, rfl⟩ := List.mem_map.1 hx
      exact summand_complete A t
  · exact build_everywhere (fun a b => by simp) hr fun x hx => by
      obtain ⟨t, _, rfl⟩ := List.mem_map.1 hx
      exact summand_noPi A t
  · rw [build_flat hr, flatMap_summand A]
  · intro t ht; rw [ht] at h2; simp at h2
  · intro _; exact hr
  · exact hn.sublist (List.Sublist.map _ List.filter_sublist)
  · intro t ht
    obtain ⟨h1, h3⟩ := List.mem_filter.1 ht
    exact ⟨hl t h1, by simpa using h3⟩

/-! ### One addition -/

inductive Form (P : K → Prop) : Expr K → Prop
  | real (c : K) : Num.beq c Num.zero = false → Form P (.real c)
  | atom {u : Expr K} : Collectable u → Form P u
  | prod (c : K) {u : Expr K} : Collectable u → Form P (.bin .mul (.real c) u)
  | sum (p q : Expr K) : Form P (.bin .add p q)

theorem Shape.form (A : Atoms atom) (B : Behaved P) {a : Expr K} {l : Parts ι K} (h : Shape atom P a l) : Form P a := by
  by_cases hl : l.length = 1
  · obtain ⟨t, rfl⟩ := List.length_eq_one_iff.1 hl
    have e := h.single t rfl
    obtain ⟨hP, ht⟩ := h.good t (by simp)
    obtain ⟨_ | i, c⟩ := t
    · rw [e]
      refine .real c ?_
      by_contra hc
      rw [B.zero_tiny c hP (by simpa using hc)] at ht
      cases ht
    · rw [e]
      simp only [summand]
      split
      · exact .atom (A.collectable i)
      · exact .prod c (A.collectable i)
  · obtain ⟨p, q, e⟩ := h.several hl
    rw [e]
    exact .sum p q

theorem rules (n : ℕ) {a b : Expr K} (ha : Form P a) (hb : Form P b) (hr : ∀ c d, ¬ (a = .real c ∧ b = .real d))
    (hab : equals a b = .ok false)
    (h1 : ∀ c d u v, a = .bin .mul (.real c) u → b = .bin .mul (.real d) v → equals u v = .ok false)
    (h2 : ∀ c u, a = .bin .mul (.real c) u → equals u b = .ok false)
    (h3 : ∀ c u, b = .bin .mul (.real c) u → equals u a = .ok false) {r : Expr K}
    (h : Gives (addCollect (run (n + 2)) o a b) r) :
    Gives (add94 (add a b) ?> add101 (add a b) ?> add107 (add a b) ?> add120 (add a b) ?> add132 (add a b) ?>
      add141 (run (n + 2)) o a b ?> add146 (add a b) ?> addCollect (run (n + 2)) o a b) r := by
  have e : add141 (run (n + 2)) o a b = pure none := by
    unfold add141
    rw [eqv_false hab]
    rfl
  rw [e]
  have none' : ∀ {m : M K (Option (Expr K))} {k : Unit → M K (Expr K)}, m = pure none → Gives (k ()) r → Gives (M.orElse m k) r :=
    fun h hk => .orNone (h ▸ .pure _) hk
  refine none' ?_ (none' ?_ (none' ?_ (none' ?_ (none' ?_ (none' rfl (none' ?_ h))))))
  all_goals
    rcases ha with ⟨c, hc⟩ | hu | ⟨c, hu⟩ | ⟨p, q⟩ <;> rcases hb with ⟨d, hd⟩ | hv | ⟨d, hv⟩ | ⟨p', q'⟩
  all_goals first
    | exact absurd ⟨rfl, rfl⟩ (hr _ _)
    | rfl
    | (try have fu := cast_collectable hu
       try have fv := cast_collectable hv
       try have e1 := eqv_false (h1 _ _ _ _ rfl rfl)
       try have e2 := eqv_false (h2 _ _ rfl)
       try have e3 := eqv_false (h3 _ _ rfl)
       simp [add94, add101, add107, add120, add132, add146, add, cast, BinOp.comm, *])

theorem summand_real {t : Option ι × K} (A : Atoms atom) {c : K} (h : summand atom t = .real c) : t = (none, c) := by
  obtain ⟨_ | i, d⟩ := t
  · cases h; rfl
  · simp only [summand] at h
    split at h
    · have := A.collectable i; rw [h] at this; simp [Collectable] at this
    · cases h

theorem summand_mul {t : Option ι × K} (A : Atoms atom) {c : K} {u : Expr K} (h : summand atom t = .bin .mul (.real c) u) :
    ∃ i, t = (some i, c) ∧ u = atom i := by
  obtain ⟨_ | i, d⟩ := t
  · cases h
  · simp only [summand] at h
    split at h
    · have := A.collectable i; rw [h] at this; simp [Collectable] at this
    · cases h; exact ⟨i, rfl, rfl⟩

theorem Shape.two {a : Expr K} {l : Parts ι K} (h : Shape atom P a l) (h1 : l.length ≠ 1) : 2 ≤ l.length := by
  have : l ≠ [] := by
    rintro rfl
    exact flatOp_ne_nil .add ((complete_iff a).1 h.complete) (by rw [h.flat]; rfl)
  have := List.length_pos_of_ne_nil this
  omega

theorem keys_ne {s t : Option ι × K} (h : 2 ≤ (collect [s] [t]).length) : s.1 ≠ t.1 := by
  intro e
  have : (collect [s] [t]).length ≤ 1 := by
    unfold collect
    refine (List.length_filter_le _ _).trans ?_
    simp [joinTerm, e]
  omega

theorem not_sum (A : Atoms atom) (t : Option ι × K) (p q : Expr K) : (summand atom t).ty ≠ (Expr.bin .add p q).ty := by
  intro h
  have hn := summand_ne_add A t
  cases hs : summand atom t with
  | bin op a b =>
    rw [hs] at h
    simp only [Expr.ty, Ty.bin.injEq] at h
    subst h
    exact hn a b hs
  | _ => rw [hs] at h; simp [Expr.ty] at h

theorem Shape.one {a : Expr K} {l : Parts ι K} (h : Shape atom P a l) (hn : ∀ p q, a ≠ .bin .add p q) : ∃ t, l = [t] ∧ a = summand atom t := by
  by_cases h1 : l.length = 1
  · obtain ⟨t, rfl⟩ := List.length_eq_one_iff.1 h1
    exact ⟨t, rfl, h.single t rfl⟩
  · obtain ⟨p, q, e⟩ := h.several h1
    exact absurd e (hn p q)

theorem Shape.other (A : Atoms atom) {u b : Expr K} {m : Parts ι K} {i : ι} (hb : Shape atom P b m) (hu : u = atom i)
    (hi : ∀ t, m = [t] → t.1 ≠ some i) : equals u b = .ok false := by
  subst hu
  by_cases h1 : m.length = 1
  · obtain ⟨t, rfl⟩ := List.length_eq_one_iff.1 h1
    have ht := hi t rfl
    rw [hb.single t rfl]
    obtain ⟨_ | j, d⟩ := t
    · exact eq_collectable_real (A.collectable i)
    · simp only [summand]
      split
      · rw [A.apart, decide_eq_false]
        rintro rfl
        exact ht rfl
      · exact eq_collectable_bin (A.collectable i) (by simp)
  · obtain ⟨p, q, rfl⟩ := hb.several h1
    exact eq_collectable_bin (A.collectable i) (by simp)

theorem Shape.other' (A : Atoms atom) {u b : Expr K} {m : Parts ι K} {i : ι} (hb : Shape atom P b m) (hu : u = atom i)
    (hi : ∀ t, m = [t] → t.1 ≠ some i) : equals b u = .ok false := by
  subst hu
  by_cases h1 : m.length = 1
  · obtain ⟨t, rfl⟩ := List.length_eq_one_iff.1 h1
    have ht := hi t rfl
    rw [hb.single t rfl]
    obtain ⟨_ | j, d⟩ := t
    · exact eq_real_collectable (A.collectable i)
    · simp only [summand]
      split
      · rw [A.apart, decide_eq_false]
        rintro rfl
        exact ht rfl
      · exact eq_bin_collectable (A.collectable i) (by simp)
  · obtain ⟨p, q, rfl⟩ := hb.several h1
    exact eq_bin_collectable (A.collectable i) (by simp)

theorem sum_step (A : Atoms atom) (B : Behaved P) {n : ℕ} {x y a b : Expr K} {l m : Parts ι K} (hx : x ≠ .absent) (hy : y ≠ .absent)
    (ga : Gives (run (n + 2) (.simp o x)) a) (gb : Gives (run (n + 2) (.simp o y)) b) (sa : Shape atom P a l) (sb : Shape atom P b m)
    (h2 : 2 ≤ (collect l m).length) (hE : 2 ≤ l.length → 2 ≤ m.length → Exceeds l m) :
    ∃ r, Gives (run (n + 3) (.simp o (.bin .add x y))) r ∧ Shape atom P r (collect l m) := by
  have fl : flatten .add a b = (l ++ m).map (summand atom) := by
    rw [flatten, sa.flat, sb.flat, List.map_append]
  have loop := add_loop (n := n) (o := o) A B (l ++ m) (fun t ht => by
    rcases List.mem_append.1 ht with h | h
    · exact (sa.good t h).1
    · exact (sb.good t h).1) []
  have start : l.foldl (fun s t => joinTerm t s) [] = l := by
    simpa using joins_new l [] (by simpa using sa.nodup)
  rw [List.foldl_append, start, List.map_nil] at loop
  obtain ⟨r, hr, hs⟩ := rebuild A B (.bin .add a b) (joins_all B m l (fun t ht => (sa.good t ht).1) fun t ht => (sb.good t ht).1)
    (joins_nodup m l sa.nodup) h2
  have coll : Gives (addCollect (run (n + 2)) o a b) r := by
    unfold addCollect
    rw [fl]
    exact loop.bind hr
  refine ⟨r, ?_, hs⟩
  show Gives (simpAdd (run (n + 2)) o x y) r
  unfold simpAdd
  refine (gives_simpBoth ga gb hx hy).bind ?_
  refine rules n (sa.form A B) (sb.form A B) ?_ ?_ ?_ ?_ ?_ coll
  · rintro c d ⟨rfl, rfl⟩
    obtain ⟨s, rfl, es⟩ := sa.one (by simp)
    obtain ⟨t, rfl, et⟩ := sb.one (by simp)
    refine keys_ne h2 ?_
    rw [summand_real A es.symm, summand_real A et.symm]
  · obtain ⟨v, hv⟩ := equals_ok _ a b le_rfl sa.complete sa.noPi sb.complete
    cases v with
    | false => exact hv
    | true =>
      exfalso
      have inc := equals_flatOp (op := .add) sa.complete sb.complete hv
      rw [sa.flat, sb.flat] at inc
      have key : ∀ t ∈ l, ∃ u ∈ m, t.1 = u.1 ∧ Num.beq t.2 u.2 = true := by
        intro t ht
        obtain ⟨w, hw, e⟩ := inc _ (List.mem_map_of_mem ht)
        obtain ⟨u, hu, rfl⟩ := List.mem_map.1 hw
        exact ⟨u, hu, eq_summands A B (sa.good t ht).1 (sb.good u hu).1 e⟩
      by_cases hl : l.length = 1 <;> by_cases hm : m.length = 1
      · obtain ⟨s, rfl⟩ := List.length_eq_one_iff.1 hl
        obtain ⟨t, rfl⟩ := List.length_eq_one_iff.1 hm
        obtain ⟨u, hu, e, _⟩ := key s (by simp)
        simp only [List.mem_singleton] at hu
        subst hu
        exact keys_ne h2 e
      · obtain ⟨s, rfl⟩ := List.length_eq_one_iff.1 hl
        obtain ⟨p, q, rfl⟩ := sb.several hm
        have ty := equals_ty hv
        rw [sa.single s rfl] at ty
        exact not_sum A s p q ty
      · obtain ⟨s, rfl⟩ := List.length_eq_one_iff.1 hm
        obtain ⟨p, q, rfl⟩ := sa.several hl
        have ty := equals_ty hv
        rw [sb.single s rfl] at ty
        exact not_sum A s p q ty.symm
      · obtain ⟨t, ht, h⟩ := hE (sa.two hl) (sb.two hm)
        obtain ⟨u, hu, e, hb⟩ := key t ht
        rw [h u hu e] at hb
        cases hb
  · rintro c d u v rfl rfl
    obtain ⟨s, rfl, es⟩ := sa.one (by simp)
    obtain ⟨t, rfl, et⟩ := sb.one (by simp)
    obtain ⟨i, rfl, rfl⟩ := summand_mul A es.symm
    obtain ⟨j, rfl, rfl⟩ := summand_mul A et.symm
    rw [A.apart, decide_eq_false]
    rintro rfl
    exact keys_ne h2 rfl
  · rintro c u rfl
    obtain ⟨s, rfl, es⟩ := sa.one (by simp)
    obtain ⟨i, rfl, rfl⟩ := summand_mul A es.symm
    refine sb.other A rfl ?_
    rintro t rfl e
    exact keys_ne h2 e.symm
  · rintro c u rfl
    obtain ⟨s, rfl, es⟩ := sb.one (by simp)
    obtain ⟨i, rfl, rfl⟩ := summand_mul A es.symm
    refine sa.other A rfl ?_
    rintro t rfl e
    exact keys_ne h2 e

theorem leaf_shape (A : Atoms atom) {t : Option ι × K} (h : P t.2) (ht : Num.tiny t.2 = false) : Shape atom P (summand atom t) [t] where
  complete := summand_complete A t
  noPi := summand_noPi A t
  flat := by rw [flat_summand A]; rfl
  single := by rintro s hs; cases hs; rfl
  tree := fun h => absurd rfl h
  nodup := by simp
  good := by simpa using ⟨h, ht⟩

/-! ### Two multiples of the same kind -/

theorem add_numbers {rec : Rec K} {x y : Expr K} {c d : K} (hx : x ≠ .absent) (hy : y ≠ .absent) (ga : Gives (rec (.simp o x)) (.real c))
    (gb : Gives (rec (.simp o y)) (.real d)) : Gives (simpAdd rec o x y) (.real (Num.add c d)) := by
  unfold simpAdd
  exact (gives_simpBoth ga gb hx hy).bind (.orSome (.pure _))

section
variable {rec : Rec K} {x y u : Expr K} {c d : K} (hu : Collectable u) (self : equals u u = .ok true) (hx : x ≠ .absent) (hy : y ≠ .absent)
include hu self hx hy

theorem add_prods (ga : Gives (rec (.simp o x)) (.bin .mul (.real c) u)) (gb : Gives (rec (.simp o y)) (.bin .mul (.real d) u)) :
    Gives (simpAdd rec o x y) (.bin .mul (.real (Num.add c d)) u) := by
  unfold simpAdd
  refine (gives_simpBoth ga gb hx hy).bind ?_
  refine .orNone (.pure _) (.orNone (.pure _) (.orSome ?_))
  exact (eqv_yes self).bind (.pure _)

theorem add_prod_atom (ga : Gives (rec (.simp o x)) (.bin .mul (.real c) u)) (gb : Gives (rec (.simp o y)) u) :
    Gives (simpAdd rec o x y) (.bin .mul (.real (Num.add c Num.one)) u) := by
  unfold simpAdd
  refine (gives_simpBoth ga gb hx hy).bind ?_
  have none' : ∀ {m : M K (Option (Expr K))} {k : Unit → M K (Expr K)} {r}, m = pure none → Gives (k ()) r → Gives (M.orElse m k) r :=
    fun h hk => .orNone (h ▸ .pure _) hk
  have fu := cast_collectable hu
  have e := eqv_false (eq_bin_collectable (op := .mul) (p := .real c) (q := u) hu (by simp))
  refine none' ?_ (none' ?_ (none' ?_ (none' ?_ (none' ?_ (none' ?_ (.orSome ?_))))))
  · simp [add94, add, cast, BinOp.comm, *]
  · simp [add101, add, cast, BinOp.comm, *]
  · simp [add107, add, cast, BinOp.comm, *]
  · simp [add120, add, cast, BinOp.comm, *]
  · simp [add132, add, cast, BinOp.comm, *]
  · unfold add141; rw [e]; rfl
  · unfold add146
    simp only [add, cast, if_true]
    exact (eqv_yes self).bind (.pure _)

theorem add_atom_prod (ga : Gives (rec (.simp o x)) u) (gb : Gives (rec (.simp o y)) (.bin .mul (.real c) u)) :
    Gives (simpAdd rec o x y) (.bin .mul (.real (Num.add c Num.one)) u) := by
  unfold simpAdd
  refine (gives_simpBoth ga gb hx hy).bind ?_
  have none' : ∀ {m : M K (Option (Expr K))} {k : Unit → M K (Expr K)} {r}, m = pure none → Gives (k ()) r → Gives (M.orElse m k) r :=
    fun h hk => .orNone (h ▸ .pure _) hk
  have fu := cast_collectable hu
  have e := eqv_false (eq_collectable_bin (op := .mul) (p := .real c) (q := u) hu (by simp))
  refine none' ?_ (none' ?_ (none' ?_ (none' ?_ (none' ?_ (none' ?_ (.orSome ?_))))))
  · simp [add94, add, cast, BinOp.comm, *]
  · simp [add101, add, cast, BinOp.comm, *]
  · simp [add107, add, cast, BinOp.comm, *]
  · simp [add120, add, cast, BinOp.comm, *]
  · simp [add132, add, cast, BinOp.comm, *]
  · unfold add141; rw [e]; rfl
  · unfold add146
    simp only [add, cast, if_true, fu.2.2.1, BinOp.comm]
    exact (eqv_yes self).bind (.pure _)

theorem add_atoms (ga : Gives (rec (.simp o x)) u) (gb : Gives (rec (.simp o y)) u)
    (g2 : Gives (rec (.simp o (.bin .mul (.real Num.two) u))) (.bin .mul (.real Num.two) u)) :
    Gives (simpAdd rec o x y) (.bin .mul (.real Num.two) u) := by
  unfold simpAdd
  refine (gives_simpBoth ga gb hx hy).bind ?_
  have none' : ∀ {m : M K (Option (Expr K))} {k : Unit → M K (Expr K)} {r}, m = pure none → Gives (k ()) r → Gives (M.orElse m k) r :=
    fun h hk => .orNone (h ▸ .pure _) hk
  have fu := cast_collectable hu
  refine none' ?_ (none' ?_ (none' ?_ (none' ?_ (none' ?_ (.orSome ?_)))))
  · simp [add94, add, cast, BinOp.comm, *]
  · simp [add101, add, cast, BinOp.comm, *]
  · simp [add107, add, cast, BinOp.comm, *]
  · simp [add120, add, cast, BinOp.comm, *]
  · simp [add132, add, cast, BinOp.comm, *]
  · unfold add141
    exact (eqv_yes self).bind (g2.bind (.pure _))
end

/-! ### Sums that stay as they are -/

/-- the tree that `BuildFromVector` makes, or the only operand -/
def tree (l : List (Expr K)) : Option (Expr K) := (buildLoop .add l.length l).head?

theorem loop_fuel : ∀ (n m : ℕ) (l : List (Expr K)), l.length ≤ n + 1 → l.length ≤ m + 1 → buildLoop .add n l = buildLoop .add m l := by
  have short : ∀ (m : ℕ) (l : List (Expr K)), l.length ≤ 1 → buildLoop .add m l = l := by
    intro m l h
    cases m with
    | zero => rfl
    | succ m => rw [buildLoop, if_pos h]
  intro n
  induction n with
  | zero => intro m l h _; rw [short m l (by omega)]; rfl
  | succ n ih =>
    intro m l hn hm
    by_cases hl : l.length ≤ 1
    · rw [short _ _ hl, short _ _ hl]
    · cases m with
      | zero => omega
      | succ m =>
        rw [buildLoop, if_neg hl, buildLoop, if_neg hl]
        have := pairUp_length .add l
        exact ih m _ (by omega) (by omega)

theorem tree_one (x : Expr K) : tree [x] = some x := rfl

theorem tree_build {l : List (Expr K)} (h : 2 ≤ l.length) : build .add l = tree l := by
  rw [build, if_neg (by omega), tree]

theorem tree_pair {l : List (Expr K)} (h : l ≠ []) : tree (pairUp .add l) = tree l := by
  match l, h with
  | [a], _ => rfl
  | a :: b :: rest, _ =>
    have hp := pairUp_length .add (a :: b :: rest)
    have h2 : 2 ≤ (a :: b :: rest).length := by simp
    generalize a :: b :: rest = l at *
    unfold tree
    obtain ⟨k, hk⟩ : ∃ k, l.length = k + 1 := ⟨l.length - 1, by omega⟩
    rw [hk, buildLoop, if_neg (by omega), loop_fuel (pairUp .add l).length k _ (by omega) (by omega)]

theorem pairUp_append (k : ℕ) : ∀ l m : List (Expr K), l.length = 2 * k → pairUp .add (l ++ m) = pairUp .add l ++ pairUp .add m := by
  induction k with
  | zero => intro l m h; rw [List.length_eq_zero_iff.1 (show l.length = 0 by omega)]; rfl
  | succ k ih =>
    intro l m h
    match l, h with
    | [a], h => simp at h; omega
    | a :: b :: rest, h =>
      simp only [List.cons_append, pairUp, ih rest m (by simp at h; omega)]

/-- The first operand of the sum for a list holds a power of two of its members, the second the others. -/
theorem tree_split (k : ℕ) : ∀ l m : List (Expr K), l.length = 2 ^ k → m ≠ [] → m.length ≤ 2 ^ k →
    ∃ a b, tree l = some a ∧ tree m = some b ∧ tree (l ++ m) = some (.bin .add a b) := by
  induction k with
  | zero =>
    intro l m hl h0 hm
    obtain ⟨a, rfl⟩ := List.length_eq_one_iff.1 (by simpa using hl)
    have : m.length = 1 := by have := List.length_pos_of_ne_nil h0; simp at hm; omega
    obtain ⟨b, rfl⟩ := List.length_eq_one_iff.1 this
    exact ⟨a, b, rfl, rfl, rfl⟩
  | succ k ih =>
    intro l m hl h0 hm
    have hpl := pairUp_length .add l
    have hpm := pairUp_length .add m
    have hm0 := List.length_pos_of_ne_nil h0
    have hk0 : 0 < 2 ^ (k + 1) := by positivity
    have l0 : l ≠ [] := List.ne_nil_of_length_pos (by omega)
    obtain ⟨a, b, ha, hb, hab⟩ := ih (pairUp .add l) (pairUp .add m) (by rw [pow_succ] at hl; omega)
      (List.ne_nil_of_length_pos (by omega)) (by rw [pow_succ] at hm; omega)
    rw [tree_pair l0] at ha
    rw [tree_pair h0] at hb
    rw [← pairUp_append (2 ^ k) l m (by rw [hl, pow_succ]; ring), tree_pair (by simp [l0])] at hab
    exact ⟨a, b, ha, hb, hab⟩

theorem power_below {n : ℕ} (h : 2 ≤ n) : ∃ k, 2 ^ k < n ∧ n ≤ 2 ^ (k + 1) := by
  refine ⟨Nat.log 2 (n - 1), ?_, ?_⟩
  · have := Nat.pow_log_le_self 2 (x := n - 1) (by omega); omega
  · have := Nat.lt_pow_succ_log_self (b := 2) (by omega) (n - 1); omega

theorem join_apart {l m : Parts ι K} (hn : ((l ++ m).map Prod.fst).Nodup) (ht : ∀ t ∈ l ++ m, Num.tiny t.2 = false) : collect l m = l ++ m := by
  rw [collect, joins_new m l hn, List.filter_eq_self]
  intro t h
  rw [ht t h]; rfl

/-- a sum of different multiples, put together as `BuildFromVector` does, stays as it is -/
theorem sum_stays (A : Atoms atom) (B : Behaved P) : ∀ (N : ℕ) (l : Parts ι K), l.length ≤ N → l ≠ [] → (l.map Prod.fst).Nodup →
    (∀ t ∈ l, P t.2 ∧ Num.tiny t.2 = false ∧ Simplifies o (summand atom t) (summand atom t)) →
    ∃ r, tree (l.map (summand atom)) = some r ∧ Shape atom P r l ∧ Simplifies o r r := by
  intro N
  induction N with
  | zero => intro l h h0; exact absurd (List.length_eq_zero_iff.1 (by omega)) h0
  | succ N ih =>
    intro l hN h0 hn hl
    by_cases h1 : l.length = 1
    · obtain ⟨t, rfl⟩ := List.length_eq_one_iff.1 h1
      obtain ⟨a, b, c⟩ := hl t (by simp)
      exact ⟨_, rfl, leaf_shape A a b, c⟩
    · have hlen := List.length_pos_of_ne_nil h0
      obtain ⟨k, hk1, hk2⟩ := power_below (n := l.length) (by omega)
      have el : l.take (2 ^ k) ++ l.drop (2 ^ k) = l := List.take_append_drop _ _
      have hk0 : 0 < 2 ^ k := by positivity
      have l1 : (l.take (2 ^ k)).length = 2 ^ k := by rw [List.length_take]; omega
      have l2 : (l.drop (2 ^ k)).length = l.length - 2 ^ k := List.length_drop
      generalize l.take (2 ^ k) = p at *
      generalize l.drop (2 ^ k) = q at *
      subst el
      have np : p ≠ [] := List.ne_nil_of_length_pos (by omega)
      have nq : q ≠ [] := List.ne_nil_of_length_pos (by omega)
      rw [List.map_append] at hn
      obtain ⟨n1, n2, n3⟩ := List.nodup_append.1 hn
      obtain ⟨a, ta, sa, ga⟩ := ih p (by rw [List.length_append] at hN; have := List.length_pos_of_ne_nil nq; omega) np n1 fun t ht => hl t (by simp [ht])
      obtain ⟨b, tb, sb, gb⟩ := ih q (by rw [List.length_append] at hN; omega) nq n2 fun t ht => hl t (by simp [ht])
      rw [pow_succ] at hk2
      obtain ⟨a', b', ta', tb', tab⟩ := tree_split k (p.map (summand atom)) (q.map (summand atom)) (by simpa using l1) (by simpa using nq)
        (by simp only [List.length_map]; omega)
      rw [ta] at ta'
      rw [tb] at tb'
      cases ta'
      cases tb'
      have ej := join_apart (l := p) (m := q) (by rwa [List.map_append]) fun t ht => (hl t ht).2.1
      obtain ⟨N', hN'⟩ := ga.gives
      obtain ⟨M', hM'⟩ := gb.gives
      obtain ⟨r, hr, sr⟩ := sum_step (n := N' + M') A B sa.complete.here sb.complete.here (hN' _ (by omega)) (hM' _ (by omega)) sa sb
        (by rw [ej]; omega) fun _ _ => by
          obtain ⟨t, ht⟩ := List.exists_mem_of_ne_nil p np
          exact ⟨t, ht, fun u hu e => absurd e (n3 _ (List.mem_map_of_mem ht) _ (List.mem_map_of_mem hu))⟩
      rw [ej] at sr
      have e := sr.tree h1
      rw [tree_build (by rw [List.length_map]; omega), List.map_append, tab] at e
      cases e
      exact ⟨_, by rw [List.map_append]; exact tab, sr, simplifies_iff.2 ⟨_, hr⟩⟩

theorem Shape.stays (A : Atoms atom) (B : Behaved P) {a : Expr K} {l : Parts ι K} (h : Shape atom P a l)
    (hl : ∀ t ∈ l, Simplifies o (summand atom t) (summand atom t)) : Simplifies o a a := by
  have h0 : l ≠ [] := by
    rintro rfl
    exact flatOp_ne_nil .add ((complete_iff a).1 h.complete) (by rw [h.flat]; rfl)
  obtain ⟨r, tr, _, hr⟩ := sum_stays (o := o) A B l.length l le_rfl h0 h.nodup fun t ht => ⟨(h.good t ht).1, (h.good t ht).2, hl t ht⟩
  by_cases h1 : l.length = 1
  · obtain ⟨t, rfl⟩ := List.length_eq_one_iff.1 h1
    rw [h.single t rfl]
    exact hl t (by simp)
  · have e := h.tree h1
    rw [tree_build (by rw [List.length_map]; exact h.two h1), tr] at e
    cases e
    exact hr

/-! ### Differences -/

theorem sub_step (A : Atoms atom) (B : Behaved P) {n : ℕ} {x y a r : Expr K} {l : Parts ι K} {k : Option ι} {c : K} (hx : x ≠ .absent) (hy : y ≠ .absent)
    (ga : Gives (run n (.simp o x)) a) (gb : Gives (run n (.simp o y)) (summand atom (k, c))) (sa : Shape atom P a l)
    (sb : Shape atom P (summand atom (k, c)) [(k, c)]) (hk : ∀ t, l = [t] → t.1 ≠ k)
    (h : Gives (run n (.simp o (.bin .add a (.bin .mul (.real Num.negOne) (summand atom (k, c)))))) r) :
    Gives (run (n + 1) (.simp o (.bin .sub x y))) r := by
  show Gives (simpSub (run n) o x y) r
  unfold simpSub
  refine (gives_simpBoth ga gb hx hy).bind ?_
  have none' : ∀ {m : M K (Option (Expr K))} {k : Unit → M K (Expr K)} {r}, m = pure none → Gives (k ()) r → Gives (M.orElse m k) r :=
    fun h hk => .orNone (h ▸ .pure _) hk
  have last : subAsAdd (run n) o a (summand atom (k, c)) = run n (.simp o (.bin .add a (.bin .mul (.real Num.negOne) (summand atom (k, c))))) := by
    cases k with
    | none => rfl
    | some i =>
      have := A.collectable i
      simp only [summand]
      split
      · cases hv : atom i with
        | bin op p q => rw [hv] at this; cases op <;> simp [Collectable] at this; rfl
        | _ => rw [hv] at this; simp [Collectable] at this <;> rfl
      · rfl
  have fa := sa.form A B
  have fb := sb.form A B
  have e0 : ∀ u v, ¬ (a = .real u ∧ summand atom (k, c) = .real v) := by
    rintro u v ⟨rfl, e⟩
    obtain ⟨s, rfl, es⟩ := sa.one (by simp)
    have h1 := summand_real A es.symm
    have h2 := summand_real A e
    cases h1
    cases h2
    exact hk _ rfl rfl
  have e1 : equals a (summand atom (k, c)) = .ok false := by
    obtain ⟨v, hv⟩ := equals_ok _ a (summand atom (k, c)) le_rfl sa.complete sa.noPi sb.complete
    cases v with
    | false => exact hv
    | true =>
      exfalso
      by_cases h1 : l.length = 1
      · obtain ⟨t, rfl⟩ := List.length_eq_one_iff.1 h1
        rw [sa.single t rfl] at hv
        exact hk t rfl (eq_summands A B (sa.good t (by simp)).1 (sb.good (k, c) (by simp)).1 hv).1
      · obtain ⟨p, q, rfl⟩ := sa.several h1
        exact not_sum A (k, c) p q (equals_ty hv).symm
  have e2 : ∀ d u, a = .bin .mul (.real d) u → equals u (summand atom (k, c)) = .ok false := by
    rintro d u rfl
    obtain ⟨s, rfl, es⟩ := sa.one (by simp)
    obtain ⟨i, rfl, rfl⟩ := summand_mul A es.symm
    refine sb.other A rfl ?_
    rintro t ht
    cases ht
    exact fun e => hk _ rfl e.symm
  have e3 : ∀ d u, summand atom (k, c) = .bin .mul (.real d) u → equals a u = .ok false := by
    intro d u e
    obtain ⟨i, e', rfl⟩ := summand_mul A e
    cases e'
    exact sa.other' A rfl hk
  have e4 : ∀ d d' u v, a = .bin .mul (.real d) u → summand atom (k, c) = .bin .mul (.real d') v → equals u v = .ok false := by
    rintro d d' u v rfl e
    obtain ⟨s, rfl, es⟩ := sa.one (by simp)
    obtain ⟨i, rfl, rfl⟩ := summand_mul A es.symm
    obtain ⟨j, e', rfl⟩ := summand_mul A e
    cases e'
    rw [A.apart, decide_eq_false]
    rintro rfl
    exact hk _ rfl rfl
  rw [← last] at h
  clear last
  generalize summand atom (k, c) = b at *
  have e5 : sub368 a b = pure none := by
    unfold sub368
    rw [eqv_false e1]
    rfl
  refine none' ?_ (none' e5 (none' ?_ (none' ?_ (none' ?_ (none' ?_ (none' ?_ h))))))
  all_goals
    clear h none' ga gb hx hy sa sb hk e5 e1
    rcases fa with ⟨c, hc⟩ | hu | ⟨c, hu⟩ | ⟨p, q⟩ <;> rcases fb with ⟨d, hd⟩ | hv | ⟨d, hv⟩ | ⟨p', q'⟩
  all_goals first
    | exact absurd ⟨rfl, rfl⟩ (e0 _ _)
    | rfl
    | (try have fu := cast_collectable hu
       try have fv := cast_collectable hv
       try have e2 := eqv_false (e2 _ _ rfl)
       try have e3 := eqv_false (e3 _ _ rfl)
       try have e4 := eqv_false (e4 _ _ _ _ rfl rfl)
       simp [sub360, sub372, sub384, sub392, sub400, sub408, Expr.sub, cast, BinOp.comm, *])

/-- a number in front of a sum is distributed -/
theorem scale_step {n : ℕ} {x p q r : Expr K} {c : K} (hx : x ≠ .absent) (gx : Gives (run n (.simp o x)) (.bin .add p q)) (hc : Visible c)
    (hd : (o.prefer || Num.tiny (Num.add c Num.one)) = true)
    (h : Gives (run n (.simp o (.bin .add (.bin .mul (.real c) p) (.bin .mul (.real c) q)))) r) (h0 : 0 < n) :
    Gives (run (n + 1) (.simp o (.bin .mul (.real c) x))) r := by
  show Gives (simpMul (run n) o (.real c) x) r
  unfold simpMul
  have gc : Gives (run n (.simp o (.real c))) (.real c) := by
    obtain ⟨m, rfl⟩ : ∃ m, n = m + 1 := ⟨n - 1, by omega⟩
    exact .pure _
  refine (gives_simpBoth gc gx (by simp) hx).bind ?_
  have none' : ∀ {m : M K (Option (Expr K))} {k : Unit → M K (Expr K)} {r}, m = pure none → Gives (k ()) r → Gives (M.orElse m k) r :=
    fun h hk => .orNone (h ▸ .pure _) hk
  refine none' ?_ (none' rfl (none' rfl (none' rfl (none' ?_ (none' rfl (none' rfl (none' rfl (none' rfl (none' rfl (none' rfl
    (none' rfl (none' rfl (none' rfl (none' rfl (none' rfl (none' rfl (none' rfl (none' rfl (none' rfl (none' rfl
    (.orSome ?_)))))))))))))))))))))
  · simp [mul478, cast, hc.1, hc.2]
  · simp [mul506, cast, eqv_false eq_real_bin]
  · simp only [mul724, mul, cast, hd, if_true]
    exact h.bind (.pure _)

theorem Shape.ne_nil {a : Expr K} {l : Parts ι K} (h : Shape atom P a l) : l ≠ [] := by
  rintro rfl
  exact flatOp_ne_nil .add ((complete_iff a).1 h.complete) (by rw [h.flat]; rfl)

/-- the sum of sums without common kinds -/
theorem add_apart (A : Atoms atom) (B : Behaved P) {x y a b : Expr K} {l m : Parts ι K} (hx : x ≠ .absent) (hy : y ≠ .absent)
    (ga : Simplifies o x a) (gb : Simplifies o y b) (sa : Shape atom P a l) (sb : Shape atom P b m)
    (hn : ((l ++ m).map Prod.fst).Nodup) : ∃ r, Simplifies o (.bin .add x y) r ∧ Shape atom P r (l ++ m) := by
  have ej := join_apart hn fun t ht => by
    rcases List.mem_append.1 ht with h | h
    · exact (sa.good t h).2
    · exact (sb.good t h).2
  have l1 := List.length_pos_of_ne_nil sa.ne_nil
  have l2 := List.length_pos_of_ne_nil sb.ne_nil
  rw [List.map_append] at hn
  obtain ⟨_, _, n3⟩ := List.nodup_append.1 hn
  obtain ⟨n1, g1⟩ := ga.gives
  obtain ⟨n2, g2⟩ := gb.gives
  obtain ⟨w, hw, sw⟩ := sum_step (n := n1 + n2) A B hx hy (g1 _ (by omega)) (g2 _ (by omega)) sa sb
    (by rw [ej, List.length_append]; omega) fun _ _ => by
      obtain ⟨t, ht⟩ := List.exists_mem_of_ne_nil l sa.ne_nil
      exact ⟨t, ht, fun u hu e => absurd e (n3 _ (List.mem_map_of_mem ht) _ (List.mem_map_of_mem hu))⟩
  rw [ej] at sw
  exact ⟨w, simplifies_iff.2 ⟨_, hw⟩, sw⟩

omit [DecidableEq ι] in
theorem _root_.Oasis.Multiplied.keys {c : K} {l m : Parts ι K} (h : Multiplied o atom P c l m) : m.map Prod.fst = l.map Prod.fst := by
  induction h with
  | nil => rfl
  | cons h _ ih => simp [h.1, ih]

omit [DecidableEq ι] in
theorem _root_.Oasis.Multiplied.good {c : K} {l m : Parts ι K} (h : Multiplied o atom P c l m) : ∀ t ∈ m, P t.2 ∧ Num.tiny t.2 = false := by
  induction h with
  | nil => simp
  | cons h _ ih => simpa using ⟨⟨h.2.1, h.2.2.1⟩, fun a b hb => ih _ hb⟩

omit [DecidableEq ι] in
theorem multiplied_split {c : K} {q : Parts ι K} : ∀ (p : Parts ι K) {m : Parts ι K}, Multiplied o atom P c (p ++ q) m →
    ∃ p' q', Multiplied o atom P c p p' ∧ Multiplied o atom P c q q' ∧ m = p' ++ q'
  | [], m, h => ⟨[], m, .nil, h, rfl⟩
  | _ :: p, _, .cons h hm => by
    obtain ⟨p', q', h1, h2, rfl⟩ := multiplied_split p hm
    exact ⟨_ :: p', q', .cons h h1, h2, rfl⟩

/-- a number times a sum as it is put together is the sum of the multiples -/
theorem scale_sum (A : Atoms atom) (B : Behaved P) {c : K} (hc : Visible c) (hd : (o.prefer || Num.tiny (Num.add c Num.one)) = true) :
    ∀ (N : ℕ) (l m : Parts ι K) (a : Expr K), l.length ≤ N → Shape atom P a l →
      (∀ t ∈ l, Simplifies o (summand atom t) (summand atom t)) → Multiplied o atom P c l m →
      ∃ r, Simplifies o (.bin .mul (.real c) a) r ∧ Shape atom P r m ∧
        ∀ p q, a = .bin .add p q → ∃ m₁ m₂ u v, m = m₁ ++ m₂ ∧ Simplifies o (.bin .mul (.real c) p) u ∧ Shape atom P u m₁ ∧
          Simplifies o (.bin .mul (.real c) q) v ∧ Shape atom P v m₂ := by
  intro N
  induction N with
  | zero =>
    intro l m a h sa
    have := sa.flat
    rw [List.length_eq_zero_iff.1 (by omega : l.length = 0)] at this
    exact absurd this (flatOp_ne_nil .add ((complete_iff a).1 sa.complete))
  | succ N ih =>
    intro l m a hN sa hl hm
    by_cases h1 : l.length = 1
    · obtain ⟨t, rfl⟩ := List.length_eq_one_iff.1 h1
      rw [sa.single t rfl]
      cases hm with
      | cons h hn =>
        cases hn
        exact ⟨_, h.2.2.2, leaf_shape A h.2.1 h.2.2.1, fun p q e => absurd e (summand_ne_add A t p q)⟩
    · have h2 := sa.two h1
      obtain ⟨k, hk1, hk2⟩ := power_below h2
      have el : l.take (2 ^ k) ++ l.drop (2 ^ k) = l := List.take_append_drop _ _
      have hk0 : 0 < 2 ^ k := by positivity
      have l1 : (l.take (2 ^ k)).length = 2 ^ k := by rw [List.length_take]; omega
      have l2 : (l.drop (2 ^ k)).length = l.length - 2 ^ k := List.length_drop
      generalize l.take (2 ^ k) = p at *
      generalize l.drop (2 ^ k) = q at *
      subst el
      obtain ⟨p', q', hp, hq, rfl⟩ : ∃ p' q', Multiplied o atom P c p p' ∧ Multiplied o atom P c q q' ∧ m = p' ++ q' := by
        exact multiplied_split p hm
      have np : p ≠ [] := List.ne_nil_of_length_pos (by omega)
      have nq : q ≠ [] := List.ne_nil_of_length_pos (by omega)
      have hn := sa.nodup
      rw [List.map_append] at hn
      obtain ⟨n1, n2, n3⟩ := List.nodup_append.1 hn
      rw [pow_succ] at hk2
      obtain ⟨a', b', ta', tb', tab⟩ := tree_split k (p.map (summand atom)) (q.map (summand atom)) (by simpa using l1) (by simpa using nq)
        (by simp only [List.length_map]; omega)
      have e := sa.tree h1
      rw [tree_build (by rw [List.length_map]; omega), List.map_append, tab] at e
      cases e
      obtain ⟨u, tu, su, gu⟩ := sum_stays (o := o) A B p.length p le_rfl np n1 fun t ht =>
        ⟨(sa.good t (by simp [ht])).1, (sa.good t (by simp [ht])).2, hl t (by simp [ht])⟩
      obtain ⟨v, tv, sv, gv⟩ := sum_stays (o := o) A B q.length q le_rfl nq n2 fun t ht =>
        ⟨(sa.good t (by simp [ht])).1, (sa.good t (by simp [ht])).2, hl t (by simp [ht])⟩
      rw [tu] at ta'
      rw [tv] at tb'
      cases ta'
      cases tb'
      rw [List.length_append] at hN
      have hlp := List.length_pos_of_ne_nil np
      have hlq := List.length_pos_of_ne_nil nq
      obtain ⟨r, gr, sr, _⟩ := ih p p' a' (by omega) su (fun t ht => hl t (by simp [ht])) hp
      obtain ⟨s, gs, ss, _⟩ := ih q q' b' (by omega) sv (fun t ht => hl t (by simp [ht])) hq
      obtain ⟨w, gw, sw⟩ := add_apart A B (by simp) (by simp) gr gs sr ss (by rw [List.map_append, hp.keys, hq.keys]; exact hn)
      obtain ⟨n1, g1⟩ := gw.gives
      obtain ⟨n4, g4⟩ := (sa.stays A B hl).gives
      refine ⟨w, simplifies_iff.2 ⟨_, scale_step (n := n1 + n4 + 1) sa.complete.here (g4 _ (by omega)) hc hd (g1 _ (by omega)) (by omega)⟩, sw, ?_⟩
      rintro _ _ ⟨⟩
      exact ⟨_, _, _, _, rfl, gr, sr, gs, ss⟩

/-- the same for an expression that simplifies to such a sum -/
theorem scale_of (A : Atoms atom) (B : Behaved P) {c : K} (hc : Visible c) (hd : (o.prefer || Num.tiny (Num.add c Num.one)) = true)
    {l m : Parts ι K} {x a : Expr K} (hx : x ≠ .absent) (gx : Simplifies o x a) (sa : Shape atom P a l)
    (hl : ∀ t ∈ l, Simplifies o (summand atom t) (summand atom t)) (h2 : 2 ≤ l.length) (hm : Multiplied o atom P c l m) :
    ∃ r, Simplifies o (.bin .mul (.real c) x) r ∧ Shape atom P r m := by
  obtain ⟨_, _, _, gr⟩ := scale_sum A B hc hd _ l m a le_rfl sa hl hm
  obtain ⟨p, q, rfl⟩ := sa.several (by omega)
  obtain ⟨N, hN⟩ := gx.gives
  obtain ⟨m₁, m₂, u, v, rfl, gu, su, gv, sv⟩ := gr p q rfl
  obtain ⟨w, gw, sw⟩ := add_apart A B (by simp) (by simp) gu gv su sv (by rw [hm.keys]; exact sa.nodup)
  obtain ⟨M, hM⟩ := gw.gives
  exact ⟨w, simplifies_iff.2 ⟨_, scale_step (n := N + M + 1) hx (hN _ (by omega)) hc hd (hM _ (by omega)) (by omega)⟩, sw⟩

/-- a sum is subtracted -/
theorem subs_step (A : Atoms atom) (B : Behaved P) {n : ℕ} {x y a p q r : Expr K} {l m : Parts ι K} (hx : x ≠ .absent) (hy : y ≠ .absent)
    (ga : Gives (run n (.simp o x)) a) (gb : Gives (run n (.simp o y)) (.bin .add p q)) (sa : Shape atom P a l)
    (sb : Shape atom P (.bin .add p q) m) (hE : 2 ≤ l.length → Exceeds l m)
    (h : Gives (subAsAdd (run n) o a (.bin .add p q)) r) : Gives (run (n + 1) (.simp o (.bin .sub x y))) r := by
  show Gives (simpSub (run n) o x y) r
  unfold simpSub
  refine (gives_simpBoth ga gb hx hy).bind ?_
  have none' : ∀ {m : M K (Option (Expr K))} {k : Unit → M K (Expr K)} {r}, m = pure none → Gives (k ()) r → Gives (M.orElse m k) r :=
    fun h hk => .orNone (h ▸ .pure _) hk
  have fa := sa.form A B
  have e1 : equals a (.bin .add p q) = .ok false := by
    obtain ⟨v, hv⟩ := equals_ok _ a (.bin .add p q) le_rfl sa.complete sa.noPi sb.complete
    cases v with
    | false => exact hv
    | true =>
      exfalso
      by_cases h1 : l.length = 1
      · obtain ⟨t, rfl⟩ := List.length_eq_one_iff.1 h1
        rw [sa.single t rfl] at hv
        exact not_sum A t p q (equals_ty hv)
      · have inc := equals_flatOp (op := .add) sa.complete sb.complete hv
        rw [sa.flat, sb.flat] at inc
        obtain ⟨t, ht, h⟩ := hE (sa.two h1)
        obtain ⟨w, hw, e⟩ := inc _ (List.mem_map_of_mem ht)
        obtain ⟨u, hu, rfl⟩ := List.mem_map.1 hw
        obtain ⟨e1, e2⟩ := eq_summands A B (sa.good t ht).1 (sb.good u hu).1 e
        rw [h u hu e1] at e2
        cases e2
  have e5 : sub368 a (.bin .add p q) = pure none := by
    unfold sub368
    rw [eqv_false e1]
    rfl
  refine none' ?_ (none' e5 (none' ?_ (none' ?_ (none' ?_ (none' ?_ (none' ?_ h))))))
  all_goals
    clear h none' ga gb hx hy sa sb hE e5 e1
    rcases fa with ⟨c, hc⟩ | hu | ⟨c, hu⟩ | ⟨p', q'⟩
  all_goals first
    | rfl
    | (try have fu := cast_collectable hu
       try have e2 := eqv_false (eq_collectable_bin (op := .add) (p := p) (q := q) hu (by simp))
       simp [sub360, sub372, sub384, sub400, sub408, Expr.sub, cast, BinOp.comm, *])

theorem subs_of (A : Atoms atom) (B : Behaved P) {x y a b : Expr K} {l m m' : Parts ι K} (hx : x ≠ .absent) (hy : y ≠ .absent)
    (ga : Simplifies o x a) (gb : Simplifies o y b) (sa : Shape atom P a l) (sb : Shape atom P b m) (h2 : 2 ≤ m.length)
    (hl : ∀ t ∈ l, Simplifies o (summand atom t) (summand atom t)) (hm : ∀ t ∈ m, Simplifies o (summand atom t) (summand atom t))
    (hm' : ∀ t ∈ m', Simplifies o (summand atom t) (summand atom t))
    (hn : Distributes o (Num.negOne : K)) (hs : Multiplied o atom P Num.negOne m m') (hc : 2 ≤ (collect l m').length) (hE : 2 ≤ l.length → Exceeds l m ∧ Exceeds l m') :
    ∃ r, Simplifies o (.bin .sub x y) r ∧ Shape atom P r (collect l m') := by
  obtain ⟨_, _, _, gr⟩ := scale_sum (o := o) A B hn.1 hn.2 _ m m' b le_rfl sb hm hs
  obtain ⟨p, q, rfl⟩ := sb.several (by omega)
  obtain ⟨m₁, m₂, u, v, rfl, gu, su, gv, sv⟩ := gr p q rfl
  have su' := su.stays A B fun t ht => hm' t (by simp [ht])
  have sv' := sv.stays A B fun t ht => hm' t (by simp [ht])
  obtain ⟨w, gw, sw⟩ := add_apart A B su.complete.here sv.complete.here su' sv' su sv (by rw [hs.keys]; exact sb.nodup)
  obtain ⟨n1, g1⟩ := ga.gives
  obtain ⟨n2, g2⟩ := gb.gives
  obtain ⟨n3, g3⟩ := gu.gives
  obtain ⟨n4, g4⟩ := gv.gives
  obtain ⟨n5, g5⟩ := gw.gives
  obtain ⟨n6, g6⟩ := (sa.stays A B hl).gives
  obtain ⟨n7, g7⟩ := (sw.stays A B hm').gives
  obtain ⟨r, hr, sr⟩ := sum_step (n := n1 + n2 + n3 + n4 + n5 + n6 + n7) A B sa.complete.here sw.complete.here (g6 _ (by omega)) (g7 _ (by omega))
    sa sw hc fun h _ => (hE h).2
  refine ⟨r, simplifies_iff.2 ⟨_, subs_step A B (n := n1 + n2 + n3 + n4 + n5 + n6 + n7 + 3) hx hy (g1 _ (by omega)) (g2 _ (by omega)) sa sb (fun h => (hE h).1) ?_⟩, sr⟩
  exact (g3 _ (by omega)).bind ((g4 _ (by omega)).bind ((g5 _ (by omega)).bind hr))

theorem sum_of (A : Atoms atom) (B : Behaved P) {e : Expr K} {l : Parts ι K} (h : SumOf o atom P e l) :
    e ≠ .absent ∧ ∃ r, Simplifies o e r ∧ Shape atom P r l := by
  induction h with
  | leaf he hP ht hs => exact ⟨he, _, hs, leaf_shape A hP ht⟩
  | add he hf h2 hE ihe ihf =>
    obtain ⟨ne, r, hr, sr⟩ := ihe
    obtain ⟨nf, s, hs, ss⟩ := ihf
    obtain ⟨N, hN⟩ := hr.gives
    obtain ⟨M, hM⟩ := hs.gives
    obtain ⟨w, hw, sw⟩ := sum_step (n := N + M) A B ne nf (hN _ (by omega)) (hM _ (by omega)) sr ss h2 hE
    exact ⟨by simp, w, simplifies_iff.2 ⟨_, hw⟩, sw⟩
  | @numbers e f c d _ _ ht ihe ihf =>
    obtain ⟨ne, r, hr, sr⟩ := ihe
    obtain ⟨nf, s, hs, ss⟩ := ihf
    rw [sr.single _ rfl] at hr
    rw [ss.single _ rfl] at hs
    obtain ⟨N, hN⟩ := hr.gives
    obtain ⟨M, hM⟩ := hs.gives
    refine ⟨by simp, _, simplifies_iff.2 ⟨N + M + 1, ?_⟩, leaf_shape A (B.add _ _ (sr.good (none, c) (by simp)).1 (ss.good (none, d) (by simp)).1) ht⟩
    exact add_numbers (rec := run (N + M)) ne nf (hN _ (by omega)) (hM _ (by omega))
  | @alike e f i c d _ _ ht h1 ihe ihf =>
    obtain ⟨ne, r, hr, sr⟩ := ihe
    obtain ⟨nf, s, hs, ss⟩ := ihf
    rw [sr.single _ rfl] at hr
    rw [ss.single _ rfl] at hs
    have pc := (sr.good (some i, c) (by simp)).1
    have pd := (ss.good (some i, d) (by simp)).1
    obtain ⟨N, hN⟩ := hr.gives
    obtain ⟨M, hM⟩ := hs.gives
    have g1 := hN (N + M) (by omega)
    have g2 := hM (N + M) (by omega)
    have self := A.apart i i
    rw [decide_eq_true rfl] at self
    have hu := A.collectable i
    refine ⟨by simp, _, simplifies_iff.2 ⟨N + M + 1, ?_⟩, leaf_shape A (B.add c d pc pd) ht.1⟩
    show Gives (simpAdd (run (N + M)) o e f) _
    have e3 : summand atom (some i, Num.add c d) = .bin .mul (.real (Num.add c d)) (atom i) := by
      simp [summand, ht.2]
    rw [e3]
    simp only [summand] at g1 g2
    split at g1 <;> split at g2
    · rename_i h3 h4; exact absurd ⟨h3, h4⟩ h1
    · rename_i h3 h4
      rw [B.add_comm c d pc pd, B.unit c pc h3]
      exact add_atom_prod hu self ne nf g1 g2
    · rename_i h3 h4
      rw [B.unit d pd h4]
      exact add_prod_atom hu self ne nf g1 g2
    · exact add_prods hu self ne nf g1 g2
  | @twice e f i _ _ p2 v2 h2 ihe ihf =>
    obtain ⟨ne, r, hr, sr⟩ := ihe
    obtain ⟨nf, s, hs, ss⟩ := ihf
    rw [sr.single _ rfl] at hr
    rw [ss.single _ rfl] at hs
    obtain ⟨N, hN⟩ := hr.gives
    obtain ⟨M, hM⟩ := hs.gives
    obtain ⟨L, hL⟩ := h2.gives
    have self := A.apart i i
    rw [decide_eq_true rfl] at self
    have g1 := hN (N + M + L) (by omega)
    have g2 := hM (N + M + L) (by omega)
    simp only [summand, B.one_self, if_true] at g1 g2
    refine ⟨by simp, _, simplifies_iff.2 ⟨N + M + L + 1, ?_⟩, leaf_shape A p2 v2.1⟩
    have e3 : summand atom (some i, Num.two) = .bin .mul (.real Num.two) (atom i) := by
      simp [summand, v2.2]
    rw [e3]
    exact add_atoms (rec := run (N + M + L)) (A.collectable i) self ne nf g1 g2 (hL _ (by omega))
  | @sub e f l k c d _ _ hl hm pd hd h2 ihe ihf =>
    obtain ⟨ne, a, ha, sa⟩ := ihe
    obtain ⟨nf, b, hb, sb⟩ := ihf
    have eb := sb.single _ rfl
    subst eb
    obtain ⟨N, hN⟩ := ha.gives
    obtain ⟨M, hM⟩ := hb.gives
    obtain ⟨N', hN'⟩ := (sa.stays A B hl).gives
    obtain ⟨M', hM'⟩ := hm.gives
    obtain ⟨r, hr, sr⟩ := sum_step (n := N + M + N' + M') A B sa.complete.here (by simp) (hN' _ (by omega)) (hM' _ (by omega)) sa
      (leaf_shape A (t := (k, d)) pd hd) h2 (fun _ h => by simp at h)
    refine ⟨by simp, r, simplifies_iff.2 ⟨N + M + N' + M' + 3 + 1, ?_⟩, sr⟩
    refine sub_step A B (n := N + M + N' + M' + 3) ne nf (hN _ (by omega)) (hM _ (by omega)) sa sb ?_ hr
    rintro t rfl
    exact keys_ne h2
  | subs _ _ h2 hl hm hm' hn hs hc hE ihe ihf =>
    obtain ⟨ne, a, ha, sa⟩ := ihe
    obtain ⟨nf, b, hb, sb⟩ := ihf
    exact ⟨by simp, subs_of A B ne nf ha hb sa sb h2 hl hm hm' hn hs hc hE⟩
  | @neg e l m _ hl hn hm ihe =>
    obtain ⟨ne, a, ha, sa⟩ := ihe
    obtain ⟨r, gr, sr, _⟩ := scale_sum A B hn.1 hn.2 _ l m a le_rfl sa hl hm
    obtain ⟨N, hN⟩ := ha.gives
    obtain ⟨L, hL⟩ := gr.gives
    refine ⟨by simp, r, simplifies_iff.2 ⟨N + L + 1, ?_⟩, sr⟩
    show Gives (simpNeg (run (N + L)) o e) r
    unfold simpNeg
    rw [present_ok ne, M.pure_bind']
    refine (hN _ (by omega)).bind ?_
    obtain ⟨k, hk⟩ := hL (N + L) (by omega)
    exact ⟨k, congrArg M.value hk⟩
  | times _ h2 hl hn hm ihe =>
    obtain ⟨ne, a, ha, sa⟩ := ihe
    exact ⟨by simp, scale_of A B hn.1 hn.2 ne ha sa hl h2 hm⟩

/-! ### Variables -/

theorem names : Atoms (fun x : Str => (.var x : Expr K)) where
  collectable := fun _ => trivial
  complete := fun x => by simp [Complete, Everywhere]
  noPi := fun x => by simp [NoPi, Everywhere]
  apart := fun x y => by
    by_cases h : x = y
    · subst h; rw [eq_var]; simp
    · rw [eq_vars h]; simp [h]

/-- simplifying leaves a multiple of a variable as it is -/
theorem name_stays (h11 : Num.beq (Num.one : K) Num.one = true) {t : Option Str × K} (ht : Num.tiny t.2 = false) :
    Simplifies o (summand (fun x => .var x) t) (summand (fun x => .var x) t) := by
  obtain ⟨_ | x, c⟩ := t
  · exact simplifies_iff.2 ⟨1, simp_real 0 c⟩
  · simp only [summand]
    split
    · exact simplifies_iff.2 ⟨1, simp_var 0 x⟩
    · rename_i h
      refine simplifies_iff.2 ⟨3, ?_⟩
      exact mul_left h11 (rec := run 2) (simp_real _ c) (simp_var _ x) (by simp) (by simp) trivial (by simp [Complete, Everywhere])
        ⟨ht, by simpa using h⟩ trivial

/-- a product with 1 is left out -/
theorem name_leaf (h11 : Num.beq (Num.one : K) Num.one = true) {c : K} (x : Str) (ht : Num.tiny c = false) :
    Simplifies o (.bin .mul (.real c) (.var x)) (summand (fun x => .var x) (some x, c)) := by
  have := name_stays (o := o) h11 (t := (some x, c)) ht
  simp only [summand] at *
  split
  · rename_i h
    refine simplifies_iff.2 ⟨3, ?_⟩
    show Gives (simpMul (run 2) o _ _) _
    unfold simpMul
    refine (gives_simpBoth (simp_real _ c) (simp_var _ x) (by simp) (by simp)).bind (.orSome ?_)
    unfold mul478
    simp only [Expr.mul, cast, if_true, ht, h, Bool.false_eq_true, if_false]
    exact (simp_var _ x).bind (.pure _)
  · rename_i h
    rwa [if_neg h] at this

/-- `c * (d * x)` -/
theorem name_scaled {c d : K} (x : Str) (hc : Visible c) (hd : Visible d) (h11 : Num.beq (Num.one : K) Num.one = true) :
    Simplifies o (.bin .mul (.real c) (.bin .mul (.real d) (.var x))) (.bin .mul (.real (Num.mul c d)) (.var x)) := by
  have h := name_stays (o := o) h11 (t := (some x, d)) hd.1
  simp only [summand, hd.2, Bool.false_eq_true, if_false] at h
  obtain ⟨N, hN⟩ := h.gives
  refine simplifies_iff.2 ⟨N + 3, ?_⟩
  show Gives (simpMul (run (N + 2)) o _ _) _
  unfold simpMul
  refine (gives_simpBoth (simp_real _ c) (hN _ (by omega)) (by simp) (by simp)).bind ?_
  dsimp only
  obtain ⟨h1, h2⟩ := hc
  have e2 := eq_var_real x c
  have e3 := fun (p q : Expr K) => eq_bin_var x .mul p q
  have e4 : ∀ p q : Expr K, equals (.real c) (.bin .mul p q) = .ok false := by
    intro p q; rw [equals.eq_def]; simp [isAbsent]
  have := (step_var (o := o) N (vals := [.real (Num.mul c d)]) (y := x) (by simp))
  have key : Gives (mulCollect (run (N + 2)) o (.real c) (.bin .mul (.real d) (.var x))) (.bin .mul (.real (Num.mul c d)) (.var x)) := by
    unfold mulCollect
    have hf : flatten .mul (.real c) (.bin .mul (.real d) (.var x)) = [.real c, .real d, .var x] := rfl
    simp only [hf, List.foldlM_cons, List.foldlM_nil, push_real, M.pure_bind']
    refine Gives.bind (Gives.bind (a := [.real (Num.mul c d)]) (.pure _) (this.bind (.pure _))) ?_
    simp [dropUnit, dropPowOne, build, buildLoop, pairUp, notNull, cast, h11]
    exact Gives.pure _
  mulRules'

end Forms
end Oasis
