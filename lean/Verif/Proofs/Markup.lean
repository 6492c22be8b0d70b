import Verif.Model.Markup
import Verif.Spec.Markup
import Verif.Proofs.MathML

/-! # Lemmas about printed element trees -/

namespace Oasis
namespace Mk

/-! ## Reading is unique -/

/-- two texts split at the first character that fails a test -/
theorem split_at (p : Char → Prop) {s s' r r' : Str} (h : s ++ r = s' ++ r') (hs : ∀ c ∈ s, p c) (hs' : ∀ c ∈ s', p c)
    (hr : ∀ c ∈ r.head?, ¬ p c) (hr' : ∀ c ∈ r'.head?, ¬ p c) : s = s' ∧ r = r' := by
  induction s generalizing s' with
  | nil =>
    cases s' with
    | nil => exact ⟨rfl, h⟩
    | cons c s' =>
      simp only [List.nil_append, List.cons_append] at h
      subst h
      exact absurd (hs' c (by simp)) (hr c (by simp))
  | cons c s ih =>
    cases s' with
    | nil =>
      simp only [List.nil_append, List.cons_append] at h
      subst h
      exact absurd (hs c (by simp)) (hr' c (by simp))
    | cons d s' =>
      simp only [List.cons_append, List.cons.injEq] at h
      obtain ⟨rfl, h⟩ := h
      obtain ⟨rfl, h'⟩ := ih h (fun c hc => hs c (by simp [hc])) (fun c hc => hs' c (by simp [hc]))
      exact ⟨rfl, h'⟩

theorem charData_clean {s t : Str} (h : CharData s t) : ∀ c ∈ s, c ≠ '<' := by
  induction h with
  | nil => simp
  | char h1 _ _ ih =>
    intro d hd
    rcases List.mem_cons.1 hd with rfl | hd
    · exact h1
    · exact ih d hd
  | @ref s t name c h1 _ ih =>
    intro d hd
    have hn : ∀ p ∈ references, ∀ c ∈ p.1, c ≠ '<' := by decide
    simp only [List.mem_append, List.mem_singleton] at hd
    rcases hd with ((rfl | hd) | rfl) | hd
    · decide
    · exact hn _ h1 d hd
    · decide
    · exact ih d hd

theorem charData_unique {s t t' : Str} (h : CharData s t) (h' : CharData s t') : t = t' := by
  induction h generalizing t' with
  | nil => cases h'; rfl
  | char h1 h2 _ ih =>
    generalize hx : _ :: _ = x at h'
    cases h' with
    | nil => cases hx
    | char _ _ h' => cases hx; rw [ih h']
    | ref => cases hx; exact absurd rfl h2
  | @ref s t name c h1 _ ih =>
    generalize hx : ['&'] ++ name ++ [';'] ++ s = x at h'
    cases h' with
    | nil => simp at hx
    | char _ h2 _ =>
      simp only [List.cons_append, List.nil_append, List.cons.injEq] at hx
      exact absurd hx.1.symm h2
    | @ref s' t' name' c' h2 h' =>
      have hn : ∀ p ∈ references, ∀ c ∈ p.1, c ≠ ';' := by decide
      simp only [List.cons_append, List.nil_append, List.append_assoc, List.cons.injEq, true_and] at hx
      obtain ⟨rfl, h3⟩ := split_at (· ≠ ';') hx (hn _ h1) (hn _ h2) (by simp) (by simp)
      cases h3
      have hu : ∀ p ∈ references, ∀ q ∈ references, p.1 = q.1 → p.2 = q.2 := by decide
      have : c = c' := hu _ h1 _ h2 rfl
      rw [ih h', this]

theorem charTag_alpha {tag : Str} (h : CharTag tag) : tag ≠ [] ∧ ∀ c ∈ tag, c.isAlpha = true := by
  have : ∀ tag ∈ [chars! "mi", chars! "mn", chars! "mo", chars! "mtext"], tag ≠ [] ∧ ∀ c ∈ tag, c.isAlpha = true := by decide
  exact this tag h

theorem alpha_tag {tag tag' r r' : Str} (h : tag ++ r = tag' ++ r') (ht : ∀ c ∈ tag, c.isAlpha = true)
    (ht' : ∀ c ∈ tag', c.isAlpha = true) (hr : ∀ c ∈ r.head?, ¬ c.isAlpha = true) (hr' : ∀ c ∈ r'.head?, ¬ c.isAlpha = true) :
    tag = tag' ∧ r = r' := split_at (fun c => c.isAlpha = true) h ht ht' hr hr'

/-- where the contents of an element end -/
def Ends (r : Str) : Prop := r = [] ∨ ∃ t, r = '<' :: '/' :: t

theorem blanks_split {b b' r r' : Str} (h : b ++ r = b' ++ r') (hb : XmlSpace b) (hb' : XmlSpace b')
    (hr : ∀ c ∈ r.head?, c = '<') (hr' : ∀ c ∈ r'.head?, c = '<') : b = b' ∧ r = r' := by
  have hn : ¬ ('<' = ' ' ∨ '<' = '\n' ∨ '<' = '\t' ∨ '<' = '\r') := by decide
  refine split_at _ h hb hb' ?_ ?_
  · intro c hc
    rw [hr c hc]
    exact hn
  · intro c hc
    rw [hr' c hc]
    exact hn

theorem Ends.head {r : Str} (h : Ends r) : ∀ c ∈ r.head?, c = '<' := by
  rcases h with rfl | ⟨t, rfl⟩ <;> simp

/-- an opening tag is not where the contents end -/
theorem opening_ends {tag x r : Str} (ht : tag ≠ [] ∧ ∀ c ∈ tag, c.isAlpha = true) (h : '<' :: (tag ++ x) = r) (hr : Ends r) : False := by
  rcases hr with rfl | ⟨t, rfl⟩
  · cases h
  · obtain ⟨h1, h2⟩ := ht
    cases tag with
    | nil => exact h1 rfl
    | cons c tag =>
      simp only [List.cons_append, List.cons.injEq, true_and] at h
      have := h2 c (by simp)
      rw [h.1] at this
      exact absurd this (by decide)

theorem markup_unique {s s' r r' : Str} {l l' : List Xml} (h : Markup s l) (h' : Markup s' l') (hr : Ends r) (hr' : Ends r')
    (he : s ++ r = s' ++ r') : l = l' ∧ s = s' := by
  induction h generalizing s' r r' l' with
  | blanks hb =>
    cases h' with
    | blanks hb' => exact ⟨rfl, (blanks_split he hb hb' hr.head hr'.head).1⟩
    | chars hb' ht _ _ =>
      simp only [List.append_assoc, List.cons_append, List.nil_append] at he
      obtain ⟨rfl, h2⟩ := blanks_split he hb hb' hr.head (by simp)
      exact (opening_ends (charTag_alpha ht) h2.symm hr).elim
    | node hb' ht _ _ =>
      simp only [List.append_assoc, List.cons_append, List.nil_append] at he
      obtain ⟨rfl, h2⟩ := blanks_split he hb hb' hr.head (by simp)
      exact (opening_ends ⟨ht.1, ht.2.1⟩ h2.symm hr).elim
    | empty hb' ht _ =>
      simp only [List.append_assoc, List.cons_append, List.nil_append] at he
      obtain ⟨rfl, h2⟩ := blanks_split he hb hb' hr.head (by simp)
      exact (opening_ends ⟨ht.1, ht.2.1⟩ h2.symm hr).elim
  | chars hb ht hd hm ih =>
    cases h' with
    | blanks hb' =>
      simp only [List.append_assoc, List.cons_append, List.nil_append] at he
      obtain ⟨rfl, h2⟩ := blanks_split he hb hb' (by simp) hr'.head
      exact (opening_ends (charTag_alpha ht) h2 hr').elim
    | chars hb' ht' hd' hm' =>
      simp only [List.append_assoc, List.cons_append, List.nil_append] at he
      obtain ⟨rfl, h2⟩ := blanks_split he hb hb' (by simp) (by simp)
      obtain ⟨rfl, h3⟩ := alpha_tag (List.cons.inj h2).2 (charTag_alpha ht).2 (charTag_alpha ht').2 (by simp) (by simp)
      obtain ⟨rfl, h4⟩ := split_at (· ≠ '<') (List.cons.inj h3).2 (charData_clean hd) (charData_clean hd') (by simp) (by simp)
      simp only [List.cons.injEq, true_and, List.append_cancel_left_eq] at h4
      obtain ⟨rfl, rfl⟩ := ih hm' hr hr' h4
      rw [charData_unique hd hd']
      exact ⟨rfl, rfl⟩
    | node hb' ht' _ _ =>
      simp only [List.append_assoc, List.cons_append, List.nil_append] at he
      obtain ⟨rfl, h2⟩ := blanks_split he hb hb' (by simp) (by simp)
      obtain ⟨rfl, h3⟩ := alpha_tag (List.cons.inj h2).2 (charTag_alpha ht).2 ht'.2.1 (by simp) (by simp)
      exact absurd ht ht'.2.2
    | empty hb' ht' _ =>
      simp only [List.append_assoc, List.cons_append, List.nil_append] at he
      obtain ⟨rfl, h2⟩ := blanks_split he hb hb' (by simp) (by simp)
      obtain ⟨rfl, h3⟩ := alpha_tag (List.cons.inj h2).2 (charTag_alpha ht).2 ht'.2.1 (by simp) (by simp)
      exact absurd ht ht'.2.2
  | node hb ht hk hm ihk ih =>
    cases h' with
    | blanks hb' =>
      simp only [List.append_assoc, List.cons_append, List.nil_append] at he
      obtain ⟨rfl, h2⟩ := blanks_split he hb hb' (by simp) hr'.head
      exact (opening_ends ⟨ht.1, ht.2.1⟩ h2 hr').elim
    | chars hb' ht' hd' hm' =>
      simp only [List.append_assoc, List.cons_append, List.nil_append] at he
      obtain ⟨rfl, h2⟩ := blanks_split he hb hb' (by simp) (by simp)
      obtain ⟨rfl, h3⟩ := alpha_tag (List.cons.inj h2).2 ht.2.1 (charTag_alpha ht').2 (by simp) (by simp)
      exact absurd ht' ht.2.2
    | node hb' ht' hk' hm' =>
      simp only [List.append_assoc, List.cons_append, List.nil_append] at he
      obtain ⟨rfl, h2⟩ := blanks_split he hb hb' (by simp) (by simp)
      obtain ⟨rfl, h3⟩ := alpha_tag (List.cons.inj h2).2 ht.2.1 ht'.2.1 (by simp) (by simp)
      obtain ⟨rfl, rfl⟩ := ihk hk' (.inr ⟨_, rfl⟩) (.inr ⟨_, rfl⟩) (List.cons.inj h3).2
      simp only [List.cons.injEq, true_and, List.append_cancel_left_eq] at h3
      obtain ⟨rfl, rfl⟩ := ih hm' hr hr' h3
      exact ⟨rfl, rfl⟩
    | empty hb' ht' _ =>
      simp only [List.append_assoc, List.cons_append, List.nil_append] at he
      obtain ⟨rfl, h2⟩ := blanks_split he hb hb' (by simp) (by simp)
      obtain ⟨rfl, h3⟩ := alpha_tag (List.cons.inj h2).2 ht.2.1 ht'.2.1 (by simp) (by simp)
      simp at h3
  | empty hb ht hm ih =>
    cases h' with
    | blanks hb' =>
      simp only [List.append_assoc, List.cons_append, List.nil_append] at he
      obtain ⟨rfl, h2⟩ := blanks_split he hb hb' (by simp) hr'.head
      exact (opening_ends ⟨ht.1, ht.2.1⟩ h2 hr').elim
    | chars hb' ht' hd' hm' =>
      simp only [List.append_assoc, List.cons_append, List.nil_append] at he
      obtain ⟨rfl, h2⟩ := blanks_split he hb hb' (by simp) (by simp)
      obtain ⟨rfl, h3⟩ := alpha_tag (List.cons.inj h2).2 ht.2.1 (charTag_alpha ht').2 (by simp) (by simp)
      exact absurd ht' ht.2.2
    | node hb' ht' hk' hm' =>
      simp only [List.append_assoc, List.cons_append, List.nil_append] at he
      obtain ⟨rfl, h2⟩ := blanks_split he hb hb' (by simp) (by simp)
      obtain ⟨rfl, h3⟩ := alpha_tag (List.cons.inj h2).2 ht.2.1 ht'.2.1 (by simp) (by simp)
      simp at h3
    | empty hb' ht' hm' =>
      simp only [List.append_assoc, List.cons_append, List.nil_append] at he
      obtain ⟨rfl, h2⟩ := blanks_split he hb hb' (by simp) (by simp)
      obtain ⟨rfl, h3⟩ := alpha_tag (List.cons.inj h2).2 ht.2.1 ht'.2.1 (by simp) (by simp)
      simp only [List.cons.injEq, true_and] at h3
      obtain ⟨rfl, rfl⟩ := ih hm' hr hr' h3
      exact ⟨rfl, rfl⟩

/-! ## Printing -/

theorem escape_data (s : Str) : CharData (escapeXml s) s := by
  induction s with
  | nil => exact .nil
  | cons c s ih =>
    unfold escapeXml
    split
    · rename_i h; subst h
      exact .ref (name := chars! "amp") (by simp [references]) ih
    split
    · rename_i h; subst h
      exact .ref (name := chars! "lt") (by simp [references]) ih
    split
    · rename_i h; subst h
      exact .ref (name := chars! "gt") (by simp [references]) ih
    rename_i h1 h2 _
    exact .char h2 h1 ih

theorem newLine_blanks (d : ℕ) : XmlSpace (newLine d) := by
  intro c hc
  rcases List.mem_cons.1 hc with rfl | hc
  · simp
  · exact .inl (List.eq_of_mem_replicate hc)

mutual
/-- the tags are used as MathML demands -/
def Tags : Xml → Prop
  | .text tag _ => CharTag tag
  | .node tag kids => NodeTag tag ∧ TagsAll kids
/-- the same for a list of elements -/
def TagsAll : List Xml → Prop
  | [] => True
  | x :: l => Tags x ∧ TagsAll l
end

theorem tagsAll_iff {l : List Xml} : TagsAll l ↔ ∀ x ∈ l, Tags x := by
  induction l with
  | nil => simp [TagsAll]
  | cons x l ih => simp [TagsAll, ih]

mutual
theorem print_markup (x : Xml) (d : ℕ) (b r : Str) (l : List Xml) (hx : Tags x) (hb : XmlSpace b) (hr : Markup r l) :
    Markup (b ++ printXml d x ++ r) (x :: l) := by
  cases x with
  | text tag s =>
    unfold printXml
    exact .chars hb hx (escape_data s) hr
  | node tag kids =>
    cases kids with
    | nil =>
      unfold printXml
      exact .empty hb hx.1 hr
    | cons y k =>
      unfold printXml
      have := Markup.node hb hx.1 (kids_markup (y :: k) (d + 1) (newLine d) hx.2 (newLine_blanks d)) hr
      simpa only [List.append_assoc] using this
theorem kids_markup (k : List Xml) (d : ℕ) (b : Str) (hk : TagsAll k) (hb : XmlSpace b) : Markup (printKids d k ++ b) k := by
  cases k with
  | nil =>
    unfold printKids
    exact .blanks hb
  | cons y k =>
    unfold printKids
    have := print_markup y d (newLine d) (printKids d k ++ b) k hk.1 (newLine_blanks d) (kids_markup k d b hk.2 hb)
    simpa only [List.append_assoc] using this
end

/-! ## The tags of MathML output -/

theorem tags_mo (s : Str) : Tags (mo s) := by simp [mo, Tags, CharTag]
theorem tags_mi (s : Str) : Tags (mi s) := by simp [mi, Tags, CharTag]
theorem tags_mn (s : Str) : Tags (mn s) := by simp [mn, Tags, CharTag]

theorem nodeTag : ∀ tag ∈ [chars! "mrow", chars! "mtable", chars! "mtr", chars! "mtd", chars! "mfrac", chars! "msup", chars! "msub"], NodeTag tag := by
  unfold NodeTag CharTag
  decide

theorem tags_mrow {l : List Xml} (h : ∀ x ∈ l, Tags x) : Tags (mrow l) := ⟨nodeTag _ (by simp), tagsAll_iff.2 h⟩

theorem tags_node {tag : Str} {l : List Xml} (ht : NodeTag tag) (h : ∀ x ∈ l, Tags x) : Tags (.node tag l) := ⟨ht, tagsAll_iff.2 h⟩

theorem tags_parens {x : Xml} (h : Tags x) : ∀ y ∈ inParens x, Tags y := by
  simp [inParens, tags_mo, h]

variable {K : Type} [Num K] [NumText K]

theorem tags_matrix (m : Mat K) : Tags (xmlMatrix m) := by
  refine tags_mrow ?_
  simp only [List.mem_cons, List.not_mem_nil, or_false, forall_eq_or_imp, forall_eq]
  refine ⟨tags_mo _, tags_node (nodeTag _ (by simp)) ?_, tags_mo _⟩
  simp only [List.mem_map, forall_exists_index, and_imp, forall_apply_eq_imp_iff₂]
  intro r _
  refine tags_node (nodeTag _ (by simp)) ?_
  simp only [List.mem_map, forall_exists_index, and_imp, forall_apply_eq_imp_iff₂]
  intro c _
  exact tags_node (nodeTag _ (by simp)) (by simp [tags_mn])

theorem tags_factors (l : List (Expr K × Xml)) (h : ∀ p ∈ l, Tags p.2) (left : Expr K) : ∀ x ∈ xmlFactors left l, Tags x := by
  induction l generalizing left with
  | nil => simp [xmlFactors]
  | cons p l ih =>
    intro x hx
    unfold xmlFactors at hx
    rcases List.mem_append.1 hx with hx | hx
    · rcases List.mem_append.1 hx with hx | hx
      · split at hx
        · rw [List.mem_singleton.1 hx]; exact tags_mo _
        · cases hx
      · unfold xmlFactor at hx
        split at hx
        · rw [List.mem_singleton.1 hx]; exact h p (by simp)
        · exact tags_parens (h p (by simp)) x hx
    · exact ih (fun p hp => h p (by simp [hp])) _ x hx

theorem tags_factor (p : Expr K × Xml) (h : Tags p.2) : ∀ x ∈ xmlFactor p, Tags x := by
  intro x hx
  unfold xmlFactor at hx
  split at hx
  · rw [List.mem_singleton.1 hx]; exact h
  · exact tags_parens h x hx

theorem tags_bin (op : BinOp) (a b : Expr K) {l r : Xml} (hl : Tags l) (hr : Tags r) : Tags (xmlBin op a b l r) := by
  have hp := tags_parens hl
  have hq := tags_parens hr
  cases op with
  | sub =>
    refine tags_mrow ?_
    have : ∀ y ∈ xmlSubtrahend b r, Tags y := by
      unfold xmlSubtrahend
      split
      · split
        · simpa using hr
        · exact hq
      · exact hq
    intro x hx
    rcases List.mem_append.1 hx with hx | hx
    · simp only [List.mem_cons, List.not_mem_nil, or_false] at hx
      rcases hx with rfl | rfl
      · exact hl
      · exact tags_mo _
    · exact this x hx
  | div => exact tags_node (nodeTag _ (by simp)) (by simp [hl, hr])
  | pow =>
    refine tags_node (nodeTag _ (by simp)) ?_
    have : Tags (xmlBase a l) := by
      unfold xmlBase
      split
      · exact hl
      · exact tags_mrow hp
    simp [this, hr]
  | log =>
    refine tags_mrow ?_
    intro x hx
    rcases List.mem_append.1 hx with hx | hx
    · rw [List.mem_singleton.1 hx]
      exact tags_node (nodeTag _ (by simp)) (by simp [tags_mi, hl])
    · exact hq x hx
  | deriv =>
    refine tags_mrow ?_
    intro x hx
    rcases List.mem_append.1 hx with hx | hx
    · rw [List.mem_singleton.1 hx]
      refine tags_node (nodeTag _ (by simp)) ?_
      have : Tags (mrow [mo ['d'], r]) := tags_mrow (by simp [tags_mo, hr])
      simp [tags_mo, this]
    · exact hp x hx
  | integ =>
    refine tags_mrow ?_
    have : Tags (mrow [mo ['d'], r]) := tags_mrow (by simp [tags_mo, hr])
    simp [tags_mo, hl, this]
  | _ => exact tags_mrow (by simp)

theorem tags_sum {l : List Xml} (h : ∀ x ∈ l, Tags x) {x : Xml} (hx : xmlSum l = .ok x) : Tags x := by
  unfold xmlSum at hx
  split at hx
  · cases hx
  · cases hx
    refine tags_mrow fun y hy => ?_
    obtain ⟨z, hz, hy⟩ := List.mem_flatMap.1 (List.dropLast_subset _ hy)
    simp only [List.mem_cons, List.not_mem_nil, or_false] at hy
    rcases hy with rfl | rfl
    · exact h _ hz
    · exact tags_mo _

theorem tags_product {l : List (Expr K × Xml)} (h : ∀ p ∈ l, Tags p.2) {x : Xml} (hx : xmlProduct l = .ok x) : Tags x := by
  unfold xmlProduct at hx
  split at hx
  · cases hx
  · cases hx
    refine tags_mrow fun y hy => ?_
    rcases List.mem_append.1 hy with hy | hy
    · exact tags_factor _ (h _ (by simp)) y hy
    · exact tags_factors _ (fun p hp => h p (by simp [hp])) _ y hy

theorem mapM_inv {α β : Type} {f : α → Except Fail β} {P : β → Prop} {l : List α} (h : ∀ a ∈ l, ∀ x, f a = .ok x → P x) {xs : List β}
    (hx : l.mapM f = .ok xs) : ∀ x ∈ xs, P x := by
  induction l generalizing xs with
  | nil =>
    simp only [List.mapM_nil, pure, Except.pure] at hx
    cases hx
    simp
  | cons a l ih =>
    rw [List.mapM_cons] at hx
    cases h1 : f a with
    | error e => rw [h1] at hx; cases hx
    | ok y =>
      cases h2 : l.mapM f with
      | error e => rw [h1, h2] at hx; cases hx
      | ok ys =>
        rw [h1, h2] at hx
        cases hx
        intro x hx
        rcases List.mem_cons.1 hx with rfl | hx
        · exact h a (by simp) _ h1
        · exact ih (fun a ha => h a (by simp [ha])) h2 x hx

/-- the tags of MathML output are used as MathML demands -/
theorem tags_mathML (n : ℕ) : ∀ (e : Expr K), e.size ≤ n → ∀ x, mathML e = .ok x → Tags x := by
  induction n with
  | zero =>
    intro e he
    cases e <;> simp [Expr.size] at he
  | succ n ih =>
    intro e he x hx
    cases e with
    | real v => rw [mathML] at hx; cases hx; exact tags_mn _
    | imag => rw [mathML] at hx; cases hx; exact tags_mi _
    | mat m => rw [mathML] at hx; cases hx; exact tags_matrix _
    | pi => rw [mathML] at hx; cases hx; exact tags_mi _
    | euler => rw [mathML] at hx; cases hx; exact tags_mi _
    | var v => rw [mathML] at hx; cases hx; exact tags_mi _
    | undef => rw [mathML] at hx; cases hx; simp [Tags, CharTag]
    | absent => rw [mathML] at hx; cases hx
    | un op a =>
      have ha : a.size ≤ n := by simp only [Expr.size] at he; omega
      cases op with
      | sine => rw [mathML] at hx; cases hx; exact tags_mrow (by simp)
      | neg =>
        rw [mathML] at hx
        cases h1 : mathML a with
        | error f => rw [h1] at hx; cases hx
        | ok y =>
          rw [h1] at hx; cases hx
          refine tags_mrow fun z hz => ?_
          rcases List.mem_append.1 hz with hz | hz
          · rw [List.mem_singleton.1 hz]; exact tags_mo _
          · exact tags_parens (ih a ha y h1) z hz
      | mag =>
        rw [mathML] at hx
        cases h1 : mathML a with
        | error f => rw [h1] at hx; cases hx
        | ok y =>
          rw [h1] at hx; cases hx
          exact tags_mrow (by simp [tags_mo, ih a ha y h1])
    | bin op a b =>
      have ha : a.size ≤ n := by simp only [Expr.size] at he; omega
      have hb : b.size ≤ n := by simp only [Expr.size] at he; omega
      by_cases h1 : op = .add
      · subst h1
        rw [ML.mathML_add] at hx
        cases h2 : (flatten .add a b).mapM mathML with
        | error f => rw [h2] at hx; cases hx
        | ok xs =>
          rw [h2] at hx
          refine tags_sum (mapM_inv (fun c hc y hy => ih c ?_ y hy) h2) hx
          have := flatten_size .add a b c hc
          simp only [Expr.size] at he this
          omega
      by_cases h3 : op = .mul
      · subst h3
        rw [ML.mathML_mul] at hx
        generalize hg : (fun x : Expr K => _) = g at hx
        cases h2 : (flatten .mul a b).mapM g with
        | error f => rw [h2] at hx; cases hx
        | ok xs =>
          rw [h2] at hx
          refine tags_product (mapM_inv (P := fun p => Tags p.2) (fun c hc y hy => ?_) h2) hx
          subst hg
          cases h4 : mathML c with
          | error f => simp only [h4] at hy; cases hy
          | ok z =>
            simp only [h4] at hy
            cases hy
            refine ih c ?_ z h4
            have := flatten_size .mul a b c hc
            simp only [Expr.size] at he this
            omega
      · rw [ML.mathML_bin h1 h3] at hx
        cases h4 : mathML a with
        | error f => rw [h4] at hx; cases hx
        | ok l =>
          cases h5 : mathML b with
          | error f => rw [h4, h5] at hx; cases hx
          | ok r =>
            rw [h4, h5] at hx
            cases hx
            exact tags_bin op a b (ih a ha l h4) (ih b hb r h5)

theorem string_markup {x : Xml} (h : Tags x) : Markup (xmlString x) [x] := by
  have := print_markup x 0 [] ['\n'] [] h (by simp [XmlSpace]) (.blanks (by simp [XmlSpace]))
  simpa [xmlString] using this

theorem markup_one {s : Str} {l l' : List Xml} (h : Markup s l) (h' : Markup s l') : l = l' :=
  (markup_unique h h' (.inl rfl) (.inl rfl) rfl).1

end Mk
end Oasis
