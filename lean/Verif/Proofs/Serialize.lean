import Mathlib.Data.List.Perm.Basic
import Verif.Spec.Tex
import Verif.Spec.Text
import Verif.Model.Serialize
import Verif.Proofs.Equality
import Verif.Proofs.InFixUnique

/-! # Lemmas about the TeX and MathML serializers -/

namespace Oasis
open InFix Tex

namespace Tex

/-- add open items outside -/
def State.outer (s : State) (st : List Open) : State := ⟨s.opened ++ st, s.word⟩

theorem readChar_outer {a : List Open} {c : Char} {s : State} (h : readChar a c = some s) (st : List Open) :
    readChar (a ++ st) c = some (s.outer st) := by
  unfold readChar at *
  split
  · rename_i hc; simp [hc] at h; subst h; rfl
  · rename_i hc
    rw [if_neg hc] at h
    split
    · rename_i hd
      rw [if_pos hd] at h
      split at h
      · cases h; rfl
      · cases h
    · rename_i hd
      rw [if_neg hd] at h
      split
      · rename_i he; rw [if_pos he] at h; cases h; rfl
      · rename_i he; rw [if_neg he] at h; cases h; rfl

theorem read_outer {s s' : State} {c : Char} (h : read s c = some s') (st : List Open) :
    read (s.outer st) c = some (s'.outer st) := by
  obtain ⟨a, w⟩ := s
  cases w with
  | none => exact readChar_outer h st
  | some w =>
    simp only [read, State.outer] at *
    split
    · rename_i hc; rw [if_pos hc] at h; cases h; rfl
    · rename_i hc
      rw [if_neg hc] at h
      split
      · rename_i h1; rw [if_pos h1] at h; cases h; rfl
      · rename_i h1
        rw [if_neg h1] at h
        split
        · rename_i h2; rw [if_pos h2] at h; cases h; rfl
        · rename_i h2
          rw [if_neg h2] at h
          split
          · rename_i h3
            rw [if_pos h3] at h
            split at h
            · cases h; rfl
            · cases h
          · rename_i h3
            rw [if_neg h3] at h
            exact readChar_outer h st

theorem run_outer {t : Str} : ∀ {s s' : State}, t.foldlM read s = some s' → ∀ st : List Open,
    t.foldlM read (s.outer st) = some (s'.outer st) := by
  induction t with
  | nil => intro s s' h st; simp at h; subst h; rfl
  | cons c t ih =>
    intro s s' h st
    rw [List.foldlM_cons] at *
    cases hr : read s c with
    | none => rw [hr] at h; cases h
    | some s1 =>
      rw [hr] at h
      rw [read_outer hr st]
      exact ih h st

/-- not inside a control word that still needs something -/
def Idle (w : Option Str) : Prop := w ≠ some [] ∧ w ≠ some ['l', 'e', 'f', 't'] ∧ w ≠ some ['r', 'i', 'g', 'h', 't']

/-- The text leaves the open items alone. -/
def Neutral (t : Str) : Prop := ∀ st : List Open, ∃ w, t.foldlM read ⟨st, none⟩ = some ⟨st, w⟩ ∧ Idle w

/-- The text leaves the open items alone, whatever idle control word comes before it, and ends outside
of control words. -/
def Closed (t : Str) : Prop := ∀ st : List Open, ∀ w, Idle w → t.foldlM read ⟨st, w⟩ = some ⟨st, none⟩

theorem balanced_iff (t : Str) : TexBalanced t ↔ Neutral t := by
  constructor
  · rintro ⟨s, h, h1, h2⟩ st
    refine ⟨s.word, ?_, h2⟩
    have := run_outer h st
    simpa [State.outer, h1] using this
  · intro h
    obtain ⟨w, h1, h2⟩ := h []
    exact ⟨_, h1, rfl, h2⟩

theorem read_idle {st : List Open} {w : Option Str} (h : Idle w) {c : Char} (hc : ¬ Letter c) :
    read ⟨st, w⟩ c = readChar st c := by
  cases w with
  | none => rfl
  | some w =>
    obtain ⟨h1, h2, h3⟩ := h
    have h1 : w ≠ [] := fun e => h1 (by rw [e])
    have h2 : w ≠ ['l', 'e', 'f', 't'] := fun e => h2 (by rw [e])
    have h3 : w ≠ ['r', 'i', 'g', 'h', 't'] := fun e => h3 (by rw [e])
    simp only [read, if_neg hc, if_neg h1, if_neg h2, if_neg h3]

theorem idle_none : Idle none := ⟨by simp, by simp, by simp⟩

/-- running a piece of fixed text that starts with a non-letter after a neutral text -/
theorem run_idle {st : List Open} {w : Option Str} (h : Idle w) {c : Char} {t : Str} (hc : ¬ Letter c) :
    (c :: t).foldlM read ⟨st, w⟩ = (c :: t).foldlM read ⟨st, none⟩ := by
  simp only [List.foldlM_cons, read_idle h hc, read_idle idle_none hc]

/-- a neutral text between two fixed pieces -/
theorem run_between {a b t : Str} {st st' : List Open} {c : Char} {b' : Str} (hb : b = c :: b') (hc : ¬ Letter c)
    (ha : a.foldlM read ⟨st, none⟩ = some ⟨st', none⟩) (ht : Neutral t) :
    (a ++ t ++ b).foldlM read ⟨st, none⟩ = b.foldlM read ⟨st', none⟩ := by
  obtain ⟨w, h1, h2⟩ := ht st'
  rw [List.append_assoc, List.foldlM_append, ha]
  simp only [Option.bind_eq_bind, Option.bind_some]
  rw [List.foldlM_append, h1]
  simp only [Option.bind_eq_bind, Option.bind_some]
  rw [hb]
  exact run_idle h2 hc

theorem neutral_append {t u : Str} (ht : Neutral t) (hu : Neutral u)
    (h : t = [] ∨ ∀ c ∈ u.head?, ¬ Letter c) : Neutral (t ++ u) := by
  rcases h with rfl | h
  · simpa using hu
  intro st
  obtain ⟨w, h1, h2⟩ := ht st
  rw [List.foldlM_append, h1]
  simp only [Option.bind_eq_bind, Option.bind_some]
  cases u with
  | nil => exact ⟨w, rfl, h2⟩
  | cons c u =>
    rw [run_idle h2 (h c (by simp))]
    exact hu st

/-- fixed text can be run -/
theorem neutral_of_run {t : Str} {w : Option Str} (hw : Idle w)
    (h : t.foldlM read ⟨[], none⟩ = some ⟨[], w⟩) : Neutral t := by
  intro st
  exact ⟨w, by simpa [State.outer] using run_outer h st, hw⟩

/-- fixed text that opens -/
theorem run_open {t : Str} {a : List Open} (h : t.foldlM read ⟨[], none⟩ = some ⟨a, none⟩) (st : List Open) :
    t.foldlM read ⟨st, none⟩ = some ⟨a ++ st, none⟩ := by
  simpa [State.outer] using run_outer h st

/-- one operand: open, operand, close -/
theorem neutral_one {a b t : Str} {o : List Open} {c : Char} {b' : Str} (ht : Neutral t)
    (ha : a.foldlM read ⟨[], none⟩ = some ⟨o, none⟩) (hb : b = c :: b') (hc : ¬ Letter c)
    (hb' : b.foldlM read ⟨o, none⟩ = some ⟨[], none⟩) : Neutral (a ++ t ++ b) := by
  intro st
  rw [run_between hb hc (run_open ha st) ht]
  exact ⟨none, by simpa [State.outer] using run_outer hb' st, idle_none⟩

/-- two operands: fixed text before, between and after -/
theorem neutral_two {a b d t u : Str} {o p : List Open} {c e : Char} {b' d' : Str} (ht : Neutral t) (hu : Neutral u)
    (ha : a.foldlM read ⟨[], none⟩ = some ⟨o, none⟩)
    (hb : b = c :: b') (hc : ¬ Letter c) (hb' : b.foldlM read ⟨o, none⟩ = some ⟨p, none⟩)
    (hd : d = e :: d') (he : ¬ Letter e) (hd' : d.foldlM read ⟨p, none⟩ = some ⟨[], none⟩) :
    Neutral (a ++ t ++ b ++ u ++ d) := by
  intro st
  have h1 := run_between hb hc (run_open ha st) ht
  have h2 : b.foldlM read ⟨o ++ st, none⟩ = some ⟨p ++ st, none⟩ := by
    simpa [State.outer] using run_outer hb' st
  rw [h2] at h1
  rw [run_between hd he h1 hu]
  exact ⟨none, by simpa [State.outer] using run_outer hd' st, idle_none⟩

/-- two operands, the second at the end -/
theorem neutral_two' {a b t u : Str} {o : List Open} {c : Char} {b' : Str} (ht : Neutral t) (hu : Neutral u)
    (ha : a.foldlM read ⟨[], none⟩ = some ⟨o, none⟩)
    (hb : b = c :: b') (hc : ¬ Letter c) (hb' : b.foldlM read ⟨o, none⟩ = some ⟨[], none⟩) :
    Neutral (a ++ t ++ b ++ u) := by
  intro st
  have h1 := run_between hb hc (run_open ha st) ht
  have h2 : b.foldlM read ⟨o ++ st, none⟩ = some ⟨st, none⟩ := by
    simpa [State.outer] using run_outer hb' st
  rw [h2] at h1
  obtain ⟨w, h3, h4⟩ := hu st
  rw [List.foldlM_append, h1]
  exact ⟨w, h3, h4⟩

end Tex

variable {K : Type} [NumText K] [Num K]

instance (c : Char) : Decidable (Letter c) := by unfold Letter; infer_instance

theorem texUn_neutral {op : UnOp} {s : Str} (h : Neutral s) : Neutral (texUn op s) := by
  cases op
  · exact neutral_one (o := [.left]) h (by decide +kernel) rfl (by decide) (by decide +kernel)
  · exact neutral_one (o := [.left]) h (by decide +kernel) rfl (by decide) (by decide +kernel)
  · exact neutral_one (o := [.left]) h (by decide +kernel) rfl (by decide) (by decide +kernel)

theorem texBin_neutral (o : TexOpts) {op : BinOp} {l r : Str} (hl : Neutral l) (hr : Neutral r) :
    Neutral (texBin o op l r) := by
  cases op with
  | integ =>
    exact neutral_two' (o := [.left]) hl hr (by decide +kernel) rfl (by decide) (by decide +kernel)
  | pow =>
    exact neutral_two (o := [.left]) (p := [.brace]) hl hr (by decide +kernel) rfl (by decide) (by decide +kernel)
      rfl (by decide) (by decide +kernel)
  | log =>
    exact neutral_two (o := [.brace]) (p := [.left]) hl hr (by decide +kernel) rfl (by decide) (by decide +kernel)
      rfl (by decide) (by decide +kernel)
  | deriv =>
    exact neutral_two (o := [.brace]) (p := [.left]) hl hr (by decide +kernel) rfl (by decide) (by decide +kernel)
      rfl (by decide) (by decide +kernel)
  | div =>
    simp only [texBin]
    split
    · exact neutral_two (o := [.brace, .left]) (p := [.brace, .left]) hl hr (by decide +kernel) rfl (by decide)
        (by decide +kernel) rfl (by decide) (by decide +kernel)
    · exact neutral_two (o := [.brace, .left]) (p := [.brace, .left]) hl hr (by decide +kernel) rfl (by decide)
        (by decide +kernel) rfl (by decide) (by decide +kernel)
  | add =>
    simp only [texBin]
    split <;> exact neutral_two (o := [.left]) (p := [.left]) hl hr (by decide +kernel) rfl (by decide)
      (by decide +kernel) rfl (by decide) (by decide +kernel)
  | sub =>
    simp only [texBin]
    split <;> exact neutral_two (o := [.left]) (p := [.left]) hl hr (by decide +kernel) rfl (by decide)
      (by decide +kernel) rfl (by decide) (by decide +kernel)
  | mul =>
    simp only [texBin]
    split <;> exact neutral_two (o := [.left]) (p := [.left]) hl hr (by decide +kernel) rfl (by decide)
      (by decide +kernel) rfl (by decide) (by decide +kernel)

theorem neutral_nil : Neutral ([] : Str) := fun _ => ⟨none, rfl, idle_none⟩

theorem texRow_neutral {cells : List Str} (h : ∀ c ∈ cells, Neutral c) : Neutral (texRow cells) := by
  have hi : Neutral (List.intercalate ['&'] cells) := by
    induction cells with
    | nil => exact neutral_nil
    | cons a t ih =>
      cases t with
      | nil => simpa [List.intercalate] using h a (by simp)
      | cons b t =>
        have hb := ih (fun c hc => h c (by simp [hc]))
        have : List.intercalate ['&'] (a :: b :: t) = [] ++ a ++ ['&'] ++ List.intercalate ['&'] (b :: t) := by
          simp [List.intercalate]
        rw [this]
        exact neutral_two' (o := []) (h a (by simp)) hb rfl rfl (by decide) (by decide +kernel)
  have := neutral_one (a := []) (b := chars! "\\\\\n") (o := []) hi rfl rfl (by decide) (by decide +kernel)
  simpa [texRow] using this

theorem texRow_last (cells : List Str) : ∃ t, texRow cells = t ++ ['\n'] :=
  ⟨List.intercalate ['&'] cells ++ ['\\', '\\'], by simp [texRow]⟩

theorem texMatrix_neutral (m : Mat K) (h : ∀ r c, Neutral (NumText.fmt 5 (m.get r c) : Str)) :
    Neutral (texMatrix m) := by
  -- texts that end with a newline end outside of control words
  let P (t : Str) := ∀ st : List Open, t.foldlM read ⟨st, none⟩ = some ⟨st, none⟩
  have last : ∀ t : Str, Neutral t → (t = [] ∨ ∃ u, t = u ++ ['\n']) → P t := by
    intro t ht hl st
    rcases hl with rfl | ⟨u, rfl⟩
    · rfl
    obtain ⟨w, h1, h2⟩ := ht st
    rw [h1]
    rw [List.foldlM_append] at h1
    cases hu : u.foldlM read ⟨st, none⟩ with
    | none => rw [hu] at h1; cases h1
    | some s =>
      rw [hu] at h1
      simp only [Option.bind_eq_bind, Option.bind_some, List.foldlM_cons, List.foldlM_nil, Option.pure_def,
        Option.bind_some] at h1
      obtain ⟨a, v⟩ := s
      have nl : ¬ Letter '\n' := by decide
      have e : readChar a '\n' = some ⟨a, none⟩ := rfl
      cases v with
      | none => simp [Tex.read, e] at h1; rw [← h1.2]
      | some v =>
        simp only [Tex.read, if_neg nl] at h1
        split at h1
        · simp at h1; rw [← h1.2]
        · split at h1
          · simp at h1; rw [← h1.2]
          · split at h1
            · split at h1
              · simp at h1; rw [← h1.2]
              · simp at h1
            · rw [e] at h1; simp at h1; rw [← h1.2]
  have app : ∀ {t u : Str}, P t → P u → P (t ++ u) := by
    intro t u ht hu st
    rw [List.foldlM_append, ht st]
    exact hu st
  have rows : ∀ l : List Nat, P (l.flatMap (fun r =>
      texRow ((List.range m.cols).map fun c => NumText.fmt 5 (m.get r c)))) := by
    intro l
    induction l with
    | nil => intro st; rfl
    | cons r l ih =>
      rw [List.flatMap_cons]
      refine app (last _ (texRow_neutral ?_) (.inr (texRow_last _))) ih
      intro c hc
      simp only [List.mem_map] at hc
      obtain ⟨k, _, rfl⟩ := hc
      exact h r k
  have fixedP : ∀ t : Str, t.foldlM read ⟨[], none⟩ = some ⟨[], none⟩ → P t := by
    intro t h st
    simpa using run_open h st
  have := app (app (fixedP (chars! "\\begin{bmatrix}\n") (by decide +kernel)) (rows (List.range m.rows)))
    (fixedP (chars! "\\end{bmatrix}\n") (by decide +kernel))
  intro st
  exact ⟨none, this st, idle_none⟩

theorem texText_neutral (o : TexOpts) (hn : ∀ v : K, Neutral (NumText.fmt (o.places.toNat + 1) v : Str))
    (hm : ∀ v : K, Neutral (NumText.fmt 5 v : Str)) (e : Expr K) (hc : e.Complete)
    (hv : ∀ n ∈ e.vars, Neutral n) : ∃ t, texText o e = .ok t ∧ Neutral t := by
  induction e with
  | real v => exact ⟨_, rfl, hn v⟩
  | imag =>
    refine ⟨_, rfl, ?_⟩
    split <;> exact neutral_of_run (w := none) idle_none (by decide +kernel)
  | mat m => exact ⟨_, rfl, texMatrix_neutral m fun r c => hm _⟩
  | var n => exact ⟨_, rfl, hv n (by simp [Expr.vars])⟩
  | undef => exact ⟨_, rfl, neutral_of_run (w := none) idle_none (by decide +kernel)⟩
  | euler => exact ⟨_, rfl, neutral_of_run (w := none) idle_none (by decide +kernel)⟩
  | pi =>
    exact ⟨_, rfl, neutral_of_run (w := some (chars! "pi")) ⟨by decide, by decide, by decide⟩ (by decide +kernel)⟩
  | absent => exact absurd rfl hc
  | un op a ih =>
    obtain ⟨t, h1, h2⟩ := ih hc.2 hv
    exact ⟨texUn op t, by simp only [texText, h1]; rfl, texUn_neutral h2⟩
  | bin op a b iha ihb =>
    obtain ⟨t, h1, h2⟩ := iha hc.2.1 (fun n h => hv n (by simp [Expr.vars, h]))
    obtain ⟨u, h3, h4⟩ := ihb hc.2.2 (fun n h => hv n (by simp [Expr.vars, h]))
    exact ⟨texBin o op t u, by simp only [texText, h1, h3]; rfl, texBin_neutral o h2 h4⟩

/-! ## MathML -/

theorem labelsAll_append (l m : List Xml) : Xml.labelsAll (l ++ m) = Xml.labelsAll l ++ Xml.labelsAll m := by
  induction l with
  | nil => rfl
  | cons x l ih => simp [Xml.labelsAll, ih]

theorem labelsAll_eq (l : List Xml) : Xml.labelsAll l = l.flatMap Xml.labels := by
  induction l with
  | nil => rfl
  | cons x l ih => simp [Xml.labelsAll, ih]

@[simp] theorem labels_mo (s : Str) : (mo s).labels = [] := by
  simp only [mo, Xml.labels]; rw [if_neg (by decide)]
@[simp] theorem labels_mi (s : Str) : (mi s).labels = [s] := by
  simp only [mi, Xml.labels]; rw [if_pos (by decide)]
@[simp] theorem labels_mn (s : Str) : (mn s).labels = [s] := by
  simp only [mn, Xml.labels]; rw [if_pos (by decide)]
@[simp] theorem labels_mrow (l : List Xml) : (mrow l).labels = l.flatMap Xml.labels := by
  simp [mrow, Xml.labels, labelsAll_eq]
@[simp] theorem labels_node (t : Str) (l : List Xml) : (Xml.node t l).labels = l.flatMap Xml.labels := by
  simp [Xml.labels, labelsAll_eq]
@[simp] theorem labels_inParens (x : Xml) : (inParens x).flatMap Xml.labels = x.labels := by
  simp [inParens]

theorem labels_sum {l : List Xml} {x : Xml} (h : xmlSum l = .ok x) : x.labels = l.flatMap Xml.labels := by
  cases l with
  | nil => cases h
  | cons a t =>
    cases h
    rw [labels_mrow]
    induction t generalizing a with
    | nil => simp
    | cons b t ih =>
      have : (List.flatMap (fun x => [x, mo ['+']]) (a :: b :: t)).dropLast =
          [a, mo ['+']] ++ (List.flatMap (fun x => [x, mo ['+']]) (b :: t)).dropLast := by
        rw [List.flatMap_cons, List.dropLast_append_of_ne_nil]
        simp
      rw [this, List.flatMap_append, ih b]
      simp

theorem labels_factor (p : Expr K × Xml) : (xmlFactor p).flatMap Xml.labels = p.2.labels := by
  unfold xmlFactor; split <;> simp

theorem labels_factors (e : Expr K) (l : List (Expr K × Xml)) :
    (xmlFactors e l).flatMap Xml.labels = l.flatMap (fun p => p.2.labels) := by
  induction l generalizing e with
  | nil => rfl
  | cons p l ih =>
    simp only [xmlFactors, List.flatMap_append, labels_factor, ih, List.flatMap_cons]
    split <;> simp

theorem labels_product {l : List (Expr K × Xml)} {x : Xml} (h : xmlProduct l = .ok x) :
    x.labels = l.flatMap (fun p => p.2.labels) := by
  cases l with
  | nil => cases h
  | cons a t =>
    cases h
    rw [labels_mrow, List.flatMap_append, labels_factor, labels_factors, List.flatMap_cons]

theorem range_data {α : Type} (f : K → α) (r c : Nat) : ∀ d : List K, d.length = r * c →
    (List.range r).flatMap (fun i => (List.range c).map fun j => f (d.getD (i * c + j) Num.zero)) = d.map f := by
  induction r with
  | zero => intro d h; simp at h; subst h; rfl
  | succ r ih =>
    intro d h
    rw [List.range_succ, List.flatMap_append]
    have e1 := ih (d.take (r * c)) (by rw [List.length_take]; rw [h]; exact Nat.min_eq_left (by rw [Nat.succ_mul]; omega))
    have e2 : (List.range r).flatMap (fun i => (List.range c).map fun j => f (d.getD (i * c + j) Num.zero)) =
        (List.range r).flatMap (fun i => (List.range c).map fun j => f ((d.take (r * c)).getD (i * c + j) Num.zero)) := by
      refine List.flatMap_congr fun i hi => List.map_congr_left fun j hj => ?_
      rw [List.mem_range] at hi hj
      have : i * c + j < r * c := by
        calc i * c + j < i * c + c := by omega
          _ = (i + 1) * c := (Nat.succ_mul i c).symm
          _ ≤ r * c := Nat.mul_le_mul_right c hi
      simp only [List.getD_eq_getElem?_getD, List.getElem?_take, if_pos this]
    rw [e2, e1]
    have e3 : (List.map (fun j => f (d.getD (r * c + j) Num.zero)) (List.range c)) = (d.drop (r * c)).map f := by
      apply List.ext_getElem
      · rw [List.length_map, List.length_range, List.length_map, List.length_drop, h, Nat.succ_mul]; omega
      · intro i h1 h2
        simp only [List.length_map, List.length_range] at h1
        simp only [List.getElem_map, List.getElem_range, List.getElem_drop]
        rw [List.getD_eq_getElem?_getD, List.getElem?_eq_getElem (by rw [h, Nat.succ_mul]; omega)]
        rfl
    simp only [List.flatMap_cons, List.flatMap_nil, List.append_nil]
    rw [e3, ← List.map_append, List.take_append_drop]

theorem labels_matrix (m : Mat K) (h : m.data.length = m.rows * m.cols) :
    (xmlMatrix m).labels = m.data.map NumText.fmt17 := by
  rw [← range_data NumText.fmt17 m.rows m.cols m.data h]
  simp only [xmlMatrix, labels_mrow, List.flatMap_cons, List.flatMap_nil, labels_mo, labels_node, List.nil_append,
    List.append_nil, List.flatMap_map, labels_mn]
  refine List.flatMap_congr fun i _ => ?_
  rw [List.map_eq_flatMap]; rfl

theorem mapM_attach_ok {α β ε : Type} (f : α → Except ε β) (R : α → β → Prop) (l : List α) :
    (∀ x ∈ l, ∃ y, f x = .ok y ∧ R x y) → ∀ (m : List {x // x ∈ l}), ∃ ys,
      m.mapM (fun x => f x.1) = .ok ys ∧ List.Forall₂ (fun x y => R x.1 y) m ys := by
  intro h m
  induction m with
  | nil => exact ⟨[], rfl, .nil⟩
  | cons x m ih =>
    obtain ⟨y, h1, h2⟩ := h x.1 x.2
    obtain ⟨ys, h3, h4⟩ := ih
    refine ⟨y :: ys, ?_, .cons h2 h4⟩
    rw [List.mapM_cons, h1, h3]
    rfl

theorem blankSines_flat (op : BinOp) (fmt ent : K → Str) (hop : op ≠ .log) (e : Expr K) :
    (flatOp op e).flatMap (fun x => x.blankSines.labels fmt ent) = e.blankSines.labels fmt ent := by
  induction e with
  | bin op' a b iha ihb =>
    simp only [flatOp]
    split
    · rename_i h
      subst h
      rw [List.flatMap_append, iha, ihb]
      cases op' <;> first | rfl | exact absurd rfl hop
    · simp
  | absent => rfl
  | _ => simp [flatOp]

theorem flatOp_cons_ne {op : BinOp} {e : Expr K} (h : e.Complete) : flatOp op e ≠ [] := by
  induction e with
  | bin op' a b iha ihb =>
    simp only [flatOp]
    split
    · simp [iha h.2.1]
    · simp
  | absent => exact absurd rfl h
  | _ => simp [flatOp]

theorem forall₂_labels {l : List (Expr K)} {m : List {x // x ∈ l}} {ys : List Xml} (fmt ent : K → Str)
    (h : List.Forall₂ (fun x y => y.labels.Perm (x.1.blankSines.labels fmt ent)) m ys) :
    (ys.flatMap Xml.labels).Perm (m.flatMap fun x => x.1.blankSines.labels fmt ent) := by
  induction h with
  | nil => exact .nil
  | cons h _ ih => rw [List.flatMap_cons, List.flatMap_cons]; exact h.append ih

theorem attach_flatMap {α β : Type} (l : List α) (f : α → List β) :
    l.attach.flatMap (fun x => f x.1) = l.flatMap f := by
  rw [← List.flatMap_map (f := Subtype.val) (g := f), List.attach_map_subtype_val]

theorem mathML_labels (n : Nat) : ∀ e : Expr K, e.size ≤ n → e.Complete → FilledMats e →
    ∃ x, mathML e = .ok x ∧ x.labels.Perm (e.blankSines.labels (NumText.fmt 5) NumText.fmt17) := by
  induction n with
  | zero => intro e h; have : 0 < e.size := by cases e <;> simp [Expr.size]
            omega
  | succ n ih =>
    intro e hs hc hf
    have leaf : ∀ {e : Expr K} {x : Xml} {s : Str}, mathML e = .ok x → x.labels = [s] →
        e.blankSines.labels (NumText.fmt 5) NumText.fmt17 = [s] →
        ∃ x, mathML e = .ok x ∧ x.labels.Perm (e.blankSines.labels (NumText.fmt 5) NumText.fmt17) :=
      fun h1 h2 h3 => ⟨_, h1, by rw [h2, h3]⟩
    cases e with
    | real v => exact leaf (by rw [mathML]) (labels_mn _) rfl
    | imag => exact leaf (by rw [mathML]) (labels_mi _) rfl
    | pi => exact leaf (by rw [mathML]) (labels_mi _) rfl
    | euler => exact leaf (by rw [mathML]) (labels_mi _) rfl
    | var v => exact leaf (by rw [mathML]) (labels_mi _) rfl
    | undef => exact leaf (by rw [mathML]) (by simp only [Xml.labels]; rw [if_pos (by decide)]) rfl
    | absent => exact absurd rfl hc
    | mat m => exact ⟨_, by rw [mathML], by rw [labels_matrix m (hf m rfl)]; exact .refl _⟩
    | un op a =>
      simp only [Expr.size] at hs
      cases op with
      | sine => exact ⟨_, by rw [mathML], by simp [Expr.blankSines, Expr.labels]⟩
      | neg =>
        obtain ⟨x, h1, h2⟩ := ih a (by omega) hc.2 hf.2
        exact ⟨mrow ([mo ['-']] ++ inParens x), by rw [mathML, h1]; rfl, by simpa [inParens, Expr.blankSines, Expr.labels] using h2⟩
      | mag =>
        obtain ⟨x, h1, h2⟩ := ih a (by omega) hc.2 hf.2
        exact ⟨mrow [mo ['|'], x, mo ['|']], by rw [mathML, h1]; rfl, by simpa [Expr.blankSines, Expr.labels] using h2⟩
    | bin op a b =>
      have two := fun (h : True) => And.intro (ih a (by simp only [Expr.size] at hs; omega) hc.2.1 hf.2.1)
        (ih b (by simp only [Expr.size] at hs; omega) hc.2.2 hf.2.2)
      have each : ∀ op', ∀ x ∈ flatten op' a b, (Expr.bin op' a b).size ≤ n + 1 → ∃ y, mathML x = .ok y ∧
          y.labels.Perm (x.blankSines.labels (NumText.fmt 5) NumText.fmt17) := by
        intro op' x hx hs'
        have := flatten_size op' a b x hx
        exact ih x (by omega) (flatten_everywhere op' hc.2.1 hc.2.2 x hx) (flatten_everywhere op' hf.2.1 hf.2.2 x hx)
      have flat : ∀ op', op' ≠ .log → (flatten op' a b).flatMap (fun x => x.blankSines.labels (NumText.fmt 5) NumText.fmt17) =
          (Expr.bin op' a b).blankSines.labels (NumText.fmt 5) NumText.fmt17 := by
        intro op' ho
        rw [flatten, List.flatMap_append, blankSines_flat op' _ _ ho, blankSines_flat op' _ _ ho]
        cases op' <;> first | rfl | exact absurd rfl ho
      have other : op ≠ .add → op ≠ .mul → mathML (.bin op a b) = (do
          let l ← mathML a
          let r ← mathML b
          return xmlBin op a b l r) := by
        intro h1 h2
        cases op <;> first | exact absurd rfl h1 | exact absurd rfl h2 | rw [mathML] <;> simp
      cases op with
      | add =>
        obtain ⟨ys, h1, h2⟩ := mapM_attach_ok mathML
          (fun x y => y.labels.Perm (x.blankSines.labels (NumText.fmt 5) NumText.fmt17)) (flatten .add a b)
          (fun x hx => each .add x hx hs) (flatten .add a b).attach
        have hne : ys ≠ [] := by
          rintro rfl
          cases h2' : (flatten .add a b).attach with
          | nil =>
            simp [flatten, flatOp_cons_ne hc.2.1] at h2'
          | cons x l => rw [h2'] at h2; cases h2
        obtain ⟨x, hx⟩ : ∃ x, xmlSum ys = .ok x := by
          cases ys with
          | nil => exact absurd rfl hne
          | cons y ys => exact ⟨_, rfl⟩
        refine ⟨x, by rw [mathML, h1]; exact hx, ?_⟩
        rw [labels_sum hx, ← flat .add (by simp), ← attach_flatMap (flatten .add a b)]
        exact forall₂_labels _ _ h2
      | mul =>
        obtain ⟨ys, h1, h2⟩ := mapM_attach_ok (fun x => do let y ← mathML x; return (x, y))
          (fun x y => y.2.labels.Perm (x.blankSines.labels (NumText.fmt 5) NumText.fmt17)) (flatten .mul a b)
          (fun x hx => by
            obtain ⟨y, h1, h2⟩ := each .mul x hx hs
            exact ⟨(x, y), by rw [h1]; rfl, h2⟩) (flatten .mul a b).attach
        have hne : ys ≠ [] := by
          rintro rfl
          cases h2' : (flatten .mul a b).attach with
          | nil =>
            simp [flatten, flatOp_cons_ne hc.2.1] at h2'
          | cons x l => rw [h2'] at h2; cases h2
        obtain ⟨x, hx⟩ : ∃ x, xmlProduct ys = .ok x := by
          cases ys with
          | nil => exact absurd rfl hne
          | cons y ys => exact ⟨_, rfl⟩
        refine ⟨x, by rw [mathML, h1]; exact hx, ?_⟩
        rw [labels_product hx, ← flat .mul (by simp), ← attach_flatMap (flatten .mul a b)]
        have : ys.flatMap (fun p => p.2.labels) = (ys.map Prod.snd).flatMap Xml.labels := by
          rw [List.flatMap_map]
        rw [this]
        refine forall₂_labels _ _ ?_
        rw [List.forall₂_map_right_iff]
        exact h2
      | sub =>
        obtain ⟨⟨x, h1, h2⟩, ⟨y, h3, h4⟩⟩ := two trivial
        refine ⟨xmlBin .sub a b x y, by rw [other (by simp) (by simp), h1, h3]; rfl, ?_⟩
        have : (xmlSubtrahend b y).flatMap Xml.labels = y.labels := by
          unfold xmlSubtrahend
          split
          · split <;> simp
          · simp
        simp only [xmlBin, labels_mrow, List.flatMap_append, this, List.flatMap_cons, List.flatMap_nil, labels_mo,
          List.append_nil]
        exact h2.append h4
      | div =>
        obtain ⟨⟨x, h1, h2⟩, ⟨y, h3, h4⟩⟩ := two trivial
        refine ⟨xmlBin .div a b x y, by rw [other (by simp) (by simp), h1, h3]; rfl, ?_⟩
        simpa [xmlBin, Expr.blankSines, Expr.labels] using h2.append h4
      | pow =>
        obtain ⟨⟨x, h1, h2⟩, ⟨y, h3, h4⟩⟩ := two trivial
        refine ⟨xmlBin .pow a b x y, by rw [other (by simp) (by simp), h1, h3]; rfl, ?_⟩
        have : (xmlBase a x).labels = x.labels := by unfold xmlBase; split <;> simp
        simpa [xmlBin, this, Expr.blankSines, Expr.labels] using h2.append h4
      | log =>
        obtain ⟨⟨x, h1, h2⟩, ⟨y, h3, h4⟩⟩ := two trivial
        refine ⟨xmlBin .log a b x y, by rw [other (by simp) (by simp), h1, h3]; rfl, ?_⟩
        simpa [xmlBin, Expr.blankSines, Expr.labels, inParens] using h2.append h4
      | deriv =>
        obtain ⟨⟨x, h1, h2⟩, ⟨y, h3, h4⟩⟩ := two trivial
        refine ⟨xmlBin .deriv a b x y, by rw [other (by simp) (by simp), h1, h3]; rfl, ?_⟩
        simpa [xmlBin, Expr.blankSines, Expr.labels, inParens] using (h4.append h2).trans List.perm_append_comm
      | integ =>
        obtain ⟨⟨x, h1, h2⟩, ⟨y, h3, h4⟩⟩ := two trivial
        refine ⟨xmlBin .integ a b x y, by rw [other (by simp) (by simp), h1, h3]; rfl, ?_⟩
        simpa [xmlBin, Expr.blankSines, Expr.labels] using h2.append h4

end Oasis
